import Mathlib.Tactic.IntervalCases
import Verif.Calculators.Inter

/-! C58: `HSAF_Metrics`. -/

set_option linter.unusedSectionVars false
set_option synthInstance.maxSize 1000

namespace Verif.Calculators

variable {K : Type}

/-! ### Specification -/

/-- the months of a season -/
def monthsOf (s : String) : List ℕ :=
  if s = "DJF" then [12, 1, 2] else if s = "MAM" then [3, 4, 5] else if s = "JJA" then [6, 7, 8] else if s = "SON" then [9, 10, 11] else []

/-- the rows of a season -/
def rowsOf (s : String) (rows : List (ℕ × List (Option K))) : List (ℕ × List (Option K)) :=
  if s = "ALL" then rows else rows.filter (fun r => decide (r.1 ∈ monthsOf s))

/-- `a_b` -/
def name2 (a b : Name) : Key := .name (a ++ '_' :: b)
/-- `a_b_c` -/
def name3 (a b c : Name) : Key := .name (a ++ '_' :: (b ++ '_' :: c))
/-- `a_b_c_d` -/
def name4 (a b c d : Name) : Key := .name ((a ++ '_' :: b) ++ '_' :: (c ++ '_' :: d))

/-- the entries of season `s` for the data sets `x`, `y`, `z`: number of observations, triple collocation per data set, metrics per pair -/
def seasonEntries (s : String) (x y z : Name) (n : ℤ) (t : Tc K) (v : String → ℕ → ℕ → Option K) : Dict K :=
  (name2 s.toList "n_obs".toList, .int n) ::
  ([(x, 0), (y, 1), (z, 2)].flatMap (fun d => [(name3 d.1 s.toList "snr".toList, Val.num (t.snr d.2)), (name3 d.1 s.toList "err_var".toList, .num (t.errStd d.2)),
      (name3 d.1 s.toList "beta".toList, .num (t.beta d.2))])
   ++ [((x, 0), (y, 1)), ((x, 0), (z, 2)), ((y, 1), (z, 2))].flatMap (fun p => ["R", "p_R", "rho", "p_rho", "bias", "ubrmsd"].map (fun m =>
      (name4 p.1.1 p.2.1 s.toList m.toList, Val.num (v m p.1.2 p.2.2)))))

/-- the names of all results -/
def allNames (x y z : Name) : List Key :=
  (["ALL", "DJF", "MAM", "JJA", "SON"].flatMap (fun s => seasonEntries (K := ℕ) s x y z 0 noTc (fun _ _ _ => none))).map Prod.fst

/-- the result of one season: missing below the threshold -/
def seasonResult (x y z : Name) (minObs : ℕ) (rows : List (ℕ × List (Option K))) (t : String → Tc K) (v : String → ℕ → ℕ → Option K) (s : String) : Dict K :=
  if (rowsOf s rows).length < minObs then seasonEntries s x y z 0 noTc (fun _ _ _ => none)
  else seasonEntries s x y z (rowsOf s rows).length (t s) v

/-! ### Proofs -/

theorem inSeason_rows (s : String) (hs : s ∈ seasons) (rows : List (ℕ × List (Option K))) : rows.filter (inSeason s) = rowsOf s rows := by
  unfold rowsOf
  by_cases h : s = "ALL"
  · rw [if_pos h, List.filter_eq_self]
    intro r _
    unfold inSeason
    rw [if_neg (by simpa using h)]
  · rw [if_neg h]
    apply List.filter_congr
    intro r _
    unfold inSeason
    rw [if_pos h]
    have key : ∀ s ∈ seasons, s ≠ "ALL" → ∀ m < 13, decide (monthToSeason[m]? = some s) = decide (m ∈ monthsOf s) := by decide
    by_cases hm : r.1 < 13
    · exact key s hs h r.1 hm
    · have h1 : monthToSeason[r.1]? = none := List.getElem?_eq_none (by
        have : monthToSeason.length = 13 := rfl
        omega)
      have h2 : ∀ s ∈ seasons, s ≠ "ALL" → ∀ m ∈ monthsOf s, m < 13 := by decide
      rw [h1]
      have h3 : r.1 ∉ monthsOf s := fun h4 => hm (h2 s hs h r.1 h4)
      simp [h3]

/-- **C58.** The four seasons partition the observations. -/
theorem seasons_partition (rows : List (ℕ × List (Option K))) (h : ∀ r ∈ rows, 1 ≤ r.1 ∧ r.1 ≤ 12) :
    ((rows.filter (inSeason "DJF")).length + (rows.filter (inSeason "MAM")).length + (rows.filter (inSeason "JJA")).length +
      (rows.filter (inSeason "SON")).length = (rows.filter (inSeason "ALL")).length) ∧ rows.filter (inSeason "ALL") = rows := by
  have hall : rows.filter (inSeason "ALL") = rows := inSeason_rows "ALL" (by decide) rows
  refine ⟨?_, hall⟩
  rw [hall]
  clear hall
  induction rows with
  | nil => rfl
  | cons r rows ih =>
    have ih := ih (fun r' hr' => h r' (List.mem_cons_of_mem _ hr'))
    obtain ⟨m, row⟩ := r
    have hm := h (m, row) (by simp)
    simp only at hm
    have key : ∀ m < 13, 1 ≤ m →
        (if inSeason "DJF" (m, ([] : List (Option ℕ))) then 1 else 0) + (if inSeason "MAM" (m, ([] : List (Option ℕ))) then 1 else 0) +
        (if inSeason "JJA" (m, ([] : List (Option ℕ))) then 1 else 0) + (if inSeason "SON" (m, ([] : List (Option ℕ))) then 1 else 0) = 1 := by decide
    have hk := key m (by omega) hm.1
    have he : ∀ s, inSeason s (m, row) = inSeason s (m, ([] : List (Option ℕ))) := fun s => rfl
    simp only [List.filter_cons, List.length_cons, he]
    split_ifs at hk ⊢ <;> (try simp only [List.length_cons]) <;> omega

/-- the values of the column at a position -/
def colAt (f : Frame K) (i : ℕ) : List (Option K) := f.rows.map (fun r => entry r i)

theorem under2 (a b : Name) : under [a, b] = a ++ '_' :: b := by simp [under, pyJoin]

theorem under3 (a b c : Name) : under [a, b, c] = a ++ '_' :: (b ++ '_' :: c) := by simp [under, pyJoin]

theorem key_eq3 (a b c : Name) : Key.name (under [a, b, c]) = name3 a b c := by rw [under3]; rfl

theorem key_eq4 (a b c d : Name) : name3 (under [a, b]) c d = name4 a b c d := by rw [under2]; rfl

theorem key_eq2 (a b : Name) : Key.name (under [a, b]) = name2 a b := by rw [under2]; rfl

/-- the entries of a template of one season -/
theorem hsafEntries_eq (x y z : Name) (s : String) :
    (hsafEntries [x, y, z] [under [x, y], under [x, z], under [y, z]] s : Dict K) = seasonEntries s x y z 0 noTc (fun _ _ _ => none) := by
  unfold hsafEntries seasonEntries hsafSingle hsafPair noTc
  simp only [List.flatMap_cons, List.flatMap_nil, List.map_cons, List.map_nil, key_eq2, key_eq3, key_eq4, List.append_assoc, List.cons_append, List.nil_append,
    List.append_nil]

/-- entries with the names of the template -/
theorem seasonEntries_keys (s : String) (x y z : Name) (n n' : ℤ) (t t' : Tc K) (v v' : String → ℕ → ℕ → Option K) :
    (seasonEntries s x y z n t v).map Prod.fst = (seasonEntries s x y z n' t' v').map Prod.fst := by
  unfold seasonEntries
  simp only [List.flatMap_cons, List.flatMap_nil, List.map_cons, List.map_nil, List.append_assoc, List.cons_append, List.nil_append, List.append_nil]

theorem flatMap_nodup_disjoint {α β : Type} (l : List α) (f : α → List β) (h : (l.flatMap f).Nodup) (a b : α) (ha : a ∈ l) (hb : b ∈ l) (hab : a ≠ b)
    (x : β) (hx : x ∈ f a) : x ∉ f b := by
  induction l with
  | nil => simp at ha
  | cons c l ih =>
    rw [List.flatMap_cons, List.nodup_append] at h
    obtain ⟨_, h2, h3⟩ := h
    intro hy
    rcases List.mem_cons.mp ha with rfl | ha' <;> rcases List.mem_cons.mp hb with rfl | hb'
    · exact hab rfl
    · exact h3 x hx x (List.mem_flatMap.mpr ⟨b, hb', hy⟩) rfl
    · exact h3 x hy x (List.mem_flatMap.mpr ⟨a, ha', hx⟩) rfl
    · exact ih h2 ha' hb' hy

/-- the columns of the data frames -/
def hcols (o1 o2 : Name) : List Name := ["ref".toList, o1, o2]

section

variable (x y z o1 o2 : Name)

/-- columns with names -/
def hP : List (Name × Name) := [("ref".toList, x), (o1, y), (o2, z)]

variable (hn : (hcols o1 o2).Nodup) (hf : ∀ c ∈ hcols o1 o2, Free sepAnd c)
include hn hf

theorem hsafPairKey_ok (e e' : Name × Name) (he : e ∈ hP x y z o1 o2) (he' : e' ∈ hP x y z o1 o2) :
    hsafPairKey (makeLut [x, y, z] ["ref".toList, o1, o2]) (e.1, e'.1) = .ok (under [e.2, e'.2]) := by
  have hn' : ((hP x y z o1 o2).map Prod.fst).Nodup := hn
  have hf' : ∀ e ∈ hP x y z o1 o2, Free sepAnd e.1 := fun e he => hf e.1 (List.mem_map.mpr ⟨e, he, rfl⟩ : e.1 ∈ (hP x y z o1 o2).map Prod.fst)
  unfold hsafPairKey
  simp only
  rw [split_join sepAnd sepAnd_ne [e.1, e'.1] (by simp) (by
    intro c hc
    simp only [List.mem_cons, List.not_mem_nil, or_false] at hc
    rcases hc with rfl | rfl
    · exact hf' e he
    · exact hf' e' he')]
  have h1 := lut_ok (hP x y z o1 o2) hn' e he
  have h2 := lut_ok (hP x y z o1 o2) hn' e' he'
  have hlut : makeLut ((hP x y z o1 o2).map Prod.snd) ((hP x y z o1 o2).map Prod.fst) = makeLut [x, y, z] ["ref".toList, o1, o2] := rfl
  rw [hlut] at h1 h2
  simp only [lutPart, List.getElem?_cons_zero, List.getElem?_cons_succ, h1, h2]
  rfl

theorem hsafTemplate_eq (mt : Option (Dict K)) : hsafTemplate [x, y, z] o1 o2 mt =
    .ok (update (metadataTemplate mt) (seasons.flatMap (fun s => seasonEntries s x y z 0 noTc (fun _ _ _ => none)))) := by
  unfold hsafTemplate
  have h : (hsafPairs o1 o2).mapM (hsafPairKey (makeLut [x, y, z] ["ref".toList, o1, o2])) = .ok [under [x, y], under [x, z], under [y, z]] := by
    show List.mapM _ [("ref".toList, o1), ("ref".toList, o2), (o1, o2)] = _
    have h1 := hsafPairKey_ok x y z o1 o2 hn hf ("ref".toList, x) (o1, y) (by simp [hP]) (by simp [hP])
    have h2 := hsafPairKey_ok x y z o1 o2 hn hf ("ref".toList, x) (o2, z) (by simp [hP]) (by simp [hP])
    have h3 := hsafPairKey_ok x y z o1 o2 hn hf (o1, y) (o2, z) (by simp [hP]) (by simp [hP])
    simp only [List.mapM_cons, List.mapM_nil] 
    rw [h1, h2, h3]
    rfl
  rw [h]
  show Except.ok _ = Except.ok _
  congr 2
  congr 1
  funext s
  exact hsafEntries_eq x y z s

/-- the tables of the pair metrics: from all data, bias and ubrmsd from the scaled data -/
theorem hsafTables_ok (F : NamedFuncs K) (data scaled : Frame K) (hc : data.cols = hcols o1 o2) (hsc : scaled.cols = hcols o1 o2)
    (v : String → ℕ → ℕ → Option K)
    (hv : ∀ m ∈ ["R", "p_R", "rho", "p_rho"], ∀ i < 3, ∀ j < 3, i ≠ j → F.metric m (colAt data i) (colAt data j) = .ok (v m i j))
    (hb : ∀ i < 3, ∀ j < 3, i ≠ j → F.metric "BIAS" (colAt scaled i) (colAt scaled j) = .ok (v "bias" i j))
    (hu : ∀ i < 3, ∀ j < 3, i ≠ j → F.metric "urmsd" (colAt scaled i) (colAt scaled j) = .ok (v "ubrmsd" i j)) :
    ∃ tables, hsafPair.mapM (hsafTable F data scaled) = .ok tables ∧
      List.Forall₂ (fun m t => t.1 = m ∧ ∀ p ∈ pairsOf (hcols o1 o2), t.2.lookup (pyJoin sepAnd [p.1, p.2]) =
        some (v m ((hcols o1 o2).idxOf p.1) ((hcols o1 o2).idxOf p.2))) hsafPair tables := by
  have hlt : ∀ a ∈ hcols o1 o2, (hcols o1 o2).idxOf a < 3 := fun a ha => List.idxOf_lt_length_of_mem ha
  have hne : ∀ a ∈ hcols o1 o2, ∀ b ∈ hcols o1 o2, a ≠ b → (hcols o1 o2).idxOf a ≠ (hcols o1 o2).idxOf b := by
    intro a ha b _ hab h
    exact hab ((List.idxOf_inj ha).mp h)
  have hcol : ∀ (f : Frame K), f.cols = hcols o1 o2 → ∀ a ∈ hcols o1 o2, column f a = .ok (colAt f ((hcols o1 o2).idxOf a)) := by
    intro f h a ha
    rw [column_colOf f a (h ▸ ha)]
    unfold colOf colAt
    rw [h]
  have one : ∀ m ∈ hsafPair, ∃ t, hsafTable F data scaled m = .ok (m, t) ∧
      ∀ p ∈ pairsOf (hcols o1 o2), t.lookup (pyJoin sepAnd [p.1, p.2]) = some (v m ((hcols o1 o2).idxOf p.1) ((hcols o1 o2).idxOf p.2)) := by
    intro m hm
    have hcases : m ∈ ["R", "p_R", "rho", "p_rho"] ∧ ¬ (m = "bias" ∨ m = "ubrmsd") ∨ m = "bias" ∨ m = "ubrmsd" := by
      revert m; decide
    have gen : ∀ (name : String) (f : Frame K), f.cols = hcols o1 o2 →
        (∀ i < 3, ∀ j < 3, i ≠ j → F.metric name (colAt f i) (colAt f j) = .ok (v m i j)) →
        ∃ t, pairTable F name f = .ok t ∧
          ∀ p ∈ pairsOf (hcols o1 o2), t.lookup (pyJoin sepAnd [p.1, p.2]) = some (v m ((hcols o1 o2).idxOf p.1) ((hcols o1 o2).idxOf p.2)) := by
      intro name f hfc hval
      obtain ⟨t, e1, e2⟩ := pairTable_ok F name f (hfc ▸ hn) (hfc ▸ hf) (fun a b => v m ((hcols o1 o2).idxOf a) ((hcols o1 o2).idxOf b)) (by
        intro a ha b hb' hab
        rw [hfc] at ha hb'
        unfold pairValue
        rw [hcol f hfc a ha, hcol f hfc b hb']
        exact hval _ (hlt a ha) _ (hlt b hb') (hne a ha b hb' hab))
      exact ⟨t, e1, hfc ▸ e2⟩
    rcases hcases with ⟨h1, h2⟩ | rfl | rfl
    · obtain ⟨t, e1, e2⟩ := gen m data hc (hv m h1)
      refine ⟨t, ?_, e2⟩
      unfold hsafTable
      rw [if_neg h2, if_neg (fun h => h2 (Or.inl h)), if_neg (fun h => h2 (Or.inr h)), e1]
      rfl
    · obtain ⟨t, e1, e2⟩ := gen "BIAS" scaled hsc hb
      refine ⟨t, ?_, e2⟩
      unfold hsafTable
      rw [if_pos rfl, if_pos (Or.inl rfl), e1]
      rfl
    · obtain ⟨t, e1, e2⟩ := gen "urmsd" scaled hsc hu
      refine ⟨t, ?_, e2⟩
      unfold hsafTable
      rw [if_neg (by decide), if_pos rfl, if_pos (Or.inr rfl), e1]
      rfl
  clear hv hb hu
  generalize hsafPair = ms at one
  induction ms with
  | nil => exact ⟨[], rfl, .nil⟩
  | cons m ms ih =>
    obtain ⟨ts, h1, h2⟩ := ih (fun m' hm' => one m' (List.mem_cons_of_mem _ hm'))
    obtain ⟨t, t1, t2⟩ := one m (by simp)
    refine ⟨(m, t) :: ts, ?_, .cons ⟨rfl, t2⟩ h2⟩
    rw [List.mapM_cons, h1, t1]
    rfl

theorem hsafPairWrites_ok (s : String) (tables : List (String × List (Name × Option K))) (v : String → ℕ → ℕ → Option K)
    (ht : List.Forall₂ (fun m t => t.1 = m ∧ ∀ p ∈ pairsOf (hcols o1 o2), t.2.lookup (pyJoin sepAnd [p.1, p.2]) =
        some (v m ((hcols o1 o2).idxOf p.1) ((hcols o1 o2).idxOf p.2))) hsafPair tables)
    (e e' : Name × Name) (he : e ∈ hP x y z o1 o2) (he' : e' ∈ hP x y z o1 o2) (hp : (e.1, e'.1) ∈ pairsOf (hcols o1 o2)) :
    hsafPairWrites (makeLut [x, y, z] ["ref".toList, o1, o2]) s tables (e.1, e'.1) =
      .ok (hsafPair.map (fun m => (name4 e.2 e'.2 s.toList m.toList, .num (v m ((hcols o1 o2).idxOf e.1) ((hcols o1 o2).idxOf e'.1))))) := by
  have hm : tables.mapM (tableGet (pyJoin sepAnd [e.1, e'.1])) =
      .ok (hsafPair.map (fun m => (m, v m ((hcols o1 o2).idxOf e.1) ((hcols o1 o2).idxOf e'.1)))) := by
    clear hn hf he he'
    generalize hsafPair = ms at ht
    induction ht with
    | nil => rfl
    | cons h _ ih =>
      rw [List.mapM_cons, ih]
      unfold tableGet
      rw [h.2 _ hp, h.1]
      rfl
  unfold hsafPairWrites
  simp only
  rw [hm, hsafPairKey_ok x y z o1 o2 hn hf e e' he he']
  show Except.ok _ = Except.ok _
  rw [List.map_map]
  congr 1
  apply List.map_congr_left
  intro m _
  simp only [Function.comp, key_eq3, key_eq4]

/-- the assignments of one season -/
theorem hsafSeason_eq (F : NamedFuncs K) (minObs : ℕ) (data scaled : Frame K) (hc : data.cols = hcols o1 o2) (hsc : scaled.cols = hcols o1 o2)
    (hscale : F.scale data = .ok scaled) (v : String → ℕ → ℕ → Option K)
    (hv : ∀ m ∈ ["R", "p_R", "rho", "p_rho"], ∀ i < 3, ∀ j < 3, i ≠ j → F.metric m (colAt data i) (colAt data j) = .ok (v m i j))
    (hb : ∀ i < 3, ∀ j < 3, i ≠ j → F.metric "BIAS" (colAt scaled i) (colAt scaled j) = .ok (v "bias" i j))
    (hu : ∀ i < 3, ∀ j < 3, i ≠ j → F.metric "urmsd" (colAt scaled i) (colAt scaled j) = .ok (v "ubrmsd" i j))
    (s : String) (hs : s ∈ seasons) (t : Tc K)
    (htc : minObs ≤ (rowsOf s data.rows).length →
      F.tc 0 ((rowsOf s data.rows).map (fun r => entry r 0)) ((rowsOf s data.rows).map (fun r => entry r 1)) ((rowsOf s data.rows).map (fun r => entry r 2)) = .ok t)
    (d : Dict K) :
    hsafSeason F [x, y, z] o1 o2 minObs data d s =
      setAll d (if (rowsOf s data.rows).length < minObs then [] else seasonEntries s x y z (rowsOf s data.rows).length t v) := by
  unfold hsafSeason
  simp only [inSeason_rows s hs]
  by_cases h : (rowsOf s data.rows).length < minObs
  · rw [if_pos h, if_pos h]
    rfl
  rw [if_neg h, if_neg h]
  have hidx : (hcols o1 o2).idxOf "ref".toList = 0 ∧ (hcols o1 o2).idxOf o1 = 1 ∧ (hcols o1 o2).idxOf o2 = 2 := by
    refine ⟨?_, ?_, ?_⟩
    · exact hn.idxOf_getElem 0 (by simp [hcols])
    · exact hn.idxOf_getElem 1 (by simp [hcols])
    · exact hn.idxOf_getElem 2 (by simp [hcols])
  have hseason : ∀ a ∈ hcols o1 o2, seasonColumn data s a = .ok ((rowsOf s data.rows).map (fun r => entry r ((hcols o1 o2).idxOf a))) := by
    intro a ha
    unfold seasonColumn
    rw [inSeason_rows s hs, column_colOf ⟨data.cols, rowsOf s data.rows⟩ a (show a ∈ data.cols from hc ▸ ha)]
    unfold colOf
    simp only [hc]
  obtain ⟨tables, e1, e2⟩ := hsafTables_ok o1 o2 hn hf F data scaled hc hsc v hv hb hu
  have w1 := hsafPairWrites_ok x y z o1 o2 hn hf s tables v e2 ("ref".toList, x) (o1, y) (by simp [hP]) (by simp [hP]) (by simp [hcols, pairsOf])
  have w2 := hsafPairWrites_ok x y z o1 o2 hn hf s tables v e2 ("ref".toList, x) (o2, z) (by simp [hP]) (by simp [hP]) (by simp [hcols, pairsOf])
  have w3 := hsafPairWrites_ok x y z o1 o2 hn hf s tables v e2 (o1, y) (o2, z) (by simp [hP]) (by simp [hP]) (by simp [hcols, pairsOf])
  rw [hidx.1, hidx.2.1] at w1
  rw [hidx.1, hidx.2.2] at w2
  rw [hidx.2.1, hidx.2.2] at w3
  have hpairs : (hsafPairs o1 o2).mapM (hsafPairWrites (makeLut [x, y, z] ["ref".toList, o1, o2]) s tables) =
      .ok [hsafPair.map (fun m => (name4 x y s.toList m.toList, Val.num (v m 0 1))), hsafPair.map (fun m => (name4 x z s.toList m.toList, .num (v m 0 2))),
        hsafPair.map (fun m => (name4 y z s.toList m.toList, .num (v m 1 2)))] := by
    show List.mapM _ [("ref".toList, o1), ("ref".toList, o2), (o1, o2)] = _
    simp only [List.mapM_cons, List.mapM_nil]
    rw [w1, w2, w3]
    rfl
  have hsingle : hsafSingleWrites [x, y, z] s t = .ok ([(x, 0), (y, 1), (z, 2)].flatMap (fun d => [(name3 d.1 s.toList "snr".toList, Val.num (t.snr d.2)),
      (name3 d.1 s.toList "err_var".toList, .num (t.errStd d.2)), (name3 d.1 s.toList "beta".toList, .num (t.beta d.2))])) := by
    unfold hsafSingleWrites
    rw [if_pos (by simp)]
    congr 1
    simp only [List.zipIdx_cons, List.zipIdx_nil, List.flatMap_cons, List.flatMap_nil, key_eq3]
  rw [hseason _ (by simp [hcols]), hseason o1 (by simp [hcols]), hseason o2 (by simp [hcols]), hidx.1, hidx.2.1, hidx.2.2]
  simp only [bind, Except.bind]
  rw [htc (by omega)]
  simp only [hsingle, hscale, e1, hpairs]
  rw [key_eq2]
  unfold seasonEntries setAll
  rw [List.foldlM_cons]
  simp only [bind, Except.bind]
  have hflat : [hsafPair.map (fun m => (name4 x y s.toList m.toList, Val.num (v m 0 1))), hsafPair.map (fun m => (name4 x z s.toList m.toList, .num (v m 0 2))),
        hsafPair.map (fun m => (name4 y z s.toList m.toList, .num (v m 1 2)))].flatten =
      [((x, 0), (y, 1)), ((x, 0), (z, 2)), ((y, 1), (z, 2))].flatMap (fun p => ["R", "p_R", "rho", "p_rho", "bias", "ubrmsd"].map (fun m =>
        (name4 p.1.1 p.2.1 s.toList m.toList, Val.num (v m p.1.2 p.2.2)))) := rfl
  rw [hflat]

omit hn hf in
theorem allNames_eq (n : String → ℤ) (t : String → Tc K) (v : String → String → ℕ → ℕ → Option K) :
    (seasons.flatMap (fun s => seasonEntries s x y z (n s) (t s) (v s))).map Prod.fst = allNames x y z := by
  unfold allNames seasons
  simp only [List.flatMap_cons, List.flatMap_nil, List.map_append, List.append_nil]
  unfold seasonEntries
  simp only [List.flatMap_cons, List.flatMap_nil, List.map_cons, List.map_nil, List.append_assoc, List.cons_append, List.nil_append, List.append_nil]

omit hn hf in
theorem allNames_underscore (k : Key) (hk : k ∈ allNames x y z) : ∃ n, k = .name n ∧ '_' ∈ n := by
  unfold allNames at hk
  simp only [List.map_flatMap, List.mem_flatMap] at hk
  obtain ⟨s, _, hk⟩ := hk
  unfold seasonEntries at hk
  simp only [List.flatMap_cons, List.flatMap_nil, List.map_cons, List.map_nil, List.append_assoc, List.cons_append, List.nil_append, List.append_nil,
    List.mem_cons, List.not_mem_nil, or_false, name2, name3, name4] at hk
  casesm* _ ∨ _ <;> exact ⟨_, by assumption, by simp⟩

omit hn hf in
theorem allNames_reserved (k : Key) (hk : k ∈ allNames x y z) : k ∉ reserved := by
  obtain ⟨n, rfl, hn⟩ := allNames_underscore x y z k hk
  intro h
  have : ∀ k ∈ reserved, ∀ n, k = .name n → '_' ∉ n := by
    intro k hk n hkn
    subst hkn
    unfold reserved key at hk
    simp only [List.mem_cons, Key.name.injEq, List.not_mem_nil, or_false] at hk
    rcases hk with rfl | rfl | rfl | rfl <;> decide
  exact this _ h n rfl hn

theorem hsaf_core (F : NamedFuncs K) (minObs : ℕ) (data : Frame K) (v : String → ℕ → ℕ → Option K) (t : String → Tc K)
    (hdist : (allNames x y z).Nodup) (mt : Option (Dict K)) (info : Info K) (hp : Provides info (mt.getD []))
    (hfields : FieldsOk (mt.getD []) (allNames x y z))
    (hseason : ∀ s ∈ seasons, ∀ d, hsafSeason F [x, y, z] o1 o2 minObs data d s =
      setAll d (if (rowsOf s data.rows).length < minObs then [] else seasonEntries s x y z (rowsOf s data.rows).length (t s) v)) :
    ∃ T d, hsafTemplate [x, y, z] o1 o2 mt = .ok T ∧ hsafCalc F [x, y, z] o1 o2 minObs T mt data info = .ok d ∧
      Reports (mt.getD []) info (.int 0) (["ALL", "DJF", "MAM", "JJA", "SON"].flatMap (seasonResult x y z minObs data.rows t v)) d := by
  set t0 : Dict K := seasons.flatMap (fun s => seasonEntries s x y z 0 noTc (fun _ _ _ => none)) with ht0
  have hk0 : t0.map Prod.fst = allNames x y z := allNames_eq x y z (fun _ => 0) (fun _ => noTc) (fun _ _ _ _ => none)
  have hr : ∀ k ∈ t0.map Prod.fst, k ∉ reserved := by rw [hk0]; exact allNames_reserved x y z
  obtain ⟨d, h1, h2⟩ := metadataCalc_ok mt t0 (hk0 ▸ hdist) hr (hk0 ▸ hfields) info hp
  set W : String → List (Key × Val K) := fun s =>
    if (rowsOf s data.rows).length < minObs then [] else seasonEntries s x y z (rowsOf s data.rows).length (t s) v with hW
  have hfold : ∀ (ss : List String), (∀ s ∈ ss, s ∈ seasons) → ∀ d, ss.foldlM (hsafSeason F [x, y, z] o1 o2 minObs data) d = setAll d (ss.flatMap W) := by
    intro ss
    induction ss with
    | nil => intro _ d; rfl
    | cons s ss ih =>
      intro hss d
      rw [List.foldlM_cons, hseason s (hss s (by simp)) d, List.flatMap_cons, setAll_append]
      refine congrArg (Except.bind _) (funext fun d' => ?_)
      exact ih (fun s' hs' => hss s' (List.mem_cons_of_mem _ hs')) d'
  -- names of one season
  have hblock : ∀ s, ∀ (n : ℤ) (t' : Tc K) (v' : String → ℕ → ℕ → Option K),
      (seasonEntries s x y z n t' v').map Prod.fst = (seasonEntries (K := K) s x y z 0 noTc (fun _ _ _ => none)).map Prod.fst := by
    intro s n t' v'
    unfold seasonEntries
    simp only [List.flatMap_cons, List.flatMap_nil, List.map_cons, List.map_nil, List.append_assoc, List.cons_append, List.nil_append, List.append_nil]
  set B : String → List Key := fun s => (seasonEntries (K := K) s x y z 0 noTc (fun _ _ _ => none)).map Prod.fst with hB
  have hWk : ∀ s, ∀ w ∈ W s, w.1 ∈ B s := by
    intro s w hw
    simp only [hW] at hw
    split_ifs at hw
    · simp at hw
    · show w.1 ∈ (seasonEntries (K := K) s x y z 0 noTc (fun _ _ _ => none)).map Prod.fst
      rw [← hblock s (rowsOf s data.rows).length (t s) v]
      exact List.mem_map.mpr ⟨w, hw, rfl⟩
  have hBn : (seasons.flatMap B).Nodup := by
    have : seasons.flatMap B = t0.map Prod.fst := by rw [ht0, List.map_flatMap]
    rw [this, hk0]
    exact hdist
  have hWsub : ((seasons.flatMap W).map Prod.fst).Nodup := by
    rw [List.map_flatMap]
    refine List.Nodup.sublist ?_ hBn
    generalize seasons = ss
    induction ss with
    | nil => exact List.Sublist.slnil
    | cons s ss ih =>
      rw [List.flatMap_cons, List.flatMap_cons]
      refine List.Sublist.append ?_ ih
      simp only [hW]
      split_ifs
      · exact List.nil_sublist _
      · rw [hblock]
  have hst : key "status" ∉ (seasons.flatMap W).map Prod.fst := by
    intro h
    rw [List.map_flatMap, List.mem_flatMap] at h
    obtain ⟨s, hs, h⟩ := h
    obtain ⟨w, hw, he⟩ := List.mem_map.mp h
    have : key "status" ∈ t0.map Prod.fst := by
      rw [ht0, List.map_flatMap, List.mem_flatMap]
      exact ⟨s, hs, he ▸ hWk s w hw⟩
    exact hr _ this (by decide)
  obtain ⟨d', e1, e2⟩ := setAll_reports (mt.getD []) info (.int uncaught) t0 hr (hk0 ▸ hfields) d h2 (seasons.flatMap W ++ [(key "status", .int ok)]) (.int 0)
    (seasons.flatMap (seasonResult x y z minObs data.rows t v)) (by
      intro w hw
      rcases List.mem_append.mp hw with h | h
      · right
        obtain ⟨s, hs, h⟩ := List.mem_flatMap.mp h
        rw [ht0, List.map_flatMap, List.mem_flatMap]
        exact ⟨s, hs, hWk s w h⟩
      · left
        rw [List.mem_singleton] at h
        rw [h])
    (by rw [List.reverse_append]; simp; rfl)
    (by
      rw [ht0, List.map_flatMap, List.map_flatMap]
      refine congrArg (fun f => List.flatMap f seasons) (funext fun s => ?_)
      unfold seasonResult
      split_ifs
      · rfl
      · exact hblock s _ _ _)
    (by
      intro e he
      obtain ⟨s, hs, he⟩ := List.mem_flatMap.mp he
      have hne : e.1 ≠ key "status" := by
        intro h
        have : e.1 ∈ t0.map Prod.fst := by
          rw [ht0, List.map_flatMap, List.mem_flatMap]
          refine ⟨s, hs, ?_⟩
          unfold seasonResult at he
          split_ifs at he
          · exact List.mem_map.mpr ⟨e, he, rfl⟩
          · rw [← hblock s (rowsOf s data.rows).length (t s) v]
            exact List.mem_map.mpr ⟨e, he, rfl⟩
        exact hr _ this (h ▸ by decide)
      rw [List.reverse_append, lookup_append, List.reverse_singleton]
      have hb : (e.1 == key "status") = false := by simpa using hne
      simp only [List.lookup_cons, hb, List.lookup_nil, Option.none_or]
      rw [lookup_reverse _ hWsub]
      unfold seasonResult at he
      split_ifs at he with hlt
      · have h1 : (seasons.flatMap W).lookup e.1 = none := by
          rw [lookup_none_iff, List.map_flatMap, List.mem_flatMap]
          rintro ⟨s', hs', h⟩
          obtain ⟨w, hw, hwe⟩ := List.mem_map.mp h
          have hb1 : e.1 ∈ B s := List.mem_map.mpr ⟨e, he, rfl⟩
          by_cases hss : s = s'
          · subst hss
            simp only [hW, if_pos hlt, List.not_mem_nil] at hw
          · exact flatMap_nodup_disjoint seasons B hBn s s' hs hs' hss e.1 hb1 (hwe ▸ hWk s' w hw)
        rw [h1, Option.none_or]
        exact lookup_of_nodup t0 (hk0 ▸ hdist) e (by rw [ht0]; exact List.mem_flatMap.mpr ⟨s, hs, he⟩)
      · rw [lookup_of_nodup (seasons.flatMap W) hWsub e (List.mem_flatMap.mpr ⟨s, hs, by simp only [hW, if_neg hlt]; exact he⟩)]
        rfl)
  refine ⟨_, d', hsafTemplate_eq x y z o1 o2 hn hf mt, ?_, e2⟩
  unfold hsafCalc
  rw [h1]
  show (seasons.foldlM (hsafSeason F [x, y, z] o1 o2 minObs data) d).bind _ = _
  rw [hfold seasons (fun s h => h) d]
  rw [setAll_append] at e1
  rw [← e1]
  refine congrArg (Except.bind _) (funext fun d'' => ?_)
  show _ = setAll d'' [(key "status", Val.int ok)]
  unfold setAll
  rw [List.foldlM_cons]
  show set d'' (key "status", Val.int ok) = (set d'' (key "status", Val.int ok)).bind _
  cases set d'' (key "status", Val.int ok) <;> rfl

/-- **C58, the part that holds.** Triple collocation of each season is calculated from the observations of this season only, and seasons with fewer
observations than the threshold have no results. Missing: the correlations, the bias and the ubrmsd stored for a season are calculated from all data, and
the status is OK even if there is no observation at all. -/
theorem hsaf_result_partial (F : NamedFuncs K) (minObs : ℕ) (data scaled : Frame K) (hc : data.cols = hcols o1 o2) (hsc : scaled.cols = hcols o1 o2)
    (hscale : F.scale data = .ok scaled) (v : String → ℕ → ℕ → Option K)
    (hv : ∀ m ∈ ["R", "p_R", "rho", "p_rho"], ∀ i < 3, ∀ j < 3, i ≠ j → F.metric m (colAt data i) (colAt data j) = .ok (v m i j))
    (hb : ∀ i < 3, ∀ j < 3, i ≠ j → F.metric "BIAS" (colAt scaled i) (colAt scaled j) = .ok (v "bias" i j))
    (hu : ∀ i < 3, ∀ j < 3, i ≠ j → F.metric "urmsd" (colAt scaled i) (colAt scaled j) = .ok (v "ubrmsd" i j))
    (t : String → Tc K)
    (htc : ∀ s ∈ ["ALL", "DJF", "MAM", "JJA", "SON"], minObs ≤ (rowsOf s data.rows).length →
      F.tc 0 ((rowsOf s data.rows).map (fun r => entry r 0)) ((rowsOf s data.rows).map (fun r => entry r 1)) ((rowsOf s data.rows).map (fun r => entry r 2)) =
        .ok (t s))
    (hdist : (allNames x y z).Nodup) (mt : Option (Dict K)) (info : Info K) (hp : Provides info (mt.getD []))
    (hfields : FieldsOk (mt.getD []) (allNames x y z)) :
    ∃ T d, hsafTemplate [x, y, z] o1 o2 mt = .ok T ∧ hsafCalc F [x, y, z] o1 o2 minObs T mt data info = .ok d ∧
      Reports (mt.getD []) info (.int 0) (["ALL", "DJF", "MAM", "JJA", "SON"].flatMap (seasonResult x y z minObs data.rows t v)) d := by
  refine hsaf_core x y z o1 o2 hn hf F minObs data v t hdist mt info hp hfields ?_
  intro s hs d
  exact hsafSeason_eq x y z o1 o2 hn hf F minObs data scaled hc hsc hscale v hv hb hu s hs (t s) (htc s hs) d

/-- **C58, negation.** The status is OK even if there are too few observations in all seasons. -/
theorem hsaf_ok_without_data (F : NamedFuncs K) (minObs : ℕ) (data : Frame K) (hlt : data.rows.length < minObs)
    (hdist : (allNames x y z).Nodup) (mt : Option (Dict K)) (info : Info K) (hp : Provides info (mt.getD []))
    (hfields : FieldsOk (mt.getD []) (allNames x y z)) :
    ∃ T d, hsafTemplate [x, y, z] o1 o2 mt = .ok T ∧ hsafCalc F [x, y, z] o1 o2 minObs T mt data info = .ok d ∧
      Reports (mt.getD []) info (.int 0) (["ALL", "DJF", "MAM", "JJA", "SON"].flatMap (fun s => seasonEntries s x y z 0 noTc (fun _ _ _ => none))) d := by
  have hl : ∀ s, (rowsOf s data.rows).length < minObs := by
    intro s
    unfold rowsOf
    split_ifs
    · exact hlt
    · exact lt_of_le_of_lt (List.length_filter_le _ _) hlt
  obtain ⟨T, d, h1, h2, h3⟩ := hsaf_core x y z o1 o2 hn hf F minObs data (fun _ _ _ => none) (fun _ => noTc) hdist mt info hp hfields (by
    intro s hs d
    unfold hsafSeason
    simp only [inSeason_rows s hs]
    rw [if_pos (hl s), if_pos (hl s)]
    rfl)
  refine ⟨T, d, h1, h2, ?_⟩
  have : (["ALL", "DJF", "MAM", "JJA", "SON"].flatMap (seasonResult x y z minObs data.rows (fun _ => noTc) (fun _ _ _ => none)) : Dict K) =
      ["ALL", "DJF", "MAM", "JJA", "SON"].flatMap (fun s => seasonEntries s x y z 0 noTc (fun _ _ _ => none)) := by
    congr 1
    funext s
    exact if_pos (hl s)
  rw [← this]
  exact h3

end

/-! ### Distinct names -/

theorem free_underscore (a : Name) (h : '_' ∉ a) : Free ['_'] a := by
  intro hi
  have : '_' ∈ a ++ (['_'] : Name).dropLast := hi.subset (by simp)
  simp only [List.dropLast_singleton, List.append_nil] at this
  exact h this

theorem cut (a b t u : Name) (ha : '_' ∉ a) (hb : '_' ∉ b) (h : a ++ '_' :: t = b ++ '_' :: u) : a = b ∧ t = u :=
  append_injective ['_'] (by decide) a b t u (free_underscore a ha) (free_underscore b hb) (by simpa using h)

/-- a result name by its parts: number of observations, data set, pair of data sets -/
def partsName (ds : Fin 3 → Name) : String ⊕ (Fin 3 × String × String) ⊕ ((Fin 3 × Fin 3) × String × String) → Key
  | .inl s => name2 s.toList "n_obs".toList
  | .inr (.inl (i, s, m)) => name3 (ds i) s.toList m.toList
  | .inr (.inr ((i, j), s, m)) => name4 (ds i) (ds j) s.toList m.toList

/-- the parts of the results of a season -/
def seasonParts (s : String) : List (String ⊕ (Fin 3 × String × String) ⊕ ((Fin 3 × Fin 3) × String × String)) :=
  .inl s :: ([(0 : Fin 3), 1, 2].flatMap (fun i => ["snr", "err_var", "beta"].map (fun m => .inr (.inl (i, s, m))))
    ++ [((0 : Fin 3), (1 : Fin 3)), (0, 2), (1, 2)].flatMap (fun p => ["R", "p_R", "rho", "p_rho", "bias", "ubrmsd"].map (fun m => .inr (.inr (p, s, m)))))

/-- season and metric of the parts are those of the calculator -/
def partsOk : String ⊕ (Fin 3 × String × String) ⊕ ((Fin 3 × Fin 3) × String × String) → Bool
  | .inl s => decide (s ∈ seasons)
  | .inr (.inl (_, s, m)) => decide (s ∈ seasons ∧ m ∈ hsafSingle)
  | .inr (.inr (_, s, m)) => decide (s ∈ seasons ∧ m ∈ hsafPair)

theorem partsName_injective (ds : Fin 3 → Name) (hinj : ∀ i j, ds i = ds j → i = j) (hu : ∀ i, '_' ∉ ds i)
    (p q : String ⊕ (Fin 3 × String × String) ⊕ ((Fin 3 × Fin 3) × String × String)) (hp : partsOk p = true) (hq : partsOk q = true)
    (h : partsName ds p = partsName ds q) : p = q := by
  have hs1 : ∀ s ∈ seasons, '_' ∉ s.toList := by decide
  have hs2 : ∀ s ∈ seasons, s.toList ≠ "n".toList ∧ s.toList ≠ "err".toList := by decide
  have hsi : ∀ s ∈ seasons, ∀ s' ∈ seasons, s.toList = s'.toList → s = s' := by decide
  have hm1 : ∀ m ∈ hsafSingle, ∀ m' ∈ hsafSingle, m.toList = m'.toList → m = m' := by decide
  have hm2 : ∀ m ∈ hsafPair, ∀ m' ∈ hsafPair, m.toList = m'.toList → m = m' := by decide
  have hn1 : ∀ s ∈ seasons, ∀ t : Name, "n_obs".toList ≠ s.toList ++ '_' :: t := by
    intro s hs t h
    exact (hs2 s hs).1 (cut "n".toList s.toList "obs".toList t (by decide) (hs1 s hs) (by exact h)).1.symm
  have hn2 : ∀ (a : Name), '_' ∉ a → ∀ t u : Name, "n_obs".toList ≠ a ++ '_' :: (t ++ '_' :: u) := by
    intro a ha t u h
    have h1 := (cut "n".toList a "obs".toList (t ++ '_' :: u) (by decide) ha (by exact h)).2
    have h2 : '_' ∈ "obs".toList := by rw [h1]; simp
    exact absurd h2 (by decide)
  have hsm : ∀ m ∈ hsafSingle, ∀ s ∈ seasons, ∀ t : Name, m.toList ≠ s.toList ++ '_' :: t := by
    intro m hm s hs t h
    have hc : m = "snr" ∨ m = "err_var" ∨ m = "beta" := by simpa [hsafSingle] using hm
    rcases hc with rfl | rfl | rfl
    · have h2 : '_' ∈ "snr".toList := by rw [h]; simp
      exact absurd h2 (by decide)
    · exact (hs2 s hs).2 (cut "err".toList s.toList "var".toList t (by decide) (hs1 s hs) (by exact h)).1.symm
    · have h2 : '_' ∈ "beta".toList := by rw [h]; simp
      exact absurd h2 (by decide)
  rcases p with s | ⟨i, s, m⟩ | ⟨⟨i, j⟩, s, m⟩ <;> rcases q with s' | ⟨i', s', m'⟩ | ⟨⟨i', j'⟩, s', m'⟩ <;>
    simp only [partsOk, decide_eq_true_eq] at hp hq <;> simp only [partsName, name2, name3, name4, Key.name.injEq, List.append_assoc, List.cons_append] at h
  · rw [hsi s hp s' hq (cut _ _ _ _ (hs1 s hp) (hs1 s' hq) h).1]
  · exact absurd (cut _ _ _ _ (hs1 s hp) (hu i') h).2 (hn1 s' hq.1 _)
  · exact absurd (cut _ _ _ _ (hs1 s hp) (hu i') h).2 (hn2 _ (hu j') _ _)
  · exact absurd (cut _ _ _ _ (hu i) (hs1 s' hq) h).2.symm (hn1 s hp.1 _)
  · obtain ⟨h1, h2⟩ := cut _ _ _ _ (hu i) (hu i') h
    obtain ⟨h3, h4⟩ := cut _ _ _ _ (hs1 s hp.1) (hs1 s' hq.1) h2
    rw [hinj _ _ h1, hsi s hp.1 s' hq.1 h3, hm1 m hp.2 m' hq.2 h4]
  · obtain ⟨h1, h2⟩ := cut _ _ _ _ (hu i) (hu i') h
    obtain ⟨h3, h4⟩ := cut _ _ _ _ (hs1 s hp.1) (hu j') h2
    exact absurd h4 (hsm m hp.2 s' hq.1 _)
  · exact absurd (cut _ _ _ _ (hu i) (hs1 s' hq) h).2.symm (hn2 _ (hu j) _ _)
  · obtain ⟨h1, h2⟩ := cut _ _ _ _ (hu i) (hu i') h
    obtain ⟨h3, h4⟩ := cut _ _ _ _ (hu j) (hs1 s' hq.1) h2
    exact absurd h4.symm (hsm m' hq.2 s hp.1 _)
  · obtain ⟨h1, h2⟩ := cut _ _ _ _ (hu i) (hu i') h
    obtain ⟨h3, h4⟩ := cut _ _ _ _ (hu j) (hu j') h2
    obtain ⟨h5, h6⟩ := cut _ _ _ _ (hs1 s hp.1) (hs1 s' hq.1) h4
    rw [hinj _ _ h1, hinj _ _ h3, hsi s hp.1 s' hq.1 h5, hm2 m hp.2 m' hq.2 h6]

/-- **C58, names.** The names of the results are different if the names of the data sets are different and contain no underscore. -/
theorem hsaf_names_distinct (x y z : Name) (hxyz : [x, y, z].Nodup) (hu : ∀ n ∈ [x, y, z], '_' ∉ n) : (allNames x y z).Nodup := by
  have heq : allNames x y z = (seasons.flatMap seasonParts).map (partsName (fun i : Fin 3 => [x, y, z].get i)) := by
    unfold allNames
    rw [List.map_flatMap, List.map_flatMap]
    refine congrArg (fun f => List.flatMap f ["ALL", "DJF", "MAM", "JJA", "SON"]) (funext fun s => ?_)
    unfold seasonEntries seasonParts
    simp only [List.flatMap_cons, List.flatMap_nil, List.map_cons, List.map_nil, List.append_assoc, List.cons_append, List.nil_append, List.append_nil, partsName]
    rfl
  rw [heq]
  have hok : ∀ p ∈ seasons.flatMap seasonParts, partsOk p = true := by decide +kernel
  refine List.Nodup.map_on ?_ (by decide +kernel)
  intro p hp q hq h
  exact partsName_injective _ (fun i j hij => List.nodup_iff_injective_get.mp hxyz hij) (fun i => hu _ (List.get_mem _ _)) p q (hok p hp) (hok q hq) h

/-- **C58, negation.** With underscores, different results can share a name: the correlation of a pair and a metric of one data set. -/
theorem hsaf_names_collide : ¬ (allNames "a_b".toList "a_b_a".toList "b_a".toList).Nodup := by decide +kernel

/-! ### The pair metrics -/

/-- stand-in functions: the sum of all products, the sum of the first column -/
def hsafFuncs : NamedFuncs ℚ where
  metric := fun _ x y => .ok (some ((List.zipWith (fun a b => a.getD 0 * b.getD 0) x y).sum))
  scale := fun f => .ok f
  tc := fun _ x y z => .ok ⟨fun i => some (i + (x.filterMap id).sum), fun i => some (i + (y.filterMap id).sum), fun i => some (i + (z.filterMap id).sum)⟩

/-- two observations in January, two in July, one in April -/
def hsafFrame : Frame ℚ where
  cols := ["ref".toList, "k1".toList, "k2".toList]
  rows := [(1, [some 1, some 2, some 3]), (7, [some 4, some 5, some 6]), (1, [some 2, some 2, some 1]), (7, [some 1, some 1, some 1]), (4, [some 0, some 1, some 1])]

/-- template and calculation -/
def hsafRun : Except Err (Dict ℚ) := do
  let T ← hsafTemplate ["A".toList, "B".toList, "C".toList] "k1".toList "k2".toList none
  hsafCalc hsafFuncs ["A".toList, "B".toList, "C".toList] "k1".toList "k2".toList 2 T none hsafFrame ⟨3, 10, 50, none⟩

/-- non-trivial instance: triple collocation of the winter, no results for spring -/
example : hsafRun.toOption.map (fun d => (d.lookup (name3 "A".toList "DJF".toList "snr".toList), d.lookup (name3 "C".toList "DJF".toList "beta".toList),
      d.lookup (name3 "A".toList "MAM".toList "snr".toList), d.lookup (name2 "DJF".toList "n_obs".toList), d.lookup (name2 "MAM".toList "n_obs".toList), d.length)) =
    some (some (.num (some 3)), some (.num (some 6)), some (.num none), some (.int 2), some (.int 0), 4 + 140) := by decide +kernel

/-- **C58, negation.** The correlation stored for the winter is not that of the winter's observations; it is that of all observations. -/
theorem hsaf_pairs_use_all_data :
    hsafRun.toOption.map (fun d => d.lookup (name4 "A".toList "B".toList "DJF".toList "R".toList)) = some (some (.num (some 27))) ∧
    (hsafFuncs.metric "R" ((rowsOf "DJF" hsafFrame.rows).map (fun r => entry r 0)) ((rowsOf "DJF" hsafFrame.rows).map (fun r => entry r 1))).toOption = some (some 6) ∧
    (hsafFuncs.metric "R" (colAt hsafFrame 0) (colAt hsafFrame 1)).toOption = some (some 27) := by decide +kernel

/-- the theorems applied to the frame above -/
example := hsaf_names_distinct "A".toList "B".toList "C".toList (by decide) (by decide)
example := hsaf_result_partial "A".toList "B".toList "C".toList "k1".toList "k2".toList (by decide) (by decide) hsafFuncs 2 hsafFrame hsafFrame rfl rfl rfl
  (fun _ i j => some ((List.zipWith (fun a b => a.getD 0 * b.getD 0) (colAt hsafFrame i) (colAt hsafFrame j)).sum))
  (fun _ _ _ _ _ _ _ => rfl) (fun _ _ _ _ _ => rfl) (fun _ _ _ _ _ => rfl) _ (fun _ _ _ => rfl)
  (hsaf_names_distinct "A".toList "B".toList "C".toList (by decide) (by decide)) none ⟨3, 10, 50, none⟩ (.inl rfl) ⟨by simp, by simp⟩
example := hsaf_ok_without_data "A".toList "B".toList "C".toList "k1".toList "k2".toList (by decide) (by decide) hsafFuncs 10 hsafFrame (by decide)
  (hsaf_names_distinct "A".toList "B".toList "C".toList (by decide) (by decide)) none ⟨3, 10, 50, none⟩ (.inl rfl) ⟨by simp, by simp⟩
example := seasons_partition hsafFrame.rows (by decide)

end Verif.Calculators
