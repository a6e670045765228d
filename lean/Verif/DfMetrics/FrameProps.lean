import Verif.DfMetrics.Frame

/-! C115: proofs. -/

set_option linter.unusedSectionVars false

namespace Verif.DfMetrics

open Verif.Tcol (tcolError tcolMetrics)

theorem matOf_uniform {df : List Column} {N : ℕ} (h : Gapless df N) (i j r : ℕ) (hi : i < (numericCols df).length) (hj : j < (numericCols df).length)
    (hr : r < N) : (matOf (numericCols df) i r).isSome = (matOf (numericCols df) j r).isSome := by
  unfold matOf
  rw [List.getElem?_eq_getElem hi, List.getElem?_eq_getElem hj]
  have h1 := List.mem_filter.mp (List.getElem_mem hi)
  have h2 := List.mem_filter.mp (List.getElem_mem hj)
  exact h.uniform _ h1.1 _ h2.1 h1.2 h2.2 r hr

theorem matOf_row {df : List Column} {N : ℕ} (h : Gapless df N) (h0 : 0 < (numericCols df).length) :
    ∃ r < N, (matOf (numericCols df) 0 r).isSome := by
  obtain ⟨r, hr, hs⟩ := h.some_row
  refine ⟨r, hr, ?_⟩
  unfold matOf
  rw [List.getElem?_eq_getElem h0]
  have h1 := List.mem_filter.mp (List.getElem_mem h0)
  exact hs _ h1.1 h1.2

theorem triple_collocated (cs : List Column) (N : ℕ) (i j k : ℕ) (a b c : Column) (ha : cs[i]? = some a) (hb : cs[j]? = some b) (hc : cs[k]? = some c) :
    triple (matOf cs) N i j k = collocated N a b c := by
  unfold triple collocated completeRows
  have e : ∀ (n : ℕ) (x : Column), cs[n]? = some x → ∀ r, matOf cs n r = x.vals r := by
    intro n x hx r
    unfold matOf
    rw [hx]
    rfl
  induction List.range N with
  | nil => rfl
  | cons r l ih =>
    simp only [List.filter_cons, List.filterMap_cons, List.all_cons, List.all_nil, Bool.and_true, e _ _ ha, e _ _ hb, e _ _ hc] at ih ⊢
    cases h1 : a.vals r <;> cases h2 : b.vals r <;> cases h3 : c.vals r <;>
      simp_all [e _ _ ha, e _ _ hb, e _ _ hc]

theorem nameOf_eq (cs : List Column) (i : ℕ) (a : Column) (h : cs[i]? = some a) : nameOf cs i = a.name := by
  unfold nameOf
  rw [h]
  rfl

theorem tcolErrorMethod_restricted (mat : ℕ → ℕ → Option ℝ) (N a b c : ℕ) (hne : completeRows Option.isSome mat N [a, b, c] ≠ []) :
    tcolErrorMethod (restricted Option.isSome mat N [a, b, c]) =
      .ok [some (tcolError (triple mat N a b c) 0), some (tcolError (triple mat N a b c) 1), some (tcolError (triple mat N a b c) 2)] := by
  unfold tcolErrorMethod restricted
  simp only [List.map_cons, List.map_nil]
  rw [if_pos]
  · have : ∀ l : List ℕ, (((l.map (mat a)).zip ((l.map (mat b)).zip (l.map (mat c)))).map
        (fun t : Option ℝ × Option ℝ × Option ℝ => (![t.1.getD 0, t.2.1.getD 0, t.2.2.getD 0] : Verif.Tcol.Row))) =
        l.map (fun r => ![(mat a r).getD 0, (mat b r).getD 0, (mat c r).getD 0]) := by
      intro l
      induction l with
      | nil => rfl
      | cons r l ih => simp only [List.map_cons, List.zip_cons_cons]; rw [ih]
    rw [this]
    rfl
  · refine ⟨?_, by simpa using hne⟩
    rw [List.all_eq_true]
    intro v hv
    have hrow : ∀ r ∈ completeRows Option.isSome mat N [a, b, c], (mat a r).isSome ∧ (mat b r).isSome ∧ (mat c r).isSome := by
      intro r hr
      have := (List.mem_filter.mp hr).2
      simpa using this
    simp only [List.mem_append, List.mem_map] at hv
    rcases hv with (⟨r, hr, rfl⟩ | ⟨r, hr, rfl⟩) | ⟨r, hr, rfl⟩
    · exact (hrow r hr).1
    · exact (hrow r hr).2.1
    · exact (hrow r hr).2.2

/-- the three values of a triple given as list of column numbers -/
noncomputable def errorValues (cs : List Column) (N : ℕ) (t : List ℕ) : List (Option ℝ) :=
  [some (tcolError (triple (matOf cs) N (t.getD 0 0) (t.getD 1 0) (t.getD 2 0)) 0),
   some (tcolError (triple (matOf cs) N (t.getD 0 0) (t.getD 1 0) (t.getD 2 0)) 1),
   some (tcolError (triple (matOf cs) N (t.getD 0 0) (t.getD 1 0) (t.getD 2 0)) 2)]

theorem tcol_error_eval (df : List Column) (N : ℕ) (hK : 3 ≤ (numericCols df).length) (hg : Gapless df N) :
    nwiseApply Option.isSome Option.isNone tcolErrorMethod tcolErrorMethod (matOf (numericCols df)) (numericCols df).length N 3 true .none =
      .ok (((nCombinations (List.range (numericCols df).length) 3 .none (!true)).map (fun c => (c, errorValues (numericCols df) N c))).map
        (fun e => (e.1, some e.2))) := by
  set cs := numericCols df
  have hprobe : ∀ x y z : List (Option ℝ), ∃ c0, tcolErrorMethod [x, y, z] = .ok c0 := by
    intro x y z
    unfold tcolErrorMethod
    simp only
    split <;> exact ⟨_, rfl⟩
  obtain ⟨c0, hp⟩ := hprobe (((List.range N).filter (fun r => !(matOf cs 0 r).isNone && !(matOf cs 1 r).isNone)).map (matOf cs 0))
    (((List.range N).filter (fun r => !(matOf cs 0 r).isNone && !(matOf cs 1 r).isNone)).map (matOf cs 1))
    (((List.range N).filter (fun r => !(matOf cs 0 r).isNone && !(matOf cs 1 r).isNone)).map (matOf cs 2))
  have hu : ∀ i j r, i < cs.length → j < cs.length → r < N → (matOf cs i r).isSome = (matOf cs j r).isSome := fun i j r hi hj hr =>
    matOf_uniform hg i j r hi hj hr
  obtain ⟨r0, hr0, h0⟩ := matOf_row hg (lt_of_lt_of_le (by norm_num) hK)
  rw [nwise_triples_partial Option.isSome Option.isNone tcolErrorMethod tcolErrorMethod (matOf cs) cs.length N hK true .none c0 hu hp]
  apply evaluateAll_ok
  · intro c hc
    exact completeRows_uniform (matOf cs) cs.length N hu r0 hr0 h0 c ((mem_tripleCombs cs.length .none c).mp hc).1.2.2
  · intro c hc
    have ht := ((mem_tripleCombs cs.length .none c).mp hc).1
    have hne := completeRows_uniform (matOf cs) cs.length N hu r0 hr0 h0 c ht.2.2
    obtain ⟨i, j, k, rfl, _⟩ := isTriple_eq cs.length c ht
    rw [tcolErrorMethod_restricted _ _ _ _ _ hne]
    rfl

/-- naming works for legal names -/
theorem nameErrors_ok (cs : List Column) (f : List ℕ → List (Option ℝ)) (combs : List (List ℕ))
    (hl : ∀ c ∈ combs, c.length = 3 ∧ ∃ x y z, f c = [x, y, z]) (hn : ∀ c ∈ combs, ∀ i ∈ c, tupleField (nameOf cs i) = true) :
    nameErrors cs (combs.map (fun c => (c, some (f c)))) = .ok (combs.map (fun c => (c.map (nameOf cs)).zip (f c))) := by
  induction combs with
  | nil => rfl
  | cons c combs ih =>
    obtain ⟨h3, x, y, z, hf⟩ := hl c List.mem_cons_self
    simp only [List.map_cons, nameErrors, hf]
    have hv : [valueOf 0 (some [x, y, z]), valueOf 1 (some [x, y, z]), valueOf 2 (some [x, y, z])] = [x, y, z] := by simp [valueOf]
    rw [hv]
    unfold inner
    rw [if_pos (by
      rw [List.all_eq_true]
      intro q hq
      obtain ⟨i, hi, rfl⟩ := List.mem_map.mp hq
      exact hn c List.mem_cons_self i hi), if_pos (by simp [h3])]
    simp only
    rw [ih (fun c hc => hl c (List.mem_cons_of_mem _ hc)) (fun c hc => hn c (List.mem_cons_of_mem _ hc))]

/-- naming fails if a name is illegal -/
theorem nameErrors_illegal (cs : List Column) (f : List ℕ → List (Option ℝ)) (combs : List (List ℕ)) (hl : ∀ c ∈ combs, c.length = 3)
    (hn : ∃ c ∈ combs, ∃ i ∈ c, tupleField (nameOf cs i) = false) :
    nameErrors cs (combs.map (fun c => (c, some (f c)))) = .error .valueError := by
  induction combs with
  | nil => simp at hn
  | cons c combs ih =>
    have h3 := hl c List.mem_cons_self
    simp only [List.map_cons, nameErrors]
    by_cases hall : (c.map (nameOf cs)).all tupleField = true
    · unfold inner
      rw [if_pos hall, if_pos (by simp [h3])]
      simp only
      rw [ih (fun c hc => hl c (List.mem_cons_of_mem _ hc)) ?_]
      obtain ⟨c', hc', i, hi, hf⟩ := hn
      rcases List.mem_cons.mp hc' with rfl | hc'
      · rw [List.all_eq_true] at hall
        rw [hall _ (List.mem_map_of_mem hi)] at hf
        simp at hf
      · exact ⟨c', hc', i, hi, hf⟩
    · unfold inner
      rw [if_neg hall]

theorem nameOf_nodup (cs : List Column) (h : (cs.map (fun c => c.name)).Nodup) (i j : ℕ) (hi : i < cs.length) (hj : j < cs.length)
    (he : nameOf cs i = nameOf cs j) : i = j := by
  rw [nameOf_eq cs i _ (List.getElem?_eq_getElem hi), nameOf_eq cs j _ (List.getElem?_eq_getElem hj)] at he
  have := (List.nodup_iff_injective_get.mp h) (a₁ := ⟨i, by simpa using hi⟩) (a₂ := ⟨j, by simpa using hj⟩) (by simpa using he)
  simpa using this

theorem numeric_names (df : List Column) (h : (df.map (fun c => c.name)).Nodup) : ((numericCols df).map (fun c => c.name)).Nodup :=
  h.sublist ((List.filter_sublist).map _)

/-- the triples of names are distinct -/
theorem names_distinct (cs : List Column) (h : (cs.map (fun c => c.name)).Nodup) (combs : List (List ℕ)) (hc : combs.Nodup)
    (hlt : ∀ c ∈ combs, ∀ i ∈ c, i < cs.length) : (combs.map (fun c => c.map (nameOf cs))).Nodup := by
  refine List.Nodup.map_on ?_ hc
  intro x hx y hy he
  have : ∀ x y : List ℕ, (∀ i ∈ x, i < cs.length) → (∀ i ∈ y, i < cs.length) → x.map (nameOf cs) = y.map (nameOf cs) → x = y := by
    intro x
    induction x with
    | nil => intro y _ _ he; simpa using he.symm
    | cons i x ih =>
      intro y hx hy he
      cases y with
      | nil => simp at he
      | cons j y =>
        simp only [List.map_cons, List.cons.injEq] at he
        rw [nameOf_nodup cs h i j (hx i (by simp)) (hy j (by simp)) he.1,
          ih y (fun i hi => hx i (List.mem_cons_of_mem _ hi)) (fun i hi => hy i (List.mem_cons_of_mem _ hi)) he.2]
  exact this x y (hlt x hx) (hlt y hy) he

theorem getElem?_lt {α : Type} {l : List α} {i : ℕ} {a : α} (h : l[i]? = some a) : i < l.length := by
  by_contra hc
  rw [List.getElem?_eq_none (not_lt.mp hc)] at h
  simp at h

/-- **C115, `tcol_error`.** There is one tuple for every three numeric columns of the frame, in the order of the columns; the field with the name of
a column holds the error estimate of this column from the collocated observations of the three. -/
theorem tcol_error_df_partial (df : List Column) (N : ℕ) (hK : 3 ≤ (numericCols df).length) (hg : Gapless df N)
    (hd : (df.map (fun c => c.name)).Nodup) (hn : ∀ c ∈ df, c.numeric → tupleField c.name = true) :
    ∃ res, tcolErrorDf df N = .ok res ∧ (res.map (fun t => t.map Prod.fst)).Nodup ∧
      ∀ t, t ∈ res ↔ ∃ a b c, Three (numericCols df) a b c ∧
        t = [(a.name, some (tcolError (collocated N a b c) 0)), (b.name, some (tcolError (collocated N a b c) 1)),
          (c.name, some (tcolError (collocated N a b c) 2))] := by
  unfold tcolErrorDf
  simp only
  rw [tcol_error_eval df N hK hg]
  set cs := numericCols df with hcs
  have hlegal : ∀ i < cs.length, tupleField (nameOf cs i) = true := by
    intro i hi
    rw [nameOf_eq cs i _ (List.getElem?_eq_getElem hi)]
    have := List.mem_filter.mp (List.getElem_mem hi)
    exact hn _ this.1 this.2
  have hmem : ∀ c, c ∈ nCombinations (List.range cs.length) 3 .none (!true) ↔ IsTriple cs.length c := by
    intro c
    rw [mem_tripleCombs]
    simp [MustInclude.elements]
  simp only [List.map_map]
  have hok := nameErrors_ok cs (errorValues cs N) (nCombinations (List.range cs.length) 3 .none (!true))
    (fun c hc => ⟨((hmem c).mp hc).1, _, _, _, rfl⟩) (fun c hc i hi => hlegal i (((hmem c).mp hc).2.2 i hi))
  refine ⟨_, hok, ?_, ?_⟩
  · rw [List.map_map]
    have : ((nCombinations (List.range cs.length) 3 .none (!true)).map ((fun t : List (Col × Option ℝ) => t.map Prod.fst) ∘
        fun c => (c.map (nameOf cs)).zip (errorValues cs N c))) = (nCombinations (List.range cs.length) 3 .none (!true)).map (fun c => c.map (nameOf cs)) := by
      apply List.map_congr_left
      intro c hc
      simp only [Function.comp_apply]
      rw [List.map_fst_zip]
      simp [errorValues, ((hmem c).mp hc).1]
    rw [this]
    refine names_distinct cs (numeric_names df hd) _ ?_ (fun c hc => ((hmem c).mp hc).2.2)
    unfold nCombinations
    exact (combinations_nodup _ _ List.nodup_range).filter _
  · intro t
    rw [List.mem_map]
    constructor
    · rintro ⟨c, hc, rfl⟩
      obtain ⟨i, j, k, rfl, hij, hjk, hk⟩ := isTriple_eq _ c ((hmem c).mp hc)
      have ei := List.getElem?_eq_getElem (l := cs) (i := i) (by omega)
      have ej := List.getElem?_eq_getElem (l := cs) (i := j) (by omega)
      have ek := List.getElem?_eq_getElem (l := cs) (i := k) hk
      refine ⟨_, _, _, ⟨i, j, k, hij, hjk, ei, ej, ek⟩, ?_⟩
      simp only [errorValues, List.map_cons, List.map_nil, nameOf_eq _ _ _ ei, nameOf_eq _ _ _ ej, nameOf_eq _ _ _ ek, List.getD_cons_zero,
        List.getD_cons_succ, triple_collocated cs N i j k _ _ _ ei ej ek]
      rfl
    · rintro ⟨a, b, c, ⟨i, j, k, hij, hjk, ei, ej, ek⟩, rfl⟩
      have hk := getElem?_lt ek
      refine ⟨[i, j, k], (hmem _).mpr ⟨rfl, ?_, ?_⟩, ?_⟩
      · simp; omega
      · simp; omega
      · simp only [errorValues, List.map_cons, List.map_nil, nameOf_eq _ _ _ ei, nameOf_eq _ _ _ ej, nameOf_eq _ _ _ ek, List.getD_cons_zero,
          List.getD_cons_succ, triple_collocated cs N i j k _ _ _ ei ej ek]
        rfl

/-- every column number belongs to a triple -/
theorem in_some_triple (K i : ℕ) (hK : 3 ≤ K) (hi : i < K) : ∃ c, IsTriple K c ∧ i ∈ c := by
  rcases Nat.lt_or_ge i 3 with h | h
  · refine ⟨[0, 1, 2], ⟨rfl, by decide, ?_⟩, ?_⟩
    · simp; omega
    · simp; omega
  · refine ⟨[0, 1, i], ⟨rfl, ?_, ?_⟩, by simp⟩
    · simp; omega
    · simp; omega

/-- **C115 fails** for column names that are no legal names of fields (numbers, names with blanks, dots or dashes, keywords, a leading underscore):
`tcol_error` raises ValueError, whatever the other columns are. -/
theorem tcol_error_illegal_name (df : List Column) (N : ℕ) (hK : 3 ≤ (numericCols df).length) (hg : Gapless df N)
    (c : Column) (hc : c ∈ df) (hnum : c.numeric = true) (hn : tupleField c.name = false) : tcolErrorDf df N = .error .valueError := by
  unfold tcolErrorDf
  simp only
  rw [tcol_error_eval df N hK hg]
  set cs := numericCols df with hcs
  have hmem : ∀ c, c ∈ nCombinations (List.range cs.length) 3 .none (!true) ↔ IsTriple cs.length c := by
    intro c
    rw [mem_tripleCombs]
    simp [MustInclude.elements]
  simp only [List.map_map]
  have hin : c ∈ cs := List.mem_filter.mpr ⟨hc, hnum⟩
  obtain ⟨i, hi, rfl⟩ := List.getElem_of_mem hin
  obtain ⟨t, ht, hit⟩ := in_some_triple cs.length i hK hi
  exact nameErrors_illegal cs (errorValues cs N) _ (fun c hc => ((hmem c).mp hc).1)
    ⟨t, (hmem t).mpr ht, i, hit, by rw [nameOf_eq cs i _ (List.getElem?_eq_getElem hi)]; exact hn⟩

/-! ### `tcol_metrics` -/

theorem nameMetrics_ok (cs : List Column) (f : List ℕ → List TcolOut) (combs : List (List ℕ)) (hl : ∀ c ∈ combs, c.length = 3)
    (hn : ∀ c ∈ combs, ∀ i ∈ c, tupleField (nameOf cs i) = true) :
    nameMetrics cs (combs.map (fun c => (c, some (f c)))) =
      .ok (combs.map (fun c => (c.map (nameOf cs)).zip [oneOf (f c) 0, oneOf (f c) 1, oneOf (f c) 2])) := by
  induction combs with
  | nil => rfl
  | cons c combs ih =>
    have h3 := hl c List.mem_cons_self
    simp only [List.map_cons, nameMetrics]
    unfold inner
    rw [if_pos (by
      rw [List.all_eq_true]
      intro q hq
      obtain ⟨i, hi, rfl⟩ := List.mem_map.mp hq
      exact hn c List.mem_cons_self i hi), if_pos (by simp [h3])]
    simp only
    rw [ih (fun c hc => hl c (List.mem_cons_of_mem _ hc)) (fun c hc => hn c (List.mem_cons_of_mem _ hc))]

theorem nameMetrics_illegal (cs : List Column) (f : List ℕ → List TcolOut) (combs : List (List ℕ)) (hl : ∀ c ∈ combs, c.length = 3)
    (hn : ∃ c ∈ combs, ∃ i ∈ c, tupleField (nameOf cs i) = false) :
    nameMetrics cs (combs.map (fun c => (c, some (f c)))) = .error .valueError := by
  induction combs with
  | nil => simp at hn
  | cons c combs ih =>
    have h3 := hl c List.mem_cons_self
    simp only [List.map_cons, nameMetrics]
    by_cases hall : (c.map (nameOf cs)).all tupleField = true
    · unfold inner
      rw [if_pos hall, if_pos (by simp [h3])]
      simp only
      rw [ih (fun c hc => hl c (List.mem_cons_of_mem _ hc)) ?_]
      obtain ⟨c', hc', i, hi, hf⟩ := hn
      rcases List.mem_cons.mp hc' with rfl | hc'
      · rw [List.all_eq_true] at hall
        rw [hall _ (List.mem_map_of_mem hi)] at hf
        simp at hf
      · exact ⟨c', hc', i, hi, hf⟩
    · unfold inner
      rw [if_neg hall]

theorem metrics_eval (df : List Column) (N : ℕ) (hK : 3 ≤ (numericCols df).length) (hg : Gapless df N) (mi : MustInclude) (ref : ℕ) (href : ref < 3) :
    nwiseApply Option.isSome Option.isNone (tcolMethod 0) (tcolMethod ref) (matOf (numericCols df)) (numericCols df).length N 3 true mi =
      .ok ((nCombinations (List.range (numericCols df).length) 3 mi (!true)).map
        (fun c => (c, some (tripleValue (matOf (numericCols df)) N ⟨ref, href⟩ c)))) := by
  obtain ⟨r0, hr0, h0⟩ := matOf_row hg (by omega)
  rw [tcol_df_eval _ _ N hK mi ref href (fun i j r hi hj hr => matOf_uniform hg i j r hi hj hr) r0 hr0 h0, List.map_map]
  rfl

/-- the values of one data set -/
noncomputable def valuesOf (rows : List Verif.Tcol.Row) (ref i : Fin 3) : TcolOne :=
  ((tcolMetrics rows ref).snr i, (tcolMetrics rows ref).errStd i, (tcolMetrics rows ref).beta i)

/-- **C115, `tcol_metrics`.** For `ref_ind=None`, and for a reference number below 3: one tuple for every three numeric columns (that contain the
numeric column `ref_ind`), in the order of the columns; the field with the name of a column holds the values of this column. The reference of a triple
is the one at place `ref_ind` of the triple. -/
theorem tcol_metrics_df_partial (df : List Column) (N : ℕ) (hK : 3 ≤ (numericCols df).length) (hg : Gapless df N)
    (hd : (df.map (fun c => c.name)).Nodup) (hn : ∀ c ∈ df, c.numeric → tupleField c.name = true) (ref : Option ℕ) (href : ref.getD 0 < 3) :
    ∃ res, tcolMetricsFrame df N ref = .ok res ∧ (res.map (fun t => t.map Prod.fst)).Nodup ∧
      ∀ t, t ∈ res ↔ ∃ a b c, Three (numericCols df) a b c ∧ (∀ r x, ref = some r → (numericCols df)[r]? = some x → x.name ∈ [a.name, b.name, c.name]) ∧
        t = [(a.name, some (valuesOf (collocated N a b c) ⟨ref.getD 0, href⟩ 0)), (b.name, some (valuesOf (collocated N a b c) ⟨ref.getD 0, href⟩ 1)),
          (c.name, some (valuesOf (collocated N a b c) ⟨ref.getD 0, href⟩ 2))] := by
  obtain ⟨mi, hmi, hmi2⟩ : ∃ mi : MustInclude, tcolMetricsFrame df N ref =
      (match nwiseApply Option.isSome Option.isNone (tcolMethod 0) (tcolMethod (ref.getD 0)) (matOf (numericCols df)) (numericCols df).length N 3 true mi with
        | .error e => .error e
        | .ok res => nameMetrics (numericCols df) res) ∧ (∀ c : List ℕ, (∀ x ∈ mi.elements, x ∈ c) ↔ ∀ r, ref = some r → r ∈ c) := by
    cases ref with
    | none => exact ⟨.none, rfl, by simp [MustInclude.elements]⟩
    | some r => exact ⟨.list [r], rfl, by simp [MustInclude.elements]⟩
  rw [hmi, metrics_eval df N hK hg mi (ref.getD 0) href]
  set cs := numericCols df with hcs
  have hlegal : ∀ i < cs.length, tupleField (nameOf cs i) = true := by
    intro i hi
    rw [nameOf_eq cs i _ (List.getElem?_eq_getElem hi)]
    have := List.mem_filter.mp (List.getElem_mem hi)
    exact hn _ this.1 this.2
  have hmem : ∀ c, c ∈ nCombinations (List.range cs.length) 3 mi (!true) ↔ IsTriple cs.length c ∧ ∀ r, ref = some r → r ∈ c := by
    intro c
    rw [mem_tripleCombs, hmi2]
  have hok := nameMetrics_ok cs (tripleValue (matOf cs) N ⟨ref.getD 0, href⟩) (nCombinations (List.range cs.length) 3 mi (!true))
    (fun c hc => ((hmem c).mp hc).1.1) (fun c hc i hi => hlegal i (((hmem c).mp hc).1.2.2 i hi))
  refine ⟨_, hok, ?_, ?_⟩
  · rw [List.map_map]
    have : ((nCombinations (List.range cs.length) 3 mi (!true)).map ((fun t : List (Col × Option TcolOne) => t.map Prod.fst) ∘
        fun c => (c.map (nameOf cs)).zip [oneOf (tripleValue (matOf cs) N ⟨ref.getD 0, href⟩ c) 0, oneOf (tripleValue (matOf cs) N ⟨ref.getD 0, href⟩ c) 1,
          oneOf (tripleValue (matOf cs) N ⟨ref.getD 0, href⟩ c) 2])) =
        (nCombinations (List.range cs.length) 3 mi (!true)).map (fun c => c.map (nameOf cs)) := by
      apply List.map_congr_left
      intro c hc
      simp only [Function.comp_apply]
      rw [List.map_fst_zip]
      simp [((hmem c).mp hc).1.1]
    rw [this]
    refine names_distinct cs (numeric_names df hd) _ ?_ (fun c hc => ((hmem c).mp hc).1.2.2)
    unfold nCombinations
    exact (combinations_nodup _ _ List.nodup_range).filter _
  · intro t
    rw [List.mem_map]
    have hone : ∀ (c : List ℕ) (i : Fin 3), oneOf (tripleValue (matOf cs) N ⟨ref.getD 0, href⟩ c) i =
        some (valuesOf (triple (matOf cs) N (c.getD 0 0) (c.getD 1 0) (c.getD 2 0)) ⟨ref.getD 0, href⟩ i) := fun _ _ => rfl
    constructor
    · rintro ⟨c, hc, rfl⟩
      obtain ⟨hc1, hc2⟩ := (hmem c).mp hc
      obtain ⟨i, j, k, rfl, hij, hjk, hk⟩ := isTriple_eq _ c hc1
      have ei := List.getElem?_eq_getElem (l := cs) (i := i) (by omega)
      have ej := List.getElem?_eq_getElem (l := cs) (i := j) (by omega)
      have ek := List.getElem?_eq_getElem (l := cs) (i := k) hk
      refine ⟨_, _, _, ⟨i, j, k, hij, hjk, ei, ej, ek⟩, ?_, ?_⟩
      · intro r x hr hx
        have := hc2 r hr
        simp only [List.mem_cons, List.not_mem_nil, or_false] at this ⊢
        rcases this with rfl | rfl | rfl
        · rw [ei] at hx; simp [Option.some.inj hx]
        · rw [ej] at hx; simp [Option.some.inj hx]
        · rw [ek] at hx; simp [Option.some.inj hx]
      · simp only [hone, List.map_cons, List.map_nil, nameOf_eq _ _ _ ei, nameOf_eq _ _ _ ej, nameOf_eq _ _ _ ek, List.getD_cons_zero,
          List.getD_cons_succ, triple_collocated cs N i j k _ _ _ ei ej ek]
        rfl
    · rintro ⟨a, b, c, ⟨i, j, k, hij, hjk, ei, ej, ek⟩, hr, rfl⟩
      have hk := getElem?_lt ek
      refine ⟨[i, j, k], (hmem _).mpr ⟨⟨rfl, ?_, ?_⟩, ?_⟩, ?_⟩
      · simp; omega
      · simp; omega
      · intro r hrr
        have hr3 : r < 3 := by rw [hrr] at href; simpa using href
        have hrc : r < cs.length := by omega
        have hx := hr r _ hrr (List.getElem?_eq_getElem hrc)
        rw [← nameOf_eq cs r _ (List.getElem?_eq_getElem hrc), ← nameOf_eq cs i _ ei, ← nameOf_eq cs j _ ej, ← nameOf_eq cs k _ ek] at hx
        simp only [List.mem_cons, List.not_mem_nil, or_false] at hx ⊢
        have nd := nameOf_nodup cs (numeric_names df hd)
        rcases hx with h | h | h
        · exact .inl (nd _ _ hrc (by omega) h)
        · exact .inr (.inl (nd _ _ hrc (by omega) h))
        · exact .inr (.inr (nd _ _ hrc hk h))
      · simp only [hone, List.map_cons, List.map_nil, nameOf_eq _ _ _ ei, nameOf_eq _ _ _ ej, nameOf_eq _ _ _ ek, List.getD_cons_zero,
          List.getD_cons_succ, triple_collocated cs N i j k _ _ _ ei ej ek]
        rfl

/-- **C115 fails** for illegal names also in `tcol_metrics` with `ref_ind=None`. -/
theorem tcol_metrics_illegal_name (df : List Column) (N : ℕ) (hK : 3 ≤ (numericCols df).length) (hg : Gapless df N)
    (c : Column) (hc : c ∈ df) (hnum : c.numeric = true) (hn : tupleField c.name = false) : tcolMetricsFrame df N none = .error .valueError := by
  unfold tcolMetricsFrame
  simp only [Option.getD_none]
  rw [metrics_eval df N hK hg .none 0 (by omega)]
  set cs := numericCols df with hcs
  have hmem : ∀ c, c ∈ nCombinations (List.range cs.length) 3 .none (!true) ↔ IsTriple cs.length c := by
    intro c
    rw [mem_tripleCombs]
    simp [MustInclude.elements]
  have hin : c ∈ cs := List.mem_filter.mpr ⟨hc, hnum⟩
  obtain ⟨i, hi, rfl⟩ := List.getElem_of_mem hin
  obtain ⟨t, ht, hit⟩ := in_some_triple cs.length i hK hi
  exact nameMetrics_illegal cs _ _ (fun c hc => ((hmem c).mp hc).1)
    ⟨t, (hmem t).mpr ht, i, hit, by rw [nameOf_eq cs i _ (List.getElem?_eq_getElem hi)]; exact hn⟩

/-- **C115 fails**: a `ref_ind` that is not the number of a numeric column, for instance the last one of a frame with a text column, gives no results
at all and no exception. -/
theorem reference_beyond_numeric (df : List Column) (N r : ℕ) (hK : 3 ≤ (numericCols df).length) (hr : (numericCols df).length ≤ r) :
    tcolMetricsFrame df N (some r) = .ok [] := by
  unfold tcolMetricsFrame nwiseApply
  simp only [Option.getD_some]
  set cs := numericCols df
  have hnil : nCombinations (List.range cs.length) 3 (.list [r]) (!true) = [] := by
    rw [List.eq_nil_iff_forall_not_mem]
    intro c hc
    obtain ⟨h1, h2⟩ := (mem_tripleCombs cs.length _ c).mp hc
    have := h1.2.2 r (h2 r (by simp [MustInclude.elements]))
    omega
  rw [hnil, if_neg (by omega)]
  have h3 : (List.range 3).map (matOf cs) = [matOf cs 0, matOf cs 1, matOf cs 2] := rfl
  rw [h3]
  simp only [arrayDropna, List.map_cons, List.map_nil]
  have hprobe : ∀ x y z : List (Option ℝ), ∃ c0, tcolMethod 0 [x, y, z] = .ok c0 := by
    intro x y z
    unfold tcolMethod
    simp only
    rw [dif_pos (by omega)]
    split <;> exact ⟨_, rfl⟩
  obtain ⟨c0, hc0⟩ := hprobe _ _ _
  rw [hc0]
  rfl

example : tcolMetricsFrame [⟨.str "station".toList, false, fun _ => none⟩, ⟨.str "u".toList, true, fun r => some r⟩, ⟨.str "v".toList, true, fun r => some r⟩,
    ⟨.str "w".toList, true, fun r => some r⟩] 5 (some 3) = .ok [] := reference_beyond_numeric _ 5 3 (by decide) (by decide)

/-- columns without numbers are ignored, also for counting the reference -/
theorem other_columns_ignored (df : List Column) (N : ℕ) (ref : Option ℕ) :
    tcolErrorDf df N = tcolErrorDf (numericCols df) N ∧ tcolMetricsFrame df N ref = tcolMetricsFrame (numericCols df) N ref := by
  have h : numericCols (numericCols df) = numericCols df := by
    unfold numericCols
    rw [List.filter_filter]
    simp
  unfold tcolErrorDf tcolMetricsFrame
  rw [h]
  exact ⟨rfl, rfl⟩

/-- a text column and three numeric columns `u`, `v`, `w` with twice the values in `v` -/
def textFrame : List Column := [⟨.str "station".toList, false, fun _ => none⟩, ⟨.str "u".toList, true, fun r => some r⟩,
  ⟨.str "v".toList, true, fun r => some (2 * r)⟩, ⟨.str "w".toList, true, fun r => some r⟩]

theorem textFrame_numeric : numericCols textFrame = [⟨.str "u".toList, true, fun r => some r⟩,
    ⟨.str "v".toList, true, fun r => some (2 * r)⟩, ⟨.str "w".toList, true, fun r => some r⟩] := rfl

theorem textFrame_gapless : Gapless textFrame 2 := by
  have hs : ∀ a ∈ textFrame, a.numeric = true → ∀ r, (a.vals r).isSome = true := by
    intro a ha hn r
    simp only [textFrame, List.mem_cons, List.not_mem_nil, or_false] at ha
    rcases ha with rfl | rfl | rfl | rfl
    · simp at hn
    · rfl
    · rfl
    · rfl
  exact ⟨fun a ha b hb hna hnb r _ => by rw [hs a ha hna, hs b hb hnb], ⟨0, by omega, fun a ha hn => hs a ha hn 0⟩⟩

theorem textFrame_legal : ∀ c ∈ textFrame, c.numeric → tupleField c.name = true := by
  intro c hc _
  simp only [textFrame, List.mem_cons, List.not_mem_nil, or_false] at hc
  rcases hc with rfl | rfl | rfl | rfl <;> decide

theorem textFrame_names : (textFrame.map (fun c => c.name)).Nodup := by decide

/-- **C115 fails**: `ref_ind` does not count the columns of the frame. In a frame with a text column first, `ref_ind=1` is the column `u` of the frame,
but the scaling coefficient of `u` is 2: the reference was `v`. -/
theorem text_column_shifts_reference :
    (textFrame[1]?).map (fun c => c.name) = some (.str "u".toList) ∧
    ∃ res t v, tcolMetricsFrame textFrame 2 (some 1) = .ok res ∧ t ∈ res ∧ (Col.str "u".toList, some v) ∈ t ∧ v.2.2 = 2 := by
  refine ⟨rfl, ?_⟩
  obtain ⟨res, h1, -, h3⟩ := tcol_metrics_df_partial textFrame 2 (by rw [textFrame_numeric]; decide) textFrame_gapless textFrame_names textFrame_legal
    (some 1) (by decide)
  refine ⟨res, _, _, h1, (h3 _).mpr ⟨⟨.str "u".toList, true, fun r => some r⟩, ⟨.str "v".toList, true, fun r => some (2 * r)⟩,
    ⟨.str "w".toList, true, fun r => some r⟩, ⟨0, 1, 2, by decide, by decide, rfl, rfl, rfl⟩, ?_, rfl⟩, List.mem_cons_self, ?_⟩
  · intro r x hr hx
    obtain rfl := Option.some.inj hr
    rw [textFrame_numeric] at hx
    obtain rfl := Option.some.inj hx
    simp
  · have ht : collocated 2 ⟨.str "u".toList, true, fun r => some r⟩ ⟨.str "v".toList, true, fun r => some (2 * r)⟩ ⟨.str "w".toList, true, fun r => some r⟩ =
        [![0, 0, 0], ![1, 2, 1]] := by
      simp [collocated, List.range_succ]
    have ho : Verif.Tcol.otherInd 1 0 = 2 := by decide
    simp only [valuesOf, ht]
    have h01 : (⟨Option.getD (some 1) 0, by decide⟩ : Fin 3) = 1 := rfl
    rw [h01]
    simp [Verif.Tcol.tcolMetrics, Verif.Tcol.tcolMetricsFromCov, ho, Verif.Tcol.npCov, Verif.Tcol.avg]
    norm_num

/-- the theorems applied to the frame above, and to the same frame with a column that has the name of a keyword -/
example := tcol_error_df_partial textFrame 2 (by rw [textFrame_numeric]; decide) textFrame_gapless textFrame_names textFrame_legal
example : tupleField (.str "class".toList) = false ∧ tupleField (.str "sm.1".toList) = false ∧ tupleField (.other 3) = false ∧
    tupleField (.str "_sm".toList) = false ∧ tupleField (.str "sm_1".toList) = true := by decide
example : tcolErrorDf [⟨.other 0, true, fun r => some r⟩, ⟨.other 1, true, fun r => some r⟩, ⟨.other 2, true, fun r => some r⟩] 5 = .error .valueError := by
  refine tcol_error_illegal_name _ 5 (by decide) ⟨?_, ⟨0, by omega, ?_⟩⟩ ⟨.other 0, true, fun r => some r⟩ (by simp) rfl rfl
  · intro a ha b hb _ _ r _
    simp only [List.mem_cons, List.not_mem_nil, or_false] at ha hb
    rcases ha with rfl | rfl | rfl <;> rcases hb with rfl | rfl | rfl <;> rfl
  · intro a ha _
    simp only [List.mem_cons, List.not_mem_nil, or_false] at ha
    rcases ha with rfl | rfl | rfl <;> rfl

end Verif.DfMetrics
