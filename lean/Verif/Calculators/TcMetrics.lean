import Verif.Calculators.Inter

/-! C57: `TCMetrics` stores the triple collocation metrics with the names of the three data sets. -/

set_option linter.unusedSectionVars false
set_option synthInstance.maxSize 1000

namespace Verif.Calculators

variable {K : Type}

/-! ### Specification -/

/-- the name of the result: `metric_x_between_a_and_b_and_c` -/
def tripleName (m : String) (x a b c : Name) : Key :=
  .name ((m.toList ++ '_' :: x) ++ "_between_".toList ++ (a ++ "_and_".toList ++ (b ++ "_and_".toList ++ c)))

/-- the metric by its name -/
def Tc.named (t : Tc K) (m : String) (i : ℕ) : Option K := if m = "snr" then t.snr i else if m = "err_std" then t.errStd i else t.beta i

/-! ### Assignments that succeed -/

theorem writes_reports (fields : Dict K) (info : Info K) (s : Val K) (t : Dict K) (hn : (t.map Prod.fst).Nodup) (hr : ∀ k ∈ t.map Prod.fst, k ∉ reserved)
    (hf : FieldsOk fields (t.map Prod.fst)) (d : Dict K) (hd : Reports fields info s t d) (ws vals : Dict K) (hwn : (ws.map Prod.fst).Nodup)
    (hws : ∀ w ∈ ws, w.1 ∈ t.map Prod.fst) (s' : Val K) (hkeys : vals.map Prod.fst = t.map Prod.fst)
    (hvals : ∀ e ∈ vals, e ∈ ws ∨ (e.1 ∉ ws.map Prod.fst ∧ e ∈ t)) :
    ∃ d', setAll d (ws ++ [(key "status", s')]) = .ok d' ∧ Reports fields info s' vals d' := by
  refine setAll_reports fields info s t hr hf d hd _ s' vals ?_ ?_ hkeys ?_
  · intro w hw
    rcases List.mem_append.mp hw with h | h
    · exact Or.inr (hws w h)
    · left; rw [List.mem_singleton] at h; rw [h]
  · rw [List.reverse_append]
    rfl
  · intro e he
    have hes : e.1 ≠ key "status" := by
      intro h
      refine hr e.1 (hkeys ▸ List.mem_map.mpr ⟨e, he, rfl⟩) ?_
      rw [h]; decide
    have hb : (e.1 == key "status") = false := by simpa using hes
    rw [List.reverse_append, List.reverse_singleton, List.singleton_append, List.lookup_cons, hb, lookup_reverse _ hwn]
    simp only
    rcases hvals e he with h | ⟨h1, h2⟩
    · rw [lookup_of_nodup ws hwn e h]; rfl
    · rw [(lookup_none_iff ws e.1).mpr h1, Option.none_or, lookup_of_nodup t hn e h2]

theorem setIf_eq (ws : List (Key × Val K)) (d : Dict K) : setAll d (ws.filter (fun w => decide (w.1 ∈ d.map Prod.fst))) = .ok (ws.foldl setIf d) := by
  induction ws generalizing d with
  | nil => rfl
  | cons w ws ih =>
    rw [List.filter_cons, List.foldl_cons]
    by_cases h : w.1 ∈ d.map Prod.fst
    · rw [if_pos (by simpa using h)]
      have h1 : setIf d w = put d w.1 w.2 := if_pos h
      have hk := keys_put_mem d w.1 w.2 h
      have := ih (put d w.1 w.2)
      rw [hk] at this
      rw [h1, ← this]
      unfold setAll
      rw [List.foldlM_cons, set_ok d w h]
      rfl
    · rw [if_neg (by simpa using h)]
      have h1 : setIf d w = d := if_neg h
      rw [h1]
      exact ih d

/-! ### Triples -/

theorem triplesOf_map {α β : Type} (f : α → β) (l : List α) : triplesOf (l.map f) = (triplesOf l).map (fun p => (f p.1, f p.2.1, f p.2.2)) := by
  induction l with
  | nil => rfl
  | cons a l ih => simp only [List.map_cons, triplesOf, ih, pairsOf_map, List.map_append, List.map_map]; rfl

theorem pairsOf_sublist {α : Type} (l : List α) (p : α × α) (h : p ∈ pairsOf l) : [p.1, p.2].Sublist l := by
  induction l with
  | nil => simp [pairsOf] at h
  | cons a l ih =>
    rw [pairsOf, List.mem_append] at h
    rcases h with h | h
    · obtain ⟨b, hb, rfl⟩ := List.mem_map.mp h
      exact (List.singleton_sublist.mpr hb).cons_cons a
    · exact (ih h).cons a

theorem triplesOf_sublist {α : Type} (l : List α) (p : α × α × α) (h : p ∈ triplesOf l) : [p.1, p.2.1, p.2.2].Sublist l := by
  induction l with
  | nil => simp [triplesOf] at h
  | cons a l ih =>
    rw [triplesOf, List.mem_append] at h
    rcases h with h | h
    · obtain ⟨b, hb, rfl⟩ := List.mem_map.mp h
      exact (pairsOf_sublist l b hb).cons_cons a
    · exact (ih h).cons a

theorem triplesOf_nodup {α : Type} (l : List α) (h : l.Nodup) : (triplesOf l).Nodup := by
  induction l with
  | nil => exact List.nodup_nil
  | cons a l ih =>
    rw [List.nodup_cons] at h
    rw [triplesOf, List.nodup_append]
    refine ⟨(pairsOf_nodup l h.2).map (fun x y hxy => by simpa using hxy), ih h.2, ?_⟩
    intro x hx y hy hxy
    obtain ⟨b, _, rfl⟩ := List.mem_map.mp hx
    subst hxy
    exact h.1 ((triplesOf_sublist l _ hy).subset (by simp))

/-- the triples with the first element -/
theorem triples_first (a : Name × Name) (P : List (Name × Name)) (hn : ((a :: P).map Prod.fst).Nodup) :
    (triplesOf (a :: P)).filter (fun p => decide (p.1.1 = a.1) || decide (p.2.1.1 = a.1) || decide (p.2.2.1 = a.1)) = (pairsOf P).map (fun q => (a, q)) := by
  rw [triplesOf, List.filter_append]
  have h1 : ((pairsOf P).map (fun b => (a, b))).filter (fun p => decide (p.1.1 = a.1) || decide (p.2.1.1 = a.1) || decide (p.2.2.1 = a.1)) =
      (pairsOf P).map (fun q => (a, q)) := by
    rw [List.filter_eq_self]
    intro p hp
    obtain ⟨b, _, rfl⟩ := List.mem_map.mp hp
    simp
  have h2 : (triplesOf P).filter (fun p => decide (p.1.1 = a.1) || decide (p.2.1.1 = a.1) || decide (p.2.2.1 = a.1)) = [] := by
    rw [List.filter_eq_nil_iff]
    intro p hp
    have hs := (triplesOf_sublist P p hp).subset
    rw [List.map_cons, List.nodup_cons] at hn
    have hne : ∀ e ∈ P, e.1 ≠ a.1 := fun e he h => hn.1 (h ▸ List.mem_map.mpr ⟨e, he, rfl⟩)
    simp [hne p.1 (hs (by simp)), hne p.2.1 (hs (by simp)), hne p.2.2 (hs (by simp))]
  rw [h1, h2, List.append_nil]

theorem filter_mem_sublist (l s : List Name) (hn : l.Nodup) (h : s.Sublist l) : l.filter (fun x => decide (x ∈ s)) = s := by
  induction h with
  | slnil => rfl
  | cons a h ih =>
    rw [List.nodup_cons] at hn
    rw [List.filter_cons, if_neg (by simpa using fun h' => hn.1 (h.subset h')), ih hn.2]
  | @cons_cons s l a h ih =>
    rw [List.nodup_cons] at hn
    rw [List.filter_cons, if_pos (by simp)]
    congr 1
    rw [← ih hn.2]
    apply List.filter_congr
    intro x hx
    have hxa : x ≠ a := fun h' => hn.1 (h' ▸ hx)
    rw [ih hn.2]
    simp [hxa]

theorem mapM_map_ok {α β γ : Type} (l : List α) (g : α → β) (f : β → Except Err γ) (h : α → γ) (hfg : ∀ x ∈ l, f (g x) = .ok (h x)) :
    (l.map g).mapM f = .ok (l.map h) := by
  induction l with
  | nil => rfl
  | cons x l ih =>
    rw [List.map_cons, List.mapM_cons, hfg x (by simp), ih (fun y hy => hfg y (List.mem_cons_of_mem _ hy))]
    rfl

/-! ### Names -/

/-- a data set name that cannot be confused with the separator before the names of a triple -/
def FreeB (x : Name) : Prop := Free sepBetween ('_' :: x)

instance (x : Name) : Decidable (FreeB x) := inferInstanceAs (Decidable (Free _ _))

theorem free_cons (c : Char) (x : Name) (hc : ¬ sepBetween <+: (c :: x) ++ sepBetween.dropLast) (h : Free sepBetween x) : Free sepBetween (c :: x) := by
  intro hi
  rw [List.cons_append, List.infix_cons_iff] at hi
  rcases hi with hi | hi
  · exact hc hi
  · exact h hi

/-- the metrics of triple collocation -/
def tcMetrics : List String := ["snr", "err_std", "beta"]

theorem tc_free (m : String) (hm : m ∈ tcMetrics) (x : Name) (h : FreeB x) : Free sepBetween (m.toList ++ '_' :: x) := by
  have h0 : Free sepBetween ('_' :: x) := h
  have hp : ∀ (c : Char) (y : Name), c ≠ '_' → Free sepBetween y → Free sepBetween (c :: y) := by
    intro c y hc hy
    refine free_cons c y ?_ hy
    intro hpre
    have hs : sepBetween = '_' :: "between_".toList := by decide
    rw [hs, List.cons_append, List.cons_prefix_cons] at hpre
    exact hc hpre.1.symm
  have hcases : m = "snr" ∨ m = "err_std" ∨ m = "beta" := by simpa [tcMetrics] using hm
  rcases hcases with rfl | rfl | rfl
  · show Free sepBetween ('s' :: 'n' :: 'r' :: '_' :: x)
    exact hp _ _ (by decide) (hp _ _ (by decide) (hp _ _ (by decide) h0))
  · show Free sepBetween ('e' :: 'r' :: 'r' :: '_' :: 's' :: 't' :: 'd' :: '_' :: x)
    refine hp _ _ (by decide) (hp _ _ (by decide) (hp _ _ (by decide) (free_cons _ _ ?_ (hp _ _ (by decide) (hp _ _ (by decide) (hp _ _ (by decide) h0))))))
    intro hpre
    have hs : sepBetween = '_' :: 'b' :: "etween_".toList := by decide
    rw [hs, List.cons_append, List.cons_prefix_cons, List.cons_append, List.cons_prefix_cons] at hpre
    exact absurd hpre.2.1 (by decide)
  · show Free sepBetween ('b' :: 'e' :: 't' :: 'a' :: '_' :: x)
    exact hp _ _ (by decide) (hp _ _ (by decide) (hp _ _ (by decide) (hp _ _ (by decide) h0)))

theorem tc_name_inj (m m' : String) (hm : m ∈ tcMetrics) (hm' : m' ∈ tcMetrics) (x x' : Name) (h : m.toList ++ '_' :: x = m'.toList ++ '_' :: x') : m = m' ∧ x = x' := by
  have c1 : m = "snr" ∨ m = "err_std" ∨ m = "beta" := by simpa [tcMetrics] using hm
  have c2 : m' = "snr" ∨ m' = "err_std" ∨ m' = "beta" := by simpa [tcMetrics] using hm'
  rcases c1 with rfl | rfl | rfl <;> rcases c2 with rfl | rfl | rfl <;> first
    | exact ⟨rfl, by simpa using h⟩
    | exact absurd h (by simp)

theorem tripleName_injective (m m' : String) (hm : m ∈ tcMetrics) (hm' : m' ∈ tcMetrics) (x x' a b c a' b' c' : Name) (hx : FreeB x) (hx' : FreeB x')
    (ha : Free sepAnd a) (ha' : Free sepAnd a') (hb : Free sepAnd b) (hb' : Free sepAnd b') (h : tripleName m x a b c = tripleName m' x' a' b' c') :
    m = m' ∧ x = x' ∧ a = a' ∧ b = b' ∧ c = c' := by
  have h1 : (m.toList ++ '_' :: x) ++ sepBetween ++ (a ++ sepAnd ++ (b ++ sepAnd ++ c)) =
      (m'.toList ++ '_' :: x') ++ sepBetween ++ (a' ++ sepAnd ++ (b' ++ sepAnd ++ c')) := Key.name.inj h
  obtain ⟨h2, h3⟩ := append_injective sepBetween sepBetween_ne _ _ _ _ (tc_free m hm x hx) (tc_free m' hm' x' hx') h1
  obtain ⟨h4, h5⟩ := append_injective sepAnd sepAnd_ne _ _ _ _ ha ha' h3
  obtain ⟨h6, h7⟩ := append_injective sepAnd sepAnd_ne _ _ _ _ hb hb' h5
  obtain ⟨h8, h9⟩ := tc_name_inj m m' hm hm' x x' h2
  exact ⟨h8, h9, h4, h6, h7⟩

theorem tripleName_ne_result (m m' : String) (hm : m ∈ tcMetrics) (hm' : m' ∈ tdsMetrics) (x a b c a' b' : Name) (hx : FreeB x) :
    tripleName m x a b c ≠ resultName m' a' b' := by
  intro h
  have h1 : (m.toList ++ '_' :: x) ++ sepBetween ++ (a ++ sepAnd ++ (b ++ sepAnd ++ c)) = m'.toList ++ sepBetween ++ (a' ++ sepAnd ++ b') := Key.name.inj h
  obtain ⟨h2, _⟩ := append_injective sepBetween sepBetween_ne _ _ _ _ (tc_free m hm x hx) (metrics_free m' hm') h1
  have h3 := congrArg List.head? h2
  have c1 : m = "snr" ∨ m = "err_std" ∨ m = "beta" := by simpa [tcMetrics] using hm
  have c2 : ∀ m' ∈ tdsMetrics, m'.toList.head? ≠ some 's' ∧ m'.toList.head? ≠ some 'e' ∧ m'.toList.head? ≠ some 'b' := by decide
  rcases c1 with rfl | rfl | rfl
  · exact (c2 m' hm').1 h3.symm
  · exact (c2 m' hm').2.1 h3.symm
  · exact (c2 m' hm').2.2 h3.symm

theorem tripleName_long (m : String) (x a b c : Name) (s : String) (h : s.length < 9) : tripleName m x a b c ≠ key s := by
  intro he
  have h1 := congrArg List.length (Key.name.inj he)
  have h2 : "_between_".toList.length = 9 := by decide
  simp only [List.length_append, h2, String.length_toList] at h1
  omega

/-! ### Entries -/

/-- the data sets of a triple with their positions, with or without the reference -/
def tNames (a : Name × Name) (q : Q) (forRef : Bool) : List (Name × ℕ) :=
  if forRef then [(a.2, 0), (q.1.2, 1), (q.2.2, 2)] else [(q.1.2, 1), (q.2.2, 2)]

/-- the entries of the triples of the reference `a` and the pairs `qs` -/
def tEntries (a : Name × Name) (qs : List Q) (forRef : Bool) (val : String → Q → ℕ → Option K) : Dict K :=
  qs.flatMap (fun q => tcMetrics.flatMap (fun m => (tNames a q forRef).map (fun ni => (tripleName m ni.1 a.2 q.1.2 q.2.2, Val.num (val m q ni.2)))))

theorem mem_tEntries (a : Name × Name) (qs : List Q) (forRef : Bool) (val : String → Q → ℕ → Option K) (e : Key × Val K) :
    e ∈ tEntries a qs forRef val ↔ ∃ q ∈ qs, ∃ m ∈ tcMetrics, ∃ ni ∈ tNames a q forRef, e = (tripleName m ni.1 a.2 q.1.2 q.2.2, .num (val m q ni.2)) := by
  simp only [tEntries, List.mem_flatMap, List.mem_map, eq_comm]

theorem tEntries_keys (a : Name × Name) (qs : List Q) (forRef : Bool) (val val' : String → Q → ℕ → Option K) :
    (tEntries a qs forRef val).map Prod.fst = (tEntries a qs forRef val').map Prod.fst := by
  unfold tEntries
  simp only [List.map_flatMap, List.map_map]
  rfl

section

variable (a : Name × Name) (P : List (Name × Name)) (hn : ((a :: P).map Prod.fst).Nodup) (hd : ((a :: P).map Prod.snd).Nodup)
  (hf : ∀ e ∈ a :: P, Free sepAnd e.1) (hfd : ∀ e ∈ a :: P, Free sepAnd e.2) (hfb : ∀ e ∈ a :: P, FreeB e.2)

theorem tNames_mem (q : Q) (hq : q ∈ pairsOf P) (forRef : Bool) (ni : Name × ℕ) (h : ni ∈ tNames a q forRef) : ∃ e ∈ a :: P, e.2 = ni.1 := by
  have hP := mem_of_pairsOf P q hq
  unfold tNames at h
  split_ifs at h
  · simp only [List.mem_cons, List.not_mem_nil, or_false] at h
    rcases h with rfl | rfl | rfl
    · exact ⟨a, by simp, rfl⟩
    · exact ⟨q.1, List.mem_cons_of_mem _ hP.1, rfl⟩
    · exact ⟨q.2, List.mem_cons_of_mem _ hP.2, rfl⟩
  · simp only [List.mem_cons, List.not_mem_nil, or_false] at h
    rcases h with rfl | rfl
    · exact ⟨q.1, List.mem_cons_of_mem _ hP.1, rfl⟩
    · exact ⟨q.2, List.mem_cons_of_mem _ hP.2, rfl⟩

include hd in
theorem names_three (q : Q) (hq : q ∈ pairsOf P) : [a.2, q.1.2, q.2.2].Nodup := by
  have h : [a, q.1, q.2].Sublist (a :: P) := (pairsOf_sublist P q hq).cons_cons a
  exact hd.sublist (h.map Prod.snd)

include hd in
theorem tNames_nodup (q : Q) (hq : q ∈ pairsOf P) (forRef : Bool) : ((tNames a q forRef).map Prod.fst).Nodup := by
  have h := names_three a P hd q hq
  cases forRef
  · exact (List.nodup_cons.mp h).2
  · exact h

include hn hd hfd hfb in
theorem tEntries_nodup (qs : List Q) (hqn : qs.Nodup) (hqs : ∀ q ∈ qs, q ∈ pairsOf P) (forRef : Bool) (val : String → Q → ℕ → Option K) :
    ((tEntries a qs forRef val).map Prod.fst).Nodup := by
  have hinj : ∀ e ∈ a :: P, ∀ e' ∈ a :: P, e.2 = e'.2 → e = e' := fun e he e' he' h => List.inj_on_of_nodup_map hd he he' h
  have hA : a ∈ a :: P := by simp
  have hmemP : ∀ e ∈ P, e ∈ a :: P := fun e he => List.mem_cons_of_mem _ he
  have core : ∀ q ∈ qs, ∀ q' ∈ qs, ∀ m ∈ tcMetrics, ∀ m' ∈ tcMetrics, ∀ ni ∈ tNames a q forRef, ∀ ni' ∈ tNames a q' forRef,
      tripleName m ni.1 a.2 q.1.2 q.2.2 = tripleName m' ni'.1 a.2 q'.1.2 q'.2.2 → m = m' ∧ ni.1 = ni'.1 ∧ q = q' := by
    intro q hq q' hq' m hm m' hm' ni hni ni' hni' h
    obtain ⟨e, he, hen⟩ := tNames_mem a P q (hqs q hq) forRef ni hni
    obtain ⟨e', he', hen'⟩ := tNames_mem a P q' (hqs q' hq') forRef ni' hni'
    have hP := mem_of_pairsOf P q (hqs q hq)
    have hP' := mem_of_pairsOf P q' (hqs q' hq')
    obtain ⟨h1, h2, _, h3, h4⟩ := tripleName_injective m m' hm hm' ni.1 ni'.1 _ _ _ _ _ _ (hen ▸ hfb e he) (hen' ▸ hfb e' he') (hfd a hA) (hfd a hA)
      (hfd _ (hmemP _ hP.1)) (hfd _ (hmemP _ hP'.1)) h
    exact ⟨h1, h2, Prod.ext (hinj _ (hmemP _ hP.1) _ (hmemP _ hP'.1) h3) (hinj _ (hmemP _ hP.2) _ (hmemP _ hP'.2) h4)⟩
  unfold tEntries
  simp only [List.map_flatMap, List.map_map]
  rw [List.nodup_flatMap]
  constructor
  · intro q hq
    rw [List.nodup_flatMap]
    constructor
    · intro m hm
      have h0 := List.Nodup.of_map _ (tNames_nodup a P hd q (hqs q hq) forRef)
      refine h0.map_on ?_
      intro ni hni ni' hni' h
      have h1 := (core q hq q hq m hm m hm ni hni ni' hni' h).2.1
      exact List.inj_on_of_nodup_map (tNames_nodup a P hd q (hqs q hq) forRef) hni hni' h1
    · refine List.Pairwise.imp_of_mem ?_ (by decide : tcMetrics.Nodup)
      intro m m' hm hm' hne k hk hk'
      obtain ⟨ni, hni, rfl⟩ := List.mem_map.mp hk
      obtain ⟨ni', hni', h⟩ := List.mem_map.mp hk'
      exact hne (core q hq q hq m hm m' hm' ni hni ni' hni' h.symm).1
  · refine List.Pairwise.imp_of_mem ?_ hqn
    intro q q' hq hq' hne k hk hk'
    obtain ⟨m, hm, hk⟩ := List.mem_flatMap.mp hk
    obtain ⟨m', hm', hk'⟩ := List.mem_flatMap.mp hk'
    obtain ⟨ni, hni, rfl⟩ := List.mem_map.mp hk
    obtain ⟨ni', hni', h⟩ := List.mem_map.mp hk'
    exact hne (core q hq q' hq' m hm m' hm' ni hni ni' hni' h.symm).2.2

/-! ### The model -/

include hn in
theorem thdsNames_eq : thdsNames ((a :: P).map Prod.fst) a.1 = (pairsOf P).map (fun q => pyJoin sepAnd [a.1, q.1.1, q.2.1]) := by
  unfold thdsNames
  rw [triplesOf_map, List.filter_map]
  have h := triples_first a P hn
  have h2 : (triplesOf (a :: P)).filter ((fun p : Name × Name × Name => decide (p.1 = a.1) || decide (p.2.1 = a.1) || decide (p.2.2 = a.1)) ∘
      fun p => (p.1.1, p.2.1.1, p.2.2.1)) = (pairsOf P).map (fun q => (a, q)) := h
  rw [h2, List.map_map, List.map_map]
  rfl

include hf in
theorem split_three (q : Q) (hq : q ∈ pairsOf P) : pySplit sepAnd (pyJoin sepAnd [a.1, q.1.1, q.2.1]) = [a.1, q.1.1, q.2.1] := by
  have hP := mem_of_pairsOf P q hq
  refine split_join sepAnd sepAnd_ne _ (by simp) ?_
  intro x hx
  simp only [List.mem_cons, List.not_mem_nil, or_false] at hx
  rcases hx with rfl | rfl | rfl
  · exact hf a (by simp)
  · exact hf _ (List.mem_cons_of_mem _ hP.1)
  · exact hf _ (List.mem_cons_of_mem _ hP.2)

include hn hf in
theorem tripleKey_ok (q : Q) (hq : q ∈ pairsOf P) :
    tripleKey (makeLut ((a :: P).map Prod.snd) ((a :: P).map Prod.fst)) (pyJoin sepAnd [a.1, q.1.1, q.2.1]) = .ok (pyJoin sepAnd [a.2, q.1.2, q.2.2]) := by
  have hP := mem_of_pairsOf P q hq
  unfold tripleKey
  rw [split_three a P hf q hq]
  simp only [lutPart, List.getElem?_cons_zero, List.getElem?_cons_succ, lut_ok (a :: P) hn a (by simp), lut_ok (a :: P) hn q.1 (List.mem_cons_of_mem _ hP.1),
    lut_ok (a :: P) hn q.2 (List.mem_cons_of_mem _ hP.2)]
  rfl

theorem tripleEntry_eq (m : String) (x a b c : Name) : tripleEntry m.toList x (pyJoin sepAnd [a, b, c]) = tripleName m x a b c := rfl

include hn hd hf in
theorem tripleEntries_ok (forRef : Bool) (q : Q) (hq : q ∈ pairsOf P) :
    tripleEntries (K := K) (makeLut ((a :: P).map Prod.snd) ((a :: P).map Prod.fst)) (if forRef then (a :: P).map Prod.snd else P.map Prod.snd)
      (pyJoin sepAnd [a.1, q.1.1, q.2.1]) =
      .ok (tcMetrics.flatMap (fun m => (tNames a q forRef).map (fun ni => (tripleName m ni.1 a.2 q.1.2 q.2.2, Val.num none)))) := by
  have hP := mem_of_pairsOf P q hq
  unfold tripleEntries
  rw [tripleKey_ok a P hn hf q hq, split_three a P hf q hq]
  have hnames : [a.1, q.1.1, q.2.1].mapM (lutGet (makeLut ((a :: P).map Prod.snd) ((a :: P).map Prod.fst))) = .ok [a.2, q.1.2, q.2.2] := by
    simp only [List.mapM_cons, List.mapM_nil, lut_ok (a :: P) hn a (by simp), lut_ok (a :: P) hn q.1 (List.mem_cons_of_mem _ hP.1),
      lut_ok (a :: P) hn q.2 (List.mem_cons_of_mem _ hP.2)]
    rfl
  rw [hnames]
  have hsub := (pairsOf_sublist P q hq).map Prod.snd
  have hfil : (if forRef then (a :: P).map Prod.snd else P.map Prod.snd).filter (fun ds => decide (ds ∈ [a.2, q.1.2, q.2.2])) = (tNames a q forRef).map Prod.fst := by
    cases forRef
    · have h1 := filter_mem_sublist (P.map Prod.snd) [q.1.2, q.2.2] (List.nodup_cons.mp hd).2 hsub
      show (P.map Prod.snd).filter _ = [q.1.2, q.2.2]
      rw [← h1]
      apply List.filter_congr
      intro x hx
      have hxa : x ≠ a.2 := fun h => (List.nodup_cons.mp hd).1 (h ▸ hx)
      rw [h1]
      simp [hxa]
    · exact filter_mem_sublist ((a :: P).map Prod.snd) [a.2, q.1.2, q.2.2] hd (hsub.cons_cons a.2)
  simp only [bind, Except.bind]
  rw [hfil]
  congr 1
  refine congrArg (fun f => List.flatMap f tcMetrics) (funext fun m => ?_)
  rw [List.map_map]
  rfl

include hn hd hf in
theorem tcmTemplate_eq (others : List Name) (ho : (a :: P).map Prod.fst = "ref".toList :: others) (nonref forRef calcTau : Bool) (mt : Option (Dict K))
    (hfields : NamedFields (mt.getD [])) :
    tcmTemplate ((a :: P).map Prod.snd) others nonref forRef calcTau mt =
      .ok (update (metadataTemplate mt) (((key "n_obs", .int 0) :: qEntries (storedPairs (a :: P) a.1 nonref) tdsMetrics (fun _ _ => none)) ++
        tEntries a (pairsOf P) forRef (fun _ _ _ => none))) := by
  have ha : a.1 = "ref".toList := by simpa using congrArg List.head? ho
  unfold tcmTemplate
  simp only [← ho]
  rw [← ha, nobs_template, keys_ok (a :: P) hn hf, thdsNames_eq a P hn]
  have htc : (((a :: P).map Prod.fst).filter (fun n => forRef || decide (n ≠ a.1))).mapM (lutGet (makeLut ((a :: P).map Prod.snd) ((a :: P).map Prod.fst))) =
      .ok (if forRef then (a :: P).map Prod.snd else P.map Prod.snd) := by
    have hall : ∀ l : List (Name × Name), (∀ e ∈ l, e ∈ a :: P) →
        (l.map Prod.fst).mapM (lutGet (makeLut ((a :: P).map Prod.snd) ((a :: P).map Prod.fst))) = .ok (l.map Prod.snd) := by
      intro l hl
      exact mapM_map_ok l Prod.fst _ Prod.snd (fun e he => lut_ok (a :: P) hn e (hl e he))
    cases forRef
    · have hfil : ((a :: P).map Prod.fst).filter (fun n => false || decide (n ≠ a.1)) = P.map Prod.fst := by
        rw [List.map_cons, List.filter_cons, if_neg (by simp), List.filter_eq_self]
        intro x hx
        have : x ≠ a.1 := fun h => (List.nodup_cons.mp hn).1 (h ▸ hx)
        simp [this]
      rw [hfil]
      exact hall P (fun e he => List.mem_cons_of_mem _ he)
    · have hfil : ((a :: P).map Prod.fst).filter (fun n => true || decide (n ≠ a.1)) = (a :: P).map Prod.fst := by
        rw [List.filter_eq_self]; intro _ _; rfl
      rw [hfil]
      exact hall (a :: P) (fun e he => he)
  rw [htc]
  have hts : ((pairsOf P).map (fun q => pyJoin sepAnd [a.1, q.1.1, q.2.1])).mapM
      (tripleEntries (K := K) (makeLut ((a :: P).map Prod.snd) ((a :: P).map Prod.fst)) (if forRef then (a :: P).map Prod.snd else P.map Prod.snd)) =
      .ok ((pairsOf P).map (fun q => tcMetrics.flatMap (fun m => (tNames a q forRef).map (fun ni => (tripleName m ni.1 a.2 q.1.2 q.2.2, Val.num none))))) := by
    exact mapM_map_ok (pairsOf P) (fun q : Q => pyJoin sepAnd [a.1, q.1.1, q.2.1]) _ _ (fun q hq => tripleEntries_ok a P hn hd hf forRef q hq)
  simp only [bind, Except.bind]
  rw [hts]
  simp only
  rw [pairEntries_eq]
  have hflat : ((pairsOf P).map (fun q => tcMetrics.flatMap (fun m => (tNames a q forRef).map (fun ni => (tripleName m ni.1 a.2 q.1.2 q.2.2, (Val.num none : Val K)))))).flatten =
      tEntries a (pairsOf P) forRef (fun _ _ _ => none) := by
    unfold tEntries
    rw [List.flatMap_def]
  rw [hflat, popUnused_id]
  · rfl
  · intro k hk hm
    rw [mem_keys_update, keys_metadataTemplate] at hm
    have hres : ∀ k ∈ ["rho", "p_rho", "tau", "p_tau"].map key, k ∉ reserved ∧ k ≠ key "n_obs" ∧ k ∈ ["n_obs", "rho", "p_rho", "tau", "p_tau"].map key := by decide
    have hshort : ∀ k ∈ ["rho", "p_rho", "tau", "p_tau"].map key, ∃ s : String, s.length < 9 ∧ k = key s := by
      intro k hk
      obtain ⟨s, hs, rfl⟩ := List.mem_map.mp hk
      exact ⟨s, by revert s; decide, rfl⟩
    obtain ⟨s, hs, rfl⟩ := hshort k hk
    rcases hm with (h | h) | h
    · exact (hres _ hk).1 h
    · exact (hfields.fresh _ h).2.1 (hres _ hk).2.2
    · rw [List.map_append, List.mem_append, List.map_append, List.mem_append] at h
      rcases h with (h | h) | h
      · simp only [List.map_cons, List.map_nil, List.mem_singleton] at h
        exact (hres _ hk).2.1 h
      · rw [qEntries_keys] at h
        obtain ⟨q, _, h2⟩ := List.mem_flatMap.mp h
        obtain ⟨m, _, h3⟩ := List.mem_map.mp h2
        exact resultName_long _ _ _ s hs h3
      · obtain ⟨e, he, h2⟩ := List.mem_map.mp h
        obtain ⟨q, _, m, _, ni, _, rfl⟩ := (mem_tEntries _ _ _ _ _).mp he
        exact tripleName_long _ _ _ _ _ s hs h2

/-- the triples of the data -/
theorem tripleTable_ok (F : NamedFuncs K) (hn : ((a :: P).map Prod.fst).Nodup) (data : Frame K) (hc : data.cols = (a :: P).map Prod.fst) (tv : Q → Tc K)
    (htc : ∀ q ∈ pairsOf P, F.tc 0 (colOf data a.1) (colOf data q.1.1) (colOf data q.2.1) = .ok (tv q)) :
    tripleTable F a.1 data = .ok ((pairsOf P).map (fun q => (pyJoin sepAnd [a.1, q.1.1, q.2.1], [a.1, q.1.1, q.2.1], tv q))) := by
  unfold tripleTable
  rw [if_pos (by rw [hc]; simp)]
  have h2 : (triplesOf data.cols).filter (fun p : Name × Name × Name => decide (p.1 = a.1) || decide (p.2.1 = a.1) || decide (p.2.2 = a.1)) =
      (pairsOf P).map (fun q => (a.1, q.1.1, q.2.1)) := by
    rw [hc, triplesOf_map, List.filter_map]
    have h := triples_first a P hn
    have h3 : (triplesOf (a :: P)).filter ((fun p : Name × Name × Name => decide (p.1 = a.1) || decide (p.2.1 = a.1) || decide (p.2.2 = a.1)) ∘
        fun p => (p.1.1, p.2.1.1, p.2.2.1)) = (pairsOf P).map (fun q => (a, q)) := h
    rw [h3, List.map_map]
    rfl
  have hidx : data.cols.idxOf a.1 = 0 := by rw [hc]; simp
  rw [h2, hidx]
  refine mapM_map_ok (pairsOf P) _ _ _ ?_
  intro q hq
  have hP := mem_of_pairsOf P q hq
  have hm : ∀ e ∈ a :: P, e.1 ∈ data.cols := fun e he => hc ▸ List.mem_map.mpr ⟨e, he, rfl⟩
  unfold tripleValue
  simp only
  rw [column_colOf data a.1 (hm a (by simp)), column_colOf data q.1.1 (hm _ (List.mem_cons_of_mem _ hP.1)),
    column_colOf data q.2.1 (hm _ (List.mem_cons_of_mem _ hP.2))]
  simp only [bind, Except.bind]
  rw [htc q hq]

include hf in
theorem joined_three_inj (q q' : Q) (hq : q ∈ pairsOf P) (hq' : q' ∈ pairsOf P)
    (h : pyJoin sepAnd [a.1, q.1.1, q.2.1] = pyJoin sepAnd [a.1, q'.1.1, q'.2.1]) : q.1.1 = q'.1.1 ∧ q.2.1 = q'.2.1 := by
  have h1 := split_three a P hf q hq
  rw [h, split_three a P hf q' hq'] at h1
  simpa [eq_comm] using h1

include hn hf in
/-- the values of one triple -/
theorem tripleWrites_ok (tv : Q → Tc K) (q : Q) (hq : q ∈ pairsOf P) :
    tripleWrites (makeLut ((a :: P).map Prod.snd) ((a :: P).map Prod.fst))
      ((pairsOf P).map (fun q => (pyJoin sepAnd [a.1, q.1.1, q.2.1], [a.1, q.1.1, q.2.1], tv q))) (pyJoin sepAnd [a.1, q.1.1, q.2.1]) =
      .ok (tcMetrics.flatMap (fun m => (tNames a q true).map (fun ni => (tripleName m ni.1 a.2 q.1.2 q.2.2, Val.num ((tv q).named m ni.2))))) := by
  have hP := mem_of_pairsOf P q hq
  have hPn : P.Nodup := (List.nodup_cons.mp (List.Nodup.of_map _ hn)).2
  have hinj : ∀ e ∈ P, ∀ e' ∈ P, e.1 = e'.1 → e = e' := fun e he e' he' h => List.inj_on_of_nodup_map (List.nodup_cons.mp hn).2 he he' h
  have hlook : ((pairsOf P).map (fun q => (pyJoin sepAnd [a.1, q.1.1, q.2.1], [a.1, q.1.1, q.2.1], tv q))).reverse.lookup (pyJoin sepAnd [a.1, q.1.1, q.2.1]) =
      some ([a.1, q.1.1, q.2.1], tv q) := by
    have hgen : ∀ qs : List Q, (∀ q' ∈ qs, q' ∈ pairsOf P) → q ∈ qs →
        (qs.map (fun q => (pyJoin sepAnd [a.1, q.1.1, q.2.1], [a.1, q.1.1, q.2.1], tv q))).lookup (pyJoin sepAnd [a.1, q.1.1, q.2.1]) =
          some ([a.1, q.1.1, q.2.1], tv q) := by
      intro qs
      induction qs with
      | nil => intro _ h; simp at h
      | cons q' qs ih =>
        intro hqs hmem
        rw [List.map_cons, List.lookup_cons]
        by_cases he : pyJoin sepAnd [a.1, q.1.1, q.2.1] = pyJoin sepAnd [a.1, q'.1.1, q'.2.1]
        · obtain ⟨h1, h2⟩ := joined_three_inj a P hf q q' hq (hqs q' (by simp)) he
          have hP' := mem_of_pairsOf P q' (hqs q' (by simp))
          have : q = q' := Prod.ext (hinj _ hP.1 _ hP'.1 h1) (hinj _ hP.2 _ hP'.2 h2)
          subst this
          simp
        · have hb : (pyJoin sepAnd [a.1, q.1.1, q.2.1] == pyJoin sepAnd [a.1, q'.1.1, q'.2.1]) = false := by simpa using he
          rw [hb]
          rcases List.mem_cons.mp hmem with rfl | h
          · exact absurd rfl he
          · exact ih (fun q'' h'' => hqs q'' (List.mem_cons_of_mem _ h'')) h
    rw [← List.map_reverse]
    exact hgen _ (fun q' h => by simpa using h) (by simpa using hq)
  unfold tripleWrites
  rw [hlook]
  simp only
  rw [tripleKey_ok a P hn hf q hq]
  have hnames : [a.1, q.1.1, q.2.1].mapM (lutGet (makeLut ((a :: P).map Prod.snd) ((a :: P).map Prod.fst))) = .ok [a.2, q.1.2, q.2.2] := by
    simp only [List.mapM_cons, List.mapM_nil, lut_ok (a :: P) hn a (by simp), lut_ok (a :: P) hn q.1 (List.mem_cons_of_mem _ hP.1),
      lut_ok (a :: P) hn q.2 (List.mem_cons_of_mem _ hP.2)]
    rfl
  rw [hnames]
  rfl

/-- the values that are kept -/
theorem tWrites_filter (forRef : Bool) (tv : Q → Tc K) (keys : List Key) (hkeys : ∀ q ∈ pairsOf P, ∀ m ∈ tcMetrics, ∀ ni ∈ tNames a q true,
      (tripleName m ni.1 a.2 q.1.2 q.2.2 ∈ keys ↔ (forRef = true ∨ ni.2 ≠ 0))) :
    (tEntries a (pairsOf P) true (fun m q i => (tv q).named m i)).filter (fun w => decide (w.1 ∈ keys)) =
      tEntries a (pairsOf P) forRef (fun m q i => (tv q).named m i) := by
  unfold tEntries
  rw [List.filter_flatMap]
  refine List.flatMap_congr ?_
  intro q hq
  rw [List.filter_flatMap]
  refine List.flatMap_congr ?_
  intro m hm
  have hk := hkeys q hq m hm
  rw [List.filter_map]
  have hfil : (tNames a q true).filter ((fun w : Key × Val K => decide (w.1 ∈ keys)) ∘ fun ni => (tripleName m ni.1 a.2 q.1.2 q.2.2, Val.num ((tv q).named m ni.2))) =
      tNames a q forRef := by
    have h1 : (tNames a q true).filter ((fun w : Key × Val K => decide (w.1 ∈ keys)) ∘ fun ni => (tripleName m ni.1 a.2 q.1.2 q.2.2, Val.num ((tv q).named m ni.2))) =
        (tNames a q true).filter (fun ni => decide (forRef = true ∨ ni.2 ≠ 0)) := by
      apply List.filter_congr
      intro ni hni
      simp only [Function.comp_def, hk ni hni]
    rw [h1]
    cases forRef <;> simp [tNames]
  rw [hfil]

/-- the result of `TCMetrics` for pairs of column and name -/
theorem tcm_reports (hn : ((a :: P).map Prod.fst).Nodup) (hd : ((a :: P).map Prod.snd).Nodup)
    (hf : ∀ e ∈ a :: P, Free sepAnd e.1) (hfd : ∀ e ∈ a :: P, Free sepAnd e.2) (hfb : ∀ e ∈ a :: P, FreeB e.2)
    (F : NamedFuncs K) (others : List Name) (ho : (a :: P).map Prod.fst = "ref".toList :: others) (nonref forRef calcTau : Bool) (minObs : ℕ)
    (mt : Option (Dict K)) (hfields : NamedFields (mt.getD [])) (data : Frame K) (info : Info K) (hp : Provides info (mt.getD []))
    (hc : data.cols = (a :: P).map Prod.fst) (hlen : minObs ≤ data.rows.length) (scaled : Frame K) (hs : F.scale data = .ok scaled)
    (hsc : scaled.cols = (a :: P).map Prod.fst) (v : String → Name → Name → Option K)
    (hv : ∀ m ∈ writtenMetrics true calcTau, m ≠ "urmsd" → ∀ x ∈ (a :: P).map Prod.fst, ∀ y ∈ (a :: P).map Prod.fst, x ≠ y →
      F.metric m (colOf data x) (colOf data y) = .ok (v m x y))
    (hu : ∀ x ∈ (a :: P).map Prod.fst, ∀ y ∈ (a :: P).map Prod.fst, x ≠ y → F.metric "urmsd" (colOf scaled x) (colOf scaled y) = .ok (v "urmsd" x y))
    (tv : Q → Tc K) (htc : ∀ q ∈ pairsOf P, F.tc 0 (colOf data a.1) (colOf data q.1.1) (colOf data q.2.1) = .ok (tv q)) :
    ∃ T d, tcmTemplate ((a :: P).map Prod.snd) others nonref forRef calcTau mt = .ok T ∧
      tcmCalc F ((a :: P).map Prod.snd) others nonref calcTau minObs T mt data info = .ok d ∧
      Reports (mt.getD []) info (.int 0) (((key "n_obs", .int data.rows.length) :: qEntries (storedPairs (a :: P) a.1 nonref) tdsMetrics
        (fun m q => if calculated true calcTau m then v m q.1.1 q.2.1 else none)) ++ tEntries a (pairsOf P) forRef (fun m q i => (tv q).named m i)) d := by
  set qs := storedPairs (a :: P) a.1 nonref with hqs
  set t : Dict K := ((key "n_obs", .int 0) :: qEntries qs tdsMetrics (fun _ _ => none)) ++ tEntries a (pairsOf P) forRef (fun _ _ _ => none) with htdef
  have hPn : P.Nodup := (List.nodup_cons.mp (List.Nodup.of_map _ hn)).2
  have hmemP : ∀ e ∈ P, e ∈ a :: P := fun e he => List.mem_cons_of_mem _ he
  have htb : ∀ (q : Q), q ∈ pairsOf P → ∀ forRef' : Bool, ∀ ni ∈ tNames a q forRef', FreeB ni.1 := by
    intro q hq fr ni hni
    obtain ⟨e, he, h⟩ := tNames_mem a P q hq fr ni hni
    exact h ▸ hfb e he
  have hqn : ∀ (ms : List String) (hm : ms.Nodup) (hms : ∀ m ∈ ms, m ∈ tdsMetrics) (val : String → Q → Option K), ((qEntries qs ms val).map Prod.fst).Nodup :=
    fun ms hm hms val => qEntries_nodup (a :: P) hd hfd qs ((pairsOf_nodup (a :: P) (List.Nodup.of_map _ hn)).filter _) (storedPairs_sub (a :: P) a.1 nonref) ms hm hms val
  -- different kinds of entries have different names
  have hdisj : ∀ (ms : List String) (_ : ∀ m ∈ ms, m ∈ tdsMetrics) (val : String → Q → Option K) (fr : Bool) (val' : String → Q → ℕ → Option K) (x y : Key × Val K),
      x ∈ qEntries qs ms val → y ∈ tEntries a (pairsOf P) fr val' → x.1 ≠ y.1 := by
    intro ms hms val fr val' x y hx hy
    obtain ⟨q, _, m, hm, rfl⟩ := (mem_qEntries _ _ _ _).mp hx
    obtain ⟨q', hq', m', hm', ni, hni, rfl⟩ := (mem_tEntries _ _ _ _ _).mp hy
    exact fun h => tripleName_ne_result m' m hm' (hms m hm) _ _ _ _ _ _ (htb q' hq' fr ni hni) h.symm
  have hqlong : ∀ (ms : List String) (val : String → Q → Option K) (x : Key × Val K) (s : String), s.length < 9 → x ∈ qEntries qs ms val → x.1 ≠ key s := by
    intro ms val x s hs hx
    obtain ⟨q, _, m, hm, rfl⟩ := (mem_qEntries _ _ _ _).mp hx
    exact resultName_long _ _ _ s hs
  have htlong : ∀ (fr : Bool) (val' : String → Q → ℕ → Option K) (y : Key × Val K) (s : String), s.length < 9 → y ∈ tEntries a (pairsOf P) fr val' → y.1 ≠ key s := by
    intro fr val' y s hs hy
    obtain ⟨q', hq', m', hm', ni, hni, rfl⟩ := (mem_tEntries _ _ _ _ _).mp hy
    exact tripleName_long _ _ _ _ _ s hs
  have hnd : (t.map Prod.fst).Nodup := by
    rw [htdef, List.map_append, List.nodup_append]
    refine ⟨entries_nodup (a :: P) hn hd hfd a.1 nonref _ _, tEntries_nodup a P hn hd hfd hfb _ (pairsOf_nodup P hPn) (fun q hq => hq) forRef _, ?_⟩
    intro x hx y hy hxy
    obtain ⟨ex, hex, rfl⟩ := List.mem_map.mp hx
    obtain ⟨ey, hey, rfl⟩ := List.mem_map.mp hy
    rcases List.mem_cons.mp hex with rfl | h
    · exact htlong _ _ ey "n_obs" (by decide) hey hxy.symm
    · exact hdisj tdsMetrics (fun _ h => h) _ forRef _ ex ey h hey hxy
  have hfr : ∀ k ∈ t.map Prod.fst, k ∉ reserved := by
    intro k hk
    rw [htdef, List.map_append, List.mem_append] at hk
    rcases hk with hk | hk
    · exact entries_fresh _ _ _ k hk
    · obtain ⟨e, he, rfl⟩ := List.mem_map.mp hk
      simp only [reserved, List.mem_cons, List.not_mem_nil, or_false, not_or]
      exact ⟨htlong _ _ e "gpi" (by decide) he, htlong _ _ e "lon" (by decide) he, htlong _ _ e "lat" (by decide) he, htlong _ _ e "status" (by decide) he⟩
  have hfo : FieldsOk (mt.getD []) (t.map Prod.fst) := by
    refine ⟨hfields.nodup, fun k hk => ⟨(hfields.fresh k hk).1, ?_⟩⟩
    rw [htdef, List.map_append, List.mem_append]
    rintro (h | h)
    · exact ((entries_fields _ hfields _ _ _).fresh k hk).2 h
    · obtain ⟨e, he, rfl⟩ := List.mem_map.mp h
      obtain ⟨q', hq', m', hm', ni, hni, rfl⟩ := (mem_tEntries _ _ _ _ _).mp he
      exact (hfields.fresh _ hk).2.2 _ rfl ⟨_, _, rfl⟩
  obtain ⟨d0, m1, m2⟩ := metadataCalc_ok mt t hnd hfr hfo info hp
  obtain ⟨tables, tb1, tb2⟩ := tables_ok F data scaled (hc ▸ hn) (by
      rw [hc]
      intro c hcm
      obtain ⟨e, he, rfl⟩ := List.mem_map.mp hcm
      exact hf e he) (hsc.trans hc.symm) v (writtenMetrics true calcTau) (by rw [hc]; exact hv) (by rw [hc]; exact hu)
  rw [hc] at tb2
  have hws : (tdsNames ((a :: P).map Prod.fst) a.1 nonref).mapM (tdsWrites (makeLut ((a :: P).map Prod.snd) ((a :: P).map Prod.fst)) tables) =
      .ok (qs.map (fun q => (writtenMetrics true calcTau).map (fun m => (resultName m q.1.2 q.2.2, Val.num (v m q.1.1 q.2.1))))) := by
    rw [tdsNames_stored]
    exact mapM_map_ok qs _ _ _ (fun q hq => writes_ok (a :: P) hn hf _ tables v tb2 q (storedPairs_sub (a :: P) a.1 nonref q hq))
  have hWf : (qs.map (fun q => (writtenMetrics true calcTau).map (fun m => (resultName m q.1.2 q.2.2, Val.num (v m q.1.1 q.2.1))))).flatten =
      qEntries qs (writtenMetrics true calcTau) (fun m q => v m q.1.1 q.2.1) := by rw [qEntries, List.flatMap_def]
  have hts : ((pairsOf P).map (fun q => pyJoin sepAnd [a.1, q.1.1, q.2.1])).mapM (tripleWrites (makeLut ((a :: P).map Prod.snd) ((a :: P).map Prod.fst))
      ((pairsOf P).map (fun q => (pyJoin sepAnd [a.1, q.1.1, q.2.1], [a.1, q.1.1, q.2.1], tv q)))) =
      .ok ((pairsOf P).map (fun q => tcMetrics.flatMap (fun m => (tNames a q true).map (fun ni => (tripleName m ni.1 a.2 q.1.2 q.2.2, Val.num ((tv q).named m ni.2)))))) :=
    mapM_map_ok (pairsOf P) _ _ _ (fun q hq => tripleWrites_ok a P hn hf tv q hq)
  have hTf : ((pairsOf P).map (fun q => tcMetrics.flatMap (fun m => (tNames a q true).map (fun ni => (tripleName m ni.1 a.2 q.1.2 q.2.2,
      Val.num ((tv q).named m ni.2)))))).flatten = tEntries a (pairsOf P) true (fun m q i => (tv q).named m i) := by
    unfold tEntries
    rw [List.flatMap_def]
  set wsT := tEntries a (pairsOf P) forRef (fun m q i => (tv q).named m i) with hwsT
  set wsQ := qEntries qs (writtenMetrics true calcTau) (fun m q => v m q.1.1 q.2.1) with hwsQ
  have hwsQt : ∀ w ∈ wsQ, w.1 ∈ t.map Prod.fst := by
    intro w hw
    obtain ⟨q, hq, m, hm, rfl⟩ := (mem_qEntries _ _ _ _).mp hw
    rw [htdef, List.map_append, List.mem_append, List.map_cons]
    left
    refine List.mem_cons_of_mem _ ?_
    rw [qEntries_keys]
    exact List.mem_flatMap.mpr ⟨q, hq, List.mem_map.mpr ⟨m, written_sub _ _ m hm, rfl⟩⟩
  have hkT : wsT.map Prod.fst = (tEntries (K := K) a (pairsOf P) forRef (fun _ _ _ => none)).map Prod.fst := tEntries_keys _ _ _ _ _
  obtain ⟨d, e1, e2⟩ := writes_reports (mt.getD []) info _ t hnd hfr hfo d0 m2 ([(key "n_obs", .int data.rows.length)] ++ (wsT ++ wsQ))
    (((key "n_obs", .int data.rows.length) :: qEntries qs tdsMetrics (fun m q => if calculated true calcTau m then v m q.1.1 q.2.1 else none)) ++ wsT)
    (by
      rw [List.map_append, List.nodup_append]
      refine ⟨by simp, ?_, ?_⟩
      · rw [List.map_append, List.nodup_append]
        refine ⟨tEntries_nodup a P hn hd hfd hfb _ (pairsOf_nodup P hPn) (fun q hq => hq) forRef _, hqn _ (written_metrics_nodup _ _) (written_sub _ _) _, ?_⟩
        intro x hx y hy hxy
        obtain ⟨ex, hex, rfl⟩ := List.mem_map.mp hx
        obtain ⟨ey, hey, rfl⟩ := List.mem_map.mp hy
        exact hdisj _ (written_sub _ _) _ forRef _ ey ex hey hex hxy.symm
      · intro x hx y hy hxy
        simp only [List.map_cons, List.map_nil, List.mem_singleton] at hx
        subst hx
        obtain ⟨ey, hey, rfl⟩ := List.mem_map.mp hy
        rcases List.mem_append.mp hey with h | h
        · exact htlong _ _ ey "n_obs" (by decide) h hxy.symm
        · exact hqlong _ _ ey "n_obs" (by decide) h hxy.symm)
    (by
      intro w hw
      rcases List.mem_append.mp hw with h | h
      · rw [List.mem_singleton] at h; subst h; rw [htdef]; simp
      · rcases List.mem_append.mp h with h | h
        · rw [htdef, List.map_append, List.mem_append]
          right
          rw [← hkT]
          exact List.mem_map.mpr ⟨w, h, rfl⟩
        · exact hwsQt w h)
    (.int ok)
    (by rw [htdef, List.map_append, List.map_append, hkT, List.map_cons, List.map_cons, qEntries_keys, qEntries_keys])
    (by
      intro e he
      rcases List.mem_append.mp he with h | h
      · rcases List.mem_cons.mp h with rfl | hq
        · left; simp
        · obtain ⟨q, hq1, m, hm1, rfl⟩ := (mem_qEntries _ _ _ _).mp hq
          by_cases hcm : m ∈ writtenMetrics true calcTau
          · left
            rw [List.mem_append, List.mem_append]
            right; right
            simp only [(written_calculated _ _ m hm1).mp hcm, if_true]
            exact (mem_qEntries _ _ _ _).mpr ⟨q, hq1, m, hcm, rfl⟩
          · right
            have hnc : calculated true calcTau m = false := by
              rw [written_calculated _ _ m hm1] at hcm
              simpa using hcm
            refine ⟨?_, ?_⟩
            · intro h2
              obtain ⟨w, hw, hwk⟩ := List.mem_map.mp h2
              rcases List.mem_append.mp hw with h3 | h3
              · rw [List.mem_singleton] at h3
                subst h3
                exact hqlong _ _ _ "n_obs" (by decide) hq hwk.symm
              · rcases List.mem_append.mp h3 with h4 | h4
                · exact hdisj tdsMetrics (fun _ h => h) _ forRef _ _ w hq h4 hwk.symm
                · obtain ⟨q', hq', m', hm', rfl⟩ := (mem_qEntries _ _ _ _).mp h4
                  have := (resultName_injective m' m (written_sub _ _ m' hm') hm1 _ _ _ _
                    (hfd _ (mem_of_pairsOf (a :: P) q' (storedPairs_sub _ _ _ q' hq')).1) (hfd _ (mem_of_pairsOf (a :: P) q (storedPairs_sub _ _ _ q hq1)).1) hwk).1
                  exact hcm (this ▸ hm')
            · rw [htdef, List.mem_append]
              left
              refine List.mem_cons_of_mem _ ((mem_qEntries _ _ _ _).mpr ⟨q, hq1, m, hm1, ?_⟩)
              simp only [hnc, Bool.false_eq_true, if_false]
      · left
        rw [List.mem_append, List.mem_append]
        exact Or.inr (Or.inl h))
  refine ⟨_, d, tcmTemplate_eq a P hn hd hf others ho nonref forRef calcTau mt hfields, ?_, e2⟩
  have ha : a.1 = "ref".toList := by simpa using congrArg List.head? ho
  unfold tcmCalc
  simp only [← ho]
  rw [← ha]
  have hmd : metadataCalcTc (update (metadataTemplate mt) t) mt info = .ok d0 := by
    unfold metadataCalcTc
    rw [m1]
  rw [hmd]
  show (set d0 _).bind _ = _
  rw [List.append_assoc, setAll_append, setAll_one] at e1
  have hnk : key "n_obs" ∈ d0.map Prod.fst := (m2.keys _).mpr (Or.inr (Or.inr (by rw [htdef]; simp)))
  have e3 : set d0 (key "n_obs", .int data.rows.length) = .ok (put d0 (key "n_obs") (.int data.rows.length)) := set_ok d0 _ hnk
  have hk1 : (put d0 (key "n_obs") (.int data.rows.length)).map Prod.fst = d0.map Prod.fst := keys_put_mem _ _ _ hnk
  rw [e3] at e1 ⊢
  generalize put d0 (key "n_obs") (.int data.rows.length) = d1 at e1 hk1
  show (if data.rows.length < minObs then _ else _) = _
  rw [if_neg (by omega)]
  show (pairTables F true calcTau data).bind _ = _
  unfold pairTables
  rw [hs]
  show ((writtenMetrics true calcTau).mapM (namedTable F data scaled)).bind _ = _
  rw [tb1]
  show (tripleTable F a.1 data).bind _ = _
  rw [tripleTable_ok a P F hn data hc tv htc]
  show ((thdsNames ((a :: P).map Prod.fst) a.1).mapM (tripleWrites (makeLut ((a :: P).map Prod.snd) ((a :: P).map Prod.fst))
      ((pairsOf P).map (fun q => (pyJoin sepAnd [a.1, q.1.1, q.2.1], [a.1, q.1.1, q.2.1], tv q))))).bind _ = _
  rw [thdsNames_eq a P hn, hts]
  show ((tdsNames ((a :: P).map Prod.fst) a.1 nonref).mapM (tdsWrites (makeLut ((a :: P).map Prod.snd) ((a :: P).map Prod.fst)) tables)).bind _ = _
  rw [hws]
  show (setAll _ _).bind _ = _
  rw [hWf, hTf]
  have hfilter := tWrites_filter a P forRef tv (d1.map Prod.fst) (by
    intro q hq m hm ni hni
    rw [hk1, m2.keys]
    constructor
    · intro hk
      by_contra hcon
      rw [not_or, not_not] at hcon
      obtain ⟨hfr', hni0⟩ := hcon
      have hnia : ni.1 = a.2 := by
        simp only [tNames, if_true, List.mem_cons, List.not_mem_nil, or_false] at hni
        rcases hni with rfl | rfl | rfl
        · rfl
        · exact absurd hni0 (by simp)
        · exact absurd hni0 (by simp)
      rcases hk with h | h | h
      · simp only [reserved, List.mem_cons, List.not_mem_nil, or_false] at h
        rcases h with h | h | h | h
        · exact tripleName_long _ _ _ _ _ "gpi" (by decide) h
        · exact tripleName_long _ _ _ _ _ "lon" (by decide) h
        · exact tripleName_long _ _ _ _ _ "lat" (by decide) h
        · exact tripleName_long _ _ _ _ _ "status" (by decide) h
      · exact (hfields.fresh _ h).2.2 _ rfl ⟨_, _, rfl⟩
      · rw [htdef, List.map_append, List.mem_append] at h
        rcases h with h | h
        · rw [List.map_cons] at h
          rcases List.mem_cons.mp h with h | h
          · exact tripleName_long _ _ _ _ _ "n_obs" (by decide) h
          · obtain ⟨w, hw, hwk⟩ := List.mem_map.mp h
            obtain ⟨q', _, m', hm', rfl⟩ := (mem_qEntries _ _ _ _).mp hw
            exact tripleName_ne_result m m' hm hm' _ _ _ _ _ _ (htb q hq true ni hni) hwk.symm
        · obtain ⟨w, hw, hwk⟩ := List.mem_map.mp h
          obtain ⟨q', hq', m', hm', ni', hni', rfl⟩ := (mem_tEntries _ _ _ _ _).mp hw
          have hP := mem_of_pairsOf P q hq
          have hP' := mem_of_pairsOf P q' hq'
          have hx := (tripleName_injective m' m hm' hm ni'.1 ni.1 _ _ _ _ _ _ (htb q' hq' forRef ni' hni') (htb q hq true ni hni) (hfd a (by simp)) (hfd a (by simp))
            (hfd _ (hmemP _ hP'.1)) (hfd _ (hmemP _ hP.1)) hwk).2.1
          have h3 := names_three a P hd q' hq'
          have hff : forRef = false := by simpa using hfr'
          rw [hff] at hni'
          simp only [tNames, Bool.false_eq_true, if_false, List.mem_cons, List.not_mem_nil, or_false] at hni'
          rw [List.nodup_cons] at h3
          apply h3.1
          rw [← hnia, ← hx]
          rcases hni' with rfl | rfl <;> simp
    · intro hk
      right; right
      rw [htdef, List.map_append, List.mem_append]
      right
      refine List.mem_map.mpr ⟨(tripleName m ni.1 a.2 q.1.2 q.2.2, .num none), (mem_tEntries _ _ _ _ _).mpr ⟨q, hq, m, hm, ni, ?_, rfl⟩, rfl⟩
      simp only [tNames, if_true, List.mem_cons, List.not_mem_nil, or_false] at hni
      unfold tNames
      rcases hk with h | h
      · rw [if_pos h]
        simpa using hni
      · split_ifs
        · simpa using hni
        · rcases hni with rfl | rfl | rfl
          · exact absurd rfl h
          · simp
          · simp)
  have hset := setIf_eq (tEntries a (pairsOf P) true (fun m q i => (tv q).named m i)) d1
  rw [hfilter] at hset
  have e4 : setAll d1 ((wsT ++ wsQ) ++ [(key "status", .int ok)]) = .ok d := e1
  rw [List.append_assoc, setAll_append, hset] at e4
  have e5 : setAll (List.foldl setIf d1 (tEntries a (pairsOf P) true (fun m q i => (tv q).named m i))) (wsQ ++ [(key "status", .int ok)]) = .ok d := e4
  rw [setAll_append] at e5
  rw [← e5]
  refine congrArg (Except.bind _) (funext fun d' => ?_)
  rw [setAll_one]

end

theorem tcMetrics_names : tcMetrics = ["snr", "err_std", "beta"] := rfl

/-- **C57.** The result of `TCMetrics` for data with the columns in the order of the calculator (reference first): pairs as in `IntercomparisonMetrics`; for
the reference and every two other data sets, `metric_x_between_a_and_b_and_c` is the triple collocation metric of these three columns, with the reference
first, at the position of `x`; the reference's own metrics only if asked for. -/
theorem tcm_result_partial (F : NamedFuncs K) (others ds : List Name) (hn : ("ref".toList :: others).Nodup) (hf : ∀ c ∈ others, Free sepAnd c) (hd : ds.Nodup)
    (hfd : ∀ n ∈ ds, Free sepAnd n ∧ FreeB n) (hl : ds.length = others.length + 1) (nonref forRef calcTau : Bool) (minObs : ℕ)
    (mt : Option (Dict K)) (hfields : NamedFields (mt.getD [])) (data : Frame K) (info : Info K) (hp : Provides info (mt.getD []))
    (hc : data.cols = "ref".toList :: others) (hlen : minObs ≤ data.rows.length) (scaled : Frame K) (hs : F.scale data = .ok scaled)
    (hsc : scaled.cols = "ref".toList :: others) (v : String → Name → Name → Option K)
    (hv : ∀ m ∈ tdsMetrics, m ≠ "urmsd" → calculated true calcTau m = true → ∀ a ∈ "ref".toList :: others, ∀ b ∈ "ref".toList :: others, a ≠ b →
      F.metric m (colOf data a) (colOf data b) = .ok (v m a b))
    (hu : ∀ a ∈ "ref".toList :: others, ∀ b ∈ "ref".toList :: others, a ≠ b → F.metric "urmsd" (colOf scaled a) (colOf scaled b) = .ok (v "urmsd" a b))
    (tv : Name → Name → Tc K) (htc : ∀ b ∈ others, ∀ c ∈ others, F.tc 0 (colOf data "ref".toList) (colOf data b) (colOf data c) = .ok (tv b c)) :
    ∃ T d E, tcmTemplate ds others nonref forRef calcTau mt = .ok T ∧ tcmCalc F ds others nonref calcTau minObs T mt data info = .ok d ∧
      Reports (mt.getD []) info (.int 0) E d ∧
      ∀ e, e ∈ E ↔ e = (key "n_obs", .int data.rows.length) ∨
        (∃ (i j : ℕ) (a b x y : Name) (m : String), i < j ∧ (nonref = true ∨ i = 0) ∧ ("ref".toList :: others)[i]? = some a ∧
          ("ref".toList :: others)[j]? = some b ∧ ds[i]? = some x ∧ ds[j]? = some y ∧ m ∈ tdsMetrics ∧
          e = (resultName m x y, .num (if calculated true calcTau m then v m a b else none))) ∨
        (∃ (i j p : ℕ) (b c x y z n : Name) (m : String), i < j ∧ others[i]? = some b ∧ others[j]? = some c ∧ ds[0]? = some x ∧ ds[i + 1]? = some y ∧
          ds[j + 1]? = some z ∧ [x, y, z][p]? = some n ∧ (forRef = true ∨ p ≠ 0) ∧ m ∈ ["snr", "err_std", "beta"] ∧
          e = (tripleName m n x y z, .num ((tv b c).named m p))) := by
  obtain ⟨x, ds', rfl⟩ : ∃ x ds', ds = x :: ds' := by
    cases ds with
    | nil => simp at hl
    | cons x ds' => exact ⟨x, ds', rfl⟩
  have hl' : ds'.length = others.length := by simpa using hl
  set a : Name × Name := ("ref".toList, x) with ha
  set P := others.zip ds' with hP
  have h1' : P.map Prod.fst = others := List.map_fst_zip (by omega)
  have h2' : P.map Prod.snd = ds' := List.map_snd_zip (by omega)
  have h1 : (a :: P).map Prod.fst = "ref".toList :: others := by rw [List.map_cons, h1']
  have h2 : (a :: P).map Prod.snd = x :: ds' := by rw [List.map_cons, h2']
  have hm1 : ∀ e ∈ a :: P, e.1 ∈ "ref".toList :: others := fun e he => h1 ▸ List.mem_map.mpr ⟨e, he, rfl⟩
  have hm2 : ∀ e ∈ a :: P, e.2 ∈ x :: ds' := fun e he => h2 ▸ List.mem_map.mpr ⟨e, he, rfl⟩
  have hfree : ∀ c ∈ "ref".toList :: others, Free sepAnd c := by
    intro c hcm
    rcases List.mem_cons.mp hcm with rfl | h
    · decide
    · exact hf c h
  obtain ⟨T, d, t1, t2, t3⟩ := tcm_reports a P (h1 ▸ hn) (h2 ▸ hd) (fun e he => hfree _ (hm1 e he)) (fun e he => (hfd _ (hm2 e he)).1)
    (fun e he => (hfd _ (hm2 e he)).2) F others h1 nonref forRef calcTau minObs mt hfields data info hp (by rw [h1]; exact hc) hlen scaled hs
    (by rw [h1]; exact hsc) v
    (by
      rw [h1]
      intro m hm hne
      exact hv m (written_sub _ _ m hm) hne ((written_calculated _ _ m (written_sub _ _ m hm)).mp hm))
    (by rw [h1]; exact hu) (fun q => tv q.1.1 q.2.1)
    (by
      intro q hq
      have hPq := mem_of_pairsOf P q hq
      exact htc _ (h1' ▸ List.mem_map.mpr ⟨q.1, hPq.1, rfl⟩) _ (h1' ▸ List.mem_map.mpr ⟨q.2, hPq.2, rfl⟩))
  rw [h2] at t1 t2
  refine ⟨T, d, _, t1, t2, t3, ?_⟩
  intro e
  rw [List.mem_append, List.mem_cons, mem_qEntries, mem_tEntries, or_assoc]
  have hz : ∀ (i : ℕ) (p : Name × Name), P[i]? = some p ↔ others[i]? = some p.1 ∧ ds'[i]? = some p.2 := by
    intro i p
    rw [hP, List.getElem?_zip_eq_some]
  have hAP : a :: P = ("ref".toList :: others).zip (x :: ds') := rfl
  refine or_congr Iff.rfl (or_congr ?_ ?_)
  · rw [hAP]
    constructor
    · rintro ⟨q, hq, m, hm, rfl⟩
      obtain ⟨i, j, hij, hcn, g1, g2, g3, g4⟩ := (mem_storedPairs ("ref".toList :: others) (x :: ds') hn hl "ref".toList rfl (by decide) nonref q).mp hq
      exact ⟨i, j, _, _, _, _, m, hij, hcn, g1, g2, g3, g4, hm, rfl⟩
    · rintro ⟨i, j, a', b, x', y, m, hij, hcn, g1, g2, g3, g4, hm, rfl⟩
      exact ⟨((a', x'), (b, y)), (mem_storedPairs ("ref".toList :: others) (x :: ds') hn hl "ref".toList rfl (by decide) nonref _).mpr ⟨i, j, hij, hcn, g1, g2, g3, g4⟩,
        m, hm, rfl⟩
  · constructor
    · rintro ⟨q, hq, m, hm, ni, hni, rfl⟩
      obtain ⟨i, j, hij, g1, g2⟩ := (mem_pairsOf P q).mp hq
      obtain ⟨g3, g4⟩ := (hz i q.1).mp g1
      obtain ⟨g5, g6⟩ := (hz j q.2).mp g2
      refine ⟨i, j, ni.2, q.1.1, q.2.1, x, q.1.2, q.2.2, ni.1, m, hij, g3, g5, rfl, g4, g6, ?_, ?_, hm, rfl⟩
      · unfold tNames at hni
        split_ifs at hni <;> simp only [List.mem_cons, List.not_mem_nil, or_false] at hni
        · rcases hni with rfl | rfl | rfl <;> rfl
        · rcases hni with rfl | rfl <;> rfl
      · unfold tNames at hni
        split_ifs at hni with hfr
        · exact Or.inl hfr
        · right
          simp only [List.mem_cons, List.not_mem_nil, or_false] at hni
          rcases hni with rfl | rfl <;> simp
    · rintro ⟨i, j, p, b, c, x', y, z, n, m, hij, g1, g2, g3, g4, g5, g6, g7, hm, rfl⟩
      have hx' : x = x' := by simpa using g3
      subst hx'
      refine ⟨((b, y), (c, z)), (mem_pairsOf P _).mpr ⟨i, j, hij, (hz i _).mpr ⟨g1, by simpa using g4⟩, (hz j _).mpr ⟨g2, by simpa using g5⟩⟩, m, hm, (n, p), ?_, rfl⟩
      unfold tNames
      match p, g6, g7 with
      | 0, g6, g7 =>
        have : x = n := by simpa using g6
        subst this
        rcases g7 with h | h
        · simp [h, ha]
        · exact absurd rfl h
      | 1, g6, _ =>
        have : y = n := by simpa using g6
        subst this
        split_ifs <;> simp
      | 2, g6, _ =>
        have : z = n := by simpa using g6
        subst this
        split_ifs <;> simp
      | p + 3, g6, _ => simp at g6

/-- stand-in functions: values that depend on all arguments -/
def tcmFuncs : NamedFuncs ℚ where
  metric := fun m x y => .ok (some ((m.length : ℚ) + (x.filterMap id).sum * 10 + (y.filterMap id).sum * 100))
  scale := fun f => .ok f
  tc := fun _ x y z => .ok ⟨fun i => some (i + (x.filterMap id).sum), fun i => some (i + (y.filterMap id).sum), fun i => some (i + (z.filterMap id).sum)⟩

/-- data with the columns in the order given -/
def tcmFrame (cols : List Name) : Frame ℚ where
  cols := cols
  rows := [(1, [some 1, some 2, some 3]), (2, [some 4, some 5, none])]

/-- template and calculation -/
def tcmRun (cols : List Name) (forRef : Bool) : Except Err (Dict ℚ) := do
  let T ← tcmTemplate ["ISMN".toList, "A".toList, "B".toList] ["k1".toList, "k2".toList] false forRef false none
  tcmCalc tcmFuncs ["ISMN".toList, "A".toList, "B".toList] ["k1".toList, "k2".toList] false false 2 T none (tcmFrame cols) ⟨3, 10, 50, none⟩

/-- non-trivial instance -/
example : (tcmRun ["ref".toList, "k1".toList, "k2".toList] false).toOption.map (fun d =>
      (d.lookup (tripleName "snr" "B".toList "ISMN".toList "A".toList "B".toList), d.lookup (tripleName "beta" "A".toList "ISMN".toList "A".toList "B".toList),
       d.lookup (tripleName "snr" "ISMN".toList "ISMN".toList "A".toList "B".toList), d.lookup (resultName "R" "ISMN".toList "A".toList), d.length)) =
    some (some (.num (some 7)), some (.num (some 4)), none, some (.num (some 751)), 4 + 1 + 28 + 6) := by decide +kernel

example : ∀ n ∈ ["ISMN".toList, "A".toList, "B".toList], Free sepAnd n ∧ FreeB n := by decide

/-- **C57, negation.** `TCMetrics` depends on the order of the columns: with the reference in the second place, there is no result. -/
theorem tcm_column_order : (tcmRun ["ref".toList, "k1".toList, "k2".toList] true).toOption.isSome = true ∧
    (tcmRun ["k1".toList, "ref".toList, "k2".toList] true).toOption = none := by decide +kernel

/-- the theorem applied to the frame above -/
example := tcm_result_partial tcmFuncs ["k1".toList, "k2".toList] ["ISMN".toList, "A".toList, "B".toList] (by decide) (by decide) (by decide) (by decide) rfl
  false true false 2 none ⟨by simp, by simp⟩ (tcmFrame ["ref".toList, "k1".toList, "k2".toList]) ⟨3, 10, 50, none⟩ (.inl rfl) rfl (by decide)
  (tcmFrame ["ref".toList, "k1".toList, "k2".toList]) rfl rfl
  (fun m a b => some ((m.length : ℚ) + ((colOf (tcmFrame ["ref".toList, "k1".toList, "k2".toList]) a).filterMap id).sum * 10 +
    ((colOf (tcmFrame ["ref".toList, "k1".toList, "k2".toList]) b).filterMap id).sum * 100))
  (fun _ _ _ _ _ _ _ _ _ => rfl) (fun _ _ _ _ _ => rfl) _ (fun _ _ _ _ => rfl)

end Verif.Calculators
