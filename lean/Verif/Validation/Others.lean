import Verif.Validation.PairProps
import Verif.Pairwise.Invariance

/-!
C114: the results of a pair of columns do not depend on the other data sets of the validation. Two validations of pairs with the default temporal
matcher (C87) are compared that read the same data for the pair, the temporal reference and the scaling reference; all other data sets, their number
and order, the spatial reference, `rename_cols` and `only_with_reference` may differ. With the combined matcher this is false.
-/

set_option linter.unusedSectionVars false

noncomputable section

namespace Verif.Validation

open DataManager (Col col)
open Pairwise (Pairs)
open Calculators (Val)

/-! ### Specification -/

/-- the two lists of frames hold the same data for the data sets `names` -/
def SameData (names : List String) (dfs dfs' : List (String × DF String ℝ ℝ)) : Prop :=
  ∀ d ∈ names, ∀ df, (d, df) ∈ dfs ↔ (d, df) ∈ dfs'

/-- the settings that concern a pair are the same -/
structure SameSettings (P P' : PairJob) : Prop where
  window : P.window = P'.window
  temporalRef : P.temporalRef = P'.temporalRef
  scaling : P.scalingCol = P'.scalingCol
  F : P.F = P'.F
  o : P.o = P'.o
  minObs : P.minObs = P'.minObs

/-- the rank correlations (functions of scipy) do not depend on the order of the pairs -/
def OrderFree (F : Calculators.PairFuncs) : Prop :=
  ∀ l l' : Pairs, l.Perm l' → F.spearman l = F.spearman l' ∧ F.kendall l = F.kendall l'

/-! ### Lemmas -/

theorem seenAt_same {names : List String} {dfs dfs' : List (String × DF String ℝ ℝ)} (h : SameData names dfs dfs') {window : ℝ} {tref : String} {t : ℝ}
    {d c : String} (hd : d ∈ names) (v : Option ℝ) : SeenAt window dfs tref t d c v ↔ SeenAt window dfs' tref t d c v := by
  unfold SeenAt
  constructor
  · rintro ⟨df, h1, h2⟩
    exact ⟨df, (h d hd df).mp h1, h2⟩
  · rintro ⟨df, h1, h2⟩
    exact ⟨df, (h d hd df).mpr h1, h2⟩

/-- the matched data are the same up to the order of the times -/
theorem matched_same {window : ℝ} {tref : String} {dfs dfs' : List (String × DF String ℝ ℝ)} {sel : List (Col String)}
    (hn : (dfs.map Prod.fst).Nodup) (h : SameData (tref :: dsNames sel) dfs dfs') {times times' : List ℝ} {val val' : Col String → ℝ → ℝ}
    (hm : Matched window dfs tref sel times val) (hm' : Matched window dfs' tref sel times' val') :
    times.Perm times' ∧ ∀ x ∈ sel, ∀ t ∈ times, val x t = val' x t := by
  have hmem : ∀ x ∈ sel, (ofLex x).1 ∈ tref :: dsNames sel := fun x hx => List.mem_cons_of_mem _ (mem_dsNames.mpr ⟨x, hx, rfl⟩)
  have hiff : ∀ t, t ∈ times ↔ t ∈ times' := by
    intro t
    rw [hm.complete, hm'.complete]
    constructor
    · rintro ⟨⟨df, h1, h2⟩, h3⟩
      exact ⟨⟨df, (h tref List.mem_cons_self df).mp h1, h2⟩, fun x hx => by
        obtain ⟨v, hv⟩ := h3 x hx
        exact ⟨v, (seenAt_same h (hmem x hx) _).mp hv⟩⟩
    · rintro ⟨⟨df, h1, h2⟩, h3⟩
      exact ⟨⟨df, (h tref List.mem_cons_self df).mpr h1, h2⟩, fun x hx => by
        obtain ⟨v, hv⟩ := h3 x hx
        exact ⟨v, (seenAt_same h (hmem x hx) _).mpr hv⟩⟩
  refine ⟨(List.perm_ext_iff_of_nodup hm.nodup hm'.nodup).mpr hiff, ?_⟩
  intro x hx t ht
  have h1 := hm.values t ht x hx
  have h2 := (seenAt_same h (hmem x hx) _).mpr (hm'.values t ((hiff t).mp ht) x hx)
  exact Option.some.inj (seenAt_unique hn h1 h2)

theorem compared_same (s : Option (Col String)) {times times' : List ℝ} (hp : times.Perm times') (val val' : Col String → ℝ → ℝ) (x : Col String)
    (hx : ∀ t ∈ times, val x t = val' x t) (hs : ∀ c, s = some c → ∀ t ∈ times, val c t = val' c t) (t : ℝ) (ht : t ∈ times) :
    compared s times val x t = compared s times' val' x t := by
  have e : ∀ c, (∀ t ∈ times, val c t = val' c t) → (times.map (val c)).Perm (times'.map (val' c)) := by
    intro c hc
    rw [List.map_congr_left hc]
    exact hp.map _
  cases s with
  | none => simp only [compared, hx t ht]
  | some c =>
    have e1 := e x hx
    have e2 := e c (hs c rfl)
    simp only [compared, standardised, hx t ht, Pairwise.mean_perm e1, Pairwise.mean_perm e2, Pairwise.pvar_perm e1, Pairwise.pvar_perm e2]

theorem pairsOf_same {times times' : List ℝ} (hp : times.Perm times') (a b a' b' : ℝ → Option ℝ) (ha : ∀ t ∈ times, a t = a' t)
    (hb : ∀ t ∈ times, b t = b' t) : (pairsOf times a b).Perm (pairsOf times' a' b') := by
  have e : pairsOf times a b = pairsOf times a' b' := by
    unfold pairsOf
    apply List.filterMap_congr
    intro t ht
    rw [ha t ht, hb t ht]
  rw [e]
  exact hp.filterMap _

theorem pearson_perm {l l' : Pairs} (h : l.Perm l') : Pairwise.pearson l = Pairwise.pearson l' := by
  unfold Pairwise.pearson
  rw [Pairwise.pvar_perm (h.map Prod.fst), Pairwise.pvar_perm (h.map Prod.snd), Pairwise.pcov_perm h]

/-- the metrics without bootstrapping do not depend on the order -/
theorem expected_perm (F : Calculators.PairFuncs) (hF : OrderFree F) (o : Calculators.PairOptions) (hb : o.bootstrap = false)
    (boot : (Pairs → ℝ) → ℝ × ℝ) {l l' : Pairs} (h : l.Perm l') :
    Calculators.expectedPairwise F o boot l = Calculators.expectedPairwise F o boot l' := by
  obtain ⟨m1, -, m3, m4, m5, -, m7, m8, m9, m10, -⟩ := Pairwise.metrics_order_irrelevant l l' h 0 F.betainc F.tppf (Pairwise.bias l') 0.05
  obtain ⟨-, -, -, -, -, -, -, -, -, -, -, -, -, m14, -⟩ := Pairwise.metrics_order_irrelevant l l' h 0 F.betainc F.tppf (Pairwise.bias l') 0.05
  have hci : Pairwise.ubrmsdCi F.chi2ppf l (Pairwise.ubrmsd l' 0) 0.05 = Pairwise.ubrmsdCi F.chi2ppf l' (Pairwise.ubrmsd l' 0) 0.05 := by
    unfold Pairwise.ubrmsdCi
    rw [Pairwise.num_perm h]
  unfold Calculators.expectedPairwise
  rw [pearson_perm h, h.length_eq, m1, m3, m4, m5, m7, m8, m9, m10, m14, hci, (hF l l' h).1, (hF l l' h).2, hb]

/-! ### The theorem -/

/-- **C114.** Two validations (default matcher, no scaling or scaling to mean and standard deviation) that agree in the settings and in the data of a
pair of columns, of the temporal reference and of the scaling reference, report the same for this pair: the same status, and with common times also
the same number of observations and the same metrics. The other data sets may be any, provided that they could be read. -/
theorem other_data_sets_partial (P P' : PairJob) (hP : P.Sound) (hP' : P'.Sound) (hS : SameSettings P P') (hF : OrderFree P.F) (hb : P.o.bootstrap = false)
    (h2 : 2 ≤ P.minObs) (infos infos' : List (Calculators.Info ℝ)) (out out' : List (Key String × List (Field × List (Val ℝ))))
    (hout : calcAll P.setup false infos = .ok out) (hout' : calcAll P'.setup false infos' = .ok out') (x y : Col String)
    (tbl tbl' : List (Field × List (Val ℝ))) (hk : ([x, y], tbl) ∈ out) (hk' : ([x, y], tbl') ∈ out') (n n' : ℕ)
    (info info' : Calculators.Info ℝ) (hi : infos[n]? = some info) (hi' : infos'[n']? = some info') (dfs dfs' : List (String × DF String ℝ ℝ))
    (hg : P.getData info = .ok dfs) (hg' : P'.getData info' = .ok dfs') (hr : AllRead P.ds P.temporalRef dfs)
    (hr' : AllRead P'.ds P'.temporalRef dfs') (hD : SameData (P.temporalRef :: dsNames (P.needed [x, y])) dfs dfs') :
    (∃ s, EntryIs tbl (.plain "status") n (.int s) ∧ EntryIs tbl' (.plain "status") n' (.int s)) ∧
    ((∃ times val, Matched P.window dfs P.temporalRef (P.needed [x, y]) times val ∧ times ≠ []) →
      ∀ m ∈ Calculators.pairwiseNames P.o ++ ["n_obs"], ∃ w, EntryIs tbl (.plain m) n w ∧ EntryIs tbl' (.plain m) n' w) := by
  have hneed : P'.needed [x, y] = P.needed [x, y] := by unfold PairJob.needed; rw [hS.scaling]
  obtain ⟨times, val, t1, t2, t3⟩ := pair_validation P hP infos out hout x y tbl hk n info hi dfs hg hr
  obtain ⟨times', val', u1, u2, u3⟩ := pair_validation P' hP' infos' out' hout' x y tbl' hk' n' info' hi' dfs' hg' hr'
  rw [hneed, ← hS.window, ← hS.temporalRef] at u1
  obtain ⟨hp, hv⟩ := matched_same hr.nodup hD t1 u1
  have hnil : times = [] ↔ times' = [] := by
    constructor
    · rintro rfl; exact List.nil_perm.mp hp
    · rintro rfl; exact List.perm_nil.mp hp
  have hxy : ∀ z ∈ [x, y], z ∈ P.needed [x, y] := by
    intro z hz
    unfold PairJob.needed
    split
    · exact hz
    · split
      · exact hz
      · exact List.mem_append_left _ hz
  have hsn : ∀ c, P.scalingCol = some c → c ∈ P.needed [x, y] := by
    intro c hc
    unfold PairJob.needed
    rw [hc]
    simp only
    split
    · assumption
    · exact List.mem_append_right _ (by simp)
  have hcmp : ∀ z ∈ [x, y], ∀ t ∈ times, compared P.scalingCol times val z t = compared P'.scalingCol times' val' z t := by
    intro z hz t ht
    rw [← hS.scaling]
    exact compared_same _ hp val val' z (hv z (hxy z hz)) (fun c hc => hv c (hsn c hc)) t ht
  have hpairs := pairsOf_same hp (compared P.scalingCol times val x) (compared P.scalingCol times val y) _ _ (hcmp x (by simp)) (hcmp y (by simp))
  by_cases he : times = []
  · refine ⟨⟨_, t2 he, u2 (hnil.mp he)⟩, ?_⟩
    rintro ⟨times2, val2, q1, q2⟩
    have := (matched_same hr.nodup (fun d _ df => Iff.rfl) t1 q1).1
    rw [he] at this
    exact absurd (List.nil_perm.mp this) q2
  · have he' : times' ≠ [] := fun h => he (hnil.mpr h)
    obtain ⟨a1, a2⟩ := t3 he _ rfl
    obtain ⟨b1, b2⟩ := u3 he' _ rfl
    rw [← hS.minObs, ← hpairs.length_eq, ← hS.o] at b1
    by_cases hlt : (pairsOf times (compared P.scalingCol times val x) (compared P.scalingCol times val y)).length < P.minObs
    · obtain ⟨a3, -, a4, a5⟩ := a1 hlt
      obtain ⟨b3, -, b4, b5⟩ := b1 hlt
      refine ⟨⟨_, a3, b3⟩, fun _ m hm => ?_⟩
      rcases List.mem_append.mp hm with hm | hm
      · exact ⟨_, a5 m hm, b5 m hm⟩
      · obtain rfl := List.mem_singleton.mp hm
        exact ⟨_, a4, b4⟩
    · have hge := not_lt.mp hlt
      obtain ⟨a3, -, -, -, a4⟩ := a2 hge (le_trans h2 hge) (fun _ => (0, 0)) (by simp [hb])
      rw [← hS.minObs, ← hpairs.length_eq, ← hS.o, ← hS.F] at b2
      obtain ⟨b3, -, -, -, b4⟩ := b2 hge (le_trans h2 hge) (fun _ => (0, 0)) (by simp [hb])
      rw [← expected_perm P.F hF P.o hb (fun _ => (0, 0)) hpairs] at b4
      refine ⟨⟨_, a3, b3⟩, fun _ m hm => ?_⟩
      have hkeys := Calculators.expectedPairwise_keys P.F P.o (fun _ => (0, 0))
        (pairsOf times (compared P.scalingCol times val x) (compared P.scalingCol times val y))
      have hmem : Calculators.key m ∈ (Calculators.expectedPairwise P.F P.o (fun _ => (0, 0))
        (pairsOf times (compared P.scalingCol times val x) (compared P.scalingCol times val y))).map Prod.fst := by
        rw [hkeys]
        exact List.mem_map_of_mem hm
      obtain ⟨e, he1, he2⟩ := List.mem_map.mp hmem
      refine ⟨e.2, ?_, ?_⟩
      · have := a4 e he1
        rwa [he2, fieldOf_key] at this
      · have := b4 e he1
        rwa [he2, fieldOf_key] at this

/-- C114 is false with the combined matcher: a third data set takes away times of a pair. -/
theorem combined_depends_on_others : ∃ (dfs : List (ℕ × DF ℕ ℚ ℚ)) (third : ℕ × DF ℕ ℚ ℚ),
    ((oneMatcher (1 / 24) (some (1 / 2)) dfs 0 2 2).toOption.bind (fun m => (getDataForResultTuple 0 m [col 0 5, col 1 6]).toOption)).map
      (fun d => (d.index, d.columns)) = some ([1, 5], [(.ds 0, [some 1, some 5]), (.ds 1, [some 10, some 50])]) ∧
    ((oneMatcher (1 / 24) (some (1 / 2)) (dfs ++ [third]) 0 3 2).toOption.bind (fun m => (getDataForResultTuple 0 m [col 0 5, col 1 6]).toOption)).map
      (fun d => (d.index, d.columns)) = some ([5], [(.ds 0, [some 5]), (.ds 1, [some 50])]) := by
  refine ⟨[(0, ⟨[5], [(1, fun _ => some 1), (2, fun _ => some 2), (5, fun _ => some 5)]⟩), (1, ⟨[6], [(1, fun _ => some 10), (5, fun _ => some 50)]⟩)],
    (2, ⟨[7], [(2, fun _ => some 200), (5, fun _ => some 500)]⟩), ?_, ?_⟩
  · decide +kernel
  · decide +kernel

/-- concrete case: `exJob` of C87 without scaling, and the same validation without the data set "c" -/
def exWithout : PairJob := { exJob with
  ds := [("a", ["x"]), ("b", ["x"])]
  scaling := none
  getData := fun _ => .ok
    [("b", ⟨["x", "flag"], [(1, fun _ => some 10), (2.1, fun _ => some 30), (3, fun _ => some 20)]⟩),
     ("a", ⟨["x"], [(1, fun _ => some 1), (2, fun _ => some 2), (3, fun _ => some 4)]⟩)] }

example : ({ exJob with scaling := none } : PairJob).Sound ∧ exWithout.Sound ∧ SameSettings { exJob with scaling := none } exWithout ∧
    OrderFree exJob.F ∧ exJob.o.bootstrap = false ∧ 2 ≤ exJob.minObs ∧
    SameData ["a", "a", "b"]
      [("a", ⟨["x"], [(1, fun _ => some 1), (2, fun _ => some 2), (3, fun _ => some 4)]⟩),
       ("b", ⟨["x", "flag"], [(1, fun _ => some 10), (2.1, fun _ => some 30), (3, fun _ => some 20)]⟩),
       ("c", ⟨["y"], [(0.9, fun _ => some 5), (2, fun _ => some 6), (3, fun _ => some 8), (9, fun _ => some 0)]⟩)]
      [("b", ⟨["x", "flag"], [(1, fun _ => some 10), (2.1, fun _ => some 30), (3, fun _ => some 20)]⟩),
       ("a", ⟨["x"], [(1, fun _ => some 1), (2, fun _ => some 2), (3, fun _ => some 4)]⟩)] := by
  refine ⟨⟨by decide, by decide, by norm_num [exJob], by decide, by decide, .inl rfl⟩,
    ⟨by decide, by decide, by norm_num [exJob, exWithout], by decide, by decide, .inl rfl⟩, ⟨rfl, rfl, by decide, rfl, rfl, rfl⟩,
    fun _ _ _ => ⟨rfl, rfl⟩, rfl, by decide, ?_⟩
  intro d hd df
  simp only [List.mem_cons, Prod.mk.injEq, List.not_mem_nil, or_false] at hd ⊢
  rcases hd with rfl | rfl | rfl <;> simp

end Verif.Validation
