import Verif.Scaling.Units

/-!
C113: scaling in steps. A linear scaling (`mean_std`, `min_max`, a rising `linreg`) to another reference beforehand does not change the result of the
final scaling; scaling a second time to the same reference changes nothing. Both fail for a constant reference, for a falling `linreg` (which runs
away with every repetition), and the second one for CDF matching (negations).
-/

set_option linter.unusedSectionVars false

noncomputable section

namespace Verif.Scaling

/-! ### Specification -/

/-- not all values are equal -/
def Varies (l : List ℝ) : Prop := ∃ v ∈ l, ∃ w ∈ l, v ≠ w

/-- scaled to `mid` first, then to `ref` with the same method -/
def inSteps (f : Method) (src mid ref : Arr) : Except Err Arr :=
  match f src mid with
  | .error e => .error e
  | .ok x => f x ref

/-! ### Lemmas -/

theorem inUnits_one (l : Arr) : inUnits 1 0 l = l := by
  unfold inUnits
  conv_rhs => rw [← List.map_id l]
  apply List.map_congr_left
  intro o _
  cases o <;> simp

/-- source units do not matter -/
theorem FollowsUnits.source {f : Method} (hf : FollowsUnits f) {a : ℝ} (ha : 0 < a) (b : ℝ) (src ref : Arr) :
    f (inUnits a b src) ref = f src ref := by
  have h := hf a b 1 0 src ref ha one_pos
  rw [inUnits_one] at h
  rw [h]
  cases f src ref with
  | error e => rfl
  | ok x => simp only [Except.map, inUnits_one]

theorem pvar_pos_of_varies (l : List ℝ) (h : Varies l) : 0 < Moments.pvar l := by
  rcases lt_or_eq_of_le (Moments.pvar_nonneg l) with h0 | h0
  · exact h0
  · exfalso
    obtain ⟨v, hv, w, hw, hne⟩ := h
    have hl : l ≠ [] := List.ne_nil_of_mem hv
    have hn : (0 : ℝ) < l.length := by exact_mod_cast List.length_pos_of_ne_nil hl
    have hz : (l.map (fun v => (v - Moments.mean l) ^ 2)).sum = 0 := by
      unfold Moments.pvar at h0
      have h1 : Moments.mean (l.map (fun v => (v - Moments.mean l) ^ 2)) =
        (l.map (fun v => (v - Moments.mean l) ^ 2)).sum / (l.length : ℝ) := by unfold Moments.mean; simp
      rw [h1] at h0
      rcases div_eq_zero_iff.mp h0.symm with h2 | h2
      · exact h2
      · exact absurd h2 hn.ne'
    have hall : ∀ x ∈ l, x = Moments.mean l := by
      intro x hx
      have h1 := List.single_le_sum (l := l.map (fun v => (v - Moments.mean l) ^ 2)) (by
        intro y hy; obtain ⟨z, _, rfl⟩ := List.mem_map.mp hy; exact sq_nonneg _) _ (List.mem_map_of_mem hx)
      rw [hz] at h1
      have := le_antisymm h1 (sq_nonneg _)
      have := pow_eq_zero_iff (two_ne_zero) |>.mp this
      linarith
    exact hne ((hall v hv).trans (hall w hw).symm)

theorem varies_of_pvar (l : List ℝ) (h : ¬ Varies l) : Moments.pvar l = 0 := by
  unfold Varies at h
  push Not at h
  cases l with
  | nil => simp [Moments.pvar, Moments.mean]
  | cons a l =>
    have hl : a :: l = List.replicate (l.length + 1) a :=
      List.eq_replicate_iff.mpr ⟨by simp, fun b hb => h b hb a List.mem_cons_self⟩
    have hne : ((l.length : ℝ) + 1) ≠ 0 := by positivity
    rw [hl]
    unfold Moments.pvar Moments.mean
    simp [hne]

/-- `mean_std` is a conversion of units with a positive gain, if both arrays vary -/
theorem meanStd_is_units (s m : List ℝ) (hs : Varies s) (hm : Varies m) :
    ∃ a b : ℝ, 0 < a ∧ meanStd (s.map some) (m.map some) = inUnits a b (s.map some) := by
  have h1 : 0 < npStd s := by rw [npStd_eq]; exact Real.sqrt_pos.mpr (pvar_pos_of_varies s hs)
  have h2 : 0 < npStd m := by rw [npStd_eq]; exact Real.sqrt_pos.mpr (pvar_pos_of_varies m hm)
  have hne : m ≠ [] := by obtain ⟨v, hv, _⟩ := hm; exact List.ne_nil_of_mem hv
  refine ⟨npStd m / npStd s, npMean m - npMean s / npStd s * npStd m, div_pos h2 h1, ?_⟩
  unfold meanStd inUnits
  simp only [allSome_map]
  rw [if_neg (by simp [h1.ne', hne]), List.map_map]
  apply List.map_congr_left
  intro v _
  simp only [Function.comp_apply, Option.map_some, Option.some.injEq]
  ring

theorem exists_least (l : List ℝ) (h : l ≠ []) : ∃ a, IsLeast {v | v ∈ l} a := by
  cases l with
  | nil => exact absurd rfl h
  | cons a l =>
    obtain ⟨h1, h2, h3⟩ := foldl_min_least l a
    refine ⟨l.foldl min a, ?_, ?_⟩
    · rcases h3 with h3 | h3
      · simp [h3]
      · exact List.mem_cons_of_mem _ h3
    · intro v hv
      rcases List.mem_cons.mp hv with rfl | hv
      · exact h1
      · exact h2 v hv

theorem exists_greatest (l : List ℝ) (h : l ≠ []) : ∃ a, IsGreatest {v | v ∈ l} a := by
  cases l with
  | nil => exact absurd rfl h
  | cons a l =>
    obtain ⟨h1, h2, h3⟩ := foldl_max_greatest l a
    refine ⟨l.foldl max a, ?_, ?_⟩
    · rcases h3 with h3 | h3
      · simp [h3]
      · exact List.mem_cons_of_mem _ h3
    · intro v hv
      rcases List.mem_cons.mp hv with rfl | hv
      · exact h1
      · exact h2 v hv

theorem least_lt_greatest (l : List ℝ) (h : Varies l) (a b : ℝ) (ha : IsLeast {v | v ∈ l} a) (hb : IsGreatest {v | v ∈ l} b) : a < b := by
  obtain ⟨v, hv, w, hw, hne⟩ := h
  rcases lt_or_gt_of_ne hne with h | h
  · exact lt_of_le_of_lt (ha.2 hv) (lt_of_lt_of_le h (hb.2 hw))
  · exact lt_of_le_of_lt (ha.2 hw) (lt_of_lt_of_le h (hb.2 hv))

/-- so is `min_max` -/
theorem minMax_is_units (s m : List ℝ) (hs : Varies s) (hm : Varies m) :
    ∃ a b : ℝ, 0 < a ∧ minMax (s.map some) (m.map some) = .ok (inUnits a b (s.map some)) := by
  have hsne : s ≠ [] := by obtain ⟨v, hv, _⟩ := hs; exact List.ne_nil_of_mem hv
  have hmne : m ≠ [] := by obtain ⟨v, hv, _⟩ := hm; exact List.ne_nil_of_mem hv
  obtain ⟨a, ha⟩ := exists_least s hsne
  obtain ⟨b, hb⟩ := exists_greatest s hsne
  obtain ⟨c, hc⟩ := exists_least m hmne
  obtain ⟨d, hd⟩ := exists_greatest m hmne
  have hab := sub_pos.mpr (least_lt_greatest s hs a b ha hb)
  have hcd := sub_pos.mpr (least_lt_greatest m hm c d hc hd)
  refine ⟨(d - c) / (b - a), c - a / (b - a) * (d - c), div_pos hcd hab, ?_⟩
  unfold minMax inUnits
  rw [if_neg (by simp [hsne, hmne])]
  simp only [allSome_map, npMin_eq s a ha, npMax_eq s b hb, npMin_eq m c hc, npMax_eq m d hd, if_neg hab.ne', List.map_map]
  congr 1
  apply List.map_congr_left
  intro v _
  simp only [Function.comp_apply, Option.map_some, Option.some.injEq]
  ring

/-- so is `linreg` along a rising line -/
theorem linreg_is_units (src mid : Arr) (slope intercept : ℝ) (h : linregParams src mid = .ok (some (slope, intercept))) (hpos : 0 < slope) :
    linreg src mid = .ok (inUnits slope intercept src) := by
  unfold linreg
  rw [h]
  simp only [bind, Except.bind, linregStoredParams, inUnits, abs_of_pos hpos]

/-! ### Another linear scaling beforehand -/

/-- C113: a linear scaling to any varying reference beforehand does not change what a scaling method that follows units (C95: `mean_std`, `min_max`,
`cdf_match` without limits) returns or raises afterwards. -/
theorem prescaled_partial (f : Method) (hf : FollowsUnits f) (s m : List ℝ) (ref : Arr) (hs : Varies s) (hm : Varies m) :
    f (meanStd (s.map some) (m.map some)) ref = f (s.map some) ref ∧
    (∃ x, minMax (s.map some) (m.map some) = .ok x ∧ f x ref = f (s.map some) ref) ∧
    ∀ slope intercept, linregParams (s.map some) (m.map some) = .ok (some (slope, intercept)) → 0 < slope →
      ∃ x, linreg (s.map some) (m.map some) = .ok x ∧ f x ref = f (s.map some) ref := by
  refine ⟨?_, ?_, ?_⟩
  · obtain ⟨a, b, ha, h⟩ := meanStd_is_units s m hs hm
    rw [h, hf.source ha]
  · obtain ⟨a, b, ha, h⟩ := minMax_is_units s m hs hm
    exact ⟨_, h, hf.source ha b _ _⟩
  · intro slope intercept h hpos
    exact ⟨_, linreg_is_units _ _ slope intercept h hpos, hf.source hpos intercept _ _⟩

theorem varies_pair {a b : ℝ} (h : a ≠ b) (l : List ℝ) : Varies (a :: b :: l) := ⟨a, by simp, b, by simp, h⟩

/-- CDF matching after a scaling by mean and standard deviation -/
example (P : Cdf.Params ℝ) := (prescaled_partial _ (cdf_match_follows_units P) [1, 2, 5] [10, 30] [some 3, none, some 4]
  (varies_pair (by norm_num) _) (varies_pair (by norm_num) _)).1

/-- C113: the same for `linreg` as the last step, if the line to the last reference does not fall. -/
theorem prescaled_linreg_partial (s m : List ℝ) (ref : Arr) (hs : Varies s) (hm : Varies m)
    (hup : ∀ p, linregParams (s.map some) ref = .ok (some p) → 0 ≤ p.1) :
    linreg (meanStd (s.map some) (m.map some)) ref = linreg (s.map some) ref ∧
    (∃ x, minMax (s.map some) (m.map some) = .ok x ∧ linreg x ref = linreg (s.map some) ref) ∧
    ∀ slope intercept, linregParams (s.map some) (m.map some) = .ok (some (slope, intercept)) → 0 < slope →
      ∃ x, linreg (s.map some) (m.map some) = .ok x ∧ linreg x ref = linreg (s.map some) ref := by
  have key : ∀ a b : ℝ, 0 < a → linreg (inUnits a b (s.map some)) ref = linreg (s.map some) ref := by
    intro a b ha
    have h := linreg_units_partial a b 1 0 (s.map some) ref ha one_pos (Or.inr hup)
    rw [inUnits_one] at h
    rw [h]
    cases linreg (s.map some) ref with
    | error e => rfl
    | ok x => simp only [Except.map, inUnits_one]
  refine ⟨?_, ?_, ?_⟩
  · obtain ⟨a, b, ha, h⟩ := meanStd_is_units s m hs hm
    rw [h, key _ _ ha]
  · obtain ⟨a, b, ha, h⟩ := minMax_is_units s m hs hm
    exact ⟨_, h, key a b ha⟩
  · intro slope intercept h hpos
    exact ⟨_, linreg_is_units _ _ slope intercept h hpos, key slope intercept hpos⟩

/-! ### Twice -/

/-- C113, `mean_std` and `min_max`: in steps as at once, so twice as once. The source may be any array (NaN, constant, empty). -/
theorem in_steps_partial (src : Arr) (m : List ℝ) (ref : Arr) (hm : Varies m) :
    inSteps (fun s r => .ok (meanStd s r)) src (m.map some) ref = .ok (meanStd src ref) ∧
    inSteps minMax src (m.map some) ref = minMax src ref := by
  have hmne : m ≠ [] := by obtain ⟨v, hv, _⟩ := hm; exact List.ne_nil_of_mem hv
  have hnone : ∀ l : Arr, meanStd (l.map (fun _ => none)) ref = l.map (fun _ => none) := by
    intro l
    cases l with
    | nil => unfold meanStd; cases allSome ref <;> simp [allSome, npStd, npMean]
    | cons o l => rw [mean_std_nan _ _ (Or.inl (by simp)), List.map_map]; rfl
  have hallnone : ∀ l : Arr, none ∈ l → allSome l = none := by
    intro l hl
    unfold allSome
    rw [if_neg]
    simp only [List.all_eq_true, not_forall]
    exact ⟨none, hl, by simp⟩
  have hcases : none ∈ src ∨ ∃ s : List ℝ, src = s.map some := by
    by_cases h : none ∈ src
    · exact Or.inl h
    · right
      refine ⟨src.filterMap id, ?_⟩
      clear hm hmne hnone hallnone
      induction src with
      | nil => rfl
      | cons o l ih =>
        cases o with
        | none => simp at h
        | some v =>
          have h' : none ∉ l := fun hh => h (List.mem_cons_of_mem _ hh)
          exact congrArg (some v :: ·) (ih h')
  constructor
  · unfold inSteps
    simp only
    congr 1
    rcases hcases with h | ⟨s, rfl⟩
    · rw [mean_std_nan src _ (Or.inl h), hnone, mean_std_nan src _ (Or.inl h)]
    · by_cases hs : Varies s
      · obtain ⟨a, b, ha, h⟩ := meanStd_is_units s m hs hm
        rw [h]
        have := mean_std_units.source ha b (s.map some) ref
        simpa using this
      · have h0 := varies_of_pvar s hs
        rw [mean_std_constant s _ h0, mean_std_constant s _ h0]
        have := hnone (s.map some)
        simpa [List.map_map, Function.comp_def] using this
  · unfold inSteps
    have hnone2 : ∀ l : Arr, l ≠ [] → ∀ k : Arr, minMax (l.map (fun _ => none)) k = if k = [] then .error .valueError else .ok (l.map (fun _ => none)) := by
      intro l hl k
      unfold minMax
      rw [hallnone _ (by obtain ⟨o, l', rfl⟩ := List.exists_cons_of_ne_nil hl; simp)]
      by_cases hk : k = []
      · rw [if_pos (Or.inr hk), if_pos hk]
      · rw [if_neg (by simp [hl, hk]), if_neg hk]
        simp [List.map_map, Function.comp_def]
    have hnan : ∀ k : Arr, none ∈ src → minMax src k = if k = [] then .error .valueError else .ok (src.map (fun _ => none)) := by
      intro k h
      unfold minMax
      rw [hallnone _ h]
      by_cases hk : k = []
      · rw [if_pos (Or.inr hk), if_pos hk]
      · rw [if_neg (by simp [List.ne_nil_of_mem h, hk]), if_neg hk]
    rcases hcases with h | ⟨s, rfl⟩
    · rw [hnan _ h, hnan _ h, if_neg (by simp [hmne])]
      simp only
      rw [hnone2 _ (List.ne_nil_of_mem h)]
    · by_cases hsne : s = []
      · subst hsne
        unfold minMax
        simp
      by_cases hs : Varies s
      · obtain ⟨a, b, ha, h⟩ := minMax_is_units s m hs hm
        rw [h]
        exact min_max_units.source ha b (s.map some) ref
      · unfold Varies at hs
        push Not at hs
        obtain ⟨a, l, hl⟩ := List.exists_cons_of_ne_nil hsne
        have ha : a ∈ s := by rw [hl]; simp
        have hc : ∀ v ∈ s, v = a := fun v hv => hs v hv a ha
        rw [(min_max_constant s m a ha hc hmne).1]
        simp only
        have e : (s.map (fun _ => (none : Option ℝ))) = (s.map some).map (fun _ => none) := by rw [List.map_map]; rfl
        rw [e, hnone2 _ (by simpa using hsne)]
        by_cases hk : ref = []
        · rw [if_pos hk, hk]
          unfold minMax
          simp
        · rw [if_neg hk]
          have h1 : npMin s = some a := npMin_eq s a ⟨ha, fun v hv => (hc v hv).ge⟩
          have h2 : npMax s = some a := npMax_eq s a ⟨ha, fun v hv => (hc v hv).le⟩
          unfold minMax
          rw [if_neg (by simp [hsne, hk]), allSome_map]
          cases hr : allSome ref with
          | none => rfl
          | some r =>
            have hrne : r ≠ [] := by
              rintro rfl
              unfold allSome at hr
              split at hr
              · rename_i hh
                cases ref with
                | nil => exact hk rfl
                | cons o l' =>
                  cases o with
                  | none => simp at hh
                  | some v => simp at hr
              · cases hr
            obtain ⟨c, hc'⟩ := exists_least r hrne
            obtain ⟨d, hd⟩ := exists_greatest r hrne
            simp only [h1, h2, npMin_eq r c hc', npMax_eq r d hd, sub_self, if_true]

/-- a source with a missing value, and one without -/
example := in_steps_partial [some 1, none, some 2] [0, 1] [some 3, some 4] (varies_pair (by norm_num) _)
example := in_steps_partial [some 1, some 7, some 2] [0, 1] [some 0, some 1] (varies_pair (by norm_num) _)

/-- C113, `linreg` along a rising line: the second scaling changes nothing. -/
theorem linreg_twice_partial (src ref : Arr) (slope intercept : ℝ) (h : linregParams src ref = .ok (some (slope, intercept))) (hpos : 0 < slope) :
    inSteps linreg src ref ref = linreg src ref := by
  unfold inSteps
  rw [linreg_is_units src ref slope intercept h hpos]
  simp only
  have h2 := linreg_units_partial slope intercept 1 0 src ref hpos one_pos (Or.inr (by
    intro p hp
    rw [h] at hp
    injection hp with hp
    injection hp with hp
    rw [← hp]
    exact hpos.le))
  rw [inUnits_one] at h2
  rw [h2, linreg_is_units src ref slope intercept h hpos]
  simp only [Except.map, inUnits_one]

example := linreg_twice_partial [some 0, some 1] [some 1, some 5] 4 1 (by
  have e : ∀ a b : ℝ, allSome [some a, some b] = some [a, b] := fun a b => allSome_map [a, b]
  unfold linregParams
  rw [if_neg (by simp)]
  simp only [e]
  rw [if_neg (by norm_num)]
  norm_num [npMean]) (by norm_num)

/-! ### Where it fails -/

/-- C113 is false for a constant reference: scaled once the data are the constant, scaled twice they are NaN. -/
theorem constant_reference_wrong (s : List ℝ) (c : ℝ) (n : ℕ) (hs : Varies s) (hn : 0 < n) :
    meanStd (s.map some) ((List.replicate n c).map some) = s.map (fun _ => some c) ∧
    inSteps (fun s r => .ok (meanStd s r)) (s.map some) ((List.replicate n c).map some) ((List.replicate n c).map some) = .ok (s.map (fun _ => none)) ∧
    minMax (s.map some) ((List.replicate n c).map some) = .ok (s.map (fun _ => some c)) ∧
    inSteps minMax (s.map some) ((List.replicate n c).map some) ((List.replicate n c).map some) = .ok (s.map (fun _ => none)) := by
  have hsne : s ≠ [] := by obtain ⟨v, hv, _⟩ := hs; exact List.ne_nil_of_mem hv
  have hrne : List.replicate n c ≠ [] := by simp; omega
  have hstd : npStd s ≠ 0 := by rw [npStd_eq]; exact (Real.sqrt_pos.mpr (pvar_pos_of_varies s hs)).ne'
  have hrp : Moments.pvar (List.replicate n c) = 0 := varies_of_pvar _ (by
    rintro ⟨v, hv, w, hw, hne⟩
    exact hne ((List.eq_of_mem_replicate hv).trans (List.eq_of_mem_replicate hw).symm))
  have hmean : npMean (List.replicate n c) = c := by
    have : (n : ℝ) ≠ 0 := by exact_mod_cast hn.ne'
    unfold npMean
    simp [this]
  have hconst : Moments.pvar (s.map (fun _ => c)) = 0 := varies_of_pvar _ (by
    rintro ⟨v, hv, w, hw, hne⟩
    obtain ⟨_, _, rfl⟩ := List.mem_map.mp hv
    obtain ⟨_, _, rfl⟩ := List.mem_map.mp hw
    exact hne rfl)
  have h1 : meanStd (s.map some) ((List.replicate n c).map some) = s.map (fun _ => some c) := by
    unfold meanStd
    simp only [allSome_map]
    rw [if_neg (by simp only [hstd, hrne, or_self, not_false_eq_true])]
    apply List.map_congr_left
    intro v _
    rw [npStd_eq (List.replicate n c), hrp, Real.sqrt_zero, hmean]
    simp
  have h3 : minMax (s.map some) ((List.replicate n c).map some) = .ok (s.map (fun _ => some c)) := by
    obtain ⟨a, ha⟩ := exists_least s hsne
    obtain ⟨b, hb⟩ := exists_greatest s hsne
    have hab := sub_pos.mpr (least_lt_greatest s hs a b ha hb)
    have hc : c ∈ List.replicate n c := List.mem_replicate.mpr ⟨hn.ne', rfl⟩
    have h4 : npMin (List.replicate n c) = some c := npMin_eq _ c ⟨hc, fun v hv => (List.eq_of_mem_replicate hv).ge⟩
    have h5 : npMax (List.replicate n c) = some c := npMax_eq _ c ⟨hc, fun v hv => (List.eq_of_mem_replicate hv).le⟩
    unfold minMax
    rw [if_neg (by simp only [List.map_eq_nil_iff, hsne, hrne, or_self, not_false_eq_true])]
    simp only [allSome_map, npMin_eq s a ha, npMax_eq s b hb, h4, h5, if_neg hab.ne', sub_self, mul_zero, zero_add]
  have hmm : s.map (fun _ => some c) = (s.map (fun _ => c)).map some := by rw [List.map_map]; rfl
  refine ⟨h1, ?_, h3, ?_⟩
  · unfold inSteps
    simp only
    rw [h1, hmm, mean_std_constant _ _ hconst, List.map_map]
    rfl
  · unfold inSteps
    rw [h3]
    simp only
    obtain ⟨v, hv, _⟩ := hs
    rw [hmm, (min_max_constant (s.map (fun _ => c)) (List.replicate n c) c (List.mem_map.mpr ⟨v, hv, rfl⟩) (by
      intro w hw; obtain ⟨_, _, rfl⟩ := List.mem_map.mp hw; rfl) hrne).1, List.map_map]
    rfl

example := constant_reference_wrong [0, 1] 5 3 (varies_pair (by norm_num) _) (by norm_num)

/-- C113 is false for a falling `linreg`: a second scaling to the same reference moves the data by twice the intercept. -/
theorem linreg_twice_wrong (src ref : Arr) (slope intercept : ℝ) (h : linregParams src ref = .ok (some (slope, intercept))) (hneg : slope < 0) :
    ∃ x, linreg src ref = .ok x ∧ inSteps linreg src ref ref = .ok (inUnits 1 (2 * intercept) x) := by
  have habs : |slope| = -slope := abs_of_neg hneg
  have hx : linreg src ref = .ok (inUnits (-slope) intercept src) := by
    unfold linreg
    rw [h]
    simp only [bind, Except.bind, linregStoredParams, inUnits, habs]
  refine ⟨_, hx, ?_⟩
  unfold inSteps
  rw [hx]
  simp only
  have h2 := linregParams_units (a := -slope) (c := 1) (by linarith) intercept 0 src ref
  rw [inUnits_one, h] at h2
  have e : 1 / -slope * slope = -1 := by
    have := hneg.ne
    field_simp
  simp only [Except.map, Option.map_some, e] at h2
  generalize inUnits (-slope) intercept src = y at *
  unfold linreg
  rw [h2]
  simp only [bind, Except.bind, linregStoredParams, inUnits, abs_neg, abs_one]
  congr 1
  apply List.map_congr_left
  intro o _
  cases o with
  | none => rfl
  | some v => simp only [Option.map_some, Option.some.injEq]; ring

theorem falling_example : linregParams [some 0, some 1] [some 1, some 0] = .ok (some (-1, 1)) := by
  have e : ∀ a b : ℝ, allSome [some a, some b] = some [a, b] := fun a b => allSome_map [a, b]
  unfold linregParams
  rw [if_neg (by simp)]
  simp only [e]
  rw [if_neg (by norm_num)]
  norm_num [npMean]

/-- 1, 2 after the first scaling, 3, 4 after the second -/
example : inSteps linreg [some 0, some 1] [some 1, some 0] [some 1, some 0] = .ok [some 3, some 4] ∧
    linreg [some 0, some 1] [some 1, some 0] = .ok [some 1, some 2] := by
  obtain ⟨x, h1, h2⟩ := linreg_twice_wrong _ _ _ _ falling_example (by norm_num)
  have h3 := linreg_negative_slope_wrong.1
  refine ⟨?_, h3⟩
  rw [h2]
  rw [h1] at h3
  injection h3 with h3
  rw [h3]
  norm_num [inUnits]

/-- Without a relation (slope zero) the second `linreg` raises ValueError. -/
theorem linreg_twice_flat (s r : List ℝ) (intercept : ℝ) (h : linregParams (s.map some) (r.map some) = .ok (some (0, intercept))) :
    linreg (s.map some) (r.map some) = .ok (s.map (fun _ => some intercept)) ∧
      inSteps linreg (s.map some) (r.map some) (r.map some) = .error .valueError := by
  have hx : linreg (s.map some) (r.map some) = .ok (s.map (fun _ => some intercept)) := by
    unfold linreg
    rw [h]
    simp only [bind, Except.bind, linregStoredParams, abs_zero, zero_mul, zero_add, List.map_map]
    rfl
  refine ⟨hx, ?_⟩
  have hlen : 1 < s.length := by
    by_contra hc
    unfold linregParams at h
    split at h
    · cases h
    · rw [allSome_map, allSome_map] at h
      simp only at h
      rw [if_pos (by
        intro v hv w hw
        have hl : s.length = 1 := by have := List.length_pos_of_mem hv; omega
        obtain ⟨a, rfl⟩ := List.length_eq_one_iff.mp hl
        simp at hv hw
        rw [hv, hw])] at h
      split at h
      · cases h
      · cases h
  unfold inSteps
  rw [hx]
  simp only
  have e : s.map (fun _ => some intercept) = (s.map (fun _ => intercept)).map some := by rw [List.map_map]; rfl
  rw [e]
  exact linreg_raises _ _ (Or.inr (Or.inr ⟨by simpa using hlen, by
    intro v hv w hw
    obtain ⟨_, _, rfl⟩ := List.mem_map.mp hv
    obtain ⟨_, _, rfl⟩ := List.mem_map.mp hw
    rfl⟩))

/-- a reference unrelated to the source -/
example := linreg_twice_flat [0, 1, 2] [1, 0, 1] (2 / 3) (by
  have e : ∀ a b c : ℝ, allSome [some a, some b, some c] = some [a, b, c] := fun a b c => allSome_map [a, b, c]
  unfold linregParams
  rw [if_neg (by simp)]
  simp only [List.map_cons, List.map_nil, e]
  rw [if_neg (by norm_num)]
  norm_num [npMean])

/-- C113 is false for CDF matching (rational values): matched data change if they are matched to the same reference again. -/
theorem cdf_match_twice_wrong : ∃ (P : Cdf.Params ℚ) (src ref x y : List (Option ℚ)),
    (Cdf.cdfMatch P none none src ref).toOption = some x ∧ (Cdf.cdfMatch P none none x ref).toOption = some y ∧ x ≠ y := by
  refine ⟨⟨4, none, none, true, false⟩, [some 1, some 3, some 4, some 9, some 10], [some 0, some 5, some 7, some 20, some 22],
    [some 0, some (29 / 6), some 7, some (139 / 7), some 22], [some 0, some (398 / 81), some 7, some (499 / 25), some 22], ?_, ?_, ?_⟩
  · decide +kernel
  · decide +kernel
  · decide +kernel

/-! ### Frames -/

theorem mapM_again {α : Type} (h : α → Except Err α) (l l' : List α) (hm : l.mapM h = .ok l') (hid : ∀ x ∈ l, ∀ y, h x = .ok y → h y = .ok y) :
    l'.mapM h = .ok l' ∧ List.Forall₂ (fun x y => h x = .ok y) l l' := by
  induction l generalizing l' with
  | nil => cases hm; exact ⟨rfl, List.Forall₂.nil⟩
  | cons x l ih =>
    rw [List.mapM_cons] at hm
    simp only [bind, Except.bind, pure, Except.pure] at hm
    cases hx : h x with
    | error e => rw [hx] at hm; cases hm
    | ok y =>
      rw [hx] at hm
      simp only at hm
      cases hl : l.mapM h with
      | error e => rw [hl] at hm; cases hm
      | ok l2 =>
        rw [hl] at hm
        simp only at hm
        obtain rfl := Except.ok.inj hm
        obtain ⟨h1, h2⟩ := ih l2 hl (fun z hz => hid z (List.mem_cons_of_mem _ hz))
        refine ⟨?_, List.Forall₂.cons hx h2⟩
        rw [List.mapM_cons, h1, hid x List.mem_cons_self y hx]
        rfl

/-- C113, `scale`: if the method leaves every column it has scaled as it is, a scaled frame is not changed by scaling it again. -/
theorem scale_twice (f : Method) (df out : Frame) (hn : (df.map Prod.fst).Nodup) (i : ℕ) (ref : String × Arr) (hi : df[i]? = some ref)
    (hf : ∀ c ∈ df, c.1 ≠ ref.1 → inSteps f c.2 ref.2 ref.2 = f c.2 ref.2) (h : scale (.ok f) df i = .ok out) :
    scale (.ok f) out i = .ok out := by
  have hilt : i < df.length := (List.getElem?_eq_some_iff.mp hi).1
  unfold scale at h
  simp only [bind, Except.bind, hi] at h
  rw [filter_ne_eraseIdx df hn i ref hi] at h
  set g : String × Arr → Except Err (String × Arr) := fun c =>
    (do
      let r ← f c.2 ref.2
      let r ← checked (nRows df) r
      .ok (c.1, r)) with hg
  have hgs : ∀ c y, g c = .ok y → y.1 = c.1 ∧ f c.2 ref.2 = .ok y.2 ∧ y.2.length = nRows df := by
    intro c y hy
    simp only [hg, checked, bind, Except.bind] at hy
    split at hy
    · cases hy
    · rename_i r hr
      by_cases hl : r.length = nRows df
      · rw [if_pos hl] at hy
        obtain rfl := Except.ok.inj hy
        exact ⟨rfl, hr, hl⟩
      · rw [if_neg hl] at hy
        cases hy
  cases hm : (df.eraseIdx i).mapM g with
  | error e =>
    simp only [hg, bind, Except.bind] at hm
    rw [hm] at h
    cases h
  | ok scaled =>
    have hm' := hm
    simp only [hg, bind, Except.bind] at hm'
    rw [hm'] at h
    simp only at h
    obtain rfl := Except.ok.inj h
    have hmem : ∀ c ∈ df.eraseIdx i, c ∈ df ∧ c.1 ≠ ref.1 := by
      intro c hc
      rw [← filter_ne_eraseIdx df hn i ref hi] at hc
      simpa using hc
    obtain ⟨h1, h2⟩ := mapM_again g _ scaled hm (by
      intro c hc y hy
      obtain ⟨e1, e2, e3⟩ := hgs c y hy
      have h3 := hf c (hmem c hc).1 (hmem c hc).2
      unfold inSteps at h3
      rw [e2] at h3
      simp only at h3
      simp only [hg, h3, checked, if_pos e3, bind, Except.bind])
    have hlen : scaled.length = df.length - 1 := by
      rw [← h2.length_eq, List.length_eraseIdx_of_lt hilt]
    have hgen2 : ∀ l l' : Frame, List.Forall₂ (fun x y => g x = .ok y) l l' →
        l'.map Prod.fst = l.map Prod.fst ∧ ∀ y ∈ l', y.2.length = nRows df := by
      intro l l' hll
      induction hll with
      | nil => exact ⟨rfl, by simp⟩
      | cons hxy _ ih =>
        refine ⟨by rw [List.map_cons, List.map_cons, ih.1, (hgs _ _ hxy).1], ?_⟩
        intro y hy
        rcases List.mem_cons.mp hy with rfl | hy
        · exact (hgs _ _ hxy).2.2
        · exact ih.2 y hy
    obtain ⟨hnames, hsl⟩ := hgen2 _ _ h2
    have hnot : ∀ y ∈ scaled, y.1 ≠ ref.1 := by
      intro y hy
      have : y.1 ∈ (df.eraseIdx i).map Prod.fst := by rw [← hnames]; exact List.mem_map_of_mem hy
      obtain ⟨c, hc, he⟩ := List.mem_map.mp this
      rw [← he]
      exact (hmem c hc).2
    have hget : (scaled.insertIdx i ref)[i]? = some ref := by
      rw [List.getElem?_insertIdx_self]
      rw [if_pos (by omega)]
    have hfil : (scaled.insertIdx i ref).filter (fun c => decide (c.1 ≠ ref.1)) = scaled := by
      have hgen : ∀ (l : Frame) (k : ℕ), (∀ y ∈ l, y.1 ≠ ref.1) → (l.insertIdx k ref).filter (fun c => decide (c.1 ≠ ref.1)) = l := by
        intro l
        induction l with
        | nil => intro k _; cases k <;> simp
        | cons c l ih =>
          intro k hk
          have hc := hk c List.mem_cons_self
          have hl : l.filter (fun c => decide (c.1 ≠ ref.1)) = l :=
            List.filter_eq_self.mpr (fun y hy => by simpa using hk y (List.mem_cons_of_mem _ hy))
          cases k with
          | zero => rw [List.insertIdx_zero, List.filter_cons_of_neg (by simp), List.filter_cons_of_pos (by simpa using hc), hl]
          | succ k =>
            rw [List.insertIdx_succ_cons, List.filter_cons_of_pos (by simpa using hc), ih k (fun y hy => hk y (List.mem_cons_of_mem _ hy))]
      exact hgen scaled i hnot
    have hrows : nRows (scaled.insertIdx i ref) = nRows df := by
      cases i with
      | zero =>
        rw [List.insertIdx_zero]
        cases df with
        | nil => simp at hilt
        | cons c l => simp at hi; simp [nRows, hi]
      | succ k =>
        cases scaled with
        | nil => simp at hlen; omega
        | cons y l =>
          rw [List.insertIdx_succ_cons]
          exact hsl y List.mem_cons_self
    unfold scale
    simp only [bind, Except.bind, hget]
    simp only [hg, bind, Except.bind] at h1
    rw [hfil, hrows, h1]

/-- two columns scaled to the third by mean and standard deviation, then again -/
example (out : Frame) (h : scale (.ok (fun s r => .ok (meanStd s r))) [("a", [some 1, none]), ("b", [some 4, some 5]), ("r", [some 0, some 1])] 2 = .ok out) :
    scale (.ok (fun s r => .ok (meanStd s r))) out 2 = .ok out :=
  scale_twice _ _ out (by simp) 2 ("r", [some 0, some 1]) rfl
    (fun c _ _ => (in_steps_partial c.2 [0, 1] [some 0, some 1] (varies_pair (by norm_num) _)).1) h

end Verif.Scaling
