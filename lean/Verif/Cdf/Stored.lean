import Verif.Cdf.Props
import Verif.Rounding.Single

/-! C122: CDF matching of data in single precision. The percentiles are computed in double precision (`np.interp` and the splines convert their arguments) but stored
with the element type of the source, and so is the prediction. Simplifications: the computation itself is exact here (for its rounding see C120), and integer sources
are left out. -/

namespace Verif.Cdf

open Rounding (rnd32 rnd32_mono rnd32_idem rnd32_relErr RelErr)

variable {K : Type} [Field K] [LinearOrder K] [IsStrictOrderedRing K]

omit [LinearOrder K] [IsStrictOrderedRing K] [Field K] in
/-- cdf_matching.py:131-136: both arrays of percentiles are created with `dtype=x.dtype`; `rnd` is the conversion to that type -/
def store (rnd : K → K) (F : Fitted K) : Fitted K := ⟨F.xPerc.map (Option.map rnd), F.yPerc.map (Option.map rnd)⟩

/-- cdf_matching.py:81-137 `fit` for a source whose element type has the rounding `rnd` -/
def fitStored (rnd : K → K) (P : Params K) (x y : List (Option K)) : Except Err (Fitted K) := (fit P x y).map (store rnd)

/-- cdf_matching.py:139-158 `predict`: the result is created by `np.full_like(x, np.nan)` -/
def predictStored (rnd : K → K) (F : Fitted K) (x : List (Option K)) : List (Option K) := (predict F x).map (Option.map rnd)

/-- scaling.py:258-322 `cdf_match(src, ref, …)`: the limits are stored in the prediction -/
def cdfMatchStored (rnd : K → K) (P : Params K) (maxVal minVal : Option K) (src ref : List (Option K)) : Except Err (List (Option K)) := do
  let F ← fitStored rnd P src ref
  .ok ((predictStored rnd F src).map (Option.map (fun v => rnd (clip maxVal minVal v))))

omit [LinearOrder K] [IsStrictOrderedRing K] [Field K] in
theorem pad_map (rnd : K → K) (n : ℕ) (l : List K) : (pad n l).map (Option.map rnd) = pad n (l.map rnd) := by
  unfold pad
  simp

/-- the percentiles of a fit -/
theorem fit_padded (P : Params K) (hP : LevelsOk P) (x y : List (Option K)) (F : Fitted K) (hS : P.edge = true → SeveralBins P (nUsed P.combine x y)) (h : fit P x y = .ok F) :
    ∃ n xp yp, F = ⟨pad n xp, pad n yp⟩ ∧ xp.Pairwise (· ≤ ·) ∧ yp.Pairwise (· ≤ ·) ∧ xp.length = yp.length := by
  unfold fit at h
  simp only [bind, Except.bind] at h
  split at h
  · simp at h
  · rename_i r hr
    obtain ⟨xp, yp⟩ := r
    simp only [Except.ok.injEq] at h
    rw [← valid_length] at hS
    obtain ⟨h1, h2, h3⟩ := fit_sorted P hP _ _ xp yp hS hr
    exact ⟨_, xp, yp, h.symm, h1, h2, h3⟩

/-- C122: the prediction is NaN everywhere or one nondecreasing function applied to all values, also with stored percentiles. -/
theorem stored_monotone (rnd : K → K) (hm : ∀ x y, x ≤ y → rnd x ≤ rnd y) (P : Params K) (hP : LevelsOk P) (x y : List (Option K)) (F : Fitted K)
    (hS : P.edge = true → SeveralBins P (nUsed P.combine x y)) (h : fitStored rnd P x y = .ok F) :
    (∀ xs, predictStored rnd F xs = xs.map (fun _ => none)) ∨ ∃ g : K → K, Monotone g ∧ ∀ xs, predictStored rnd F xs = xs.map (Option.map g) := by
  unfold fitStored at h
  cases hf : fit P x y with
  | error e => rw [hf] at h; simp [Except.map] at h
  | ok G =>
    rw [hf] at h
    simp only [Except.map, Except.ok.injEq] at h
    obtain ⟨n, xp, yp, rfl, h1, h2, h3⟩ := fit_padded P hP x y G hS hf
    subst h
    unfold predictStored store
    simp only [pad_map]
    by_cases hc : 2 ≤ (xp.map rnd).length ∧ increasing ((xp.map rnd).zip (yp.map rnd)) = true
    · right
      refine ⟨fun v => rnd (pwl ((xp.map rnd).zip (yp.map rnd)) v), ?_, ?_⟩
      · intro a b hab
        refine hm _ _ (pwl_mono _ ((increasing_iff _).mp hc.2) (monoY_zip _ _ ?_) a b hab)
        rw [List.pairwise_map]
        exact h2.imp fun hxy => hm _ _ hxy
      · intro xs
        rw [predict_pad _ _ _ (by simp [h3]), if_pos hc, List.map_map]
        exact List.map_congr_left fun v _ => by cases v <;> rfl
    · left
      intro xs
      rw [predict_pad _ _ _ (by simp [h3]), if_neg hc, List.map_map]
      exact List.map_congr_left fun v _ => rfl

example := stored_monotone rnd32 rnd32_mono (⟨2, none, none, false, true⟩ : Params ℚ) (by simp [LevelsOk]) [some 1, some 3, none, some 4]
  [some 2, some (1 / 3), some 1, some 9] ⟨[some 1, some 3, some 4], [some (rnd32 (1 / 3)), some 2, some 9]⟩ (by simp) (by decide +kernel)

/-- **C122, negation.** If two different percentiles of the source become equal when they are stored, every prediction is NaN. -/
theorem stored_collapse (rnd : K → K) (F : Fitted K) (v w : K) (hv : some v ∈ F.xPerc) (hw : some w ∈ F.xPerc) (hne : v ≠ w) (hrnd : rnd v = rnd w) (xs : List (Option K)) :
    predictStored rnd (store rnd F) xs = xs.map (fun _ => none) := by
  have key : predict (store rnd F) xs = xs.map (fun _ => none) := by
    unfold predict store
    simp only
    split_ifs with g1 g2
    · rfl
    · exfalso
      have hi := (increasing_iff _).mp g2.2.2
      unfold IncX at hi
      have h3 := List.map_fst_zip (l₁ := (F.xPerc.map (Option.map rnd)).filterMap id) (l₂ := (F.yPerc.map (Option.map rnd)).filterMap id) g2.1.le
      have hp : ((F.xPerc.map (Option.map rnd)).filterMap id).Pairwise (· < ·) := by
        rw [← h3, List.pairwise_map]
        exact hi
      rw [List.filterMap_map, show (id ∘ Option.map rnd) = Option.map rnd from rfl] at hp
      have hp2 : (F.xPerc.filterMap (Option.map rnd)) = (F.xPerc.filterMap id).map rnd := by
        rw [List.map_filterMap]
        rfl
      rw [hp2, List.pairwise_map] at hp
      have mv : v ∈ F.xPerc.filterMap id := List.mem_filterMap.mpr ⟨_, hv, rfl⟩
      have mw : w ∈ F.xPerc.filterMap id := List.mem_filterMap.mpr ⟨_, hw, rfl⟩
      obtain ⟨i, hi, ei⟩ := List.mem_iff_getElem.mp mv
      obtain ⟨j, hj, ej⟩ := List.mem_iff_getElem.mp mw
      rw [List.pairwise_iff_getElem] at hp
      rcases lt_trichotomy i j with hij | hij | hij
      · have := hp i j hi hj hij
        rw [ei, ej, hrnd] at this
        exact lt_irrefl _ this
      · subst hij
        exact hne (ei.symm.trans ej)
      · have := hp j i hj hi hij
        rw [ei, ej, hrnd] at this
        exact lt_irrefl _ this
    · rfl
  unfold predictStored
  rw [key, List.map_map]
  exact List.map_congr_left fun v _ => rfl

/-- 1 and the next number of single precision -/
def closePair : List (Option ℚ) := [some 1, some (1 + 1 / 2 ^ 23)]

/-- **C122, negation.** Two values that are neighbours in single precision, four bins: matched against itself, the data set is unchanged in double precision and NaN in
single precision. -/
theorem stored_self_nan : (cdfMatchStored id (⟨4, none, none, false, true⟩ : Params ℚ) none none closePair closePair).toOption = some closePair ∧
    (cdfMatchStored rnd32 (⟨4, none, none, false, true⟩ : Params ℚ) none none closePair closePair).toOption = some [none, none] := by
  decide +kernel

example := stored_collapse rnd32 (⟨[some 1, some (1 + 1 / 2 ^ 24), some (1 + 1 / 2 ^ 23)], [some 1, some 2, some 3]⟩ : Fitted ℚ) 1 (1 + 1 / 2 ^ 24) (by simp) (by simp)
  (by norm_num) (by decide +kernel) [some 1, none]

/-- C122: percentiles of the source that differ by more than their rounding errors stay different; the prediction then is a nondecreasing function that maps the stored
percentiles of the source to those of the reference. -/
theorem stored_defined {rnd : K → K} {u : K} (hr : RelErr rnd u) (hm : ∀ x y, x ≤ y → rnd x ≤ rnd y) (hid : ∀ x, rnd (rnd x) = rnd x) (n : ℕ) (xp yp : List K)
    (hx : xp.Pairwise (fun v w => v + u * (|v| + |w|) < w)) (hy : yp.Pairwise (· ≤ ·)) (hlen : xp.length = yp.length) (h2 : 2 ≤ xp.length) :
    ∃ g : K → K, Monotone g ∧ (∀ xs, predictStored rnd (store rnd ⟨pad n xp, pad n yp⟩) xs = xs.map (Option.map g)) ∧
      ∀ (i : ℕ) (v w : K), xp[i]? = some v → yp[i]? = some w → g (rnd v) = rnd w := by
  have hx2 : (xp.map rnd).Pairwise (· < ·) := by
    rw [List.pairwise_map]
    refine hx.imp fun {v w} hvw => ?_
    have a1 := (abs_le.1 (hr.err v)).2
    have a2 := (abs_le.1 (hr.err w)).1
    linarith
  have hi := incX_zip (xp.map rnd) (yp.map rnd) hx2
  refine ⟨fun v => rnd (pwl ((xp.map rnd).zip (yp.map rnd)) v), ?_, ?_, ?_⟩
  · intro a b hab
    refine hm _ _ (pwl_mono _ hi (monoY_zip _ _ ?_) a b hab)
    rw [List.pairwise_map]
    exact hy.imp fun hxy => hm _ _ hxy
  · intro xs
    unfold predictStored store
    simp only [pad_map]
    rw [predict_pad _ _ _ (by simp [hlen]), if_pos ⟨by simpa using h2, (increasing_iff _).mpr hi⟩, List.map_map]
    exact List.map_congr_left fun v _ => by cases v <;> rfl
  · intro i v w hv hw
    have hmem : (rnd v, rnd w) ∈ (xp.map rnd).zip (yp.map rnd) := by
      rw [List.mem_iff_getElem?]
      refine ⟨i, ?_⟩
      rw [List.getElem?_zip_eq_some]
      simp [hv, hw]
    have := pwl_knot _ hi _ hmem
    simp only at this ⊢
    rw [this, hid]

example := stored_defined rnd32_relErr rnd32_mono rnd32_idem 4 [1 / 3, 1 / 2, (2 / 3 : ℚ)] [1 / 10, 1 / 10, 1 / 7] (by norm_num) (by norm_num) rfl (by norm_num)

/-- C122: a data set in single precision matched against itself is unchanged or NaN. -/
theorem stored_self_partial (rnd : K → K) (P : Params K) (hp : P.percentiles = none) (hn : 1 ≤ P.nbins) (x : List (Option K)) (hx : ∀ v, some v ∈ x → rnd v = v) (a b : K)
    (ha : some a ∈ x) (hb : some b ∈ x) (hab : a ≠ b) :
    cdfMatchStored rnd P none none x x = .ok x ∨ cdfMatchStored rnd P none none x x = .ok (x.map (fun _ => none)) := by
  obtain ⟨xp, hs, h2, hf⟩ := fit_self P hp hn x a b ha hb hab
  unfold cdfMatchStored fitStored
  rw [hf]
  simp only [bind, Except.bind, Except.map, Except.ok.injEq]
  unfold predictStored store
  simp only [pad_map]
  rw [predict_pad _ _ _ rfl]
  split_ifs with hc
  · left
    have hi := (increasing_iff _).mp hc.2
    rw [List.map_map, List.map_map]
    nth_rewrite 2 [← List.map_id x]
    refine List.map_congr_left fun v hv => ?_
    cases v with
    | none => rfl
    | some u =>
      simp only [Function.comp_apply, Option.map_some, clip, id, Option.some.injEq]
      rw [pwl_id _ hi _ (by rw [List.length_zip]; omega)]
      · rw [hx u hv, hx u hv]
      intro q hq
      generalize xp.map rnd = m at hq
      clear * - hq
      induction m with
      | nil => simp at hq
      | cons c l ih =>
        simp only [List.zip_cons_cons, List.mem_cons] at hq
        rcases hq with rfl | hq
        · rfl
        · exact ih hq
  · right
    rw [List.map_map, List.map_map]
    exact List.map_congr_left fun v _ => rfl

example := stored_self_partial rnd32 (⟨4, none, none, true, true⟩ : Params ℚ) rfl (by decide) closePair
  (by simp only [closePair, List.mem_cons, Option.some.injEq, List.not_mem_nil, or_false]; rintro v (rfl | rfl) <;> decide +kernel) 1 (1 + 1 / 2 ^ 23) (by simp [closePair]) (by simp [closePair]) (by norm_num)

/-- C122: without linear edge scaling and with regular levels, matching data in single precision returns NaN everywhere, or one nondecreasing function followed by the
limits, applied to every value of the source. The function maps the smallest source value to the stored smallest reference value and the largest to the largest. -/
theorem stored_match_partial (rnd : K → K) (hm : ∀ x y, x ≤ y → rnd x ≤ rnd y) (hid : ∀ x, rnd (rnd x) = rnd x) (P : Params K) (hp : P.percentiles = none) (hn : 1 ≤ P.nbins)
    (he : P.edge = false) (maxVal minVal : Option K) (x y : List (Option K)) (hx : ∀ v, some v ∈ x → rnd v = v) (a b c d : K) (ha : IsLeast (UsedX P.combine x y) a)
    (hb : IsGreatest (UsedX P.combine x y) b) (hc : IsLeast (UsedY P.combine x y) c) (hd : IsGreatest (UsedY P.combine x y) d) (hab : a ≠ b) :
    cdfMatchStored rnd P maxVal minVal x y = .ok (x.map (fun _ => none)) ∨
      ∃ g : K → K, Monotone g ∧ g a = rnd c ∧ g b = rnd d ∧
        cdfMatchStored rnd P maxVal minVal x y = .ok (x.map (Option.map (fun v => rnd (clip maxVal minVal (g v))))) := by
  obtain ⟨xp, yp, hf, hxs, hys, hlen, h2, hxa, hxb, hya, hyb⟩ := fit_ends P hp hn he x y a b c d ha hb hc hd hab
  have used : ∀ v ∈ UsedX P.combine x y, some v ∈ x := by
    intro v hv
    unfold UsedX at hv
    simp only [Set.mem_setOf_eq] at hv
    split at hv
    · obtain ⟨i, w, h1, _⟩ := hv
      exact List.mem_of_getElem? h1
    · exact hv
  unfold cdfMatchStored fitStored
  rw [hf]
  simp only [bind, Except.bind, Except.map, Except.ok.injEq]
  unfold predictStored store
  simp only [pad_map]
  rw [predict_pad _ _ _ (by simp [hlen])]
  split_ifs with hc
  · right
    have hi := (increasing_iff _).mp hc.2
    have knot : ∀ (i : ℕ) (v w : K), xp[i]? = some v → yp[i]? = some w → rnd (pwl ((xp.map rnd).zip (yp.map rnd)) (rnd v)) = rnd w := by
      intro i v w hv hw
      have hmem : (rnd v, rnd w) ∈ (xp.map rnd).zip (yp.map rnd) := by
        rw [List.mem_iff_getElem?]
        refine ⟨i, ?_⟩
        rw [List.getElem?_zip_eq_some]
        simp [hv, hw]
      have := pwl_knot _ hi _ hmem
      simp only at this
      rw [this, hid]
    refine ⟨fun v => rnd (pwl ((xp.map rnd).zip (yp.map rnd)) v), ?_, ?_, ?_, ?_⟩
    · intro v w hvw
      refine hm _ _ (pwl_mono _ hi (monoY_zip _ _ ?_) v w hvw)
      rw [List.pairwise_map]
      exact hys.imp fun hxy => hm _ _ hxy
    · rw [List.head?_eq_getElem?] at hxa hya
      have := knot 0 a c hxa hya
      rwa [hx a (used a ha.1)] at this
    · rw [List.getLast?_eq_getElem?] at hxb hyb
      rw [← hlen] at hyb
      have := knot _ b d hxb hyb
      rwa [hx b (used b hb.1)] at this
    · rw [List.map_map, List.map_map]
      exact List.map_congr_left fun v _ => by cases v <;> rfl
  · left
    rw [List.map_map, List.map_map]
    exact List.map_congr_left fun v _ => rfl

example := stored_match_partial rnd32 rnd32_mono rnd32_idem (⟨2, none, none, false, false⟩ : Params ℚ) rfl (by decide) rfl none (some 0)
    [some 1, some 3, none, some 4] [some 5, some (1 / 3), some 9]
    (by simp only [List.mem_cons, Option.some.injEq, List.not_mem_nil, or_false, reduceCtorEq, false_or]; rintro v (rfl | rfl | rfl) <;> decide +kernel)
    1 4 (1 / 3) 9 (by constructor <;> simp [UsedX, lowerBounds])
    (by constructor <;> simp [UsedX, upperBounds] <;> norm_num) (by constructor <;> norm_num [UsedY, lowerBounds]) (by constructor <;> norm_num [UsedY, upperBounds])
    (by norm_num)

end Verif.Cdf
