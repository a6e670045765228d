import Verif.Rounding.Scaling
import Verif.Rounding.FiltersProps

/-! C108: order and range of scaled data in the arithmetic of the machine. -/

namespace Verif.Rounding

section
set_option linter.unusedSectionVars false
variable {K : Type} [Field K] [LinearOrder K] [IsStrictOrderedRing K]

/-- the values are in the same order, apart from new ties -/
def SameOrder (src scaled : List K) : Prop :=
  scaled.length = src.length ∧ ∀ (i j : ℕ) (a b a' b' : K), src[i]? = some a → src[j]? = some b → scaled[i]? = some a' → scaled[j]? = some b' → a ≤ b → a' ≤ b'

theorem map_sameOrder (f : K → K) (hf : ∀ x y, x ≤ y → f x ≤ f y) (src : List K) : SameOrder src (src.map f) := by
  refine ⟨List.length_map _, ?_⟩
  intro i j a b a' b' ha hb ha' hb' hab
  rw [List.getElem?_map, ha] at ha'
  rw [List.getElem?_map, hb] at hb'
  cases ha'
  cases hb'
  exact hf a b hab

theorem foldl_min_le (l : List K) (a : K) : l.foldl min a ≤ a ∧ (∀ v ∈ l, l.foldl min a ≤ v) ∧ (l.foldl min a = a ∨ l.foldl min a ∈ l) := by
  induction l generalizing a with
  | nil => simp
  | cons v l ih =>
    obtain ⟨h1, h2, h3⟩ := ih (min a v)
    rw [List.foldl_cons]
    refine ⟨h1.trans (min_le_left _ _), ?_, ?_⟩
    · intro w hw
      rcases List.mem_cons.mp hw with rfl | hw
      · exact h1.trans (min_le_right _ _)
      · exact h2 w hw
    · rcases h3 with h3 | h3
      · rw [h3]
        rcases min_choice a v with h | h
        · exact Or.inl h
        · rw [h]; exact Or.inr List.mem_cons_self
      · exact Or.inr (List.mem_cons_of_mem _ h3)

theorem foldl_max_ge (l : List K) (a : K) : a ≤ l.foldl max a ∧ (∀ v ∈ l, v ≤ l.foldl max a) ∧ (l.foldl max a = a ∨ l.foldl max a ∈ l) := by
  induction l generalizing a with
  | nil => simp
  | cons v l ih =>
    obtain ⟨h1, h2, h3⟩ := ih (max a v)
    rw [List.foldl_cons]
    refine ⟨(le_max_left _ _).trans h1, ?_, ?_⟩
    · intro w hw
      rcases List.mem_cons.mp hw with rfl | hw
      · exact (le_max_right _ _).trans h1
      · exact h2 w hw
    · rcases h3 with h3 | h3
      · rw [h3]
        rcases max_choice a v with h | h
        · exact Or.inl h
        · rw [h]; exact Or.inr List.mem_cons_self
      · exact Or.inr (List.mem_cons_of_mem _ h3)

theorem npMin_spec (l : List K) (hl : l ≠ []) : npMin l ∈ l ∧ ∀ v ∈ l, npMin l ≤ v := by
  cases l with
  | nil => exact absurd rfl hl
  | cons a l =>
    obtain ⟨h1, h2, h3⟩ := foldl_min_le l a
    refine ⟨?_, ?_⟩
    · rcases h3 with h3 | h3
      · exact List.mem_cons.mpr (Or.inl h3)
      · exact List.mem_cons_of_mem _ h3
    · intro v hv
      rcases List.mem_cons.mp hv with rfl | hv
      · exact h1
      · exact h2 v hv

theorem npMax_spec (l : List K) (hl : l ≠ []) : npMax l ∈ l ∧ ∀ v ∈ l, v ≤ npMax l := by
  cases l with
  | nil => exact absurd rfl hl
  | cons a l =>
    obtain ⟨h1, h2, h3⟩ := foldl_max_ge l a
    refine ⟨?_, ?_⟩
    · rcases h3 with h3 | h3
      · exact List.mem_cons.mpr (Or.inl h3)
      · exact List.mem_cons_of_mem _ h3
    · intro v hv
      rcases List.mem_cons.mp hv with rfl | hv
      · exact h1
      · exact h2 v hv

theorem Exactly.nonneg {rnd : K → K} (h : Exactly rnd) (x : K) (hx : 0 ≤ x) : 0 ≤ rnd x := by
  have := h.mono 0 x hx
  rwa [h.zero] at this

theorem minMaxValue_mono {rnd : K → K} (h : Exactly rnd) (mn mx rmn rmx : K) (hs : mn ≤ mx) (hr : rmn ≤ rmx) (v w : K) (hvw : v ≤ w) :
    minMaxValue rnd mn mx rmn rmx v ≤ minMaxValue rnd mn mx rmn rmx w := by
  unfold minMaxValue
  have d0 := h.nonneg (mx - mn) (by linarith)
  have r0 := h.nonneg (rmx - rmn) (by linarith)
  have e1 := h.mono (v - mn) (w - mn) (by linarith)
  have e2 := h.mono _ _ (div_le_div_of_nonneg_right e1 d0)
  have e3 := h.mono _ _ (mul_le_mul_of_nonneg_right e2 r0)
  exact h.mono _ _ (by linarith)

/-- C108: scaling between minimum and maximum keeps the order of the values; the scaled minimum is exactly the minimum of the reference, and the scaled maximum is what is
computed for minimum + (maximum - minimum) of the reference. -/
theorem min_max_rounded {rnd : K → K} (h : Exactly rnd) (h1 : rnd 1 = 1) (src ref : List K) (hsrc : npMin src < npMax src) (hs : src ≠ []) (href : ref ≠ [])
    (hmachine : ∀ v ∈ ref, rnd v = v) :
    SameOrder src (minMax rnd src ref) ∧
    (∃ m ∈ ref, (∀ v ∈ ref, m ≤ v) ∧ m ∈ minMax rnd src ref ∧ (∀ v ∈ minMax rnd src ref, m ≤ v) ∧
      ∃ M ∈ ref, (∀ v ∈ ref, v ≤ M) ∧ rnd (rnd (M - m) + m) ∈ minMax rnd src ref ∧ ∀ v ∈ minMax rnd src ref, v ≤ rnd (rnd (M - m) + m)) := by
  obtain ⟨s1, s2⟩ := npMin_spec src hs
  obtain ⟨s3, s4⟩ := npMax_spec src hs
  obtain ⟨r1, r2⟩ := npMin_spec ref href
  obtain ⟨r3, r4⟩ := npMax_spec ref href
  have hr := r2 _ r3
  have mono := minMaxValue_mono h (npMin src) (npMax src) (npMin ref) (npMax ref) hsrc.le hr
  have hmin : minMaxValue rnd (npMin src) (npMax src) (npMin ref) (npMax ref) (npMin src) = npMin ref := by
    unfold minMaxValue
    rw [sub_self, h.zero, zero_div, h.zero, zero_mul, h.zero, zero_add, hmachine _ r1]
  have hmax : minMaxValue rnd (npMin src) (npMax src) (npMin ref) (npMax ref) (npMax src) = rnd (rnd (npMax ref - npMin ref) + npMin ref) := by
    unfold minMaxValue
    rw [div_self (h.pos _ (by linarith)).ne', h1, one_mul, h.idem]
  refine ⟨map_sameOrder _ mono src, npMin ref, r1, r2, ?_, ?_, npMax ref, r3, r4, ?_, ?_⟩
  · exact List.mem_map.mpr ⟨_, s1, hmin⟩
  · intro v hv
    obtain ⟨w, hw, rfl⟩ := List.mem_map.mp hv
    have := mono _ _ (s2 w hw)
    rwa [hmin] at this
  · exact List.mem_map.mpr ⟨_, s3, hmax⟩
  · intro v hv
    obtain ⟨w, hw, rfl⟩ := List.mem_map.mp hv
    have := mono _ _ (s4 w hw)
    rwa [hmax] at this

example := min_max_rounded rnd64_exactly (by decide +kernel) [1, 3, (1 / 7 : ℚ)] [Rolling.Fl.rnd64 (1 / 10), 4] (by decide +kernel) (by simp) (by simp)
  (by simp only [List.mem_cons, List.not_mem_nil, or_false]; rintro v (rfl | rfl) <;> decide +kernel)

/-- C108: the scaled maximum misses the maximum of the reference by rounding errors only. -/
theorem min_max_maximum_partial {rnd : K → K} {u : K} (h : RelErr rnd u) (m M : K) :
    |rnd (rnd (M - m) + m) - M| ≤ u * |M| + u * (1 + u) * |M - m| := by
  have h1 := h.err (M - m)
  have h2 := h.err (rnd (M - m) + m)
  have hu := h.nonneg
  have e1 : rnd (M - m) + m - M = rnd (M - m) - (M - m) := by ring
  have h3 : |rnd (M - m) + m| ≤ |M| + u * |M - m| := by
    have := abs_add_le (rnd (M - m) + m - M) M
    rw [sub_add_cancel, e1] at this
    linarith
  have h4 := abs_add_le (rnd (rnd (M - m) + m) - (rnd (M - m) + m)) (rnd (M - m) + m - M)
  rw [sub_add_sub_cancel, e1] at h4
  have h5 : u * |rnd (M - m) + m| ≤ u * (|M| + u * |M - m|) := mul_le_mul_of_nonneg_left h3 hu
  have e2 : u * |M| + u * (1 + u) * |M - m| = u * (|M| + u * |M - m|) + u * |M - m| := by ring
  rw [e2]
  linarith

example := min_max_maximum_partial rnd64_relErr (1 / 10) (7 / 3 : ℚ)

/-- C108: scaling with mean and standard deviation and with a stored regression keeps the order of the values, whatever the errors of the parameters. -/
theorem linear_scaling_order {rnd : K → K} (hm : ∀ x y, x ≤ y → rnd x ≤ rnd y) (src : List K) :
    (∀ slope intercept, SameOrder src (linregStored rnd slope intercept src)) ∧
    ∀ m s rm rs, 0 < s → 0 ≤ rs → SameOrder src (meanStd rnd m s rm rs src) := by
  refine ⟨fun slope intercept => map_sameOrder _ ?_ src, fun m s rm rs hs hrs => map_sameOrder _ ?_ src⟩
  · intro x y hxy
    have e1 := hm _ _ (mul_le_mul_of_nonneg_left hxy (abs_nonneg slope))
    exact hm _ _ (by linarith)
  · intro x y hxy
    have e1 := hm (x - m) (y - m) (by linarith)
    have e2 := hm _ _ (div_le_div_of_nonneg_right e1 hs.le)
    have e3 := hm _ _ (mul_le_mul_of_nonneg_right e2 hrs)
    exact hm _ _ (by linarith)

end

example := linear_scaling_order Rolling.Fl.rnd64_mono [1, 3, (1 / 7 : ℚ)]

open Verif.Rolling.Fl

/-- C108, negation: scaled to -0.1 and 0.2, the largest value is 0.20000000000000004. -/
theorem min_max_maximum_wrong : minMax rnd64 [0, 1] [rnd64 (-1 / 10), rnd64 (2 / 10)] = [rnd64 (-1 / 10), rnd64 (2 / 10) + 1 / 2 ^ 55] := by decide +kernel

/-- C108, negation: scaled to itself, 1.8 in 1.8, 0.6, 2.0 becomes another number. -/
theorem min_max_self_wrong : minMax rnd64 [rnd64 (18 / 10), rnd64 (6 / 10), 2] [rnd64 (18 / 10), rnd64 (6 / 10), 2] ≠ [rnd64 (18 / 10), rnd64 (6 / 10), 2] := by decide +kernel

/-- C108, negation: different values become equal. -/
theorem min_max_ties_wrong : minMax rnd64 [0, 1, 1 + 1 / 2 ^ 40] [10 ^ 6, 10 ^ 6 + 1 / 2 ^ 30] = [10 ^ 6, 10 ^ 6 + 1 / 2 ^ 30, 10 ^ 6 + 1 / 2 ^ 30] := by decide +kernel

/-! ## Concrete cases -/

example : npMin [rnd64 (18 / 10), rnd64 (6 / 10), 2] < npMax [rnd64 (18 / 10), rnd64 (6 / 10), 2] ∧ rnd64 1 = 1 ∧
    ∀ v ∈ [rnd64 (-1 / 10), rnd64 (2 / 10)], rnd64 v = v := by decide +kernel

example : linregStored rnd64 (rnd64 (-7 / 10)) (rnd64 (1 / 3)) [3, 1, 2] = [rnd64 (rnd64 (rnd64 (7 / 10) * 3) + rnd64 (1 / 3)), rnd64 (rnd64 (7 / 10) + rnd64 (1 / 3)),
    rnd64 (rnd64 (rnd64 (7 / 10) * 2) + rnd64 (1 / 3))] := by decide +kernel

end Verif.Rounding
