import Verif.Cdf.Bins
import Verif.Cdf.Stored
import Mathlib.Algebra.Order.Floor.Ring
import Mathlib.Data.Rat.Floor

/-! C131: CDF matching of integer data. `fit` and `predict` create their arrays with the element type of the source (`np.full(..., np.nan, dtype=x.dtype)`,
`np.full_like(x, np.nan)`): numpy cuts the fractions of what is stored there, and stores a number `c` for NaN that depends on the platform (-2^63 on x86). The computation
itself is in double precision and exact here. The reference may be floating point or integer. -/

namespace Verif.Cdf

variable {K : Type} [Field K] [LinearOrder K] [FloorRing K]

/-! ### Model -/

/-- numpy: conversion of a floating point number to an integer, cdf_matching.py:131-136, 151 -/
def trunc (x : K) : ℤ := if 0 ≤ x then ⌊x⌋ else ⌈x⌉

/-- the same numbers as floating point numbers, cdf_matching.py:112-125 -/
def floats (x : List ℤ) : List (Option K) := x.map (fun z : ℤ => some (z : K))

/-- a percentile or NaN in an integer array, cdf_matching.py:131-136 -/
def intCell (c : ℤ) (v : Option K) : K :=
  match v with
  | some v => (trunc v : K)
  | none => (c : K)

/-- cdf_matching.py:81-137 `fit` for an array of integers -/
def fitInt (c : ℤ) (P : Params K) (x : List ℤ) (y : List (Option K)) : Except Err (List K × List K) :=
  (fit P (floats x) y).map (fun F => (F.xPerc.map (intCell c), F.yPerc.map (intCell c)))

/-- cdf_matching.py:139-158 `predict` for an array of integers, with percentiles from integers: nothing is NaN, so lines 145-146 keep everything -/
def predictInt (c : ℤ) (F : List K × List K) (x : List ℤ) : List ℤ :=
  if 2 ≤ (F.1.zip F.2).length ∧ increasing (F.1.zip F.2) = true then x.map (fun z : ℤ => trunc (pwl (F.1.zip F.2) (z : K))) else x.map (fun _ => c)

/-- scaling.py:317-322 for an array of integers -/
def clipInt (maxVal minVal : Option K) (v : ℤ) : ℤ :=
  let w : ℤ := match maxVal with
    | some m => if m < (v : K) then trunc m else v
    | none => v
  match minVal with
  | some m => if (w : K) < m then trunc m else w
  | none => w

/-- scaling.py:258-322 `cdf_match(src, ref, ...)` for an array of integers -/
def cdfMatchInt (c : ℤ) (P : Params K) (maxVal minVal : Option K) (src : List ℤ) (ref : List (Option K)) : Except Err (List ℤ) :=
  (fitInt c P src ref).map (fun F => (predictInt c F src).map (clipInt maxVal minVal))

/-! ### Lemmas -/

section
variable [IsStrictOrderedRing K]

theorem trunc_int (z : ℤ) : trunc (z : K) = z := by
  unfold trunc
  split <;> simp

theorem trunc_mono (a b : K) (h : a ≤ b) : trunc a ≤ trunc b := by
  unfold trunc
  split_ifs with h1 h2 h2
  · exact Int.floor_mono h
  · exact absurd (h1.trans h) h2
  · push Not at h1
    have e1 : ⌈a⌉ ≤ 0 := Int.ceil_le.2 (by simpa using h1.le)
    exact e1.trans (Int.floor_nonneg.2 h2)
  · exact Int.ceil_mono h

/-- cutting the fraction moves a number by less than one, towards zero -/
theorem trunc_close (a : K) : |(trunc a : K) - a| < 1 ∧ |(trunc a : K)| ≤ |a| := by
  unfold trunc
  split_ifs with h
  · have h1 := Int.floor_le a
    have h2 := Int.lt_floor_add_one a
    refine ⟨abs_lt.2 ⟨by linarith, by linarith⟩, ?_⟩
    have h3 : (0 : K) ≤ (⌊a⌋ : K) := by exact_mod_cast Int.floor_nonneg.2 h
    rw [abs_of_nonneg h3, abs_of_nonneg h]
    exact h1
  · push Not at h
    have h1 := Int.le_ceil a
    have h2 := Int.ceil_lt_add_one a
    refine ⟨abs_lt.2 ⟨by linarith, by linarith⟩, ?_⟩
    have h3 : (⌈a⌉ : K) ≤ 0 := by exact_mod_cast Int.ceil_le.2 (by simpa using h.le)
    rw [abs_of_nonpos h3, abs_of_neg h]
    linarith

/-- two entries of the source that are not increasing -/
theorem predictInt_not (c : ℤ) (F : List K × List K) (hl : F.1.length = F.2.length) (i : ℕ) (v w : K) (h1 : F.1[i]? = some v) (h2 : F.1[i + 1]? = some w)
    (h : w ≤ v) (x : List ℤ) : predictInt c F x = x.map (fun _ => c) := by
  unfold predictInt
  rw [if_neg]
  rintro ⟨-, hi⟩
  have hi := (increasing_iff _).mp hi
  unfold IncX at hi
  have h3 := List.map_fst_zip (l₁ := F.1) (l₂ := F.2) hl.le
  have hp : F.1.Pairwise (· < ·) := by
    rw [← h3, List.pairwise_map]
    exact hi
  obtain ⟨i1, e1⟩ := List.getElem?_eq_some_iff.1 h1
  obtain ⟨i2, e2⟩ := List.getElem?_eq_some_iff.1 h2
  have := (List.pairwise_iff_getElem.1 hp) i (i + 1) i1 i2 (Nat.lt_succ_self i)
  rw [e1, e2] at this
  exact absurd h (not_le.2 this)

/-! ### Theorems -/

/-- **C131, negation.** Regular bins of which `minobs` leaves at least two unused: whatever the data, the result is the number that stands for NaN (after
the limits), everywhere. -/
theorem int_resized (c : ℤ) (P : Params K) (hp : P.percentiles = none) (hn : 1 ≤ P.nbins) (maxVal minVal : Option K) (src : List ℤ) (ref : List (Option K))
    (hb : binsFor P.nbins P.minobs (nUsed P.combine (floats src) ref) + 2 ≤ P.nbins) (r : List ℤ)
    (h : cdfMatchInt c P maxVal minVal src ref = .ok r) : r = src.map (fun _ => clipInt maxVal minVal c) := by
  unfold cdfMatchInt fitInt at h
  cases hf : fit P (floats src) ref with
  | error e => rw [hf] at h; simp [Except.map] at h
  | ok F =>
    rw [hf] at h
    simp only [Except.map, Except.ok.injEq] at h
    obtain ⟨l1, l2, l3⟩ := fitted_bins P hp hn _ _ F hf
    set k := binsFor P.nbins P.minobs (nUsed P.combine (floats src) ref)
    have a1 := (l3 (k + 1) (by omega)).2.1.2 (by omega)
    have a2 := (l3 (k + 2) (by omega)).2.1.2 (by omega)
    rw [predictInt_not c _ (by simp [l1, l2]) (k + 1) (c : K) (c : K) (by simp [a1, intCell]) (by simp [a2, intCell]) le_rfl] at h
    rw [← h, List.map_map]
    rfl

/-- **C131, negation.** The default arguments (100 bins, at least 20 observations each): integer data with less than 1980 values are lost. -/
theorem int_default_lost (c : ℤ) (src : List ℤ) (ref : List (Option K)) (hlen : src.length < 1980) (r : List ℤ)
    (h : cdfMatchInt c ⟨100, none, some 20, true, true⟩ none none src ref = .ok r) : ∀ v ∈ r, v = c := by
  have hu : nUsed true (floats src) ref < 1980 := by
    rw [← valid_length]
    refine lt_of_le_of_lt (min_le_left _ _) (lt_of_le_of_lt ?_ hlen)
    unfold validValues
    split_ifs
    · refine (List.length_filterMap_le _ _).trans ((List.length_filter_le _ _).trans ?_)
      simp [floats]
    · refine (List.length_filterMap_le _ _).trans ?_
      simp [floats]
  have := int_resized c (⟨100, none, some 20, true, true⟩ : Params K) rfl (by norm_num) none none src ref (by
    show max 1 (min 100 (nUsed true (floats src) ref / (19 + 1))) + 2 ≤ 100
    have : nUsed true (floats src) ref / (19 + 1) ≤ 98 := by omega
    omega) r h
  rw [this]
  intro v hv
  obtain ⟨z, -, rfl⟩ := List.mem_map.1 hv
  rfl

/-- C131: with all bins in use the result is the number for NaN everywhere, or a nondecreasing function of the data. -/
theorem int_monotone_partial (c : ℤ) (P : Params K) (hP : LevelsOk P) (hp : P.percentiles = none) (hn : 1 ≤ P.nbins) (src : List ℤ) (ref : List (Option K))
    (hS : P.edge = true → SeveralBins P (nUsed P.combine (floats src) ref))
    (hb : binsFor P.nbins P.minobs (nUsed P.combine (floats src) ref) = P.nbins) (r : List ℤ)
    (h : cdfMatchInt c P none none src ref = .ok r) : r = src.map (fun _ => c) ∨ ∃ g : ℤ → ℤ, Monotone g ∧ r = src.map g := by
  unfold cdfMatchInt fitInt at h
  cases hf : fit P (floats src) ref with
  | error e => rw [hf] at h; simp [Except.map] at h
  | ok F =>
    rw [hf] at h
    simp only [Except.map, Except.ok.injEq] at h
    have hclip : clipInt (none : Option K) none = id := rfl
    rw [hclip, List.map_id] at h
    obtain ⟨n, xp, yp, rfl, h1, h2, h3⟩ := fit_padded P hP _ _ F hS hf
    obtain ⟨l1, l2, l3⟩ := fitted_bins P hp hn _ _ _ hf
    have hfull : ∀ w : List K, (pad n w).length = P.nbins + 1 → (pad n w)[P.nbins]? ≠ some none → pad n w = w.map some := by
      intro w hl hne
      unfold pad at hl hne ⊢
      by_cases hz : n - w.length = 0
      · rw [hz]; simp
      · exfalso
        apply hne
        have hl' : w.length + (n - w.length) = P.nbins + 1 := by simpa using hl
        rw [List.getElem?_append_right (by simp; omega), List.getElem?_replicate, if_pos (by simp; omega)]
    have lx := (l3 P.nbins le_rfl).2.1
    have ly := (l3 P.nbins le_rfl).2.2
    have ex := hfull xp l1 (fun hc => absurd (lx.1 hc) (by rw [hb]; omega))
    have ey := hfull yp l2 (fun hc => absurd (ly.1 hc) (by rw [hb]; omega))
    simp only [ex, ey, List.map_map] at h
    have ec : (intCell c ∘ some : K → K) = fun v => ((trunc v : ℤ) : K) := rfl
    rw [ec] at h
    unfold predictInt at h
    simp only at h
    split at h
    · rename_i hc
      right
      refine ⟨_, ?_, h.symm⟩
      intro a b hab
      refine trunc_mono _ _ (pwl_mono _ ((increasing_iff _).mp hc.2) (monoY_zip _ _ ?_) _ _ (by exact_mod_cast hab))
      rw [List.pairwise_map]
      exact h2.imp fun hxy => by exact_mod_cast trunc_mono _ _ hxy
    · exact .inl h.symm

/-- C131: if all percentiles are whole numbers, the result is that of the same numbers in floating point, without the fractions. -/
theorem int_whole_partial (c : ℤ) (P : Params K) (src : List ℤ) (ref : List (Option K)) (xp yp : List ℤ) (hlen : xp.length = yp.length)
    (hf : fit P (floats src) ref = .ok ⟨floats xp, floats yp⟩) :
    ∃ f r, cdfMatch P none none (floats src) ref = .ok f ∧ cdfMatchInt c P none none src ref = .ok r ∧
      r = f.map (fun v => match v with
        | some v => trunc v
        | none => c) := by
  refine ⟨_, _, show cdfMatch P none none (floats src) ref =
      .ok ((predict ⟨floats xp, floats yp⟩ (floats src)).map (Option.map (clip none none))) by unfold cdfMatch; simp only [bind, Except.bind, hf],
    show cdfMatchInt c P none none src ref =
      .ok ((predictInt c ((floats xp : List (Option K)).map (intCell c), (floats yp : List (Option K)).map (intCell c)) src).map (clipInt (none : Option K) none)) by
      unfold cdfMatchInt fitInt; simp only [hf, Except.map], ?_⟩
  have hclip : clipInt (none : Option K) none = id := rfl
  have hclip2 : clip (none : Option K) none = id := rfl
  have e1 : ∀ w : List ℤ, (floats w : List (Option K)).map (intCell c) = w.map (fun z : ℤ => (z : K)) := by
    intro w
    unfold floats
    rw [List.map_map]
    refine List.map_congr_left fun z _ => ?_
    show ((trunc (z : K) : ℤ) : K) = z
    rw [trunc_int]
  have e2 : ∀ w : List ℤ, (floats w : List (Option K)).filterMap id = w.map (fun z : ℤ => (z : K)) := by
    intro w
    unfold floats
    rw [List.filterMap_map]
    induction w with
    | nil => rfl
    | cons z w ih => simp [ih]
  rw [hclip, List.map_id, hclip2]
  unfold predictInt predict
  simp only [e1, e2, List.map_map]
  have hz : ((xp.map (fun z : ℤ => (z : K))).zip (yp.map (fun z : ℤ => (z : K)))).length = min xp.length yp.length := by simp
  have hs : (floats src : List (Option K)) = src.map (fun z : ℤ => some (z : K)) := rfl
  by_cases h2 : 2 ≤ ((xp.map (fun z : ℤ => (z : K))).zip (yp.map (fun z : ℤ => (z : K)))).length ∧
      increasing ((xp.map (fun z : ℤ => (z : K))).zip (yp.map (fun z : ℤ => (z : K)))) = true
  · rw [if_pos h2, if_neg (by rw [hz] at h2; simp only [List.length_map]; omega), if_pos ⟨by simp [hlen], h2⟩, hs]
    simp only [List.map_map]
    rfl
  · rw [if_neg h2]
    split_ifs with h4 h5
    · rw [hs]; simp only [List.map_map]; rfl
    · exact absurd h5.2 h2
    · rw [hs]; simp only [List.map_map]; rfl

/-- C131: limits that are whole numbers hold, and values within them stay as they are. -/
theorem int_limits (lo hi v : ℤ) (h : lo ≤ hi) :
    lo ≤ clipInt (some (hi : K)) (some (lo : K)) v ∧ clipInt (some (hi : K)) (some (lo : K)) v ≤ hi ∧
      (lo ≤ v → v ≤ hi → clipInt (some (hi : K)) (some (lo : K)) v = v) ∧
      (hi < v → clipInt (some (hi : K)) (none : Option K) v = hi) ∧ (v < lo → clipInt (none : Option K) (some (lo : K)) v = lo) := by
  unfold clipInt
  simp only [trunc_int, Int.cast_lt]
  refine ⟨?_, ?_, ?_, ?_, ?_⟩
  · split_ifs <;> omega
  · split_ifs <;> omega
  · intro h1 h2
    split_ifs <;> omega
  · intro h1
    rw [if_pos h1]
  · intro h1
    rw [if_pos h1]

/-- **C131, negation.** A lower limit of 1/2 lets 0 pass. -/
theorem int_limit_fraction : clipInt (none : Option ℚ) (some (1 / 2)) (-3) = 0 := by decide +kernel

end

/-! ### Examples -/

example := int_limits (K := ℚ) 0 100 107 (by norm_num)

/-- levels 0, 7, 10 of the source and 0, 3.5, 5 of the reference: 3.5 becomes 3 -/
example : (cdfMatchInt (-(2 ^ 63)) (⟨2, none, none, false, true⟩ : Params ℚ) none none [0, 10, 7] [some 0, some 5, some (7 / 2)]).toOption = some [0, 5, 3] := by
  decide +kernel

/-- a nondecreasing function -/
example := int_monotone_partial (-(2 ^ 63)) (⟨2, none, none, false, true⟩ : Params ℚ) (by simp [LevelsOk]) rfl (by norm_num) [0, 10, 7]
  [some 0, some 5, some (7 / 2)] (by simp) rfl [0, 5, 3] (by decide +kernel)

example := int_whole_partial (-(2 ^ 63)) (⟨2, none, none, false, true⟩ : Params ℚ) [0, 10, 7] [some 0, some 8, some 5] [0, 7, 10] [0, 5, 8] rfl (by decide +kernel)

/-- three numbers and the default arguments: the mapping of floating point numbers is the identity, integers are lost -/
theorem int_default_example : (cdfMatch (⟨100, none, some 20, true, true⟩ : Params ℚ) none none [some 0, some 1, some 2] [some 0, some 1, some 2]).toOption =
      some [some 0, some 1, some 2] ∧
    (cdfMatchInt (-(2 ^ 63)) (⟨100, none, some 20, true, true⟩ : Params ℚ) none none [0, 1, 2] [some 0, some 1, some 2]).toOption =
      some [-(2 ^ 63), -(2 ^ 63), -(2 ^ 63)] := by
  decide +kernel

example : ∀ v ∈ [-(2 ^ 63 : ℤ), -(2 ^ 63), -(2 ^ 63)], v = -(2 ^ 63) :=
  int_default_lost (K := ℚ) (-(2 ^ 63)) [0, 1, 2] [some 0, some 1, some 2] (by decide) _ (by decide +kernel)

end Verif.Cdf
