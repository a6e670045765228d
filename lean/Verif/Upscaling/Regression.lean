import Verif.Upscaling.Order
import Mathlib.Analysis.Real.Sqrt
import Mathlib.Order.Bounds.Basic
import Mathlib.Tactic.LinearCombination
import Mathlib.Tactic.NormNum
import Mathlib.Tactic.Positivity

/-!
C100, third part: the regression of the stability filter, `scipy.stats.linregress` as called in `upscaling.py:282`.
-/

set_option linter.unusedSectionVars false

namespace Verif.Upscaling

open Verif.Collocation (Row)

noncomputable section

/-- all values, if none is NaN (scipy for upscaling.py:282) -/
def complete (l : List (Option ℝ)) : Option (List ℝ) := if l.all Option.isSome then some (l.filterMap id) else none

/-- `np.mean` (scipy for upscaling.py:282) -/
def meanOf (f : ℝ × ℝ → ℝ) (l : List (ℝ × ℝ)) : ℝ := (l.map f).sum / (l.length : ℝ)

/-- an entry of `np.cov(x, y, bias=1)` (scipy for upscaling.py:282) -/
def covOf (f h : ℝ × ℝ → ℝ) (l : List (ℝ × ℝ)) : ℝ := (l.map (fun p => (f p - meanOf f l) * (h p - meanOf h l))).sum / (l.length : ℝ)

open Classical in
/-- `rvalue` and `stderr` of `scipy.stats.linregress` without NaN. `deg` is the correlation if one of the series does not vary: 0 up to SciPy 1.13,
NaN later. -/
def linregressPairs (deg : Option ℝ) (l : List (ℝ × ℝ)) : Option ℝ × Option ℝ :=
  let sxx := covOf Prod.fst Prod.fst l
  let sxy := covOf Prod.fst Prod.snd l
  let syy := covOf Prod.snd Prod.snd l
  let r := if sxx = 0 ∨ syy = 0 then deg else some (max (-1) (min 1 (sxy / Real.sqrt (sxx * syy))))
  let se := if l.length = 2 then some 0 else if sxx = 0 then none
    else r.map (fun ρ => Real.sqrt ((1 - ρ ^ 2) * syy / sxx / ((l.length : ℝ) - 2)))
  (r, se)

open Classical in
/-- `scipy.stats.linregress(x, y)` (third party, called in upscaling.py:282): raises for no values, arrays of different length and identical `x`; NaN in, NaN out, only the
standard error of two pairs is always 0 -/
def linregress (deg : Option ℝ) (x y : List (Option ℝ)) : Except Err (Option ℝ × Option ℝ) :=
  if x = [] ∨ x.length ≠ y.length then .error .regression
  else
    match complete x with
    | none => .ok (none, if x.length = 2 then some 0 else none)
    | some s =>
      if 1 < s.length ∧ ∀ v ∈ s, ∀ w ∈ s, v = w then .error .regression
      else
        match complete y with
        | none => .ok (none, if x.length = 2 then some 0 else none)
        | some t => .ok (linregressPairs deg (s.zip t))

/-! ### Units -/

theorem complete_units (g o : ℝ) (l : List (Option ℝ)) : complete (l.map (Option.map (unit g o))) = (complete l).map (List.map (unit g o)) := by
  unfold complete
  have h1 : (l.map (Option.map (unit g o))).all Option.isSome = l.all Option.isSome := by
    rw [List.all_map]; congr 1; funext x; cases x <;> rfl
  rw [h1, filterMap_other]
  split <;> rfl

/-- a pair in other units -/
def pairUnit (g o : ℝ) (p : ℝ × ℝ) : ℝ × ℝ := (unit g o p.1, unit g o p.2)

theorem meanOf_units (g o : ℝ) (f : ℝ × ℝ → ℝ) (hf : ∀ p, f (pairUnit g o p) = unit g o (f p)) (l : List (ℝ × ℝ)) (hl : l ≠ []) :
    meanOf f (l.map (pairUnit g o)) = unit g o (meanOf f l) := by
  unfold meanOf
  rw [List.map_map, List.length_map]
  have : f ∘ pairUnit g o = fun p => unit g o (f p) := funext hf
  rw [this]
  have hs : (l.map (fun p => unit g o (f p))).sum = g * (l.map f).sum + (l.length : ℝ) * o := by
    clear hl
    induction l with
    | nil => simp
    | cons p l ih => rw [List.map_cons, List.sum_cons, ih, List.map_cons, List.sum_cons, List.length_cons, unit]; push_cast; ring
  rw [hs]
  have : (l.length : ℝ) ≠ 0 := by
    have := List.length_pos_iff.mpr hl
    positivity
  unfold unit
  field_simp

theorem covOf_units (g o : ℝ) (f h : ℝ × ℝ → ℝ) (hf : ∀ p, f (pairUnit g o p) = unit g o (f p)) (hh : ∀ p, h (pairUnit g o p) = unit g o (h p))
    (l : List (ℝ × ℝ)) (hl : l ≠ []) : covOf f h (l.map (pairUnit g o)) = g ^ 2 * covOf f h l := by
  unfold covOf
  rw [meanOf_units g o f hf l hl, meanOf_units g o h hh l hl, List.map_map, List.length_map]
  generalize meanOf f l = a
  generalize meanOf h l = b
  have hs : (l.map ((fun p => (f p - unit g o a) * (h p - unit g o b)) ∘ pairUnit g o)).sum = g ^ 2 * (l.map (fun p => (f p - a) * (h p - b))).sum := by
    clear hl
    induction l with
    | nil => simp
    | cons p l ih =>
      simp only [List.map_cons, List.sum_cons, Function.comp] at ih ⊢
      rw [ih, hf, hh]
      unfold unit
      ring
  rw [hs, mul_div_assoc]

theorem linregressPairs_units (deg : Option ℝ) {g : ℝ} (hg : g ≠ 0) (o : ℝ) (l : List (ℝ × ℝ)) (hl : l ≠ []) :
    linregressPairs deg (l.map (pairUnit g o)) = linregressPairs deg l := by
  unfold linregressPairs
  rw [covOf_units g o Prod.fst Prod.fst (fun _ => rfl) (fun _ => rfl) l hl, covOf_units g o Prod.fst Prod.snd (fun _ => rfl) (fun _ => rfl) l hl,
    covOf_units g o Prod.snd Prod.snd (fun _ => rfl) (fun _ => rfl) l hl, List.length_map]
  generalize covOf Prod.fst Prod.fst l = a
  generalize covOf Prod.fst Prod.snd l = b
  generalize covOf Prod.snd Prod.snd l = c
  have h2 : g ^ 2 ≠ 0 := pow_ne_zero 2 hg
  have e1 : g ^ 2 * c = 0 ↔ c = 0 := by simp [h2]
  have e2 : g ^ 2 * a = 0 ↔ a = 0 := by simp [h2]
  have e3 : g ^ 2 * b / Real.sqrt (g ^ 2 * a * (g ^ 2 * c)) = b / Real.sqrt (a * c) := by
    rw [show g ^ 2 * a * (g ^ 2 * c) = (g ^ 2) ^ 2 * (a * c) by ring, Real.sqrt_mul (by positivity), Real.sqrt_sq (by positivity),
      mul_div_mul_left _ _ h2]
  have e4 : ∀ ρ : ℝ, (1 - ρ ^ 2) * (g ^ 2 * c) / (g ^ 2 * a) = (1 - ρ ^ 2) * c / a := by
    intro ρ
    rw [show (1 - ρ ^ 2) * (g ^ 2 * c) = g ^ 2 * ((1 - ρ ^ 2) * c) by ring, mul_div_mul_left _ _ h2]
  simp only [e1, e2, e3, e4]

/-- **C100.** Correlation and standard error of the stability filter do not depend on the units of the variable. -/
theorem linregress_unitFree (deg : Option ℝ) {g : ℝ} (hg : g ≠ 0) (o : ℝ) : UnitFree (linregress deg) g o := by
  intro x y
  unfold linregress
  rw [complete_units, complete_units, List.length_map, List.length_map]
  by_cases he : x = [] ∨ x.length ≠ y.length
  · rw [if_pos he, if_pos (he.imp_left (fun h => by rw [h]; rfl))]
  · rw [if_neg he, if_neg (fun h => he (h.imp_left (fun h => List.map_eq_nil_iff.mp h)))]
    cases hx : complete x with
    | none => rfl
    | some s =>
      simp only [Option.map_some, List.length_map]
      have hc : (1 < s.length ∧ ∀ v ∈ s.map (unit g o), ∀ w ∈ s.map (unit g o), v = w) ↔ (1 < s.length ∧ ∀ v ∈ s, ∀ w ∈ s, v = w) := by
        apply and_congr_right
        intro _
        constructor
        · intro h v hv w hw
          have := h _ (List.mem_map_of_mem hv) _ (List.mem_map_of_mem hw)
          unfold unit at this
          exact mul_left_cancel₀ hg (add_right_cancel this)
        · intro h v hv w hw
          obtain ⟨v', h1, rfl⟩ := List.mem_map.mp hv
          obtain ⟨w', h2, rfl⟩ := List.mem_map.mp hw
          rw [h v' h1 w' h2]
      by_cases hk : 1 < s.length ∧ ∀ v ∈ s, ∀ w ∈ s, v = w
      · rw [if_pos hk, if_pos (hc.mpr hk)]
      · rw [if_neg hk, if_neg (fun h => hk (hc.mp h))]
        cases hy : complete y with
        | none => rfl
        | some t =>
          simp only [Option.map_some]
          have hz : (s.map (unit g o)).zip (t.map (unit g o)) = (s.zip t).map (pairUnit g o) := by
            rw [List.zip_map]
            rfl
          rw [hz, linregressPairs_units deg hg o]
          push Not at he
          have len : ∀ (l : List (Option ℝ)) (r : List ℝ), complete l = some r → r.length = l.length := by
            intro l r h
            unfold complete at h
            split at h
            · rename_i ha
              rw [← Option.some.inj h]
              clear h
              induction l with
              | nil => rfl
              | cons c cs ih =>
                simp only [List.all_cons, Bool.and_eq_true] at ha
                cases c with
                | none => simp at ha
                | some v => simpa using ih ha.2
            · simp at h
          intro h0
          have hl : (s.zip t).length = 0 := by rw [h0]; rfl
          rw [List.length_zip, len x s hx, len y t hy, ← he.2, min_self] at hl
          exact he.1 (List.eq_nil_of_length_eq_zero hl)

/-- **C100.** Upscaling with the regression of SciPy, any option: other units of the variable (gain not 0) and another clock change nothing but units
and clock. -/
theorem upscaled_units {N : Type} [DecidableEq N] (deg : Option ℝ) {a : ℝ} (ha : 0 < a) (b : ℝ) {g : ℝ} (hg : g ≠ 0) (o : ℝ) (A : Args ℝ) (target : N)
    (lut : List (ℕ × List ℕ)) (read : ℕ → Except Err (Option (PF N ℝ))) (gpi : ℕ) :
    getUpscaledTs (linregress deg) { A with hours := a * A.hours } target lut (fun p => (read p).map (Option.map (PF.other a b g o target))) gpi =
      (getUpscaledTs (linregress deg) A target lut read gpi).map (Option.map (Up.other a b g o target)) :=
  upscaled_other (linregress deg) ha b A (fun _ => linregress_unitFree deg hg o) target lut read gpi

/-- SciPy raises only `ValueError`: order of the points, with the regression of SciPy -/
theorem linregress_error (deg : Option ℝ) (x y : List (Option ℝ)) (e : Err) (h : linregress deg x y = .error e) : e = .regression := by
  unfold linregress at h
  by_cases he : x = [] ∨ x.length ≠ y.length
  · rw [if_pos he] at h; exact (Except.error.inj h).symm
  · rw [if_neg he] at h
    cases hx : complete x with
    | none => rw [hx] at h; simp at h
    | some s =>
      rw [hx] at h
      simp only at h
      by_cases hk : 1 < s.length ∧ ∀ v ∈ s, ∀ w ∈ s, v = w
      · rw [if_pos hk] at h; exact (Except.error.inj h).symm
      · rw [if_neg hk] at h
        cases hy : complete y with
        | none => rw [hy] at h; simp at h
        | some t => rw [hy] at h; simp at h

/-! ### What the standard error of the filter is -/

/-- sum of the squared deviations from a line -/
def residuals (l : List (ℝ × ℝ)) (α β : ℝ) : ℝ := (l.map (fun p => (p.2 - α - β * p.1) ^ 2)).sum

/-- the standard error of estimate: `√(e / (n - 2))` with the smallest sum of squared deviations that a line can have -/
def StandardErrorOfEstimate (l : List (ℝ × ℝ)) (see : ℝ) : Prop :=
  ∃ e, IsLeast {x | ∃ α β, x = residuals l α β} e ∧ see = Real.sqrt (e / ((l.length : ℝ) - 2))

theorem residuals_eq (l : List (ℝ × ℝ)) (hl : l ≠ []) (α β : ℝ) :
    residuals l α β = (l.length : ℝ) * (covOf Prod.snd Prod.snd l - 2 * β * covOf Prod.fst Prod.snd l + β ^ 2 * covOf Prod.fst Prod.fst l +
      (meanOf Prod.snd l - α - β * meanOf Prod.fst l) ^ 2) := by
  have hn : (l.length : ℝ) ≠ 0 := by
    have := List.length_pos_iff.mpr hl
    positivity
  have h1 : residuals l α β = (l.map (fun p => p.2 * p.2)).sum - 2 * α * (l.map Prod.snd).sum - 2 * β * (l.map (fun p => p.1 * p.2)).sum +
      (l.length : ℝ) * α ^ 2 + 2 * α * β * (l.map Prod.fst).sum + β ^ 2 * (l.map (fun p => p.1 * p.1)).sum := by
    unfold residuals
    clear hn hl
    induction l with
    | nil => simp
    | cons p l ih => simp only [List.map_cons, List.sum_cons, ih, List.length_cons]; push_cast; ring
  have h2 : ∀ f h : ℝ × ℝ → ℝ, (l.length : ℝ) * covOf f h l = (l.map (fun p => f p * h p)).sum - (l.length : ℝ) * (meanOf f l * meanOf h l) := by
    intro f h
    have hf : (l.map f).sum = (l.length : ℝ) * meanOf f l := by unfold meanOf; field_simp
    have hh : (l.map h).sum = (l.length : ℝ) * meanOf h l := by unfold meanOf; field_simp
    have hs : ∀ a b : ℝ, (l.map (fun p => (f p - a) * (h p - b))).sum = (l.map (fun p => f p * h p)).sum - a * (l.map h).sum - b * (l.map f).sum +
        (l.length : ℝ) * (a * b) := by
      intro a b
      clear hn hl hf hh h1
      induction l with
      | nil => simp
      | cons p l ih => simp only [List.map_cons, List.sum_cons, ih, List.length_cons]; push_cast; ring
    unfold covOf
    rw [hs, hf, hh]
    field_simp
    ring
  have e1 := h2 Prod.fst Prod.fst
  have e2 := h2 Prod.fst Prod.snd
  have e3 := h2 Prod.snd Prod.snd
  have hf : (l.map Prod.fst).sum = (l.length : ℝ) * meanOf Prod.fst l := by unfold meanOf; field_simp
  have hh : (l.map Prod.snd).sum = (l.length : ℝ) * meanOf Prod.snd l := by unfold meanOf; field_simp
  rw [h1, hf, hh]
  linear_combination e3 * (-1) + 2 * β * e2 - β ^ 2 * e1

theorem covOf_nonneg (f : ℝ × ℝ → ℝ) (l : List (ℝ × ℝ)) : 0 ≤ covOf f f l := by
  unfold covOf
  apply div_nonneg _ (Nat.cast_nonneg _)
  apply List.sum_nonneg
  intro x hx
  obtain ⟨p, _, rfl⟩ := List.mem_map.mp hx
  exact mul_self_nonneg _

theorem least_residuals (l : List (ℝ × ℝ)) (hx : covOf Prod.fst Prod.fst l ≠ 0) :
    IsLeast {x | ∃ α β, x = residuals l α β} ((l.length : ℝ) * (covOf Prod.snd Prod.snd l - covOf Prod.fst Prod.snd l ^ 2 / covOf Prod.fst Prod.fst l)) := by
  have hl : l ≠ [] := by
    rintro rfl
    exact hx (by simp [covOf])
  have hpos : 0 < covOf Prod.fst Prod.fst l := lt_of_le_of_ne (covOf_nonneg _ _) (Ne.symm hx)
  constructor
  · refine ⟨meanOf Prod.snd l - covOf Prod.fst Prod.snd l / covOf Prod.fst Prod.fst l * meanOf Prod.fst l,
      covOf Prod.fst Prod.snd l / covOf Prod.fst Prod.fst l, ?_⟩
    rw [residuals_eq l hl]
    field_simp
    ring
  · rintro x ⟨α, β, rfl⟩
    rw [residuals_eq l hl]
    apply mul_le_mul_of_nonneg_left _ (Nat.cast_nonneg _)
    have h1 : 0 ≤ (meanOf Prod.snd l - α - β * meanOf Prod.fst l) ^ 2 := sq_nonneg _
    have h2 : 0 ≤ covOf Prod.fst Prod.fst l * (β - covOf Prod.fst Prod.snd l / covOf Prod.fst Prod.fst l) ^ 2 := by positivity
    have h3 : covOf Prod.fst Prod.fst l * (β - covOf Prod.fst Prod.snd l / covOf Prod.fst Prod.fst l) ^ 2 =
        β ^ 2 * covOf Prod.fst Prod.fst l - 2 * β * covOf Prod.fst Prod.snd l + covOf Prod.fst Prod.snd l ^ 2 / covOf Prod.fst Prod.fst l := by
      field_simp
      ring
    linarith

/-- **C100.** The number that `tstability_filter` compares with `see_max` (documented as "upper threshold for standard error of estimate") is the
standard error of estimate divided by the root of the summed squares of the average series: the standard error of the slope. -/
theorem stderr_is_error_of_slope (deg : Option ℝ) (l : List (ℝ × ℝ)) (hn : 2 < l.length) (hx : covOf Prod.fst Prod.fst l ≠ 0)
    (hy : covOf Prod.snd Prod.snd l ≠ 0) (see : ℝ) (hsee : StandardErrorOfEstimate l see) :
    (linregressPairs deg l).2 = some (see / Real.sqrt ((l.map (fun p => (p.1 - meanOf Prod.fst l) ^ 2)).sum)) := by
  obtain ⟨e, he, rfl⟩ := hsee
  have hle := (least_residuals l hx)
  have he' := he.unique hle
  have hl : l ≠ [] := by rintro rfl; simp at hn
  have hnr : (0 : ℝ) < (l.length : ℝ) := by
    have := List.length_pos_iff.mpr hl
    positivity
  have hn2 : (0 : ℝ) < (l.length : ℝ) - 2 := by
    have : (2 : ℝ) < (l.length : ℝ) := by exact_mod_cast hn
    linarith
  have px : 0 < covOf Prod.fst Prod.fst l := lt_of_le_of_ne (covOf_nonneg _ _) (Ne.symm hx)
  have py : 0 < covOf Prod.snd Prod.snd l := lt_of_le_of_ne (covOf_nonneg _ _) (Ne.symm hy)
  have hs : (l.map (fun p => (p.1 - meanOf Prod.fst l) ^ 2)).sum = (l.length : ℝ) * covOf Prod.fst Prod.fst l := by
    unfold covOf
    rw [mul_div_cancel₀ _ hnr.ne']
    congr 2
    funext p
    ring
  have hres : 0 ≤ covOf Prod.snd Prod.snd l - covOf Prod.fst Prod.snd l ^ 2 / covOf Prod.fst Prod.fst l := by
    obtain ⟨α, β, h⟩ := hle.1
    have : 0 ≤ residuals l α β := by
      unfold residuals
      apply List.sum_nonneg
      intro x hx
      obtain ⟨p, _, rfl⟩ := List.mem_map.mp hx
      exact sq_nonneg _
    rw [← h] at this
    exact nonneg_of_mul_nonneg_right this hnr
  unfold linregressPairs
  rw [hs, he']
  generalize covOf Prod.fst Prod.fst l = a at *
  generalize covOf Prod.fst Prod.snd l = b at *
  generalize covOf Prod.snd Prod.snd l = c at *
  have hrr : (b / Real.sqrt (a * c)) ^ 2 = b ^ 2 / (a * c) := by
    rw [div_pow, Real.sq_sqrt (by positivity)]
  have hle1 : (b / Real.sqrt (a * c)) ^ 2 ≤ 1 := by
    rw [hrr, div_le_one (by positivity)]
    have := mul_nonneg px.le hres
    have h2 : a * (c - b ^ 2 / a) = a * c - b ^ 2 := by field_simp
    linarith
  have habs := abs_le.mp ((sq_le_one_iff_abs_le_one _).mp hle1)
  have hclip : max (-1) (min 1 (b / Real.sqrt (a * c))) = b / Real.sqrt (a * c) := by
    rw [min_eq_right habs.2, max_eq_right habs.1]
  have hor : ¬ (a = 0 ∨ c = 0) := fun h => h.elim px.ne' py.ne'
  simp only [if_neg hor, if_neg px.ne', show l.length ≠ 2 from by omega, if_false, Option.map_some, Option.some.injEq, hclip, hrr]
  rw [← Real.sqrt_div' _ (by positivity)]
  congr 1
  field_simp

/-- four points, in percent: two of them deviate by 1 from the average, one up and one down, the other two are the average -/
def exPercent : Matched ℝ :=
  ⟨[0, 1, 2, 3], [⟨0, [some 1, some (-1), some 0, some 0]⟩, ⟨1, [some 101, some 99, some 100, some 100]⟩,
    ⟨2, [some (-1), some 1, some 0, some 0]⟩, ⟨3, [some 99, some 101, some 100, some 100]⟩]⟩

/-- the first point against the average of all points -/
def exPairs : List (ℝ × ℝ) := [(0, 1), (100, 101), (0, -1), (100, 99)]

theorem exPairs_cov : covOf Prod.fst Prod.fst exPairs = 2500 ∧ covOf Prod.fst Prod.snd exPairs = 2500 ∧ covOf Prod.snd Prod.snd exPairs = 2501 := by
  norm_num [exPairs, covOf, meanOf]

/-- the standard error of estimate of the first point is `√2`, far above the threshold -/
theorem exPairs_see : StandardErrorOfEstimate exPairs (Real.sqrt 2) := by
  obtain ⟨h1, h2, h3⟩ := exPairs_cov
  have h := least_residuals exPairs (by rw [h1]; norm_num)
  rw [h1, h2, h3] at h
  refine ⟨_, h, ?_⟩
  norm_num [exPairs]

theorem exPercent_mean : exPercent.rows.map (fun r => rowMean r.cells) = [some 0, some 100, some 0, some 100] := by
  simp only [exPercent, rowMean, List.map_cons, List.map_nil, List.filterMap_cons, List.filterMap_nil, id_eq, List.sum_cons, List.sum_nil,
    List.length_cons, List.length_nil]
  norm_num

theorem exPercent_stats (deg : Option ℝ) :
    ∃ r se, linregress deg (exPercent.rows.map (fun r => rowMean r.cells)) (exPercent.rows.map (fun r => at' r.cells 0)) = .ok (some r, some se) ∧
      3 / 5 ≤ r ∧ se ≤ 1 / 20 := by
  have hx := exPercent_mean
  have hy : exPercent.rows.map (fun r => at' r.cells 0) = [some 1, some 101, some (-1), some 99] := by
    simp [exPercent, at']
  rw [hx, hy]
  obtain ⟨h1, h2, h3⟩ := exPairs_cov
  have hlen : exPairs.length = 4 := rfl
  have hse := stderr_is_error_of_slope deg exPairs (by rw [hlen]; norm_num) (by rw [h1]; norm_num) (by rw [h3]; norm_num) _ exPairs_see
  have hr : (linregressPairs deg exPairs).1 = some (max (-1) (min 1 (2500 / Real.sqrt (2500 * 2501)))) := by
    unfold linregressPairs
    simp only [h1, h2, h3]
    norm_num
  refine ⟨max (-1) (min 1 (2500 / Real.sqrt (2500 * 2501))),
    Real.sqrt 2 / Real.sqrt ((exPairs.map (fun p => (p.1 - meanOf Prod.fst exPairs) ^ 2)).sum), ?_, ?_, ?_⟩
  · unfold linregress
    have hnot : ¬ (1 < ([0, 100, 0, 100] : List ℝ).length ∧ ∀ v ∈ ([0, 100, 0, 100] : List ℝ), ∀ w ∈ ([0, 100, 0, 100] : List ℝ), v = w) := by
      rintro ⟨_, h⟩
      have := h 0 (by simp) 100 (by simp)
      norm_num at this
    simp only [complete, List.all_cons, List.all_nil, Option.isSome_some, Bool.and_self, if_true, List.filterMap_cons, List.filterMap_nil, id_eq, if_neg hnot]
    rw [if_neg (by simp)]
    show Except.ok (linregressPairs deg exPairs) = _
    rw [show linregressPairs deg exPairs = ((linregressPairs deg exPairs).1, (linregressPairs deg exPairs).2) from rfl, hr, hse]
  · apply le_max_of_le_right
    apply le_min (by norm_num)
    rw [le_div_iff₀ (by positivity)]
    have : Real.sqrt (2500 * 2501) ≤ 2501 := by
      rw [Real.sqrt_le_left (by norm_num)]
      norm_num
    generalize Real.sqrt (2500 * 2501) = q at this
    linarith
  · have hsum : (exPairs.map (fun p => (p.1 - meanOf Prod.fst exPairs) ^ 2)).sum = 10000 := by
      norm_num [exPairs, meanOf]
    rw [hsum, div_le_iff₀ (by positivity)]
    have h100 : Real.sqrt 10000 = 100 := by
      rw [show (10000 : ℝ) = 100 ^ 2 by norm_num, Real.sqrt_sq (by norm_num)]
    rw [h100, Real.sqrt_le_left (by norm_num)]
    norm_num

theorem average_unique {vals : List (Option ℝ)} {v v' : Option ℝ} (h : Average vals v) (h' : Average vals v') : v = v' := by
  cases v with
  | none => exact (h'.1.mpr (h.1.mp rfl)).symm
  | some a =>
    cases v' with
    | none => exact absurd (h.1.mpr (h'.1.mp rfl)) (by simp)
    | some b =>
      have h1 := h.2 a rfl
      have h2 := h'.2 b rfl
      have hn : ((vals.filter Option.isSome).length : ℝ) ≠ 0 := by
        rw [Nat.cast_ne_zero]
        intro h0
        have h0' := List.eq_nil_of_length_eq_zero h0
        have : (some a : Option ℝ) = none := by
          rw [h.1]
          intro x hx
          cases x with
          | none => rfl
          | some y =>
            have : some y ∈ vals.filter Option.isSome := List.mem_filter.mpr ⟨hx, rfl⟩
            rw [h0'] at this
            simp at this
        simp at this
      rw [mul_right_cancel₀ hn (h1.trans h2.symm)]

/-- **C100, negative part.** With the default thresholds the filter keeps a point whose standard error of estimate is `√2`, twenty-eight times the
documented upper threshold of 0.05. -/
theorem see_max_not_respected (deg : Option ℝ) : ∃ m', tstabilityFilter (linregress deg) (3 / 5) (1 / 20) 4 exPercent = .ok m' ∧
    0 ∈ m'.cols ∧ StandardErrorOfEstimate exPairs (Real.sqrt 2) ∧ 1 / 20 < Real.sqrt 2 := by
  have hex : ∃ m', tstabilityFilter (linregress deg) (3 / 5) (1 / 20) 4 exPercent = .ok m' := by
    unfold tstabilityFilter
    rw [if_neg (by simp [exPercent])]
    simp only [bind, Except.bind]
    rcases mapM_cases (fun i => linregress deg (exPercent.rows.map (fun r => rowMean r.cells)) (exPercent.rows.map (fun r => at' r.cells i))) .regression
      (fun i e h => linregress_error deg _ _ e h) (List.range exPercent.cols.length) with ⟨⟨i, _, hi⟩, _⟩ | ⟨st, h, _⟩
    · exfalso
      rw [exPercent_mean] at hi
      have hnot : ¬ (1 < ([0, 100, 0, 100] : List ℝ).length ∧ ∀ v ∈ ([0, 100, 0, 100] : List ℝ), ∀ w ∈ ([0, 100, 0, 100] : List ℝ), v = w) := by
        rintro ⟨_, h⟩
        have := h 0 (by simp) 100 (by simp)
        norm_num at this
      unfold linregress at hi
      rw [if_neg (by simp [exPercent])] at hi
      have hc : complete ([some 0, some 100, some 0, some 100] : List (Option ℝ)) = some [0, 100, 0, 100] := by simp [complete]
      rw [hc] at hi
      simp only [if_neg hnot] at hi
      cases hy : complete (exPercent.rows.map (fun r => at' r.cells i)) with
      | none => rw [hy] at hi; simp at hi
      | some t => rw [hy] at hi; simp at hi
    · rw [h]
      exact ⟨_, rfl⟩
  obtain ⟨m', h⟩ := hex
  refine ⟨m', h, ?_, exPairs_see, ?_⟩
  · obtain ⟨_, h2⟩ := stability_filter _ _ _ _ _ _ h
    obtain ⟨pos, _, hc, _, hi⟩ := h2 (by simp [exPercent])
    obtain ⟨est, r, se, hest, hreg, hiff⟩ := hi 0 (by simp [exPercent])
    have he : est = exPercent.rows.map (fun r => rowMean r.cells) := by
      have key : ∀ (rows : List (Row ℝ ℝ)) (est : List (Option ℝ)), List.Forall₂ (fun (row : Row ℝ ℝ) e => Average row.cells e) rows est →
          est = rows.map (fun r => rowMean r.cells) := by
        intro rows est h
        induction h with
        | nil => rfl
        | cons h1 _ ih =>
          rw [List.map_cons, ← ih, average_unique h1 (rowMean_average _)]
      exact key _ _ hest
    rw [he] at hreg
    obtain ⟨r', se', hs, hr, hse⟩ := exPercent_stats deg
    have hs' : linregress deg (exPercent.rows.map (fun r => rowMean r.cells)) (exPercent.rows.map (fun row => (row.cells[0]?).join)) =
        .ok (some r', some se') := hs
    rw [hs', Except.ok.injEq, Prod.mk.injEq] at hreg
    have hmem : 0 ∈ pos := by
      rw [hiff]
      rintro (⟨x, hx, hlt⟩ | ⟨x, hx, hlt⟩)
      · rw [← hreg.1, Option.some.injEq] at hx
        subst hx
        linarith
      · rw [← hreg.2, Option.some.injEq] at hx
        subst hx
        linarith
    rw [hc]
    exact List.mem_map.mpr ⟨0, hmem, rfl⟩
  · rw [Real.lt_sqrt (by norm_num)]
    norm_num

end

example := upscaled_units (N := String) (some 1) (a := 24) (by norm_num) 5 (g := -2) (by norm_num) 7 { hours := 6, rMin := 3/5, seeMax := 1/20 } "sm" [(7, [1, 2])]
  (fun p => .ok (some ⟨["sm"], [(p, fun _ => some 10), (p + 4, fun _ => some 20)]⟩)) 7

end Verif.Upscaling
