import Verif.Scaling.Model
import Verif.Moments.Lemmas
import Verif.Moments.Ineq
import Verif.Common.ListAux
import Mathlib.Order.Bounds.Basic
import Mathlib.Tactic.Linarith
import Mathlib.Tactic.FieldSimp
import Mathlib.Tactic.LinearCombination

/-! C19, C20: scaling. -/

set_option linter.unusedSectionVars false

noncomputable section

namespace Verif.Scaling

open Moments (S S_cons S_add S_mul S_const S_congr S_nonneg)

theorem allSome_map (s : List ℝ) : allSome (s.map some) = some s := by
  unfold allSome
  simp

theorem mean_affine (l : List ℝ) (hne : l ≠ []) (a b : ℝ) :
    Moments.mean (l.map (fun v => a * v + b)) = a * Moments.mean l + b := by
  have hn : (l.length : ℝ) ≠ 0 := by exact_mod_cast (List.length_pos_of_ne_nil hne).ne'
  rw [Moments.mean_map, S_add, S_mul, S_const]
  have : S l (fun v => v) = (l.length : ℝ) * Moments.mean l := by
    have := Moments.len_mul_mean l (fun v : ℝ => v)
    simpa using this.symm
  rw [this]
  field_simp

theorem pvar_affine (l : List ℝ) (hne : l ≠ []) (a b : ℝ) :
    Moments.pvar (l.map (fun v => a * v + b)) = a ^ 2 * Moments.pvar l := by
  unfold Moments.pvar
  rw [mean_affine l hne, List.map_map]
  have e : ((fun v => (v - (a * Moments.mean l + b)) ^ 2) ∘ fun v => a * v + b) = fun v => a ^ 2 * (v - Moments.mean l) ^ 2 := by
    funext v; simp only [Function.comp_apply]; ring
  rw [e, Moments.mean_map, S_mul, Moments.mean_map]
  ring

theorem npStd_eq (l : List ℝ) : npStd l = Real.sqrt (Moments.pvar l) := by
  unfold npStd Moments.pvar
  congr 2
  apply List.map_congr_left
  intro v _
  show _ = (v - npMean l) ^ 2
  ring

/-! ### C19 -/

/-- C19, `mean_std`: a source without NaN that is not constant gets the mean and the variance of the reference; order is kept. -/
theorem mean_std_spec (s r : List ℝ) (hr : r ≠ []) (hs : Moments.pvar s ≠ 0) :
    ∃ out : List ℝ, meanStd (s.map some) (r.map some) = out.map some ∧ out.length = s.length ∧
      Moments.mean out = Moments.mean r ∧ Moments.pvar out = Moments.pvar r ∧
      ∃ g : ℝ → ℝ, Monotone g ∧ out = s.map g := by
  have hsne : s ≠ [] := by rintro rfl; exact hs (by simp [Moments.pvar, Moments.mean])
  have hpos : 0 < Moments.pvar s := lt_of_le_of_ne (Moments.pvar_nonneg s) (Ne.symm hs)
  have hstd : npStd s ≠ 0 := by rw [npStd_eq]; exact (Real.sqrt_pos.mpr hpos).ne'
  set a := npStd r / npStd s with ha
  set b := npMean r - npMean s / npStd s * npStd r with hb
  refine ⟨s.map (fun v => a * v + b), ?_, by simp, ?_, ?_, fun v => a * v + b, ?_, rfl⟩
  · unfold meanStd
    simp only [allSome_map]
    rw [if_neg (by simp [hstd, hr]), List.map_map]
    apply List.map_congr_left
    intro v _
    simp only [Function.comp_apply, Option.some.injEq, ha, hb]
    ring
  · rw [mean_affine s hsne]
    have e : npMean s = Moments.mean s := rfl
    have e' : npMean r = Moments.mean r := rfl
    rw [ha, hb, e, e']
    ring
  · rw [pvar_affine s hsne, ha, npStd_eq, npStd_eq, div_pow, Real.sq_sqrt (Moments.pvar_nonneg r),
      Real.sq_sqrt (Moments.pvar_nonneg s)]
    field_simp
  · intro u v huv
    have h0 : 0 ≤ a := div_nonneg (Real.sqrt_nonneg _) (Real.sqrt_nonneg _)
    simp only
    nlinarith

example := mean_std_spec [1, 3] [0, 10, 5] (by simp) (by norm_num [Moments.pvar, Moments.mean])

/-- `mean_std` of a constant source is NaN everywhere. -/
theorem mean_std_constant (s : List ℝ) (ref : Arr) (hs : Moments.pvar s = 0) :
    meanStd (s.map some) ref = s.map (fun _ => none) := by
  unfold meanStd
  rw [allSome_map]
  cases allSome ref with
  | none => exact List.map_map
  | some r =>
    simp only
    rw [if_pos (Or.inl (by rw [npStd_eq, hs, Real.sqrt_zero]))]
    exact List.map_map

/-- a NaN anywhere makes everything NaN -/
theorem mean_std_nan (src ref : Arr) (h : none ∈ src ∨ none ∈ ref) : meanStd src ref = src.map (fun _ => none) := by
  have hn : ∀ l : Arr, none ∈ l → allSome l = none := by
    intro l hl
    unfold allSome
    rw [if_neg]
    simp only [List.all_eq_true, not_forall]
    exact ⟨none, hl, by simp⟩
  unfold meanStd
  rcases h with h | h
  · rw [hn src h]
  · rw [hn ref h]
    cases allSome src <;> rfl

example : meanStd [some 1, none, some 3] [some 2, some 3] = [none, none, none] := mean_std_nan _ _ (by simp)

theorem foldl_min_least (l : List ℝ) (a : ℝ) : l.foldl min a ≤ a ∧ (∀ v ∈ l, l.foldl min a ≤ v) ∧ (l.foldl min a = a ∨ l.foldl min a ∈ l) := by
  induction l generalizing a with
  | nil => simp
  | cons b l ih =>
    obtain ⟨h1, h2, h3⟩ := ih (min a b)
    simp only [List.foldl_cons]
    refine ⟨h1.trans (min_le_left _ _), ?_, ?_⟩
    · intro v hv
      rcases List.mem_cons.mp hv with rfl | hv
      · exact h1.trans (min_le_right _ _)
      · exact h2 v hv
    · rcases h3 with h | h
      · rcases min_choice a b with e | e
        · left; rw [h, e]
        · right; rw [h, e]; simp
      · right; exact List.mem_cons_of_mem _ h

theorem foldl_max_greatest (l : List ℝ) (a : ℝ) : a ≤ l.foldl max a ∧ (∀ v ∈ l, v ≤ l.foldl max a) ∧ (l.foldl max a = a ∨ l.foldl max a ∈ l) := by
  induction l generalizing a with
  | nil => simp
  | cons b l ih =>
    obtain ⟨h1, h2, h3⟩ := ih (max a b)
    simp only [List.foldl_cons]
    refine ⟨(le_max_left _ _).trans h1, ?_, ?_⟩
    · intro v hv
      rcases List.mem_cons.mp hv with rfl | hv
      · exact (le_max_right _ _).trans h1
      · exact h2 v hv
    · rcases h3 with h | h
      · rcases max_choice a b with e | e
        · left; rw [h, e]
        · right; rw [h, e]; simp
      · right; exact List.mem_cons_of_mem _ h

theorem npMin_eq (l : List ℝ) (m : ℝ) (h : IsLeast {v | v ∈ l} m) : npMin l = some m := by
  cases l with
  | nil => exact absurd h.1 (by simp)
  | cons a l =>
    obtain ⟨h1, h2, h3⟩ := foldl_min_least l a
    simp only [npMin, Option.some.injEq]
    apply le_antisymm
    · rcases List.mem_cons.mp h.1 with e | e
      · rw [e]; exact h1
      · exact h2 m e
    · apply h.2
      rcases h3 with e | e
      · rw [e]; simp
      · exact List.mem_cons_of_mem _ e

theorem npMax_eq (l : List ℝ) (m : ℝ) (h : IsGreatest {v | v ∈ l} m) : npMax l = some m := by
  cases l with
  | nil => exact absurd h.1 (by simp)
  | cons a l =>
    obtain ⟨h1, h2, h3⟩ := foldl_max_greatest l a
    simp only [npMax, Option.some.injEq]
    apply le_antisymm
    · apply h.2
      rcases h3 with e | e
      · rw [e]; simp
      · exact List.mem_cons_of_mem _ e
    · rcases List.mem_cons.mp h.1 with e | e
      · rw [e]; exact h1
      · exact h2 m e

/-- C19, `min_max`: the source range is mapped exactly onto the reference range, order is kept. -/
theorem min_max_spec (s r : List ℝ) (a b c d : ℝ) (ha : IsLeast {v | v ∈ s} a) (hb : IsGreatest {v | v ∈ s} b)
    (hc : IsLeast {v | v ∈ r} c) (hd : IsGreatest {v | v ∈ r} d) (hab : a ≠ b) :
    ∃ g : ℝ → ℝ, Monotone g ∧ minMax (s.map some) (r.map some) = .ok ((s.map g).map some) ∧ g a = c ∧ g b = d ∧
      IsLeast {v | v ∈ s.map g} c ∧ IsGreatest {v | v ∈ s.map g} d := by
  have hlt : a < b := lt_of_le_of_ne (ha.2 hb.1) hab
  have hcd : c ≤ d := hc.2 hd.1
  have hne : b - a ≠ 0 := (sub_pos.mpr hlt).ne'
  have hsne : s ≠ [] := List.ne_nil_of_mem ha.1
  have hrne : r ≠ [] := List.ne_nil_of_mem hc.1
  have hmono : Monotone (fun v => (v - a) / (b - a) * (d - c) + c) := by
    intro u v huv
    have : (u - a) / (b - a) ≤ (v - a) / (b - a) := div_le_div_of_nonneg_right (by linarith) (sub_pos.mpr hlt).le
    simp only
    nlinarith
  have ga : (a - a) / (b - a) * (d - c) + c = c := by simp
  have gb : (b - a) / (b - a) * (d - c) + c = d := by rw [div_self hne]; ring
  refine ⟨fun v => (v - a) / (b - a) * (d - c) + c, hmono, ?_, ga, gb, ⟨?_, ?_⟩, ⟨?_, ?_⟩⟩
  · unfold minMax
    rw [if_neg (by simp [hsne, hrne])]
    simp only [allSome_map, npMin_eq s a ha, npMax_eq s b hb, npMin_eq r c hc, npMax_eq r d hd, if_neg hne, List.map_map]
    rfl
  · exact List.mem_map.mpr ⟨a, ha.1, ga⟩
  · rintro _ hv
    obtain ⟨v, hvs, rfl⟩ := List.mem_map.mp hv
    have := hmono (ha.2 hvs)
    simp only at this
    rwa [ga] at this
  · exact List.mem_map.mpr ⟨b, hb.1, gb⟩
  · rintro _ hv
    obtain ⟨v, hvs, rfl⟩ := List.mem_map.mp hv
    have := hmono (hb.2 hvs)
    simp only at this
    rwa [gb] at this

/-- `min_max` of a constant source is NaN everywhere; of an empty array it raises. -/
theorem min_max_constant (s r : List ℝ) (a : ℝ) (ha : a ∈ s) (hc : ∀ v ∈ s, v = a) (hr : r ≠ []) :
    minMax (s.map some) (r.map some) = .ok (s.map (fun _ => none)) ∧ minMax [] (r.map some) = .error .valueError ∧
      minMax (s.map some) [] = .error .valueError := by
  have h1 : npMin s = some a := npMin_eq s a ⟨ha, fun v hv => (hc v hv).ge⟩
  have h2 : npMax s = some a := npMax_eq s a ⟨ha, fun v hv => (hc v hv).le⟩
  have hsne : s ≠ [] := List.ne_nil_of_mem ha
  refine ⟨?_, by simp [minMax], by simp [minMax]⟩
  unfold minMax
  rw [if_neg (by simp [hsne, hr])]
  simp only [allSome_map, h1, h2]
  cases r with
  | nil => exact absurd rfl hr
  | cons b r => simp [npMin, npMax, Function.comp_def]

example := min_max_constant [2, 2] [0, 5] 2 (by simp) (by simp) (by simp)

/-- sum of squared residuals of a line -/
def residual (s r : List ℝ) (slope intercept : ℝ) : ℝ := ((s.zip r).map (fun p => (p.2 - (slope * p.1 + intercept)) ^ 2)).sum

/-- sum of products of deviations -/
def sxy (s r : List ℝ) : ℝ := ((s.zip r).map (fun p => (p.1 - Moments.mean s) * (p.2 - Moments.mean r))).sum

/-- the line of `linregress` minimises the squared residuals -/
theorem linregress_minimal (s r : List ℝ) (hlen : s.length = r.length) (hne : ∃ v ∈ s, ∃ w ∈ s, v ≠ w) :
    ∃ slope intercept, linregParams (s.map some) (r.map some) = .ok (some (slope, intercept)) ∧
      (∀ a b, residual s r slope intercept ≤ residual s r a b) ∧
      (0 ≤ slope ↔ 0 ≤ sxy s r) := by
  have hsne : s ≠ [] := by obtain ⟨v, hv, _⟩ := hne; exact List.ne_nil_of_mem hv
  have hrne : r ≠ [] := by rintro rfl; simp at hlen; exact hsne hlen
  set l := s.zip r with hl
  have hl1 : l.map Prod.fst = s := List.map_fst_zip (by omega)
  have hl2 : l.map Prod.snd = r := List.map_snd_zip (by omega)
  have hlne : l ≠ [] := by intro h; rw [h] at hl1; simp at hl1; exact hsne hl1
  set mx := Moments.mean s with hmx
  set my := Moments.mean r with hmy
  set sxx := (s.map (fun v => (v - mx) * (v - mx))).sum with hsxx
  have ezip : (List.zipWith (fun v w => (v - npMean s) * (w - npMean r)) s r).sum = sxy s r := by
    unfold sxy
    rw [← hl, hl, List.zip_eq_zipWith, List.map_zipWith]
    rfl
  have hpos : 0 < sxx := by
    obtain ⟨v, hv, w, hw, hvw⟩ := hne
    have hnn : ∀ u ∈ s.map (fun v => (v - mx) * (v - mx)), 0 ≤ u := by
      intro u hu
      obtain ⟨t, _, rfl⟩ := List.mem_map.mp hu
      exact mul_self_nonneg _
    have h1 : (v - mx) * (v - mx) ≤ sxx := List.single_le_sum hnn _ (List.mem_map.mpr ⟨v, hv, rfl⟩)
    have h2 : (w - mx) * (w - mx) ≤ sxx := List.single_le_sum hnn _ (List.mem_map.mpr ⟨w, hw, rfl⟩)
    rcases eq_or_ne v mx with e | e
    · have : w - mx ≠ 0 := fun h => hvw (by linarith)
      exact lt_of_lt_of_le (mul_self_pos.mpr this) h2
    · exact lt_of_lt_of_le (mul_self_pos.mpr (sub_ne_zero.mpr e)) h1
  refine ⟨sxy s r / sxx, my - sxy s r / sxx * mx, ?_, ?_, ?_⟩
  · unfold linregParams
    rw [if_neg (by simp [hsne, hrne, hlen])]
    simp only [allSome_map]
    rw [if_neg]
    · simp only [ezip]
      rfl
    · intro h
      obtain ⟨v, hv, w, hw, hvw⟩ := hne
      exact hvw (h v hv w hw)
  · intro a b
    -- expand both residuals around the means
    have esx : S l (fun p => p.1 - mx) = 0 := by
      have h := Moments.len_mul_mean l (fun p : ℝ × ℝ => p.1)
      have e : (fun p : ℝ × ℝ => p.1 - mx) = fun p => p.1 + (-1) * mx := by funext p; ring
      rw [e, S_add, S_const, ← h]
      have : Moments.mean (l.map (fun p => p.1)) = mx := by rw [hmx]; exact congrArg _ hl1
      rw [this]; ring
    have esy : S l (fun p => p.2 - my) = 0 := by
      have h := Moments.len_mul_mean l (fun p : ℝ × ℝ => p.2)
      have e : (fun p : ℝ × ℝ => p.2 - my) = fun p => p.2 + (-1) * my := by funext p; ring
      rw [e, S_add, S_const, ← h]
      have : Moments.mean (l.map (fun p => p.2)) = my := by rw [hmy]; exact congrArg _ hl2
      rw [this]; ring
    have exx : S l (fun p => (p.1 - mx) * (p.1 - mx)) = sxx := by
      unfold S
      rw [hsxx, ← hl1, List.map_map]
      rfl
    have exy : S l (fun p => (p.1 - mx) * (p.2 - my)) = sxy s r := by
      unfold S sxy
      rfl
    have expand : ∀ a b : ℝ, residual s r a b = S l (fun p => (p.2 - my) * (p.2 - my)) - 2 * a * sxy s r + a ^ 2 * sxx +
        (l.length : ℝ) * (my - a * mx - b) ^ 2 := by
      intro a b
      have e : residual s r a b = S l (fun p => (p.2 - my) * (p.2 - my) + ((-2 * a) * ((p.1 - mx) * (p.2 - my)) +
          (a ^ 2 * ((p.1 - mx) * (p.1 - mx)) + ((2 * (my - a * mx - b)) * (p.2 - my) +
          ((-2 * a * (my - a * mx - b)) * (p.1 - mx) + (my - a * mx - b) ^ 2))))) := by
        show S l _ = _
        apply S_congr
        intro p _
        ring
      rw [e, S_add, S_add, S_add, S_add, S_add, S_mul, S_mul, S_mul, S_mul, S_const, esx, esy, exx, exy]
      ring
    rw [expand, expand]
    have hn : (0 : ℝ) ≤ (l.length : ℝ) := by positivity
    have h1 : (my - sxy s r / sxx * mx - (my - sxy s r / sxx * mx)) ^ 2 = 0 := by ring
    rw [h1, mul_zero]
    have h2 := mul_nonneg hn (sq_nonneg (my - a * mx - b))
    have h3 : a ^ 2 * sxx - 2 * a * sxy s r - ((sxy s r / sxx) ^ 2 * sxx - 2 * (sxy s r / sxx) * sxy s r) =
        sxx * (a - sxy s r / sxx) ^ 2 := by
      field_simp
      ring
    have h4 := mul_nonneg hpos.le (sq_nonneg (a - sxy s r / sxx))
    linarith
  · constructor
    · intro h
      have := mul_nonneg h hpos.le
      rwa [div_mul_cancel₀ _ hpos.ne'] at this
    · exact fun h => div_nonneg h hpos.le

/-- C19, `linreg`: for a source that is not negatively related to the reference, the scaled source is the least squares line. -/
theorem linreg_spec_partial (s r : List ℝ) (hlen : s.length = r.length) (hne : ∃ v ∈ s, ∃ w ∈ s, v ≠ w)
    (hpos : 0 ≤ sxy s r) :
    ∃ slope intercept, linreg (s.map some) (r.map some) = .ok ((s.map (fun v => slope * v + intercept)).map some) ∧
      ∀ a b, residual s r slope intercept ≤ residual s r a b := by
  obtain ⟨slope, intercept, h1, h2, h3⟩ := linregress_minimal s r hlen hne
  refine ⟨slope, intercept, ?_, h2⟩
  unfold linreg
  simp only [bind, Except.bind, h1, linregStoredParams, abs_of_nonneg (h3.mpr hpos), List.map_map]
  rfl

example := linreg_spec_partial [0, 1, 2] [1, 2, 4] rfl ⟨0, by simp, 1, by simp, by norm_num⟩ (by norm_num [sxy, Moments.mean, S, List.zipWith])

/-- C19 fails for a negatively related source: `np.abs(slope)` gives another line with a larger residual. -/
theorem linreg_negative_slope_wrong :
    linreg [some 0, some 1] [some 1, some 0] = .ok [some 1, some 2] ∧ residual [0, 1] [1, 0] 1 1 = 4 ∧
      residual [0, 1] [1, 0] (-1) 1 = 0 := by
  refine ⟨?_, by norm_num [residual], by norm_num [residual]⟩
  have h : linregParams [some (0 : ℝ), some 1] [some 1, some 0] = .ok (some (-1, 1)) := by
    unfold linregParams
    have e1 : allSome [some (0 : ℝ), some 1] = some [0, 1] := allSome_map [0, 1]
    have e2 : allSome [some (1 : ℝ), some 0] = some [1, 0] := allSome_map [1, 0]
    rw [if_neg (by simp)]
    simp only [e1, e2]
    norm_num [npMean]
  unfold linreg
  simp only [bind, Except.bind, h, linregStoredParams]
  norm_num

/-- `linreg` raises for no values, for different lengths and for two or more identical source values. -/
theorem linreg_raises (s r : List ℝ) (h : s = [] ∨ s.length ≠ r.length ∨ (1 < s.length ∧ ∀ v ∈ s, ∀ w ∈ s, v = w)) :
    linreg (s.map some) (r.map some) = .error .valueError := by
  have : linregParams (s.map some) (r.map some) = .error .valueError := by
    unfold linregParams
    by_cases hc : s.map some = [] ∨ r.map some = [] ∨ (s.map some).length ≠ (r.map some).length
    · rw [if_pos hc]
    · rw [if_neg hc]
      simp only [List.map_eq_nil_iff, List.length_map, not_or, not_not] at hc
      rcases h with h | h | h
      · exact absurd h hc.1
      · exact absurd hc.2.2 h
      · simp only [allSome_map]
        rw [if_pos h.2, if_neg (by omega)]
  unfold linreg
  simp only [bind, Except.bind, this]

example := linreg_raises [2, 2, 2] [1, 2, 3] (Or.inr (Or.inr (by simp)))

example : Moments.pvar [(1 : ℝ), 3] ≠ 0 := by norm_num [Moments.pvar, Moments.mean]
example : 0 ≤ sxy [1, 2, (4 : ℝ)] [2, 3, 10] := by norm_num [sxy, Moments.mean]

/-! ### C20 -/

theorem filter_ne_eraseIdx (df : Frame) (hn : (df.map Prod.fst).Nodup) (i : ℕ) (c : String × Arr) (hc : df[i]? = some c) :
    df.filter (fun d => decide (d.1 ≠ c.1)) = df.eraseIdx i := by
  induction df generalizing i with
  | nil => simp at hc
  | cons d df ih =>
    simp only [List.map_cons, List.nodup_cons] at hn
    cases i with
    | zero =>
      simp at hc
      subst hc
      rw [List.filter_cons_of_neg (by simp), List.eraseIdx_cons_zero, List.filter_eq_self]
      intro e he
      simp only [ne_eq, decide_eq_true_eq]
      intro h
      exact hn.1 (h ▸ List.mem_map.mpr ⟨e, he, rfl⟩)
    | succ i =>
      simp at hc
      have hm : c ∈ df := List.mem_of_getElem? hc
      rw [List.filter_cons_of_pos, List.eraseIdx_cons_succ, ih hn.2 i hc]
      simp only [ne_eq, decide_eq_true_eq]
      intro h
      exact hn.1 (h ▸ List.mem_map.mpr ⟨c, hm, rfl⟩)

theorem insert_erase {α : Type} (l : List α) (i : ℕ) (c : α) (h : l[i]? = some c) (f : α → α) :
    ((l.eraseIdx i).map f).insertIdx i c = (l.map f).set i c := by
  induction l generalizing i with
  | nil => simp at h
  | cons d l ih =>
    cases i with
    | zero => simp
    | succ i =>
      simp at h
      simp [ih i h]

/-- C20: `scale` keeps the names and order of the columns and the reference column, and replaces every other column by its scaled
version. -/
theorem scale_spec (f : Method) (g : Arr → Arr) (df : Frame) (hn : (df.map Prod.fst).Nodup) (i : ℕ) (ref : String × Arr)
    (hi : df[i]? = some ref) (hf : ∀ c ∈ df, c.1 ≠ ref.1 → f c.2 ref.2 = .ok (g c.2) ∧ (g c.2).length = nRows df) :
    ∃ out, scale (.ok f) df i = .ok out ∧ out.map Prod.fst = df.map Prod.fst ∧ out[i]? = some ref ∧
      ∀ j c, j ≠ i → df[j]? = some c → out[j]? = some (c.1, g c.2) := by
  have hilt : i < df.length := (List.getElem?_eq_some_iff.mp hi).1
  refine ⟨(df.map (fun c => (c.1, g c.2))).set i ref, ?_, ?_, ?_, ?_⟩
  · unfold scale
    simp only [bind, Except.bind, hi]
    rw [mapM_except_map (fun c : String × Arr => (c.1, g c.2))]
    · simp only
      rw [filter_ne_eraseIdx df hn i ref hi, insert_erase df i ref hi]
    · intro c hc
      obtain ⟨hm, hne⟩ := List.mem_filter.mp hc
      simp only [ne_eq, decide_eq_true_eq] at hne
      obtain ⟨h1, h2⟩ := hf c hm hne
      simp [h1, checked, h2]
  · rw [List.map_set, List.map_map]
    have : (Prod.fst ∘ fun c : String × Arr => (c.1, g c.2)) = Prod.fst := rfl
    rw [this]
    obtain ⟨h1, h2⟩ := List.getElem?_eq_some_iff.mp hi
    have e : ref.1 = (df.map Prod.fst)[i]'(by simpa using h1) := by simp [h2]
    rw [e, List.set_getElem_self]
  · rw [List.getElem?_set_self (by simpa using hilt)]
  · intro j c hj hc
    rw [List.getElem?_set_ne (Ne.symm hj), List.getElem?_map, hc]
    rfl

/-- C20, errors: an unknown method is reported first, then an index that is too large. -/
theorem scale_errors (df : Frame) (i : ℕ) (f : Method) (e : Err) :
    scale (.error e) df i = .error e ∧ (df.length ≤ i → scale (.ok f) df i = .error .indexError) := by
  constructor
  · rfl
  · intro h
    unfold scale
    simp only [bind, Except.bind, List.getElem?_eq_none h]

example (f : Method) : scale (.ok f) [("ref", [some 0])] 1 = .error .indexError := (scale_errors _ 1 f .indexError).2 (by simp)

/-- a failing scaling function fails the whole call -/
theorem scale_fails (f : Method) (df : Frame) (i : ℕ) (ref c : String × Arr) (e : Err) (hi : df[i]? = some ref) (hc : c ∈ df)
    (hne : c.1 ≠ ref.1) (hf : f c.2 ref.2 = .error e) : ∃ e', scale (.ok f) df i = .error e' := by
  cases h : scale (.ok f) df i with
  | error e' => exact ⟨e', rfl⟩
  | ok out =>
    exfalso
    unfold scale at h
    simp only [bind, Except.bind, hi] at h
    split at h
    · simp at h
    · rename_i v hv
      have hm : c ∈ df.filter (fun d => decide (d.1 ≠ ref.1)) := List.mem_filter.mpr ⟨hc, by simpa using hne⟩
      clear h
      generalize df.filter (fun d => decide (d.1 ≠ ref.1)) = l at hv hm
      induction l generalizing v with
      | nil => simp at hm
      | cons d l ih =>
        rw [List.mapM_cons] at hv
        simp only [bind, Except.bind] at hv
        rcases List.mem_cons.mp hm with rfl | hm
        · rw [hf] at hv; simp at hv
        · split at hv
          · simp at hv
          · split at hv
            · simp at hv
            · rename_i vs hvs
              exact ih vs hvs hm

example := scale_fails (fun _ _ => .error .indexError) [("ref", [some 0]), ("x", [some 1])] 0 ("ref", [some 0]) ("x", [some 1]) _ rfl (by simp)
  (by decide) rfl

/-- an unknown method is a `KeyError`, whatever the data -/
theorem scalingFunction_unknown (kw : Kwargs) (m : String) (h : m ∉ ["linreg", "mean_std", "min_max", "cdf_match", "cdf_beta_match"]) :
    scalingFunction kw m = .error .keyError := by
  simp only [List.mem_cons, List.not_mem_nil, or_false, not_or] at h
  unfold scalingFunction
  rw [if_neg h.1, if_neg h.2.1, if_neg h.2.2.1, if_neg h.2.2.2.1, if_neg h.2.2.2.2]

example (kw : Kwargs) := scalingFunction_unknown kw "cdf_matching" (by decide)

/-- the known methods -/
theorem scalingFunction_known (kw : Kwargs) (m : String) :
    (∃ f, scalingFunction kw m = .ok f) ↔ m ∈ ["linreg", "mean_std", "min_max", "cdf_match", "cdf_beta_match"] := by
  unfold scalingFunction
  constructor
  · rintro ⟨f, h⟩
    by_contra hc
    simp only [List.mem_cons, List.not_mem_nil, or_false, not_or] at hc
    obtain ⟨h1, h2, h3, h4, h5⟩ := hc
    rw [if_neg h1, if_neg h2, if_neg h3, if_neg h4, if_neg h5] at h
    simp at h
  · intro h
    simp only [List.mem_cons, List.not_mem_nil, or_false] at h
    rcases h with rfl | rfl | rfl | rfl | rfl <;> simp

/-- C20: `add_scaled` without labels scales the first column to the second; all old columns stay, the new column
`<label>_scaled_<method>` comes last. -/
theorem add_scaled_default (lookup : String → Except Err Method) (method : String) (f : Method) (hf : lookup method = .ok f)
    (c1 c2 : String × Arr) (rest : Frame) (hn : ((c1 :: c2 :: rest).map Prod.fst).Nodup) (r : Arr) (h : f c1.2 c2.2 = .ok r)
    (hr : r.length = c1.2.length) (hnew : c1.1 ++ "_scaled_" ++ method ∉ (c1 :: c2 :: rest).map Prod.fst) :
    addScaled lookup (c1 :: c2 :: rest) method none none =
      .ok ((c1 :: c2 :: rest) ++ [(c1.1 ++ "_scaled_" ++ method, r)]) := by
  have hne : c1.1 ≠ c2.1 := by
    simp only [List.map_cons, List.nodup_cons, List.mem_cons, not_or] at hn
    exact hn.1.1
  have h1 : column (c1 :: c2 :: rest) c1.1 = .ok c1.2 := by simp [column]
  have h2 : column (c1 :: c2 :: rest) c2.1 = .ok c2.2 := by simp [column, hne]
  unfold addScaled
  have e1 : labelAt (c1 :: c2 :: rest) 0 = .ok c1.1 := rfl
  have e2 : labelAt (c1 :: c2 :: rest) 1 = .ok c2.1 := rfl
  simp only [bind, Except.bind, e1, e2, hf, h1, h2, h]
  have e3 : checked (nRows (c1 :: c2 :: rest)) r = .ok r := by simp [checked, nRows, hr]
  simp only [e3, setColumn]
  rw [if_neg]
  simp only [List.any_eq_true, decide_eq_true_eq, not_exists, not_and]
  intro c hc he
  exact hnew (he ▸ List.mem_map.mpr ⟨c, hc, rfl⟩)

example : addScaled (fun _ => .ok (fun s _ => .ok s)) [("x", [some 1]), ("ref", [some 0])] "id" none none =
    .ok [("x", [some 1]), ("ref", [some 0]), ("x_scaled_id", [some 1])] :=
  add_scaled_default _ "id" _ rfl ("x", [some 1]) ("ref", [some 0]) [] (by decide) _ rfl rfl (by decide)

/-- C20: with explicit labels; old columns stay, the scaled one is appended. -/
theorem add_scaled_labels (lookup : String → Except Err Method) (method : String) (f : Method) (hf : lookup method = .ok f)
    (df : Frame) (a b : String × Arr) (ha : a ∈ df) (hb : b ∈ df) (hn : (df.map Prod.fst).Nodup) (r : Arr)
    (h : f a.2 b.2 = .ok r) (hr : r.length = nRows df) (hnew : a.1 ++ "_scaled_" ++ method ∉ df.map Prod.fst) :
    addScaled lookup df method (some a.1) (some b.1) = .ok (df ++ [(a.1 ++ "_scaled_" ++ method, r)]) := by
  have hcol : ∀ c ∈ df, column df c.1 = .ok c.2 := by
    intro c hc
    unfold column
    have : df.find? (fun d => decide (d.1 = c.1)) = some c := by
      clear hnew hr ha hb
      induction df with
      | nil => simp at hc
      | cons d df ih =>
        simp only [List.map_cons, List.nodup_cons] at hn
        rcases List.mem_cons.mp hc with rfl | hc
        · simp
        · rw [List.find?_cons_of_neg]
          · exact ih hn.2 hc
          · simp only [decide_eq_true_eq]
            intro he
            exact hn.1 (he ▸ List.mem_map.mpr ⟨c, hc, rfl⟩)
    rw [this]
  unfold addScaled
  simp only [bind, Except.bind, hf, hcol a ha, hcol b hb, h]
  have e3 : checked (nRows df) r = .ok r := by simp [checked, hr]
  simp only [e3, setColumn]
  rw [if_neg]
  simp only [List.any_eq_true, decide_eq_true_eq, not_exists, not_and]
  intro c hc he
  exact hnew (he ▸ List.mem_map.mpr ⟨c, hc, rfl⟩)

example : addScaled (fun _ => .ok (fun s _ => .ok s)) [("x", [some 1]), ("ref", [some 0])] "id" (some "ref") (some "x") =
    .ok [("x", [some 1]), ("ref", [some 0]), ("ref_scaled_id", [some 0])] :=
  add_scaled_labels _ "id" _ rfl [("x", [some 1]), ("ref", [some 0])] ("ref", [some 0]) ("x", [some 1]) (by simp) (by simp) (by decide) _ rfl rfl
    (by decide)

/-- a frame with one column and no labels: IndexError, whatever the method -/
theorem add_scaled_one_column (lookup : String → Except Err Method) (method : String) (c : String × Arr) :
    addScaled lookup [c] method none none = .error .indexError ∧ addScaled lookup [] method none none = .error .indexError := by
  constructor <;> rfl

/-- the whole chain for `mean_std` -/
example (kw : Kwargs) : scale (scalingFunction kw "min_max") [("ref", [some 0, some 4]), ("x", [some 1, some 2])] 0 =
    .ok [("ref", [some 0, some 4]), ("x", [some 0, some 4])] := by
  have hf : scalingFunction kw "min_max" = .ok minMax := by simp [scalingFunction]
  rw [hf]
  have hmm : minMax [some 1, some 2] [some 0, some 4] = .ok [some 0, some 4] := by
    unfold minMax
    have e1 : allSome [some (1 : ℝ), some 2] = some [1, 2] := allSome_map [1, 2]
    have e2 : allSome [some (0 : ℝ), some 4] = some [0, 4] := allSome_map [0, 4]
    rw [if_neg (by simp)]
    simp only [e1, e2]
    norm_num [npMin, npMax]
  simp [scale, bind, Except.bind, pure, Except.pure, hmm, checked, nRows]

end Verif.Scaling
