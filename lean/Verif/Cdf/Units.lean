import Mathlib.Tactic.FieldSimp
import Mathlib.Tactic.Linarith
import Mathlib.Tactic.Ring
import Mathlib.Algebra.BigOperators.Ring.List
import Verif.Cdf.Lemmas

/-!
C95, CDF matching: the result does not depend on the units of the source and is in the units of the reference. For all data with or without gaps,
all numbers of bins, percentiles and options, including exceptions.
-/

set_option linter.unusedSectionVars false

namespace Verif.Cdf

variable {K : Type} [Field K] [LinearOrder K] [IsStrictOrderedRing K]

/-- conversion to other units -/
def conv (a b : K) (v : K) : K := a * v + b

theorem conv_lt {a : K} (ha : 0 < a) (b v w : K) : conv a b v < conv a b w ↔ v < w := by
  unfold conv; rw [add_lt_add_iff_right]; exact mul_lt_mul_iff_right₀ ha

theorem conv_le {a : K} (ha : 0 < a) (b v w : K) : conv a b v ≤ conv a b w ↔ v ≤ w := by
  unfold conv; rw [add_le_add_iff_right]; exact mul_le_mul_iff_right₀ ha

theorem conv_inj {a : K} (ha : 0 < a) (b : K) : Function.Injective (conv a b) := by
  intro v w h
  unfold conv at h
  exact mul_left_cancel₀ ha.ne' (add_right_cancel h)

/-- knots in other units on both axes -/
def knotConv (a b c d : K) (p : K × K) : K × K := (conv a b p.1, conv c d p.2)

theorem line_conv {a : K} (ha : 0 < a) (b c d : K) (p q : K × K) (x : K) :
    line (knotConv a b c d p) (knotConv a b c d q) (conv a b x) = conv c d (line p q x) := by
  unfold line knotConv conv
  have e1 : a * x + b - (a * p.1 + b) = a * (x - p.1) := by ring
  have e2 : a * q.1 + b - (a * p.1 + b) = a * (q.1 - p.1) := by ring
  have e3 : c * q.2 + d - (c * p.2 + d) = c * (q.2 - p.2) := by ring
  simp only [e1, e2, e3]
  have e4 : a * (x - p.1) * (c * (q.2 - p.2) / (a * (q.1 - p.1))) = c * ((x - p.1) * ((q.2 - p.2) / (q.1 - p.1))) := by
    rw [mul_div_mul_comm, mul_assoc, mul_left_comm (x - p.1), ← mul_assoc a, mul_div_cancel₀ c ha.ne']
  rw [e4]; ring

theorem pwl_conv {a : K} (ha : 0 < a) (b c d : K) (l : List (K × K)) (hl : l ≠ []) (x : K) :
    pwl (l.map (knotConv a b c d)) (conv a b x) = conv c d (pwl l x) := by
  induction l with
  | nil => exact absurd rfl hl
  | cons p l ih =>
    cases l with
    | nil => rfl
    | cons q l =>
      have ih' := ih (by simp)
      simp only [List.map_cons, pwl] at ih' ⊢
      have e : (l.map (knotConv a b c d)).isEmpty = l.isEmpty := by cases l <;> rfl
      have e2 : decide (conv a b x ≤ (knotConv a b c d q).1) = decide (x ≤ q.1) := by
        unfold knotConv; simp only [conv_le ha]
      rw [e, e2, line_conv ha, ih']
      split <;> rfl

/-- only the ordinates in other units -/
theorem pwl_convY (c d : K) (l : List (K × K)) (hl : l ≠ []) (x : K) :
    pwl (l.map (fun p => (p.1, conv c d p.2))) x = conv c d (pwl l x) := by
  have h := pwl_conv (a := 1) one_pos 0 c d l hl x
  have e1 : conv 1 0 x = x := by unfold conv; ring
  have e2 : (knotConv 1 0 c d : K × K → K × K) = fun p => (p.1, conv c d p.2) := by
    funext p; unfold knotConv; simp [conv]
  rwa [e1, e2] at h

theorem increasing_conv {a : K} (ha : 0 < a) (b c d : K) (l : List (K × K)) : increasing (l.map (knotConv a b c d)) = increasing l := by
  induction l with
  | nil => rfl
  | cons p l ih =>
    cases l with
    | nil => rfl
    | cons q l =>
      simp only [List.map_cons, increasing] at ih ⊢
      rw [ih]
      unfold knotConv
      simp only [conv_lt ha]

theorem increasing_convY (c d : K) (l : List (K × K)) : increasing (l.map (fun p => (p.1, conv c d p.2))) = increasing l := by
  induction l with
  | nil => rfl
  | cons p l ih =>
    cases l with
    | nil => rfl
    | cons q l => simp only [List.map_cons, increasing] at ih ⊢; rw [ih]

/-! ### Percentiles -/

theorem ranks_conv (c d : K) (data : List K) : ranks (data.map (conv c d)) = (ranks data).map (fun p => (p.1, conv c d p.2)) := by
  unfold ranks
  rw [List.zipIdx_map, List.map_map, List.map_map, List.length_map]
  rfl

theorem npInterp_conv (c d : K) (l : List (K × K)) (hl : l ≠ []) (u v x : K) :
    npInterp (l.map (fun p => (p.1, conv c d p.2))) (conv c d u) (conv c d v) x = conv c d (npInterp l u v x) := by
  unfold npInterp
  rw [List.head?_map, List.getLast?_map]
  cases h1 : l.head? with
  | none => exact absurd (List.head?_eq_none_iff.mp h1) hl
  | some p =>
    cases h2 : l.getLast? with
    | none => exact absurd (List.getLast?_eq_none_iff.mp h2) hl
    | some q =>
      simp only [Option.map_some, pwl_convY c d l hl]
      split
      · rfl
      · split <;> rfl

theorem matlab_conv (c d : K) (data ps : List K) :
    matlabPercentiles (data.map (conv c d)) ps = (matlabPercentiles data ps).map (List.map (conv c d)) := by
  unfold matlabPercentiles
  rw [List.head?_map, List.getLast?_map]
  cases h1 : data.head? with
  | none => rfl
  | some p =>
    cases h2 : data.getLast? with
    | none => rfl
    | some q =>
      simp only [Option.map_some, Except.map, List.map_map]
      congr 1
      apply List.map_congr_left
      intro x _
      have hne : ranks data ≠ [] := by
        intro hr
        unfold ranks at hr
        have : data = [] := by simpa using hr
        subst this; simp at h1
      simp only [Function.comp]
      rw [ranks_conv, npInterp_conv c d _ hne]

theorem npUnique_conv {c : K} (hc : 0 < c) (d : K) (perc : List K) : npUnique (perc.map (conv c d)) = (npUnique perc).map (conv c d) := by
  unfold npUnique
  rw [List.dedup_map_of_injective (conv_inj hc d)]
  exact (List.map_insertionSort (· ≤ ·) (· ≤ ·) (conv c d) _ (fun v _ w _ => (conv_le hc d v w).symm)).symm

theorem idxOf_conv {c : K} (hc : 0 < c) (d : K) (perc : List K) (v : K) : (perc.map (conv c d)).idxOf (conv c d v) = perc.idxOf v := by
  induction perc with
  | nil => rfl
  | cons w l ih =>
    simp only [List.map_cons, List.idxOf_cons, ih]
    have : (conv c d w == conv c d v) = (w == v) := by
      rw [Bool.eq_iff_iff]; simp [(conv_inj hc d).eq_iff]
    rw [this]

theorem setLastX_conv (c d p : K) (l : List (K × K)) :
    setLastX p (l.map (fun p => (p.1, conv c d p.2))) = (setLastX p l).map (fun p => (p.1, conv c d p.2)) := by
  induction l with
  | nil => rfl
  | cons q l ih =>
    cases l with
    | nil => rfl
    | cons r l => simp only [List.map_cons, setLastX] at ih ⊢; rw [ih]

theorem spline_conv (c d : K) (l : List (K × K)) (xs : List K) :
    spline (l.map (fun p => (p.1, conv c d p.2))) xs = (spline l xs).map (List.map (conv c d)) := by
  unfold spline
  rw [List.length_map, increasing_convY]
  by_cases h : (decide (2 ≤ l.length) && increasing l) = true
  · rw [if_pos h, if_pos h]
    simp only [Except.map, List.map_map]
    congr 1
    apply List.map_congr_left
    intro x _
    refine pwl_convY c d l ?_ x
    rintro rfl; simp at h
  · rw [if_neg h, if_neg h]; rfl

theorem unique_conv {c : K} (hc : 0 < c) (d : K) (isArray : Bool) (perc ps : List K) :
    uniquePercentiles isArray (perc.map (conv c d)) ps = (uniquePercentiles isArray perc ps).map (List.map (conv c d)) := by
  unfold uniquePercentiles
  simp only [npUnique_conv hc, List.length_map]
  split
  · split
    · rw [← spline_conv, ← setLastX_conv, List.map_map, List.map_map]
      congr 2
      apply List.map_congr_left
      intro v _
      simp only [Function.comp, idxOf_conv hc]
    · rfl
  · rfl

theorem percentileValues_conv {c : K} (hc : 0 < c) (d : K) (isArray : Bool) (data ps : List K) :
    percentileValues isArray (data.map (conv c d)) ps = (percentileValues isArray data ps).map (List.map (conv c d)) := by
  unfold percentileValues
  rw [matlab_conv]
  cases matlabPercentiles data ps with
  | error e => rfl
  | ok perc => exact unique_conv hc d isArray perc ps

theorem resample_conv {c : K} (hc : 0 < c) (d : K) (x : List K) (n : ℕ) :
    resampleEcdf (x.map (conv c d)) n = (resampleEcdf x n).map (List.map (conv c d)) := by
  unfold resampleEcdf
  split
  · rfl
  · exact percentileValues_conv hc d true x _

/-! ### Edges and regression -/

theorem lstsq_conv {a : K} (ha : 0 < a) (c : K) (x y : List K) :
    lstsqSlope (x.map (conv a 0)) (y.map (conv c 0)) = (lstsqSlope x y).map (fun s => c / a * s) := by
  unfold lstsqSlope
  rw [List.length_map, List.length_map]
  split
  · have h1 : ((x.map (conv a 0)).map (fun v => v * v)).sum = a ^ 2 * (x.map (fun v => v * v)).sum := by
      rw [List.map_map, ← List.sum_map_mul_left]
      congr 1
      exact List.map_congr_left (fun v _ => by simp only [Function.comp, conv]; ring)
    have h2 : (List.zipWith (· * ·) (x.map (conv a 0)) (y.map (conv c 0))).sum = a * c * (List.zipWith (· * ·) x y).sum := by
      rw [List.zipWith_map]
      clear h1
      rename_i hlen
      clear hlen
      induction x generalizing y with
      | nil => simp
      | cons v x ih =>
        cases y with
        | nil => simp
        | cons w y => simp only [List.zipWith_cons_cons, List.sum_cons, ih]; unfold conv; ring
    simp only [h1, h2, Except.map]
    congr 1
    by_cases hs : (x.map (fun v => v * v)).sum = 0
    · rw [if_pos (by rw [hs, mul_zero]), if_pos hs, mul_zero]
    · rw [if_neg (mul_ne_zero (pow_ne_zero 2 ha.ne') hs), if_neg hs]
      have := ha.ne'
      field_simp
  · rfl

theorem shifted_conv {a : K} (b : K) (x : List K) (x1 : K) :
    (x.map (conv a b)).map (· - conv a b x1) = (x.map (· - x1)).map (conv a 0) := by
  rw [List.map_map, List.map_map]
  exact List.map_congr_left (fun v _ => by simp only [Function.comp, conv]; ring)

theorem slope_conv {a c : K} (ha : 0 < a) (x y : List K) :
    (do
      let xl ← if (x.map (conv a 0)).length ≠ (y.map (conv c 0)).length then resampleEcdf (x.map (conv a 0)) (y.map (conv c 0)).length
        else .ok (x.map (conv a 0))
      lstsqSlope xl (y.map (conv c 0)) : Except Err K) =
    (do
      let xl ← if x.length ≠ y.length then resampleEcdf x y.length else .ok x
      lstsqSlope xl y : Except Err K).map (fun s => c / a * s) := by
  simp only [List.length_map, bind, Except.bind]
  by_cases h : x.length ≠ y.length
  · rw [if_pos h, if_pos h, resample_conv ha]
    cases resampleEcdf x y.length with
    | error e => rfl
    | ok xl => exact lstsq_conv ha c xl y
  · rw [if_neg h, if_neg h]; exact lstsq_conv ha c x y

theorem lowerSlope_conv {a c : K} (ha : 0 < a) (hc : 0 < c) (b d : K) (x y : List K) (x1 y1 : K) :
    lowerSlope (x.map (conv a b)) (y.map (conv c d)) (conv a b x1) (conv c d y1) = (lowerSlope x y x1 y1).map (fun s => c / a * s) := by
  have e : ∀ {a : K} (_ : 0 < a) (b : K) (x : List K) (x1 : K),
      ((x.map (conv a b)).filter (fun v => decide (v ≤ conv a b x1))).map (· - conv a b x1) =
        ((x.filter (fun v => decide (v ≤ x1))).map (· - x1)).map (conv a 0) := by
    intro a ha b x x1
    rw [← shifted_conv, List.filter_map]
    congr 2
    apply List.filter_congr
    intro v _
    simp only [Function.comp, conv_le ha]
  unfold lowerSlope
  simp only [e ha, e hc]
  exact slope_conv ha _ _

theorem upperSlope_conv {a c : K} (ha : 0 < a) (hc : 0 < c) (b d : K) (x y : List K) (x1 y1 : K) :
    upperSlope (x.map (conv a b)) (y.map (conv c d)) (conv a b x1) (conv c d y1) = (upperSlope x y x1 y1).map (fun s => c / a * s) := by
  have e : ∀ {a : K} (_ : 0 < a) (b : K) (x : List K) (x1 : K),
      ((x.map (conv a b)).filter (fun v => decide (conv a b x1 ≤ v))).map (· - conv a b x1) =
        ((x.filter (fun v => decide (x1 ≤ v))).map (· - x1)).map (conv a 0) := by
    intro a ha b x x1
    rw [← shifted_conv, List.filter_map]
    congr 2
    apply List.filter_congr
    intro v _
    simp only [Function.comp, conv_le ha]
  unfold upperSlope
  simp only [e ha, e hc]
  exact slope_conv ha _ _

theorem getD_conv (a b : K) (l : List K) (k : ℕ) (hk : k < l.length) : (l.map (conv a b)).getD k 0 = conv a b (l.getD k 0) := by
  rw [List.getD_eq_getElem _ _ (by simpa using hk), List.getD_eq_getElem _ _ hk, List.getElem_map]

theorem edge_conv {a c : K} (ha : 0 < a) (hc : 0 < c) (b d : K) (x y xp yp : List K) (h2 : 2 ≤ yp.length) (hl : xp.length = yp.length) :
    linearEdgeScaling (x.map (conv a b)) (y.map (conv c d)) (xp.map (conv a b)) (yp.map (conv c d)) =
      (linearEdgeScaling x y xp yp).map (List.map (conv c d)) := by
  have key : ∀ u s v w : K, conv c d u + c / a * s * (conv a b v - conv a b w) = conv c d (u + s * (v - w)) := by
    intro u s v w; unfold conv; have := ha.ne'; field_simp; ring
  unfold linearEdgeScaling
  simp only [bind, Except.bind, List.length_map]
  rw [getD_conv a b xp 1 (by omega), getD_conv c d yp 1 (by omega), getD_conv a b xp 0 (by omega), lowerSlope_conv ha hc]
  cases lowerSlope x y (xp.getD 1 0) (yp.getD 1 0) with
  | error e => rfl
  | ok s =>
    simp only [Except.map]
    rw [key, ← List.map_set]
    set y1 := yp.set 0 (yp.getD 1 0 + s * (xp.getD 0 0 - xp.getD 1 0)) with hy1
    have hy1l : y1.length = yp.length := by rw [hy1, List.length_set]
    rw [getD_conv a b xp _ (by omega), getD_conv c d y1 _ (by omega), getD_conv a b xp _ (by omega), upperSlope_conv ha hc]
    cases upperSlope x y (xp.getD (yp.length - 2) 0) (y1.getD (yp.length - 2) 0) with
    | error e => rfl
    | ok t => simp only [Except.map]; rw [key, ← List.map_set]

theorem mean_conv (a b : K) (l : List K) (hl : l ≠ []) : mean (l.map (conv a b)) = conv a b (mean l) := by
  have hn : (l.length : K) ≠ 0 := by
    have : l.length ≠ 0 := by simpa using hl
    exact_mod_cast this
  have e : (l.map (conv a b)).sum = a * l.sum + (l.length : K) * b := by
    clear hn hl
    induction l with
    | nil => simp
    | cons v l ih => simp only [List.map_cons, List.sum_cons, ih, List.length_cons, conv]; push_cast; ring
  unfold mean
  rw [e, List.length_map]
  unfold conv
  field_simp

/-! ### The estimator -/

theorem valid_conv (a b c d : K) (combine : Bool) (x y : List (Option K)) :
    validValues combine (x.map (Option.map (conv a b))) (y.map (Option.map (conv c d))) =
      ((validValues combine x y).1.map (conv a b), (validValues combine x y).2.map (conv c d)) := by
  have hid : ∀ (f : K → K) (l : List (Option K)), (l.map (Option.map f)).filterMap id = (l.filterMap id).map f := by
    intro f l
    induction l with
    | nil => rfl
    | cons o l ih => cases o <;> simp_all
  unfold validValues
  rw [List.length_map, List.length_map]
  split
  · have : ∀ l : List (Option K × Option K),
        let both := (l.map (fun p => (p.1.map (conv a b), p.2.map (conv c d)))).filter (fun p => p.1.isSome && p.2.isSome)
        both.filterMap (·.1) = ((l.filter (fun p => p.1.isSome && p.2.isSome)).filterMap (·.1)).map (conv a b) ∧
        both.filterMap (·.2) = ((l.filter (fun p => p.1.isSome && p.2.isSome)).filterMap (·.2)).map (conv c d) := by
      intro l
      induction l with
      | nil => simp
      | cons p l ih =>
        obtain ⟨u, v⟩ := p
        cases u <;> cases v <;> simp_all
    have hz : (x.map (Option.map (conv a b))).zip (y.map (Option.map (conv c d))) =
        (x.zip y).map (fun p => (p.1.map (conv a b), p.2.map (conv c d))) := by
      rw [List.zip_map]; rfl
    simp only [hz]
    exact Prod.ext (this _).1 (this _).2
  · rw [hid, hid]

theorem sort_conv {a : K} (ha : 0 < a) (b : K) (l : List K) :
    (l.map (conv a b)).insertionSort (· ≤ ·) = (l.insertionSort (· ≤ ·)).map (conv a b) := by
  exact (List.map_insertionSort (· ≤ ·) (· ≤ ·) (conv a b) _ (fun v _ w _ => (conv_le ha b v w).symm)).symm

theorem percentileValues_length (isArray : Bool) (data ps out : List K) (h : percentileValues isArray data ps = .ok out) :
    out.length = ps.length := by
  unfold percentileValues at h
  cases hm : matlabPercentiles data ps with
  | error e => rw [hm] at h; cases h
  | ok perc =>
    have hp : perc.length = ps.length := by
      unfold matlabPercentiles at hm
      split at hm
      · obtain rfl := Except.ok.inj hm; simp
      · cases hm
    rw [hm] at h
    simp only [bind, Except.bind, uniquePercentiles] at h
    split at h
    · split at h
      · unfold spline at h
        split at h
        · obtain rfl := Except.ok.inj h; simp
        · cases h
      · cases h
    · obtain rfl := Except.ok.inj h; exact hp

theorem diff_nil_of_short (l : List K) (h : l.length < 2) : diff l = [] := by
  match l, h with
  | [], _ => rfl
  | [_], _ => rfl

theorem calc_two (P : Params K) (n : ℕ) (r : Bool × List K × ℕ) (h : calcPercentiles P n = .ok r) : 2 ≤ r.2.1.length := by
  unfold calcPercentiles at h
  generalize P.percentiles.getD (true, regularPercentiles P.nbins) = q at h
  obtain ⟨isArray, ps⟩ := q
  simp only at h
  cases hd : diff ps with
  | nil => rw [hd] at h; cases h
  | cons e es =>
    have h2 : 2 ≤ ps.length := by
      by_contra hlt
      rw [diff_nil_of_short ps (by omega)] at hd
      cases hd
    rw [hd] at h
    simp only at h
    split at h
    · split at h
      · obtain rfl := Except.ok.inj h
        simp only [regularPercentiles, List.length_map, List.length_range]
        split
        · omega
        · rename_i hz
          have := Nat.pos_of_ne_zero hz
          split <;> omega
      · obtain rfl := Except.ok.inj h; exact h2
    · obtain rfl := Except.ok.inj h; exact h2

/-- what prediction does with the fitted percentiles, on the valid values -/
def apply (xp yp : List K) (x : List (Option K)) : List (Option K) :=
  if xp.length = 0 ∨ yp.length = 0 then x.map (fun _ => none)
  else if xp.length = yp.length ∧ 2 ≤ (xp.zip yp).length ∧ increasing (xp.zip yp) = true then
    x.map (Option.map (pwl (xp.zip yp)))
  else x.map (fun _ => none)

theorem pad_filterMap (n : ℕ) (l : List K) : (pad n l).filterMap id = l := by
  unfold pad
  rw [List.filterMap_append]
  have h1 : (l.map some).filterMap id = l := by
    induction l with
    | nil => rfl
    | cons v l ih => simp
  have h2 : (List.replicate (n - l.length) (none : Option K)).filterMap id = [] := by
    rw [List.filterMap_eq_nil_iff]
    intro o ho
    rw [(List.mem_replicate.mp ho).2]; rfl
  rw [h1, h2, List.append_nil]

/-- the percentiles of converted data are the converted percentiles, or both pairs describe the same regression line -/
theorem apply_conv {a c : K} (ha : 0 < a) (b d : K) (xp yp : List K) (x : List (Option K)) :
    apply (xp.map (conv a b)) (yp.map (conv c d)) (x.map (Option.map (conv a b))) = (apply xp yp x).map (Option.map (conv c d)) := by
  have hz : (xp.map (conv a b)).zip (yp.map (conv c d)) = (xp.zip yp).map (knotConv a b c d) := by
    rw [List.zip_map]; rfl
  unfold apply
  simp only [hz, List.length_map, increasing_conv ha]
  split
  · rw [List.map_map, List.map_map]; rfl
  · split
    · rename_i h
      rw [List.map_map, List.map_map]
      apply List.map_congr_left
      intro o _
      cases o with
      | none => rfl
      | some v =>
        simp only [Function.comp, Option.map_some]
        rw [pwl_conv ha]
        intro hn
        rw [hn] at h; simp at h
    · rw [List.map_map, List.map_map]; rfl

theorem fitApply_conv {a c : K} (ha : 0 < a) (hc : 0 < c) (b d : K) (P : Params K) (x y : List K) (z : List (Option K)) :
    (fitPercentiles P (x.map (conv a b)) (y.map (conv c d))).map (fun p => apply p.1 p.2 (z.map (Option.map (conv a b)))) =
      (fitPercentiles P x y).map (fun p => (apply p.1 p.2 z).map (Option.map (conv c d))) := by
  unfold fitPercentiles
  simp only [List.length_map, bind, Except.bind]
  cases hcalc : calcPercentiles P (min x.length y.length) with
  | error e => rfl
  | ok r =>
    have h2 := calc_two P _ r hcalc
    obtain ⟨isArray, ps, nbins⟩ := r
    simp only
    by_cases hn : nbins = 1 ∧ P.edge = true
    · rw [if_pos hn, if_pos hn]
      unfold linregPercentiles
      simp only [List.map_eq_nil_iff]
      by_cases he : x = [] ∨ y = []
      · rw [if_pos he, if_pos he]; rfl
      · rw [if_neg he, if_neg he]
        push Not at he
        have e1 : (x.map (conv a b)).map (· - mean (x.map (conv a b))) = (x.map (· - mean x)).map (conv a 0) := by
          rw [mean_conv a b x he.1, shifted_conv]
        have e2 : (y.map (conv c d)).map (· - mean (y.map (conv c d))) = (y.map (· - mean y)).map (conv c 0) := by
          rw [mean_conv c d y he.2, shifted_conv]
        simp only [bind, Except.bind, e1, e2, lstsq_conv ha]
        cases lstsqSlope (x.map (· - mean x)) (y.map (· - mean y)) with
        | error e => rfl
        | ok s =>
          simp only [Except.map, mean_conv a b x he.1, mean_conv c d y he.2]
          congr 1
          unfold apply
          have h01 : (0 : K) < 1 := one_pos
          simp only [List.length_cons, List.length_nil, List.zip_cons_cons, List.zip_nil_right, increasing, h01, decide_true, Bool.and_self]
          simp only [Nat.reduceAdd, Nat.reduceEqDiff, or_self, if_false, le_refl, and_self, if_true]
          rw [List.map_map, List.map_map]
          apply List.map_congr_left
          intro o _
          cases o with
          | none => rfl
          | some v =>
            simp only [Function.comp, Option.map_some, pwl, List.isEmpty_nil, Bool.true_or, if_true, line]
            congr 1
            unfold conv
            have := ha.ne'
            field_simp
            ring
    · rw [if_neg hn, if_neg hn, sort_conv ha, sort_conv hc, percentileValues_conv ha, percentileValues_conv hc]
      cases hx : percentileValues isArray (x.insertionSort (· ≤ ·)) ps with
      | error e => rfl
      | ok xp =>
        simp only [Except.map]
        cases hy : percentileValues isArray (y.insertionSort (· ≤ ·)) ps with
        | error e => rfl
        | ok yp =>
          have lx := percentileValues_length _ _ _ _ hx
          have ly := percentileValues_length _ _ _ _ hy
          simp only at h2 ⊢
          by_cases hedge : P.edge = true
          · simp only [if_pos hedge]
            rw [edge_conv ha hc b d _ _ xp yp (by omega) (by omega)]
            cases linearEdgeScaling (x.insertionSort (· ≤ ·)) (y.insertionSort (· ≤ ·)) xp yp with
            | error e => rfl
            | ok yp' => simp only [Except.map]; rw [apply_conv ha]
          · simp only [if_neg hedge]
            rw [apply_conv ha]

theorem clip_conv {c : K} (hc : 0 < c) (d : K) (mx mn : Option K) (v : K) :
    clip (mx.map (conv c d)) (mn.map (conv c d)) (conv c d v) = conv c d (clip mx mn v) := by
  unfold clip
  cases mx with
  | none =>
    cases mn with
    | none => rfl
    | some m => simp only [Option.map_some, Option.map_none, conv_lt hc]; split <;> rfl
  | some k =>
    have h1 : (if conv c d k < conv c d v then conv c d k else conv c d v) = conv c d (if k < v then k else v) := by
      simp only [conv_lt hc]; split <;> rfl
    cases mn with
    | none => exact h1
    | some m =>
      simp only [Option.map_some]
      rw [h1]
      generalize (if k < v then k else v) = w
      simp only [conv_lt hc]
      split <;> rfl

/-- C95, CDF matching: source in any units, reference in any units (gains positive): the result is that of the original data, in the units of the
reference; exceptions and missing values are the same. -/
theorem cdf_match_units {a c : K} (ha : 0 < a) (hc : 0 < c) (b d : K) (P : Params K) (mx mn : Option K) (src ref : List (Option K)) :
    cdfMatch P (mx.map (fun v => c * v + d)) (mn.map (fun v => c * v + d)) (src.map (Option.map (fun v => a * v + b)))
        (ref.map (Option.map (fun v => c * v + d))) =
      (cdfMatch P mx mn src ref).map (List.map (Option.map (fun v => c * v + d))) := by
  change cdfMatch P (mx.map (conv c d)) (mn.map (conv c d)) (src.map (Option.map (conv a b))) (ref.map (Option.map (conv c d))) =
    (cdfMatch P mx mn src ref).map (List.map (Option.map (conv c d)))
  have hp : ∀ n xp yp z, predict (⟨pad n xp, pad n yp⟩ : Fitted K) z = apply xp yp z := by
    intro n xp yp z; unfold predict apply; simp only [pad_filterMap]
  have hm : ∀ mx mn src ref, cdfMatch P mx mn src ref =
      ((fitPercentiles P (validValues P.combine src ref).1 (validValues P.combine src ref).2).map
        (fun p => apply p.1 p.2 src)).map (List.map (Option.map (clip mx mn))) := by
    intro mx mn src ref
    unfold cdfMatch fit
    simp only [bind, Except.bind]
    cases fitPercentiles P (validValues P.combine src ref).1 (validValues P.combine src ref).2 with
    | error e => rfl
    | ok p => simp only [Except.map, hp]
  rw [hm, hm, valid_conv]
  simp only
  rw [fitApply_conv ha hc]
  cases fitPercentiles P (validValues P.combine src ref).1 (validValues P.combine src ref).2 with
  | error e => rfl
  | ok p =>
    simp only [Except.map, List.map_map]
    congr 1
    apply List.map_congr_left
    intro o _
    cases o with
    | none => rfl
    | some v => simp only [Function.comp, Option.map_some, clip_conv hc]

/-- concrete case: three bins with edges scaled linearly, a gap in the source; source in °F, reference in percent -/
example : cdfMatch (⟨3, none, none, true, true⟩ : Params ℚ) (some 100) none
      ([some 1, none, some 2, some 4, some 9].map (Option.map (fun v => 9 / 5 * v + 32)))
      ([some 0, some 1, some 3, some 2, some 5].map (Option.map (fun v => 100 * v + 0))) =
    (cdfMatch (⟨3, none, none, true, true⟩ : Params ℚ) (some 1) none [some 1, none, some 2, some 4, some 9]
      [some 0, some 1, some 3, some 2, some 5]).map (List.map (Option.map (fun v => 100 * v + 0))) := by
  have h := cdf_match_units (a := (9 / 5 : ℚ)) (c := 100) (by norm_num) (by norm_num) 32 0 ⟨3, none, none, true, true⟩ (some 1) none
    [some 1, none, some 2, some 4, some 9] [some 0, some 1, some 3, some 2, some 5]
  simpa using h

end Verif.Cdf
