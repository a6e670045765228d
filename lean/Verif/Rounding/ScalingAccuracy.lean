import Verif.Rounding.Triple
import Verif.Rounding.ScalingProps

/-!
C126: accuracy of the linear scaling methods with a rounding after every operation: `min_max` (`src/pytesmo/scaling.py:143-162`), `linreg_stored_params`
(165-184) and `mean_std` (233-250) with `np.mean` and `np.std` computed from the data. numpy adds in an order of its own; the order is arbitrary here.
-/

namespace Verif.Rounding

open Rolling.Fl (rnd64)
open Moments (mean pvar S)

section Model

variable {K : Type} [Field K] [LinearOrder K]

/-- `np.mean` (scaling.py:250); `add` is `np.add.reduce` -/
def npMeanF (rnd : K → K) (add : List K → K) (l : List K) : K := rnd (add l / (l.length : K))

/-- the squared deviations of `np.std` (scaling.py:250) from a computed mean -/
def sqDev (rnd : K → K) (m x : K) : K := rnd (rnd (x - m) * rnd (x - m))

/-- `np.std` (scaling.py:250): the mean is subtracted, squares are added and divided by the number of values -/
def npStdF (rnd : K → K) (add : List K → K) (sq : K → K) (l : List K) : K :=
  sq (rnd (add (l.map (sqDev rnd (npMeanF rnd add l))) / (l.length : K)))

/-- scaling.py:233-250 `mean_std(src, ref)`, NaN (`none`) where a zero standard deviation is divided by zero. A finite number divided by zero (infinite
in numpy) is `none` as well. -/
def meanStdData (rnd : K → K) (add : List K → K) (sq : K → K) (src ref : List K) : Option (List K) :=
  if npStdF rnd add sq src = 0 then none
  else some (meanStd rnd (npMeanF rnd add src) (npStdF rnd add sq src) (npMeanF rnd add ref) (npStdF rnd add sq ref) src)

end Model

/-! ### Specification -/

/-- sums are rounded additions in some order -/
def Adds {K : Type} [Field K] (rnd : K → K) (add : List K → K) : Prop := ∀ l, l ≠ [] → ∃ t : Tree K, t.leaves.Perm l ∧ add l = t.sum rnd

/-- the standard deviation -/
noncomputable def stdOf (l : List ℝ) : ℝ := Real.sqrt (pvar l)

/-! ### Proofs -/

section Field

variable {K : Type} [Field K] [LinearOrder K] [IsStrictOrderedRing K]

/-- a rounded number of a known sign -/
theorem RelErr.bounds {rnd : K → K} {u : K} (h : RelErr rnd u) {x : K} (hx : 0 ≤ x) : (1 - u) * x ≤ rnd x ∧ rnd x ≤ (1 + u) * x := by
  have := abs_le.1 (h.err x)
  rw [abs_of_nonneg hx] at this
  constructor <;> linarith [this.1, this.2]

/-- the quotient of two rounded numbers -/
theorem quot_bounds {rnd : K → K} {u : K} (h : RelErr rnd u) (hu : 100 * u ≤ 1) {a d : K} (ha : 0 ≤ a) (hd : 0 < d) :
    0 ≤ rnd a / rnd d ∧ (1 - 5 / 2 * u) * (a / d) ≤ rnd a / rnd d ∧ rnd a / rnd d ≤ (1 + 5 / 2 * u) * (a / d) := by
  have hu0 := h.nonneg
  have huu : u * u ≤ 1 / 100 * u := mul_le_mul_of_nonneg_right (by linarith) hu0
  have huu0 : 0 ≤ u * u := mul_nonneg hu0 hu0
  obtain ⟨a1, a2⟩ := h.bounds ha
  obtain ⟨d1, d2⟩ := h.bounds hd.le
  have hd' : 0 < rnd d := lt_of_lt_of_le (mul_pos (by linarith) hd) d1
  have ha' : 0 ≤ rnd a := le_trans (mul_nonneg (by linarith) ha) a1
  have hq0 : 0 ≤ a / d := div_nonneg ha hd.le
  refine ⟨div_nonneg ha' hd'.le, ?_, ?_⟩
  · rw [le_div_iff₀ hd']
    have e : (1 - 5 / 2 * u) * (a / d) * ((1 + u) * d) = (1 - 5 / 2 * u) * (1 + u) * a := by
      rw [show (1 - 5 / 2 * u) * (a / d) * ((1 + u) * d) = (1 - 5 / 2 * u) * (1 + u) * (a / d * d) by ring, div_mul_cancel₀ _ hd.ne']
    have m := mul_le_mul_of_nonneg_left d2 (mul_nonneg (by linarith) hq0 : 0 ≤ (1 - 5 / 2 * u) * (a / d))
    rw [e] at m
    have : (1 - 5 / 2 * u) * (1 + u) * a ≤ (1 - u) * a := mul_le_mul_of_nonneg_right (by linarith) ha
    linarith
  · rw [div_le_iff₀ hd']
    have e : (1 + 5 / 2 * u) * (a / d) * ((1 - u) * d) = (1 + 5 / 2 * u) * (1 - u) * a := by
      rw [show (1 + 5 / 2 * u) * (a / d) * ((1 - u) * d) = (1 + 5 / 2 * u) * (1 - u) * (a / d * d) by ring, div_mul_cancel₀ _ hd.ne']
    have m := mul_le_mul_of_nonneg_left d1 (mul_nonneg (by linarith) hq0 : 0 ≤ (1 + 5 / 2 * u) * (a / d))
    rw [e] at m
    have : (1 + u) * a ≤ (1 + 5 / 2 * u) * (1 - u) * a := mul_le_mul_of_nonneg_right (by linarith) ha
    linarith

/-- the quotient, rounded -/
theorem quot_rounded {rnd : K → K} {u : K} (h : RelErr rnd u) (hu : 100 * u ≤ 1) {q q' : K} (hq : 0 ≤ q) (h0 : 0 ≤ q') (h1 : (1 - 5 / 2 * u) * q ≤ q')
    (h2 : q' ≤ (1 + 5 / 2 * u) * q) : (1 - 18 / 5 * u) * q ≤ rnd q' ∧ rnd q' ≤ (1 + 18 / 5 * u) * q := by
  have hu0 := h.nonneg
  have huu : u * u ≤ 1 / 100 * u := mul_le_mul_of_nonneg_right (by linarith) hu0
  have huu0 : 0 ≤ u * u := mul_nonneg hu0 hu0
  obtain ⟨s1, s2⟩ := h.bounds h0
  constructor
  · have m := mul_le_mul_of_nonneg_left h1 (by linarith : 0 ≤ 1 - u)
    have : (1 - 18 / 5 * u) * q ≤ (1 - u) * (1 - 5 / 2 * u) * q := mul_le_mul_of_nonneg_right (by linarith) hq
    linarith
  · have m := mul_le_mul_of_nonneg_left h2 (by linarith : 0 ≤ 1 + u)
    have : (1 + u) * (1 + 5 / 2 * u) * q ≤ (1 + 18 / 5 * u) * q := mul_le_mul_of_nonneg_right (by linarith) hq
    linarith

/-- the rounded quotient times a rounded number -/
theorem prod_bounds {rnd : K → K} {u : K} (h : RelErr rnd u) (hu : 100 * u ≤ 1) {q t r : K} (hq : 0 ≤ q) (hr : 0 ≤ r) (h1 : (1 - 18 / 5 * u) * q ≤ t)
    (h2 : t ≤ (1 + 18 / 5 * u) * q) : |t * rnd r - q * r| ≤ 47 / 10 * u * (q * r) := by
  have hu0 := h.nonneg
  have huu : u * u ≤ 1 / 100 * u := mul_le_mul_of_nonneg_right (by linarith) hu0
  have huu0 : 0 ≤ u * u := mul_nonneg hu0 hu0
  obtain ⟨r1, r2⟩ := h.bounds hr
  have hr1 : 0 ≤ (1 - u) * r := mul_nonneg (by linarith) hr
  have ht0 : 0 ≤ t := le_trans (mul_nonneg (by linarith) hq) h1
  have p0 : 0 ≤ q * r := mul_nonneg hq hr
  have p2 := mul_le_mul h2 r2 (hr1.trans r1) (mul_nonneg (by linarith) hq)
  have p1 := mul_le_mul h1 r1 hr1 ht0
  have c2 : (1 + 18 / 5 * u) * (1 + u) * (q * r) ≤ (1 + 47 / 10 * u) * (q * r) := mul_le_mul_of_nonneg_right (by linarith) p0
  have c1 : (1 - 47 / 10 * u) * (q * r) ≤ (1 - 18 / 5 * u) * (1 - u) * (q * r) := mul_le_mul_of_nonneg_right (by linarith) p0
  rw [abs_le]
  constructor <;> linarith

/-- the ratio of two rounded differences, rounded and multiplied by a third one -/
theorem minMax_prod {rnd : K → K} {u : K} (h : RelErr rnd u) (hu : 100 * u ≤ 1) {a d r : K} (ha : 0 ≤ a) (hd : 0 < d) (had : a ≤ d) (hr : 0 ≤ r) :
    |rnd (rnd (rnd a / rnd d) * rnd r) - a / d * r| ≤ 6 * u * r := by
  have hu0 := h.nonneg
  have huu : u * u ≤ 1 / 100 * u := mul_le_mul_of_nonneg_right (by linarith) hu0
  have hq0 : 0 ≤ a / d := div_nonneg ha hd.le
  have hq1 : a / d ≤ 1 := by rw [div_le_one hd]; exact had
  obtain ⟨b0, b1, b2⟩ := quot_bounds h hu ha hd
  obtain ⟨t1, t2⟩ := quot_rounded h hu hq0 b0 b1 b2
  have fin := rnd_err h (prod_bounds h hu hq0 hr t1 t2)
  generalize rnd (rnd (rnd a / rnd d) * rnd r) = y at fin ⊢
  generalize a / d = q at *
  have p0 : 0 ≤ q * r := mul_nonneg hq0 hr
  rw [abs_of_nonneg p0] at fin
  have pr : q * r ≤ r := by
    have := mul_le_mul_of_nonneg_right hq1 hr
    linarith
  have k : (47 / 10 * u * (1 + u) + u) * (q * r) ≤ 6 * u * (q * r) := mul_le_mul_of_nonneg_right (by linarith) p0
  have k2 : 6 * u * (q * r) ≤ 6 * u * r := mul_le_mul_of_nonneg_left pr (by linarith)
  linarith

/-- **C126.** `min_max`: every scaled value is off by at most 7 units of rounding of the range of the reference and one of its largest value, however close
the values of the source are to each other. -/
theorem min_max_accuracy {rnd : K → K} {u C : K} (h : RelErr rnd u) (hu : 100 * u ≤ 1) (src ref : List K) (mn mx rmn rmx : K)
    (hs : mn ∈ src ∧ mx ∈ src ∧ ∀ v ∈ src, mn ≤ v ∧ v ≤ mx) (hr : rmn ∈ ref ∧ rmx ∈ ref ∧ ∀ v ∈ ref, rmn ≤ v ∧ v ≤ rmx) (hne : mn < mx)
    (hC : ∀ v ∈ ref, |v| ≤ C) :
    (minMax rnd src ref).length = src.length ∧ ∀ (i : ℕ) (v : K), src[i]? = some v → ∃ w, (minMax rnd src ref)[i]? = some w ∧
      |w - ((v - mn) / (mx - mn) * (rmx - rmn) + rmn)| ≤ 7 * u * (rmx - rmn) + u * C := by
  have hu0 := h.nonneg
  obtain ⟨s1, s2, s3⟩ := hs
  obtain ⟨r1, r2, r3⟩ := hr
  have en : src ≠ [] := List.ne_nil_of_mem s1
  have ern : ref ≠ [] := List.ne_nil_of_mem r1
  have e1 : npMin src = mn := le_antisymm ((npMin_spec src en).2 mn s1) (s3 _ (npMin_spec src en).1).1
  have e2 : npMax src = mx := le_antisymm (s3 _ (npMax_spec src en).1).2 ((npMax_spec src en).2 mx s2)
  have e3 : npMin ref = rmn := le_antisymm ((npMin_spec ref ern).2 rmn r1) (r3 _ (npMin_spec ref ern).1).1
  have e4 : npMax ref = rmx := le_antisymm (r3 _ (npMax_spec ref ern).1).2 ((npMax_spec ref ern).2 rmx r2)
  refine ⟨by simp [minMax], fun i v hv => ⟨minMaxValue rnd mn mx rmn rmx v, ?_, ?_⟩⟩
  · unfold minMax
    rw [List.getElem?_map, hv, e1, e2, e3, e4]
    rfl
  · have hvm := s3 v (List.mem_of_getElem? hv)
    have hrr : rmn ≤ rmx := (r3 rmn r1).2
    have hp := minMax_prod h hu (a := v - mn) (d := mx - mn) (r := rmx - rmn) (by linarith) (by linarith) (by linarith) (by linarith)
    have hq0 : 0 ≤ (v - mn) / (mx - mn) := div_nonneg (by linarith) (by linarith)
    have hq1 : (v - mn) / (mx - mn) ≤ 1 := by rw [div_le_one (by linarith)]; linarith
    set p := (v - mn) / (mx - mn) * (rmx - rmn) with hpd
    have p0 : 0 ≤ p := mul_nonneg hq0 (by linarith)
    have p1 : p ≤ rmx - rmn := by
      have := mul_le_mul_of_nonneg_right hq1 (by linarith : 0 ≤ rmx - rmn)
      linarith
    have ad : |rnd (rnd (rnd (v - mn) / rnd (mx - mn)) * rnd (rmx - rmn)) + rmn - (p + rmn)| ≤ 6 * u * (rmx - rmn) := by
      rw [add_sub_add_right_eq_sub]
      exact hp
    have fin := rnd_err h ad
    have hab : |p + rmn| ≤ C := by
      have b1 := (abs_le.1 (hC rmn r1)).1
      have b2 := (abs_le.1 (hC rmx r2)).2
      rw [abs_le]
      constructor <;> linarith
    have k1 := mul_le_mul_of_nonneg_left hab hu0
    have k2 : 6 * u * (rmx - rmn) * (1 + u) ≤ 7 * u * (rmx - rmn) := by
      have : 6 * u * (1 + u) ≤ 7 * u := by nlinarith
      have := mul_le_mul_of_nonneg_right this (by linarith : 0 ≤ rmx - rmn)
      linarith
    unfold minMaxValue
    linarith

/-- **C126.** `linreg_stored_params`: the errors are those of one product and one sum. -/
theorem linreg_stored_accuracy {rnd : K → K} {u : K} (h : RelErr rnd u) (slope intercept : K) (src : List K) :
    (linregStored rnd slope intercept src).length = src.length ∧ ∀ (i : ℕ) (v : K), src[i]? = some v → ∃ w, (linregStored rnd slope intercept src)[i]? = some w ∧
      |w - (|slope| * v + intercept)| ≤ u * (1 + u) * |slope * v| + u * |(|slope| * v + intercept)| := by
  refine ⟨by simp [linregStored], fun i v hv => ⟨rnd (rnd (|slope| * v) + intercept), by simp [linregStored, hv], ?_⟩⟩
  have h1 := h.err (|slope| * v)
  rw [abs_mul, abs_abs, ← abs_mul] at h1
  have h2 : |rnd (|slope| * v) + intercept - (|slope| * v + intercept)| ≤ u * |slope * v| := by
    rw [add_sub_add_right_eq_sub]
    exact h1
  have := rnd_err h h2
  linarith

/-- `np.mean` -/
theorem npMeanF_err {rnd : K → K} {add : List K → K} {u B : K} (h : RelErr rnd u) (ha : Adds rnd add) (l : List K) (hl : l ≠ [])
    (hn : 5 * ((l.length : K) + 1) * u ≤ 1) (hb : ∀ x ∈ l, |x| ≤ B) : |npMeanF rnd add l - mean l| ≤ 5 * ((l.length : K) + 1) * (u * B) := by
  have := tmean_err (A := ⟨rnd, add, fun _ _ => add, fun a b => rnd (a * b)⟩) (u := u) (B := B)
    ⟨h, ha, fun _ _ l hl => ha l hl, fun _ _ => .inl rfl⟩ (l.map (fun x (_ : Fin 3) => x)) (by simpa using hl) (by simpa using hn) 0
    (by
      intro r hr
      obtain ⟨x, hx, rfl⟩ := List.mem_map.1 hr
      exact hb x hx)
  simpa [Arith.mean, npMeanF, Function.comp_def] using this

/-- a sum of numbers with relative errors, in any order -/
theorem sum_terms_err {α : Type} {rnd : K → K} {add : List K → K} {u ε : K} (h : RelErr rnd u) (ha : Adds rnd add) (l : List α) (hl : l ≠ []) (f g : α → K)
    (hf : ∀ x ∈ l, 0 ≤ f x) (hg : ∀ x ∈ l, |g x - f x| ≤ ε * f x) :
    |add (l.map g) - S l f| ≤ ((1 + u) ^ l.length * (1 + ε) - 1) * S l f := by
  have h1 := sum_err h add (l.map g) (by simpa using hl) (ha _ (by simpa using hl))
  rw [List.length_map] at h1
  have h2 : |(l.map g).sum - S l f| ≤ ε * S l f ∧ absSum (l.map g) ≤ (1 + ε) * S l f := by
    clear h1 hl
    induction l with
    | nil => simp [absSum]
    | cons p l ih =>
      obtain ⟨i1, i2⟩ := ih (fun q hq => hf q (List.mem_cons_of_mem _ hq)) (fun q hq => hg q (List.mem_cons_of_mem _ hq))
      have hp := hg p List.mem_cons_self
      have hp0 := hf p List.mem_cons_self
      have hp2 : |g p| ≤ |g p - f p| + |f p| := by
        have := abs_add_le (g p - f p) (f p)
        rwa [sub_add_cancel] at this
      rw [abs_of_nonneg hp0] at hp2
      rw [Moments.S_cons, List.map_cons, List.sum_cons]
      constructor
      · have e : g p + (l.map g).sum - (f p + S l f) = (g p - f p) + ((l.map g).sum - S l f) := by ring
        rw [e]
        refine (abs_add_le _ _).trans ?_
        linarith
      · have e : absSum (g p :: l.map g) = |g p| + absSum (l.map g) := by simp [absSum]
        rw [e]
        linarith
  have hP := one_le_pow h.nonneg l.length
  refine (abs_tri _ (l.map g).sum _).trans ?_
  have hm := mul_le_mul_of_nonneg_left h2.2 (by linarith : 0 ≤ (1 + u) ^ l.length - 1)
  have e2 : ((1 + u) ^ l.length * (1 + ε) - 1) * S l f = ((1 + u) ^ l.length - 1) * ((1 + ε) * S l f) + ε * S l f := by ring
  rw [e2]
  linarith [h2.1]

/-- a squared deviation has a small relative error -/
theorem sqDev_err {rnd : K → K} {u : K} (h : RelErr rnd u) (m x : K) :
    |sqDev rnd m x - (x - m) ^ 2| ≤ ((1 + u) ^ 3 - 1) * (x - m) ^ 2 := by
  have hu0 := h.nonneg
  have h1 := h.err (x - m)
  set a := x - m
  have hd : |rnd a * rnd a - a ^ 2| ≤ (2 * u + u ^ 2) * a ^ 2 := by
    have e : rnd a * rnd a - a ^ 2 = 2 * a * (rnd a - a) + (rnd a - a) ^ 2 := by ring
    rw [e]
    refine (abs_add_le _ _).trans ?_
    have e1 : |2 * a * (rnd a - a)| = 2 * |a| * |rnd a - a| := by rw [abs_mul, abs_mul]; simp
    have e2 : |(rnd a - a) ^ 2| = |rnd a - a| ^ 2 := by rw [abs_pow]
    have e3 : a ^ 2 = |a| ^ 2 := (sq_abs a).symm
    rw [e1, e2, e3]
    have k1 := mul_le_mul_of_nonneg_left h1 (by positivity : 0 ≤ 2 * |a|)
    have k2 := mul_le_mul h1 h1 (abs_nonneg _) (by positivity)
    nlinarith
  have fin := rnd_err h hd
  rw [abs_of_nonneg (sq_nonneg a)] at fin
  unfold sqDev
  refine fin.trans (le_of_eq ?_)
  ring

/-- the mean squared deviation from any number is the variance and the squared distance from the mean -/
theorem mean_sq_shift (l : List K) (hl : l ≠ []) (m : K) : mean (l.map (fun x => (x - m) ^ 2)) = pvar l + (mean l - m) ^ 2 := by
  have hpos := Moments.len_pos (K := K) l hl
  have key : ∀ (l : List K) (a : K), S l (fun x => (x - m) ^ 2) = S l (fun x => (x - a) ^ 2) + 2 * (a - m) * (l.sum - (l.length : K) * a) +
      (l.length : K) * (a - m) ^ 2 := by
    intro l a
    induction l with
    | nil => simp
    | cons x l ih =>
      rw [Moments.S_cons, Moments.S_cons, ih, List.sum_cons, List.length_cons]
      push_cast
      ring
  have hm : l.sum - (l.length : K) * mean l = 0 := by
    unfold mean
    field_simp
    ring
  unfold pvar
  rw [Moments.mean_map, Moments.mean_map, key l (mean l), hm]
  field_simp
  ring

/-- the computed variance, before the square root -/
theorem npVarF_err {rnd : K → K} {add : List K → K} {u : K} (h : RelErr rnd u) (ha : Adds rnd add) (l : List K) (hl : l ≠ []) (m : K) :
    |rnd (add (l.map (sqDev rnd m)) / (l.length : K)) - (pvar l + (mean l - m) ^ 2)| ≤ ((1 + u) ^ (l.length + 4) - 1) * (pvar l + (mean l - m) ^ 2) := by
  have hpos := Moments.len_pos (K := K) l hl
  have h1 := sum_terms_err h ha l hl (fun x => (x - m) ^ 2) (sqDev rnd m) (fun x _ => sq_nonneg _) (fun x _ => sqDev_err h m x)
  rw [show (1 : K) + ((1 + u) ^ 3 - 1) = (1 + u) ^ 3 by ring, ← pow_add] at h1
  rw [← mean_sq_shift l hl m, Moments.mean_map]
  set s := S l (fun x => (x - m) ^ 2)
  have hs : 0 ≤ s := by
    refine List.sum_nonneg fun y hy => ?_
    obtain ⟨x, -, rfl⟩ := List.mem_map.1 hy
    exact sq_nonneg _
  have h2 : |add (l.map (sqDev rnd m)) / (l.length : K) - s / (l.length : K)| ≤ ((1 + u) ^ (l.length + 3) - 1) * (s / (l.length : K)) := by
    rw [← sub_div, abs_div, abs_of_pos hpos, div_le_iff₀ hpos, mul_assoc, div_mul_cancel₀ _ hpos.ne']
    exact h1
  have fin := rnd_err h h2
  rw [abs_of_nonneg (by positivity : 0 ≤ s / (l.length : K))] at fin
  refine fin.trans (le_of_eq ?_)
  ring

end Field

/-- `np.std`: the error does not depend on how small the standard deviation is. -/
theorem npStdF_err {rnd sq : ℝ → ℝ} {add : List ℝ → ℝ} {u B : ℝ} (h : RelErr rnd u) (hsq : SqrtErr sq u) (ha : Adds rnd add) (l : List ℝ) (hl : l ≠ [])
    (hn : 10 * ((l.length : ℝ) + 5) * u ≤ 1) (hb : ∀ x ∈ l, |x| ≤ B) :
    0 ≤ npStdF rnd add sq l ∧ |npStdF rnd add sq l - stdOf l| ≤ 8 * ((l.length : ℝ) + 5) * u * B := by
  have hu0 := h.nonneg
  have hpos := Moments.len_pos (K := ℝ) l hl
  obtain ⟨q, hq⟩ := List.exists_mem_of_ne_nil l hl
  have hB : 0 ≤ B := (abs_nonneg _).trans (hb q hq)
  have hlu : 0 ≤ (l.length : ℝ) * u := by positivity
  have hu1 : u ≤ 1 := by linarith
  have hm := npMeanF_err h ha l hl (by linarith) hb
  have hv := npVarF_err h ha l hl (npMeanF rnd add l)
  unfold npStdF
  set m' := npMeanF rnd add l
  set v' := rnd (add (l.map (sqDev rnd m')) / (l.length : ℝ))
  have hvar0 : 0 ≤ pvar l := by
    unfold pvar mean
    refine div_nonneg (List.sum_nonneg fun y hy => ?_) (Nat.cast_nonneg _)
    obtain ⟨x, -, rfl⟩ := List.mem_map.1 hy
    exact sq_nonneg _
  set w := pvar l + (mean l - m') ^ 2 with hwd
  have hw0 : 0 ≤ w := by positivity
  have hpow := pow_small hu0 (l.length + 4) (by push_cast; linarith)
  push_cast at hpow
  set ε := (1 + u) ^ (l.length + 4) - 1 with hε
  have hε0 : 0 ≤ ε := by
    have := one_le_pow hu0 (l.length + 4)
    linarith
  have hε1 : ε ≤ 1 / 5 := by linarith
  have hεw := mul_le_mul_of_nonneg_right hε1 hw0
  obtain ⟨v1, v2⟩ := abs_le.1 hv
  have hv0 : 0 ≤ v' := by linarith
  -- the root of the computed variance
  have hsw0 := Real.sqrt_nonneg w
  have hww := Real.mul_self_sqrt hw0
  have up : Real.sqrt v' ≤ (1 + ε) * Real.sqrt w := by
    refine Real.sqrt_le_iff.2 ⟨by positivity, ?_⟩
    have e : ((1 + ε) * Real.sqrt w) ^ 2 = (1 + ε) * (1 + ε) * w := by rw [mul_pow, Real.sq_sqrt hw0]; ring
    rw [e]
    have : (1 + ε) * w ≤ (1 + ε) * (1 + ε) * w := mul_le_mul_of_nonneg_right (by nlinarith) hw0
    linarith
  have lo : (1 - ε) * Real.sqrt w ≤ Real.sqrt v' := by
    refine Real.le_sqrt_of_sq_le ?_
    have e : ((1 - ε) * Real.sqrt w) ^ 2 = (1 - ε) * (1 - ε) * w := by rw [mul_pow, Real.sq_sqrt hw0]; ring
    rw [e]
    have : (1 - ε) * (1 - ε) * w ≤ (1 - ε) * w := mul_le_mul_of_nonneg_right (by nlinarith) hw0
    linarith
  obtain ⟨g0, g1⟩ := hsq v' hv0
  refine ⟨g0, ?_⟩
  -- the shift of the mean
  set δ := |mean l - m'| with hδd
  have hδ : δ ≤ 5 * ((l.length : ℝ) + 1) * (u * B) := by rw [hδd, abs_sub_comm]; exact hm
  have hδ0 : 0 ≤ δ := abs_nonneg _
  have sw1 : stdOf l ≤ Real.sqrt w := Real.sqrt_le_sqrt (by have := sq_nonneg (mean l - m'); linarith)
  have hs0 : 0 ≤ stdOf l := Real.sqrt_nonneg _
  have sw2 : Real.sqrt w ≤ stdOf l + δ := by
    refine Real.sqrt_le_iff.2 ⟨by positivity, ?_⟩
    have e1 : stdOf l ^ 2 = pvar l := Real.sq_sqrt hvar0
    have e2 : δ ^ 2 = (mean l - m') ^ 2 := sq_abs _
    have : 0 ≤ 2 * stdOf l * δ := by positivity
    rw [hwd]
    nlinarith
  have hsB : stdOf l ≤ B := by
    refine Real.sqrt_le_iff.2 ⟨hB, ?_⟩
    have := pvar_le l hl (fun x => x) B hb
    simpa using this
  have hwB : Real.sqrt w ≤ 2 * B := by
    have : 5 * ((l.length : ℝ) + 1) * (u * B) ≤ 1 * B := by
      have := mul_le_mul_of_nonneg_right (show 5 * ((l.length : ℝ) + 1) * u ≤ 1 by linarith) hB
      linarith
    linarith
  have hsw : Real.sqrt w ≤ B + δ := by linarith
  have k1 : |Real.sqrt v' - Real.sqrt w| ≤ ε * Real.sqrt w := by
    rw [abs_le]; constructor <;> linarith
  have k2 : |Real.sqrt w - stdOf l| ≤ δ := by
    rw [abs_le]; constructor <;> linarith
  have k3 : u * Real.sqrt v' ≤ u * (6 / 5 * Real.sqrt w) := by
    refine mul_le_mul_of_nonneg_left (up.trans (mul_le_mul_of_nonneg_right (by linarith) hsw0)) hu0
  have k4 : ε * Real.sqrt w ≤ 2 * ((l.length : ℝ) + 4) * u * Real.sqrt w := mul_le_mul_of_nonneg_right hpow hsw0
  have k5 : 2 * ((l.length : ℝ) + 5) * u * Real.sqrt w ≤ 2 * ((l.length : ℝ) + 5) * u * (B + δ) := mul_le_mul_of_nonneg_left hsw (by positivity)
  have k6 : 2 * ((l.length : ℝ) + 5) * u * δ ≤ 1 / 5 * δ := mul_le_mul_of_nonneg_right (by linarith) hδ0
  have k7 : 0 ≤ u * Real.sqrt w := by positivity
  have k8 : 0 ≤ u * B := by positivity
  have k9 : 0 ≤ (l.length : ℝ) * (u * B) := by positivity
  have t1 := abs_tri (sq v') (Real.sqrt v') (stdOf l)
  have t2 := abs_tri (Real.sqrt v') (Real.sqrt w) (stdOf l)
  have e1 : 2 * ((l.length : ℝ) + 4) * u * Real.sqrt w = 2 * ((l.length : ℝ) + 5) * u * Real.sqrt w - 2 * (u * Real.sqrt w) := by ring
  have e2 : 2 * ((l.length : ℝ) + 5) * u * (B + δ) = 2 * ((l.length : ℝ) * (u * B)) + 10 * (u * B) + 2 * ((l.length : ℝ) + 5) * u * δ := by ring
  have e3 : 8 * ((l.length : ℝ) + 5) * u * B = 8 * ((l.length : ℝ) * (u * B)) + 40 * (u * B) := by ring
  have e4 : 5 * ((l.length : ℝ) + 1) * (u * B) = 5 * ((l.length : ℝ) * (u * B)) + 5 * (u * B) := by ring
  rw [e3]
  rw [e4] at hδ
  rw [e1] at k4
  rw [e2] at k5
  linarith

/-- the last steps of `mean_std` for one value, from means and standard deviations with errors of at most `η B` and `η C` -/
theorem meanStd_step {rnd : ℝ → ℝ} {u η B C σ m m' s s' rm rm' rs rs' v : ℝ} (h : RelErr rnd u) (hη : 40 * u ≤ η) (hB : 0 ≤ B) (hC : 0 ≤ C) (hσ : 0 < σ) (hs : σ ≤ s)
    (hsB : s ≤ B) (hκ : 4 * η * (B / σ) ≤ 1) (hv : |v| ≤ B) (hm : |m| ≤ B) (hm' : |m' - m| ≤ η * B) (hs' : |s' - s| ≤ η * B) (hrm : |rm| ≤ C)
    (hrm' : |rm' - rm| ≤ η * C) (hrs : |rs| ≤ C) (hrs' : |rs' - rs| ≤ η * C) :
    |rnd (rnd (rnd (rnd (v - m') / s') * rs') + rm') - ((v - m) / s * rs + rm)| ≤ 7 * η * (B / σ) * (1 + |(v - m) / s|) * C := by
  have hu0 := h.nonneg
  have hη0 : 0 ≤ η := by linarith
  set k := B / σ with hk
  have hk1 : 1 ≤ k := by rw [hk, le_div_iff₀ hσ]; linarith
  have hkσ : k * σ = B := by rw [hk]; field_simp
  have hs0 : 0 < s := by linarith
  have hηk : 0 ≤ η * k := by positivity
  have hη14 : η ≤ η * k := by
    have := mul_le_mul_of_nonneg_left hk1 hη0
    linarith
  have hηs : η ≤ 1 / 4 := by linarith
  have hus : u ≤ 1 / 160 := by linarith
  -- the deviation
  have d0 : |v - m| ≤ 2 * B := by
    have := abs_sub v m
    linarith
  have d1 : |rnd (v - m') - (v - m)| ≤ 11 / 10 * η * B := by
    have : |v - m' - (v - m)| ≤ η * B := by
      rw [show v - m' - (v - m) = -(m' - m) by ring, abs_neg]
      exact hm'
    have r := rnd_err h this
    have k1 := mul_le_mul_of_nonneg_left d0 hu0
    have hηB : 0 ≤ η * B := by positivity
    have k2 : η * B * u ≤ η * B * (1 / 160) := mul_le_mul_of_nonneg_left hus hηB
    have k3 : u * B ≤ η / 40 * B := mul_le_mul_of_nonneg_right (by linarith) hB
    linarith
  set z := (v - m) / s with hz
  have hz0 := abs_nonneg z
  -- the quotient
  have q1 := quot_err (x := v - m) (x' := rnd (v - m')) (c := s) (c' := s') (D := 11 / 10 * η * B) (E := η * B) (τ := σ) hσ (by rw [abs_of_pos hs0]; exact hs)
    (by
      have := mul_le_mul_of_nonneg_right hκ hσ.le
      have e : 4 * η * k * σ = 4 * (η * B) := by rw [← hkσ]; ring
      linarith) d1 hs'
  have e1 : 4 / 3 * ((11 / 10 * η * B + η * B * |z|) / σ) = 22 / 15 * (η * k) + 4 / 3 * (η * k * |z|) := by
    rw [← hkσ]; field_simp; ring
  rw [← hz, e1] at q1
  set Z := 1 + |z| with hZ
  have hZk : η * k * Z = η * k + η * k * |z| := by rw [hZ]; ring
  have hkz : 0 ≤ η * k * |z| := by positivity
  have q2 : |rnd (rnd (v - m') / s') - z| ≤ 8 / 5 * (η * k * Z) := by
    have q1' : |rnd (v - m') / s' - z| ≤ 22 / 15 * (η * k * Z) := by rw [hZk]; linarith
    have r := rnd_err h q1'
    have k1 : u * |z| ≤ η * k / 40 * |z| := mul_le_mul_of_nonneg_right (by linarith) hz0
    have k2 : 22 / 15 * (η * k * Z) * u ≤ 22 / 15 * (η * k * Z) * (1 / 160) := mul_le_mul_of_nonneg_left hus (by rw [hZk]; linarith)
    rw [hZk] at r k2 ⊢
    linarith
  -- the product
  set z' := rnd (rnd (v - m') / s')
  have hrsn : |rs'| ≤ 5 / 4 * C := by
    have t := abs_add_le (rs' - rs) rs
    rw [sub_add_cancel] at t
    have : η * C ≤ 1 / 4 * C := mul_le_mul_of_nonneg_right hηs hC
    linarith
  have hW0 : 0 ≤ η * k * Z * C := by rw [hZk]; positivity
  have hW1 : η * C ≤ η * k * C := mul_le_mul_of_nonneg_right hη14 hC
  have hW2 : η * k * Z * C = η * k * C + η * k * |z| * C := by rw [hZk]; ring
  have hzC : η * C * |z| ≤ η * k * C * |z| := mul_le_mul_of_nonneg_right hW1 hz0
  have hkzC : 0 ≤ η * k * |z| * C := by positivity
  have hkC : 0 ≤ η * k * C := by positivity
  have p1 : |z' * rs' - z * rs| ≤ 3 * (η * k * Z * C) := by
    rw [show z' * rs' - z * rs = (z' - z) * rs' + z * (rs' - rs) by ring]
    refine (abs_add_le _ _).trans ?_
    rw [abs_mul, abs_mul]
    have m1 := mul_le_mul q2 hrsn (abs_nonneg _) (by rw [hZk]; linarith)
    have m2 := mul_le_mul_of_nonneg_left hrs' hz0
    have e : 8 / 5 * (η * k * Z) * (5 / 4 * C) = 2 * (η * k * Z * C) := by ring
    have e' : |z| * (η * C) = η * C * |z| := by ring
    have e'' : η * k * C * |z| = η * k * |z| * C := by ring
    rw [e] at m1
    rw [e'] at m2
    linarith
  have hzrs : |z * rs| ≤ |z| * C := by
    rw [abs_mul]
    exact mul_le_mul_of_nonneg_left hrs hz0
  have uz : u * (|z| * C) ≤ 1 / 40 * (η * k * |z| * C) := by
    have : u * (|z| * C) ≤ η * k / 40 * (|z| * C) := mul_le_mul_of_nonneg_right (by linarith) (by positivity)
    linarith
  have p2 : |rnd (z' * rs') - z * rs| ≤ 4 * (η * k * Z * C) := by
    have r := rnd_err h p1
    have k1 := mul_le_mul_of_nonneg_left hzrs hu0
    have k2 : 3 * (η * k * Z * C) * u ≤ 3 * (η * k * Z * C) * (1 / 160) := mul_le_mul_of_nonneg_left hus (by linarith)
    linarith
  -- the sum
  have a1 : |rnd (z' * rs') + rm' - (z * rs + rm)| ≤ 5 * (η * k * Z * C) := by
    rw [show rnd (z' * rs') + rm' - (z * rs + rm) = (rnd (z' * rs') - z * rs) + (rm' - rm) by ring]
    refine (abs_add_le _ _).trans ?_
    linarith
  have r := rnd_err h a1
  have b1 : |z * rs + rm| ≤ |z| * C + C := (abs_add_le _ _).trans (by linarith)
  have k1 := mul_le_mul_of_nonneg_left b1 hu0
  have k2 : 5 * (η * k * Z * C) * u ≤ 5 * (η * k * Z * C) * (1 / 160) := mul_le_mul_of_nonneg_left hus (by linarith)
  have k3 : u * C ≤ η * k / 40 * C := mul_le_mul_of_nonneg_right (by linarith) hC
  have e : 7 * η * k * Z * C = 7 * (η * k * Z * C) := by ring
  rw [e]
  linarith

/-- **C126.** `mean_std`: for source values of at most `B` with a standard deviation of at least `σ`, and reference values of at most `C`, the result is a number;
it is off by at most `56 (n + 5) u (B / σ) (1 + |z|) C`, where `z` is the standardised source value, provided that `32 (n + 5) u (B / σ) ≤ 1`. -/
theorem mean_std_accuracy_partial {rnd sq : ℝ → ℝ} {add : List ℝ → ℝ} {u B C σ : ℝ} (h : RelErr rnd u) (hsq : SqrtErr sq u) (ha : Adds rnd add) (src ref : List ℝ)
    (n : ℕ) (hs : src ≠ []) (hr : ref ≠ []) (hsn : src.length ≤ n) (hrn : ref.length ≤ n) (hB : ∀ x ∈ src, |x| ≤ B) (hC : ∀ x ∈ ref, |x| ≤ C)
    (hσ : 0 < σ) (hstd : σ ≤ stdOf src) (hκ : 32 * ((n : ℝ) + 5) * u * (B / σ) ≤ 1) :
    ∃ out, meanStdData rnd add sq src ref = some out ∧ out.length = src.length ∧
      ∀ (i : ℕ) (v : ℝ), src[i]? = some v → ∃ w, out[i]? = some w ∧
        |w - ((v - mean src) / stdOf src * stdOf ref + mean ref)| ≤ 56 * ((n : ℝ) + 5) * u * (B / σ) * (1 + |(v - mean src) / stdOf src|) * C := by
  have hu0 := h.nonneg
  obtain ⟨q, hq⟩ := List.exists_mem_of_ne_nil src hs
  have hB0 : 0 ≤ B := (abs_nonneg _).trans (hB q hq)
  obtain ⟨q', hq'⟩ := List.exists_mem_of_ne_nil ref hr
  have hC0 : 0 ≤ C := (abs_nonneg _).trans (hC q' hq')
  have std_le : ∀ (l : List ℝ), l ≠ [] → ∀ D : ℝ, 0 ≤ D → (∀ x ∈ l, |x| ≤ D) → stdOf l ≤ D := by
    intro l hl D hD hb
    refine Real.sqrt_le_iff.2 ⟨hD, ?_⟩
    have := pvar_le l hl (fun x => x) D hb
    simpa using this
  have hsB := std_le src hs B hB0 hB
  have hk1 : 1 ≤ B / σ := by rw [le_div_iff₀ hσ]; linarith
  have hsn' : (src.length : ℝ) ≤ n := by exact_mod_cast hsn
  have hrn' : (ref.length : ℝ) ≤ n := by exact_mod_cast hrn
  have hn0 : (0 : ℝ) ≤ n := Nat.cast_nonneg n
  set η := 8 * ((n : ℝ) + 5) * u with hη
  have hη0 : 0 ≤ η := by positivity
  have hη1 : η ≤ η * (B / σ) := by
    have := mul_le_mul_of_nonneg_left hk1 hη0
    linarith
  have hκ' : 4 * η * (B / σ) ≤ 1 := by rw [hη]; linarith
  have hnu : 0 ≤ (n : ℝ) * u := by positivity
  have len_u : ∀ {k : ℕ}, (k : ℝ) ≤ n → (k : ℝ) * u ≤ n * u := fun hk => mul_le_mul_of_nonneg_right hk hu0
  have hnu5 : 10 * ((n : ℝ) + 5) * u ≤ 1 := by rw [hη] at hη1 hκ'; linarith
  have hcs : 10 * ((src.length : ℝ) + 5) * u ≤ 1 := by linarith [len_u hsn']
  have hcr : 10 * ((ref.length : ℝ) + 5) * u ≤ 1 := by linarith [len_u hrn']
  have stdb : ∀ (l : List ℝ) (D : ℝ), 0 ≤ D → (l.length : ℝ) ≤ n → 8 * ((l.length : ℝ) + 5) * u * D ≤ η * D := by
    intro l D hD hl
    refine mul_le_mul_of_nonneg_right ?_ hD
    rw [hη]
    linarith [len_u hl]
  have meanb : ∀ (l : List ℝ) (D : ℝ), 0 ≤ D → (l.length : ℝ) ≤ n → 5 * ((l.length : ℝ) + 1) * (u * D) ≤ η * D := by
    intro l D hD hl
    rw [← mul_assoc]
    refine mul_le_mul_of_nonneg_right ?_ hD
    rw [hη]
    linarith [len_u hl]
  obtain ⟨s0, s1⟩ := npStdF_err h hsq ha src hs hcs hB
  obtain ⟨-, r1⟩ := npStdF_err h hsq ha ref hr hcr hC
  have hlus : 0 ≤ (src.length : ℝ) * u := by positivity
  have hlur : 0 ≤ (ref.length : ℝ) * u := by positivity
  have m1 := npMeanF_err h ha src hs (by linarith) hB
  have m2 := npMeanF_err h ha ref hr (by linarith) hC
  replace s1 := s1.trans (stdb src B hB0 hsn')
  replace r1 := r1.trans (stdb ref C hC0 hrn')
  replace m1 := m1.trans (meanb src B hB0 hsn')
  replace m2 := m2.trans (meanb ref C hC0 hrn')
  have hne : npStdF rnd add sq src ≠ 0 := by
    intro e
    rw [e, zero_sub, abs_neg, abs_of_nonneg (show 0 ≤ stdOf src from Real.sqrt_nonneg _)] at s1
    have hησ : 4 * (η * B) ≤ σ := by
      have := mul_le_mul_of_nonneg_right hκ' hσ.le
      have e : 4 * η * (B / σ) * σ = 4 * (η * B) := by field_simp
      linarith
    have hηB : 0 ≤ η * B := by positivity
    linarith
  refine ⟨_, by unfold meanStdData; rw [if_neg hne], by simp [meanStd], fun i v hv => ⟨_, by unfold meanStd; rw [List.getElem?_map, hv]; rfl, ?_⟩⟩
  have hmb : ∀ (l : List ℝ), l ≠ [] → ∀ D : ℝ, (∀ x ∈ l, |x| ≤ D) → |mean l| ≤ D := by
    intro l hl D hb
    have := mean_abs_le l hl (fun x => x) D hb
    simpa using this
  have st := meanStd_step h (η := η) (by rw [hη]; linarith) hB0 hC0 hσ hstd hsB hκ' (hB v (List.mem_of_getElem? hv)) (hmb src hs B hB) m1 s1
    (hmb ref hr C hC) m2 (by rw [abs_of_nonneg (show 0 ≤ stdOf ref from Real.sqrt_nonneg _)]; exact std_le ref hr C hC0 hC) r1
  refine st.trans (le_of_eq ?_)
  rw [hη]; ring

/-! ### Double precision -/

/-- **C126.** `min_max` in double precision. -/
theorem min_max_double (src ref : List ℚ) (mn mx rmn rmx C : ℚ) (hs : mn ∈ src ∧ mx ∈ src ∧ ∀ v ∈ src, mn ≤ v ∧ v ≤ mx)
    (hr : rmn ∈ ref ∧ rmx ∈ ref ∧ ∀ v ∈ ref, rmn ≤ v ∧ v ≤ rmx) (hne : mn < mx) (hC : ∀ v ∈ ref, |v| ≤ C) (i : ℕ) (v : ℚ) (hv : src[i]? = some v) :
    ∃ w, (minMax rnd64 src ref)[i]? = some w ∧ |w - ((v - mn) / (mx - mn) * (rmx - rmn) + rmn)| ≤ (7 * (rmx - rmn) + C) / 2 ^ 53 := by
  obtain ⟨w, h1, h2⟩ := (min_max_accuracy rnd64_relErr (by norm_num) src ref mn mx rmn rmx hs hr hne hC).2 i v hv
  exact ⟨w, h1, h2.trans (le_of_eq (by ring))⟩

example : ∃ w, (minMax rnd64 [0, 1, 3] [2, 5, 3])[1]? = some w ∧ |w - 3| ≤ 26 / 2 ^ 53 := by
  obtain ⟨w, h1, h2⟩ := min_max_double [0, 1, 3] [2, 5, 3] 0 3 2 5 5 (by decide +kernel) (by decide +kernel) (by norm_num) (by decide +kernel) 1 1 rfl
  exact ⟨w, h1, by norm_num at h2 ⊢; exact h2⟩

/-- six times the number 0.1 -/
def tenths : List ℚ := List.replicate 6 (rnd64 (1 / 10))

/-- **C126, negation.** The data is constant, so `mean_std` should be NaN (C19). In double precision the computed mean is not the constant, the computed standard
deviation is not zero, and every value is scaled to one standard deviation above the mean of the reference. (`np.sum` adds less than eight values from left
to right.) -/
theorem mean_std_constant_wrong (sq : ℚ → ℚ) (hsq : ∀ x, 0 ≤ x → rnd64 x = x → sq (x * x) = x) :
    meanStdData rnd64 (seqSum rnd64) sq tenths [0, 0, 0, 2, 2, 2] = some (List.replicate 6 2) := by
  have e1 : rnd64 (seqSum rnd64 (tenths.map (sqDev rnd64 (npMeanF rnd64 (seqSum rnd64) tenths))) / (tenths.length : ℚ)) = 1 / 2 ^ 56 * (1 / 2 ^ 56) := by
    decide +kernel
  have e2 : rnd64 (seqSum rnd64 ([0, 0, 0, 2, 2, 2].map (sqDev rnd64 (npMeanF rnd64 (seqSum rnd64) [0, 0, 0, 2, 2, 2]))) / (([0, 0, 0, 2, 2, 2] : List ℚ).length : ℚ)) = 1 * 1 := by
    decide +kernel
  have s1 : npStdF rnd64 (seqSum rnd64) sq tenths = 1 / 2 ^ 56 := by
    unfold npStdF
    rw [e1]
    exact hsq _ (by norm_num) (by decide +kernel)
  have s2 : npStdF rnd64 (seqSum rnd64) sq [0, 0, 0, 2, 2, 2] = 1 := by
    unfold npStdF
    rw [e2]
    exact hsq _ (by norm_num) (by decide +kernel)
  unfold meanStdData
  rw [s1, s2, if_neg (by norm_num)]
  congr 1
  decide +kernel

/-! ### Examples -/

/-- a rounding that makes every number larger -/
theorem larger_relErr {K : Type} [Field K] [LinearOrder K] [IsStrictOrderedRing K] (u : K) (hu : 0 ≤ u) : RelErr (fun x : K => x * (1 + u)) u :=
  ⟨hu, fun x => le_of_eq (by rw [show x * (1 + u) - x = u * x by ring, abs_mul, abs_of_nonneg hu])⟩

example : ∃ w, (minMax (fun x : ℚ => x * (1 + 1 / 200)) [0, 1, 3] [2, 5, 3])[1]? = some w ∧ w ≠ 3 ∧ |w - 3| ≤ 7 * (1 / 200) * 3 + 1 / 200 * 5 := by
  obtain ⟨w, h1, h2⟩ := (min_max_accuracy (larger_relErr (1 / 200 : ℚ) (by norm_num)) (by norm_num) [0, 1, 3] [2, 5, 3] 0 3 2 5
    (by decide +kernel) (by decide +kernel) (by norm_num) (C := 5) (by decide +kernel)).2 1 1 rfl
  refine ⟨w, h1, ?_, by norm_num at h2 ⊢; exact h2⟩
  have : w = (1 * (1 + 1 / 200) / (3 * (1 + 1 / 200)) * (1 + 1 / 200) * (3 * (1 + 1 / 200)) * (1 + 1 / 200) + 2) * (1 + 1 / 200) := by
    have e := h1
    norm_num [minMax, minMaxValue, npMin, npMax] at e
    rw [← e]
    norm_num
  rw [this]
  norm_num

example : ∃ w, (linregStored (fun x : ℚ => x * (1 + 1 / 200)) (-2) 1 [0, 3])[1]? = some w ∧ |w - 7| ≤ 1 / 200 * (1 + 1 / 200) * 6 + 1 / 200 * 7 := by
  obtain ⟨w, h1, h2⟩ := (linreg_stored_accuracy (larger_relErr (1 / 200 : ℚ) (by norm_num)) (-2) 1 [0, 3]).2 1 3 rfl
  refine ⟨w, h1, ?_⟩
  norm_num at h2 ⊢
  exact h2

/-- a square root that is too large -/
theorem larger_sqrtErr (u : ℝ) (hu : 0 ≤ u) : SqrtErr (fun v => Real.sqrt v * (1 + u)) u := fun v _ =>
  ⟨by positivity, le_of_eq (by rw [show Real.sqrt v * (1 + u) - Real.sqrt v = u * Real.sqrt v by ring, abs_of_nonneg (by positivity)])⟩

theorem stdOf_example : stdOf [0, 2] = 1 := by
  have : pvar ([0, 2] : List ℝ) = 1 := by norm_num [pvar, mean]
  unfold stdOf
  rw [this, Real.sqrt_one]

example : ∃ out, meanStdData (fun x : ℝ => x * (1 + 1 / 2 ^ 20)) (seqSum (fun x : ℝ => x * (1 + 1 / 2 ^ 20))) (fun v => Real.sqrt v * (1 + 1 / 2 ^ 20)) [0, 2] [3, 1, 4] = some out ∧
    out.length = 2 := by
  obtain ⟨out, h1, h2, -⟩ := mean_std_accuracy_partial (larger_relErr (1 / 2 ^ 20 : ℝ) (by norm_num)) (larger_sqrtErr (1 / 2 ^ 20) (by norm_num)) (fun l hl => seqSum_tree _ l hl)
    [0, 2] [3, 1, 4] 3 (by simp) (by simp) (by simp) (by simp) (B := 2) (C := 4) (by simp) (by simp; norm_num [abs_of_pos]) (σ := 1) one_pos
    (by rw [stdOf_example]) (by norm_num)
  exact ⟨out, h1, h2⟩

/-- the root of a fraction whose numerator and denominator are squares -/
def ratSqrt (v : ℚ) : ℚ := (Nat.sqrt v.num.natAbs : ℚ) / (Nat.sqrt v.den : ℚ)

theorem ratSqrt_square (x : ℚ) (hx : 0 ≤ x) : ratSqrt (x * x) = x := by
  unfold ratSqrt
  rw [Rat.mul_self_num, Rat.mul_self_den, Int.natAbs_mul, Nat.sqrt_eq, Nat.sqrt_eq]
  have : ((x.num.natAbs : ℕ) : ℚ) = (x.num : ℚ) := by
    have h0 : 0 ≤ x.num := Rat.num_nonneg.2 hx
    rw [Nat.cast_natAbs, abs_of_nonneg h0]
  rw [this]
  exact Rat.num_div_den x

example : meanStdData rnd64 (seqSum rnd64) ratSqrt tenths [0, 0, 0, 2, 2, 2] = some (List.replicate 6 2) :=
  mean_std_constant_wrong ratSqrt (fun x hx _ => ratSqrt_square x hx)

end Verif.Rounding
