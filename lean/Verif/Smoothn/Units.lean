import Verif.Smoothn.Weights
import Mathlib.Tactic.LinearCombination

/-!
C101: gap filling of data in other units.

The specification is at the top: an array in other units is the array times the gain plus the offset, and the result of a call
in other units has the smoothed values in these units and everything else unchanged; the generalised cross validation score
is a mean of squares and has the square of the gain as its factor.
-/

namespace Verif.Smoothn

open Classical

variable {n : ℕ}

/-! ## Specification -/

/-- data times a gain; gaps stay -/
def gainOf (c : ℝ) (data : Fin n → Option ℝ) : Fin n → Option ℝ := fun i => (data i).map (c * ·)

/-- data plus an offset; gaps stay -/
def offsetOf (o : ℝ) (data : Fin n → Option ℝ) : Fin n → Option ℝ := fun i => (data i).map (· + o)

/-- the same arguments for data times a gain: the initial guess and the number for gaps are given in the units of the data -/
def Args.gain (c : ℝ) (a : Args n) : Args n :=
  { a with
    initGuess := a.initGuess.map (fun g i => c * g i)
    gap := a.gap.map (c * ·) }

/-- the same result for data times a gain -/
def Result.gain (c : ℝ) (r : Result n) : Result n :=
  { r with
    z := r.z.map (gainOf c)
    data := gainOf c r.data
    stats :=
      { r.stats with
        initialGuess := r.stats.initialGuess.map (fun g i => c * g i)
        gcvScore := r.stats.gcvScore.map (c ^ 2 * ·) } }

/-- what is assumed of the search for the smoothing parameter: the place of the minimum does not change if all scores are
multiplied by the same positive number -/
def ScaleFree (e : Env n) : Prop := ∀ (f : ℝ → ℝ) (k : ℝ), 0 < k → e.fmin (fun p => k * f p) = e.fmin f

/-- what is assumed of the initial guess: gaps are filled from elements that are no gaps, and the part of constant arrays is kept -/
structure GuessOk (e : Env n) : Prop where
  near : ∀ (mask : Fin n → Bool) i, (∃ k, mask k = false) → mask i = true → mask (e.near mask i) = false
  low : ∀ i, e.lam i = 0 → e.low i = true

/-- the same arguments for data plus an offset -/
def Args.offset (o : ℝ) (a : Args n) : Args n := { a with initGuess := a.initGuess.map (fun g i => g i + o) }

/-! ## Gain -/

theorem dct_smul {e : Env n} (he : IsDct e) (c : ℝ) (x : Fin n → ℝ) : e.dct (fun i => c * x i) = fun i => c * e.dct x i := by
  have h1 : ∑ i, (e.dct (fun i => c * x i) i - c * e.dct x i) ^ 2 = 0 := by
    have e1 := he.inner (fun i => c * x i) (fun i => c * x i)
    have e2 := he.inner (fun i => c * x i) x
    have e3 := he.inner x x
    have s1 : ∑ i, c * x i * (c * x i) = c ^ 2 * ∑ i, x i * x i := by
      rw [Finset.mul_sum]; exact Finset.sum_congr rfl fun i _ => by ring
    have s2 : ∑ i, c * x i * x i = c * ∑ i, x i * x i := by
      rw [Finset.mul_sum]; exact Finset.sum_congr rfl fun i _ => by ring
    have s3 : ∑ i, (e.dct (fun i => c * x i) i - c * e.dct x i) ^ 2 =
        ∑ i, e.dct (fun i => c * x i) i * e.dct (fun i => c * x i) i - 2 * c * ∑ i, e.dct (fun i => c * x i) i * e.dct x i +
          c ^ 2 * ∑ i, e.dct x i * e.dct x i := by
      rw [Finset.mul_sum, Finset.mul_sum, ← Finset.sum_sub_distrib, ← Finset.sum_add_distrib]
      exact Finset.sum_congr rfl fun i _ => by ring
    rw [s3, e1, e2, e3, s1, s2]
    ring
  have h2 := (Finset.sum_eq_zero_iff_of_nonneg (fun i _ => sq_nonneg _)).mp h1
  funext i
  have := h2 i (Finset.mem_univ i)
  have := pow_eq_zero_iff (two_ne_zero) |>.mp this
  linarith

theorem idct_smul {e : Env n} (he : IsDct e) (c : ℝ) (x : Fin n → ℝ) : e.idct (fun i => c * x i) = fun i => c * e.idct x i := by
  have := dct_smul he c (e.idct x)
  rw [he.right] at this
  rw [← this, he.left]

theorem idct_add {e : Env n} (he : IsDct e) (x y : Fin n → ℝ) : e.idct (fun i => x i + y i) = fun i => e.idct x i + e.idct y i := by
  have := he.add (e.idct x) (e.idct y)
  rw [he.right, he.right] at this
  rw [← this, he.left]

theorem norm_gain (c : ℝ) (hc : 0 < c) (sel : Fin n → Bool) (x : Fin n → ℝ) : norm sel (fun i => c * x i) = c * norm sel x := by
  unfold norm
  have : (∑ i, if sel i = true then (c * x i) ^ 2 else 0) = c ^ 2 * ∑ i, if sel i = true then x i ^ 2 else 0 := by
    rw [Finset.mul_sum]
    exact Finset.sum_congr rfl fun i _ => by split <;> ring
  rw [this, Real.sqrt_mul (sq_nonneg c), Real.sqrt_sq hc.le]

theorem quot_gain (c : ℝ) (hc : 0 < c) (x y : ℝ) : quot (c * x) (c * y) = quot x y := by
  unfold quot
  simp only [mul_eq_zero, hc.ne', false_or]
  rw [mul_div_mul_left _ _ hc.ne']

theorem median_gain (c : ℝ) (hc : 0 < c) (l : List ℝ) : median (l.map (c * ·)) = c * median l := by
  unfold median
  have : (l.map (c * ·)).insertionSort (· ≤ ·) = (l.insertionSort (· ≤ ·)).map (c * ·) :=
    (List.map_insertionSort (r := (· ≤ ·)) (s := (· ≤ ·)) (c * ·) l (fun a _ b _ => (mul_le_mul_iff_right₀ hc).symm)).symm
  simp only [this, List.length_map]
  have hg : ∀ k, ((l.insertionSort (· ≤ ·)).map (c * ·)).getD k 0 = c * (l.insertionSort (· ≤ ·)).getD k 0 := by
    intro k
    rw [List.getD_eq_getElem?_getD, List.getD_eq_getElem?_getD, List.getElem?_map]
    cases (l.insertionSort (· ≤ ·))[k]? <;> simp
  rw [hg, hg]
  ring

theorem mad_gain (c : ℝ) (hc : 0 < c) (l : List ℝ) : mad (l.map (c * ·)) = c * mad l := by
  unfold mad
  rw [median_gain c hc l, ← median_gain c hc (l.map (fun r => |r - median l|)), List.map_map, List.map_map]
  congr 1
  refine List.map_congr_left fun r _ => ?_
  simp only [Function.comp]
  rw [← mul_sub, abs_mul, abs_of_pos hc]

theorem robustWeights_gain (c : ℝ) (hc : 0 < c) (r : Fin n → ℝ) (h : ℝ) (mask : Option (Fin n → Bool)) :
    robustWeights (fun i => c * r i) h mask = robustWeights r h mask := by
  funext i
  unfold robustWeights
  have hs : selected (fun k => !(mask.getD (fun _ => true)) k) (fun i => c * r i) =
      (selected (fun k => !(mask.getD (fun _ => true)) k) r).map (c * ·) := by
    unfold selected
    rw [List.map_map]
    rfl
  simp only [hs, mad_gain c hc, List.map_eq_nil_iff, mul_eq_zero, hc.ne', false_or]
  generalize mad (selected (fun k => !(mask.getD (fun _ => true)) k) r) = m
  have : c * r i / (1.4826 * (c * m)) = r i / (1.4826 * m) := by
    rw [mul_left_comm, mul_div_mul_left _ _ hc.ne']
  rw [this]

theorem gcvScore_gain {e : Env n} (he : IsDct e) (c : ℝ) (order : ℕ) (d y : Fin n → ℝ) (w : Option (Fin n → ℝ)) (s : ℝ) :
    gcvScore e order (fun i => c * d i) (fun i => c * y i) w s = c ^ 2 * gcvScore e order d y w s := by
  unfold gcvScore
  cases w with
  | none =>
    simp only
    have : ∑ i, (c * d i * (gamma e order s i - 1)) ^ 2 = c ^ 2 * ∑ i, (d i * (gamma e order s i - 1)) ^ 2 := by
      rw [Finset.mul_sum]; exact Finset.sum_congr rfl fun i _ => by ring
    rw [this, mul_div_assoc, mul_div_assoc]
  | some w =>
    simp only
    have hi : e.idct (fun k => gamma e order s k * (c * d k)) = fun i => c * e.idct (fun k => gamma e order s k * d k) i := by
      rw [← idct_smul he]
      congr 1
      funext k
      ring
    have : ∑ i, (Real.sqrt (w i) * (c * y i - e.idct (fun k => gamma e order s k * (c * d k)) i)) ^ 2 =
        c ^ 2 * ∑ i, (Real.sqrt (w i) * (y i - e.idct (fun k => gamma e order s k * d k) i)) ^ 2 := by
      rw [hi, Finset.mul_sum]; exact Finset.sum_congr rfl fun i _ => by ring
    rw [this, mul_div_assoc, mul_div_assoc]

/-- the variables of the loops for data times a gain -/
def State.gain (c : ℝ) (s : State n) : State n :=
  { s with
    z := fun i => c * s.z i
    z0 := fun i => c * s.z0 i
    score := s.score.map (c ^ 2 * ·) }

/-- what does not change in the loops, for data times a gain -/
def Fixed.gain (c : ℝ) (f : Fixed n) : Fixed n := { f with data := fun i => c * f.data i }

theorem innerStep_gain {e : Env n} (he : IsDct e) (hf : ScaleFree e) (c : ℝ) (hc : 0 < c) (a : Args n) (f : Fixed n) (j : ℕ) (s : State n) :
    innerStep e (a.gain c) (f.gain c) j (s.gain c) = (innerStep e a f j s).map (State.gain c) := by
  unfold innerStep
  have hd : e.dct (fun i => (s.gain c).wtot i * ((f.gain c).data i - (s.gain c).z i) + (s.gain c).z i) =
      fun i => c * e.dct (fun i => s.wtot i * (f.data i - s.z i) + s.z i) i := by
    rw [← dct_smul he]
    congr 1
    funext i
    simp only [State.gain, Fixed.gain]
    ring
  have e1 : (a.gain c).order = a.order := rfl
  have e2 : (f.gain c).autosmooth = f.autosmooth := rfl
  have e3 : (s.gain c).smooth = s.smooth := rfl
  have e4 : (s.gain c).wtot = s.wtot := rfl
  simp only
  rw [hd]
  simp only [e1, e2, e3, e4]
  by_cases h1 : ¬ (a.order = 1 ∨ a.order = 2)
  · rw [if_pos h1, if_pos h1]; rfl
  rw [if_neg h1, if_neg h1]
  by_cases h2 : (!f.autosmooth && decide (s.smooth.getD 0 < 0)) = true
  · rw [if_pos h2, if_pos h2]; rfl
  rw [if_neg h2, if_neg h2]
  generalize e.dct (fun i => s.wtot i * (f.data i - s.z i) + s.z i) = d
  generalize (if 1 ≤ total s.wtot / n then none else some s.wtot) = w
  have hp : choosePBest e (a.gain c) (f.gain c) j (fun i => c * d i) w (s.gain c) = choosePBest e a f j d w s := by
    unfold choosePBest
    simp only [e1, e3, Fixed.gain, gcvScore_gain he]
    rw [hf _ _ (pow_pos hc 2)]
    rfl
  rw [hp]
  have hsm : smoothOf (f.gain c) (s.gain c) (choosePBest e a f j d w s) = smoothOf f s (choosePBest e a f j d w s) := rfl
  rw [hsm]
  generalize choosePBest e a f j d w s = p
  generalize smoothOf f s p = sm
  have hz : (fun i => (f.gain c).rf * e.idct (fun k => gamma e a.order sm k * (c * d k)) i + (1 - (f.gain c).rf) * (s.gain c).z i) =
      fun i => c * (f.rf * e.idct (fun k => gamma e a.order sm k * d k) i + (1 - f.rf) * s.z i) := by
    have hi : e.idct (fun k => gamma e a.order sm k * (c * d k)) = fun i => c * e.idct (fun k => gamma e a.order sm k * d k) i := by
      rw [← idct_smul he]
      congr 1
      funext k
      ring
    rw [hi]
    funext i
    simp only [Fixed.gain, State.gain]
    ring
  have hzi := fun i => congrFun hz i
  simp only [hzi]
  simp only [Except.map, State.gain, Fixed.gain, gcvScore_gain he, Option.map_some]
  have hn : ∀ x : Fin n → ℝ, norm f.fin (fun i => c * x i - c * s.z0 i) = c * norm f.fin (fun i => x i - s.z0 i) := by
    intro x
    rw [← norm_gain c hc]
    congr 1
    funext i
    ring
  rw [hn, norm_gain c hc, mul_left_comm, quot_gain c hc]
  rfl

theorem innerLoop_gain {e : Env n} (he : IsDct e) (hf : ScaleFree e) (c : ℝ) (hc : 0 < c) (a : Args n) (f : Fixed n) :
    ∀ (k j : ℕ) (s : State n), innerLoop e (a.gain c) (f.gain c) k j (s.gain c) = (innerLoop e a f k j s).map (State.gain c)
  | 0, _, _ => rfl
  | k + 1, j, s => by
    rw [innerLoop, innerLoop]
    have : ((s.gain c).tol.exceeds (a.gain c).tolZ) = s.tol.exceeds a.tolZ := rfl
    rw [this]
    by_cases h : s.tol.exceeds a.tolZ = true
    · rw [if_pos h, if_pos h, innerStep_gain he hf c hc]
      cases innerStep e a f j s with
      | error x => rfl
      | ok t => exact innerLoop_gain he hf c hc a f k (j + 1) t
    · rw [if_neg h, if_neg h]; rfl

theorem outerLoop_gain {e : Env n} (he : IsDct e) (hf : ScaleFree e) (c : ℝ) (hc : 0 < c) (a : Args n) (f : Fixed n) :
    ∀ (k i : ℕ) (s : State n), outerLoop e (a.gain c) (f.gain c) k i (s.gain c) = (outerLoop e a f k i s).map (State.gain c)
  | 0, _, _ => rfl
  | k + 1, i, s => by
    rw [outerLoop, outerLoop]
    have : (a.gain c).maxIter = a.maxIter := rfl
    rw [this, innerLoop_gain he hf c hc]
    cases innerLoop e a f a.maxIter 0 s with
    | error x => rfl
    | ok t =>
      simp only [Except.bind, Except.map]
      have e1 : setFlag (a.gain c) i (t.gain c) = (setFlag a i t).gain c := rfl
      have e2 : (a.gain c).robust = a.robust := rfl
      rw [e1, e2]
      generalize setFlag a i t = u
      by_cases hr : a.robust = true
      · rw [if_pos hr, if_pos hr]
        have e3 : (u.gain c).smooth = u.smooth := rfl
        rw [e3]
        cases hsm : u.smooth with
        | none => rfl
        | some sm =>
          simp only
          have hw : robustWeights (fun i => (f.gain c).data i - (u.gain c).z i) (leverage a.order sm) (some (fun i => !f.fin i)) =
              robustWeights (fun i => f.data i - u.z i) (leverage a.order sm) (some (fun i => !f.fin i)) := by
            rw [← robustWeights_gain c hc (fun i => f.data i - u.z i)]
            congr 1
            funext i
            simp only [Fixed.gain, State.gain]
            ring
          have := outerLoop_gain he hf c hc a f k (i + 1) { u with
            wtot := fun i => f.weights i * robustWeights (fun i => f.data i - u.z i) (leverage a.order sm) (some (fun i => !f.fin i)) i
            isweighted := true
            tol := .val 1 }
          rw [hsm] at this
          refine Eq.trans (congrArg (outerLoop e (a.gain c) (f.gain c) k (i + 1)) ?_) this
          simp only [State.gain]
          congr 1
          funext i
          exact congrArg (f.weights i * ·) (congrFun hw i)
      · rw [if_neg hr, if_neg hr]

theorem isFinite_gain (c : ℝ) (hc : 0 < c) (a : Args n) (data : Fin n → Option ℝ) :
    isFinite (a.gain c) (gainOf c data) = isFinite a data := by
  funext i
  unfold isFinite
  cases hg : a.gap with
  | none => simp [Args.gain, hg, gainOf]
  | some g =>
    have : (data i).map (c * ·) = some (c * g) ↔ data i = some g := by
      cases data i with
      | none => simp
      | some x => simp [hc.ne']
    simp only [Args.gain, hg, Option.map_some, gainOf, ne_eq, this]

theorem maskData_gain (c : ℝ) (fin : Fin n → Bool) (data : Fin n → Option ℝ) :
    maskData fin (gainOf c data) = gainOf c (maskData fin data) := by
  funext i
  unfold maskData gainOf
  by_cases h : fin i = true
  · simp [h]
  · simp [h]

theorem startValue_gain {e : Env n} (he : IsDct e) (c : ℝ) (a : Args n) (w : Bool) (fin : Fin n → Bool) (y : Fin n → ℝ) :
    startValue e (a.gain c) w fin (fun i => c * y i) = fun i => c * startValue e a w fin y i := by
  unfold startValue
  cases hg : a.initGuess with
  | some g => simp [Args.gain, hg]
  | none =>
    simp only [Args.gain, hg, Option.map_none]
    cases w with
    | false => simp
    | true =>
      simp only [if_true]
      unfold calcInitGuess
      have h1 : (fun i => if (!fin i) = true then c * y (e.near (fun i => !fin i) i) else c * y i) =
          fun i => c * (if (!fin i) = true then y (e.near (fun i => !fin i) i) else y i) := by
        funext i; split <;> rfl
      simp only [h1, dct_smul he]
      rw [← idct_smul he]
      congr 1
      funext i
      split <;> simp

/-- C101, part 1: for data times a positive gain (with the initial guess and the number for gaps in the same units), smoothing gives
the smoothed values times the gain; the smoothing parameter, the exit flag, the final weights and the rounds are the same, the score has
the square of the gain as its factor, and errors are the same. -/
theorem smoothn_gain {e : Env n} (he : IsDct e) (hf : ScaleFree e) (c : ℝ) (hc : 0 < c) (a : Args n) (want : Wanted)
    (data : Fin n → Option ℝ) :
    smoothn e (a.gain c) want (gainOf c data) = (smoothn e a want data).map (Result.gain c) := by
  unfold smoothn
  have e1 : (a.gain c).weights = a.weights := rfl
  have e2 : (a.gain c).smooth = a.smooth := rfl
  rw [e1]
  by_cases h1 : n = 0 ∧ a.weights.isSome = true
  · rw [if_pos h1, if_pos h1]; rfl
  rw [if_neg h1, if_neg h1]
  by_cases h2 : n < 2
  · rw [if_pos h2, if_pos h2]; rfl
  rw [if_neg h2, if_neg h2]
  simp only [isFinite_gain c hc, maskData_gain]
  have e3 : initWeights (a.gain c) (isFinite a data) = initWeights a (isFinite a data) := rfl
  rw [e3]
  cases initWeights a (isFinite a data) with
  | error x => rfl
  | ok w =>
    simp only [Except.bind]
    by_cases h3 : ∃ i, w i < 0
    · rw [if_pos h3, if_pos h3]; rfl
    rw [if_neg h3, if_neg h3]
    have h4 : (∃ i, gainOf c (maskData (isFinite a data) data) i = none) ↔ ∃ i, maskData (isFinite a data) data i = none := by
      simp [gainOf]
    by_cases h5 : ∃ i, maskData (isFinite a data) data i = none
    · rw [if_pos h5, if_pos (h4.mpr h5)]; rfl
    rw [if_neg h5, if_neg (fun h => h5 (h4.mp h))]
    have h6 : (fun i => (gainOf c (maskData (isFinite a data) data) i).getD 0) =
        fun i => c * (maskData (isFinite a data) data i).getD 0 := by
      funext i
      unfold gainOf
      cases maskData (isFinite a data) data i <;> simp
    rw [h6, startValue_gain he, e2]
    generalize startValue e a (decide (∃ i, w i ≠ 1)) (isFinite a data) (fun i => (maskData (isFinite a data) data i).getD 0) = z0
    obtain ⟨y, hy⟩ : ∃ y : Fin n → ℝ, ∀ i, (maskData (isFinite a data) data i).getD 0 = y i := ⟨_, fun _ => rfl⟩
    simp only [hy]
    generalize decide (∃ i, w i ≠ 1) = wd
    have key := outerLoop_gain he hf c hc a ⟨y, isFinite a data, w, a.smooth.isNone, if wd = true then 1 + 0.75 else 1⟩ 3 0
      ⟨z0, z0, .val 1, 0, a.smooth, none, wd, w, 1, 0, []⟩
    have key' : outerLoop e (a.gain c) ⟨fun i => c * y i, isFinite a data, w, a.smooth.isNone, if wd = true then 1 + 0.75 else 1⟩ 3 0
      ⟨fun i => c * z0 i, fun i => c * z0 i, .val 1, 0, a.smooth, none, wd, w, 1, 0, []⟩ = _ := key
    rw [key']
    cases outerLoop e a ⟨y, isFinite a data, w, a.smooth.isNone, if wd = true then 1 + 0.75 else 1⟩ 3 0
      ⟨z0, z0, .val 1, 0, a.smooth, none, wd, w, 1, 0, []⟩ with
    | error x => rfl
    | ok s =>
      simp only [Except.map]
      have e4 : (s.gain c).smooth = s.smooth := rfl
      rw [e4]
      by_cases h7 : (a.smooth.isNone && s.smooth.isNone) = true
      · rw [if_pos h7, if_pos h7]
      rw [if_neg h7, if_neg h7]
      have h8 : applyExclusion (a.gain c) (s.gain c).z = gainOf c (applyExclusion a s.z) := by
        funext i
        unfold applyExclusion gainOf
        have : (a.gain c).excl = a.excl := rfl
        rw [this]
        cases a.excl with
        | none => rfl
        | some m =>
          simp only
          split <;> rfl
      rw [h8]
      simp only [Result.gain, State.gain, Option.map_some]
      cases want.initialGuess <;> cases want.gcvScore <;> rfl

/-! ## Weights -/

/-- the rounds depend on four of the arguments only -/
theorem outerLoop_congr (e : Env n) (a a' : Args n) (f : Fixed n) (h1 : a'.order = a.order) (h2 : a'.robust = a.robust)
    (h3 : a'.maxIter = a.maxIter) (h4 : a'.tolZ = a.tolZ) : outerLoop e a' f = outerLoop e a f := by
  have hs : innerStep e a' f = innerStep e a f := by
    funext j s
    simp only [innerStep, choosePBest, h1]
  have hi : ∀ k j s, innerLoop e a' f k j s = innerLoop e a f k j s := by
    intro k
    induction k with
    | zero => intro j s; rfl
    | succ k ih =>
      intro j s
      rw [innerLoop, innerLoop, hs, h4]
      have : innerLoop e a' f k (j + 1) = innerLoop e a f k (j + 1) := funext fun s => ih (j + 1) s
      rw [this]
  funext k
  induction k with
  | zero => rfl
  | succ k ih =>
    funext i s
    rw [outerLoop, outerLoop, h3, hi]
    have hf : ∀ i s, setFlag a' i s = setFlag a i s := by
      intro i s
      simp only [setFlag, h3, h4]
    simp only [hf, h1, h2, ih]

/-- C101, part 3: weights are relative: all of them times a positive factor give the same result, and the same errors. -/
theorem smoothn_weights (e : Env n) (k : ℝ) (hk : 0 < k) (a : Args n) (w : Fin n → ℝ) (hw : a.weights = some w) (want : Wanted)
    (data : Fin n → Option ℝ) :
    smoothn e { a with weights := some (fun i => k * w i) } want data = smoothn e a want data := by
  have hm : maxOf (fun i => k * w i) = k * maxOf w := by
    by_cases hn : n = 0
    · subst hn
      simp [maxOf]
    · have i0 : Fin n := ⟨0, Nat.pos_of_ne_zero hn⟩
      obtain ⟨-, i, hi⟩ := maxOf_spec w i0
      obtain ⟨-, i', hi'⟩ := maxOf_spec (fun i => k * w i) i0
      apply le_antisymm
      · rw [hi']
        exact mul_le_mul_of_nonneg_left (maxOf_spec w i').1 hk.le
      · rw [hi]
        exact (maxOf_spec (fun i => k * w i) i).1
  have hi : initWeights { a with weights := some (fun i => k * w i) } (isFinite a data) = initWeights a (isFinite a data) := by
    unfold initWeights
    rw [hw]
    simp only [hm, mul_eq_zero, hk.ne', false_or]
    have : ∀ i, k * w i / (k * maxOf w) = w i / maxOf w := fun i => mul_div_mul_left _ _ hk.ne'
    simp only [this]
  unfold smoothn
  have hfin : isFinite { a with weights := some (fun i => k * w i) } data = isFinite a data := rfl
  simp only [hfin, hi, hw, Option.isSome_some]
  have : ∀ (f : Fixed n) s, outerLoop e { a with weights := some (fun i => k * w i) } f 3 0 s = outerLoop e a f 3 0 s := by
    intro f s
    exact congrFun (congrFun (congrFun (outerLoop_congr e a { a with weights := some (fun i => k * w i) } f rfl rfl rfl rfl) 3) 0) s
  simp only [this]
  rfl

/-! ## Offset -/

/-- a constant array passes the filter unchanged -/
theorem filter_offset {e : Env n} (he : IsDct e) (order : ℕ) (ho : order = 1 ∨ order = 2) (s o : ℝ) (d : Fin n → ℝ) :
    e.idct (fun k => gamma e order s k * (d k + e.dct (fun _ => o) k)) = fun i => e.idct (fun k => gamma e order s k * d k) i + o := by
  have h1 : (fun k => gamma e order s k * (d k + e.dct (fun _ => o) k)) = fun k => gamma e order s k * d k + e.dct (fun _ => o) k := by
    funext k
    by_cases hl : e.lam k = 0
    · have : gamma e order s k = 1 := by
        unfold gamma
        rcases ho with h | h <;> simp [h, hl]
      rw [this]; ring
    · rw [he.const o k hl]; ring
  rw [h1, idct_add he, he.left]

/-- the score of an array plus a constant, where elements without data have weight zero -/
theorem gcvScore_offset {e : Env n} (he : IsDct e) (order : ℕ) (ho : order = 1 ∨ order = 2) (o : ℝ) (d y y' : Fin n → ℝ)
    (w : Option (Fin n → ℝ)) (hw : ∀ v, w = some v → ∀ i, v i = 0 ∨ y' i = y i + o) (s : ℝ) :
    gcvScore e order (fun k => d k + e.dct (fun _ => o) k) y' w s = gcvScore e order d y w s := by
  unfold gcvScore
  cases w with
  | none =>
    simp only
    have : ∀ k, (d k + e.dct (fun _ => o) k) * (gamma e order s k - 1) = d k * (gamma e order s k - 1) := by
      intro k
      by_cases hl : e.lam k = 0
      · have : gamma e order s k = 1 := by
          unfold gamma
          rcases ho with h | h <;> simp [h, hl]
        rw [this]; ring
      · rw [he.const o k hl]; ring
    simp only [this]
  | some v =>
    simp only [filter_offset he order ho]
    have : ∀ i, Real.sqrt (v i) * (y' i - (e.idct (fun k => gamma e order s k * d k) i + o)) =
        Real.sqrt (v i) * (y i - e.idct (fun k => gamma e order s k * d k) i) := by
      intro i
      rcases hw v rfl i with h | h
      · rw [h]; simp
      · rw [h]; ring
    simp only [this]

/-- the variables of two runs whose data differ by an offset; the tolerances may differ -/
structure Shifted (o : ℝ) (s s' : State n) : Prop where
  z : s'.z = fun i => s.z i + o
  z0 : s'.z0 = fun i => s.z0 i + o
  pBest : s'.pBest = s.pBest
  smooth : s'.smooth = s.smooth
  score : s'.score = s.score
  isweighted : s'.isweighted = s.isweighted
  wtot : s'.wtot = s.wtot
  exitFlag : s'.exitFlag = s.exitFlag
  count : s'.count = s.count

/-- one round does the same to data plus an offset -/
theorem innerStep_offset {e : Env n} (he : IsDct e) (o : ℝ) (a a' : Args n) (hao : a'.order = a.order) (f f' : Fixed n) (j : ℕ)
    (s s' t t' : State n) (hs : Shifted o s s') (hd : ∀ i, s.wtot i = 0 ∨ f'.data i = f.data i + o)
    (ha : f'.autosmooth = f.autosmooth) (hr : f'.rf = f.rf)
    (h : innerStep e a f j s = .ok t) (h' : innerStep e a' f' j s' = .ok t') : Shifted o t t' := by
  unfold innerStep at h h'
  simp only at h h'
  by_cases h1 : ¬ (a.order = 1 ∨ a.order = 2)
  · rw [if_pos h1] at h; cases h
  rw [if_neg h1] at h
  rw [hao, if_neg h1] at h'
  have ho := not_not.mp h1
  by_cases h2 : (!f.autosmooth && decide (s.smooth.getD 0 < 0)) = true
  · rw [if_pos h2] at h; cases h
  rw [if_neg h2] at h
  rw [ha, hs.smooth, if_neg h2] at h'
  have hdct : e.dct (fun i => s'.wtot i * (f'.data i - s'.z i) + s'.z i) =
      fun k => e.dct (fun i => s.wtot i * (f.data i - s.z i) + s.z i) k + e.dct (fun _ => o) k := by
    rw [← he.add]
    congr 1
    funext i
    rw [hs.wtot, hs.z]
    rcases hd i with h0 | h0
    · simp only [h0]; ring
    · simp only [h0]; ring
  rw [hdct] at h'
  have hw : (if 1 ≤ total s'.wtot / n then none else some s'.wtot) = (if 1 ≤ total s.wtot / n then none else some s.wtot) := by
    rw [hs.wtot]
  rw [hw] at h'
  have hws : ∀ v, (if 1 ≤ total s.wtot / n then none else some s.wtot) = some v → ∀ i, v i = 0 ∨ f'.data i = f.data i + o := by
    intro v hv i
    split at hv
    · cases hv
    · cases hv; exact hd i
  generalize e.dct (fun i => s.wtot i * (f.data i - s.z i) + s.z i) = d at h h'
  generalize (if 1 ≤ total s.wtot / n then none else some s.wtot) = w at h h' hws
  have hsc : ∀ x, gcvScore e a.order (fun k => d k + e.dct (fun _ => o) k) f'.data w x = gcvScore e a.order d f.data w x :=
    gcvScore_offset he a.order ho o d f.data f'.data w hws
  have hp : choosePBest e a' f' j (fun k => d k + e.dct (fun _ => o) k) w s' = choosePBest e a f j d w s := by
    unfold choosePBest
    simp only [hao, ha, hs.smooth, hs.pBest, hsc]
  rw [hp] at h'
  have hsm : smoothOf f' s' (choosePBest e a f j d w s) = smoothOf f s (choosePBest e a f j d w s) := by
    unfold smoothOf
    rw [ha, hs.smooth]
  rw [hsm] at h'
  generalize choosePBest e a f j d w s = p at h h'
  generalize smoothOf f s p = sm at h h'
  simp only [filter_offset he a.order ho, hsc] at h'
  cases h
  cases h'
  have hz : ∀ i, f'.rf * (e.idct (fun k => gamma e a.order sm k * d k) i + o) + (1 - f'.rf) * s'.z i =
      f.rf * e.idct (fun k => gamma e a.order sm k * d k) i + (1 - f.rf) * s.z i + o := by
    intro i
    rw [hr, hs.z]
    ring
  exact ⟨funext hz, funext hz, rfl, rfl, rfl, hs.isweighted, hs.wtot, hs.exitFlag, congrArg (· + 1) hs.count⟩

theorem innerLoop_count_mono (e : Env n) (a : Args n) (f : Fixed n) (k j : ℕ) (s s' : State n) (h : innerLoop e a f k j s = .ok s') :
    s.count ≤ s'.count :=
  innerLoop_inv e a f (fun t => s.count ≤ t.count) (fun j t t' ht hs => by
    have := (innerStep_keeps e a f j t t' hs).1
    omega) k j s s' (le_refl _) h

/-- the same number of rounds does the same to data plus an offset -/
theorem innerLoop_offset {e : Env n} (he : IsDct e) (o : ℝ) (a a' : Args n) (hao : a'.order = a.order) (f f' : Fixed n)
    (ha : f'.autosmooth = f.autosmooth) (hr : f'.rf = f.rf) :
    ∀ (k j : ℕ) (s s' t t' : State n), Shifted o s s' → (∀ i, s.wtot i = 0 ∨ f'.data i = f.data i + o) →
      innerLoop e a f k j s = .ok t → innerLoop e a' f' k j s' = .ok t' → t'.count = t.count → Shifted o t t'
  | 0, _, s, s', t, t', hs, _, h, h', _ => by
    cases h; cases h'; exact hs
  | k + 1, j, s, s', t, t', hs, hd, h, h', hc => by
    rw [innerLoop] at h h'
    by_cases h1 : s.tol.exceeds a.tolZ = true
    · rw [if_pos h1] at h
      cases h3 : innerStep e a f j s with
      | error x => rw [h3] at h; cases h
      | ok u =>
        rw [h3] at h
        have h : innerLoop e a f k (j + 1) u = .ok t := h
        by_cases h2 : s'.tol.exceeds a'.tolZ = true
        · rw [if_pos h2] at h'
          cases h4 : innerStep e a' f' j s' with
          | error x => rw [h4] at h'; cases h'
          | ok u' =>
            rw [h4] at h'
            refine innerLoop_offset he o a a' hao f f' ha hr k (j + 1) u u' t t'
              (innerStep_offset he o a a' hao f f' j s s' u u' hs hd ha hr h3 h4) ?_ h h' hc
            rw [(innerStep_keeps e a f j s u h3).2.2.2.1]
            exact hd
        · rw [if_neg h2] at h'
          cases h'
          have c1 := innerLoop_count_mono e a f k (j + 1) u t h
          have c2 := (innerStep_keeps e a f j s u h3)
          have := hs.count
          omega
    · rw [if_neg h1] at h
      cases h
      by_cases h2 : s'.tol.exceeds a'.tolZ = true
      · rw [if_pos h2] at h'
        cases h4 : innerStep e a' f' j s' with
        | error x => rw [h4] at h'; cases h'
        | ok u' =>
          rw [h4] at h'
          have h' : innerLoop e a' f' k (j + 1) u' = .ok t' := h'
          have c1 := innerLoop_count_mono e a' f' k (j + 1) u' t' h'
          have c2 := (innerStep_keeps e a' f' j s' u' h4)
          have := hs.count
          omega
      · rw [if_neg h2] at h'
        cases h'
        exact hs

theorem isFinite_offset (o : ℝ) (a : Args n) (hg : a.gap = none) (data : Fin n → Option ℝ) :
    isFinite (a.offset o) (offsetOf o data) = isFinite a data := by
  funext i
  simp [isFinite, Args.offset, hg, offsetOf]

theorem startValue_offset {e : Env n} (he : IsDct e) (hq : GuessOk e) (o : ℝ) (a : Args n) (w : Bool) (fin : Fin n → Bool)
    (y y' : Fin n → ℝ) (hw : w = true ∨ a.initGuess.isSome = true) (hfin : ∃ i, fin i = true)
    (hy : ∀ i, fin i = true → y' i = y i + o) :
    startValue e (a.offset o) w fin y' = fun i => startValue e a w fin y i + o := by
  unfold startValue
  cases hg : a.initGuess with
  | some g => simp [Args.offset, hg]
  | none =>
    rw [hg] at hw
    obtain rfl : w = true := by simpa using hw
    simp only [Args.offset, hg, Option.map_none, if_true]
    unfold calcInitGuess
    have h1 : (fun i => if (!fin i) = true then y' (e.near (fun i => !fin i) i) else y' i) =
        fun i => (if (!fin i) = true then y (e.near (fun i => !fin i) i) else y i) + o := by
      funext i
      by_cases hi : fin i = true
      · simp [hi, hy i hi]
      · have := hq.near (fun i => !fin i) i (by simpa using hfin) (by simpa using hi)
        simp only [hi, Bool.not_false, if_true]
        exact hy _ (by simpa using this)
    simp only [h1]
    rw [he.add _ (fun _ => o)]
    generalize e.dct (fun i => if (!fin i) = true then y (e.near (fun i => !fin i) i) else y i) = d
    have h2 : (fun i => if e.low i = true then d i + e.dct (fun _ => o) i else 0) =
        fun i => (if e.low i = true then d i else 0) + e.dct (fun _ => o) i := by
      funext i
      by_cases hl : e.low i = true
      · simp [hl]
      · rw [if_neg hl, if_neg hl, he.const o i (fun h => hl (hq.low i h)), add_zero]
    rw [h2, idct_add he, he.left]

/-- a call without gaps, weights, guess and robust weights is one round -/
theorem smoothn_one_round (e : Env n) (a : Args n) (want : Wanted) (data : Fin n → Option ℝ) (y : Fin n → ℝ) (hn : 2 ≤ n)
    (hc : Complete a data y) (hw : a.weights = none) (hi : a.initGuess = none) (hr : a.robust = false)
    (hm : 1 ≤ a.maxIter) (ht : 0 ≤ a.tolZ ∧ a.tolZ < 1) :
    smoothn e a want data = (innerStep e a ⟨y, fun _ => true, fun _ => 1, a.smooth.isNone, 1⟩ 0
      ⟨fun _ => 0, fun _ => 0, .val 1, 0, a.smooth, none, false, fun _ => 1, 1, 0, []⟩).map (fun s =>
        ⟨some (fun i => some (s.z i)), s.smooth, 1,
          { initialGuess := if want.initialGuess then some (fun _ => 0) else none
            finalWeights := if want.finalWeights then some s.wtot else none
            gcvScore := if want.gcvScore then s.score else none }, fun i => some (y i), 1, [true]⟩) := by
  have hfin : isFinite a data = fun _ => true := by
    funext i; rw [isFinite_iff]; exact (hc i).2
  have hmask : maskData (isFinite a data) data = fun i => some (y i) := by
    funext i; rw [hfin]; unfold maskData; rw [if_pos rfl]; exact (hc i).1
  have hiw : initWeights a (isFinite a data) = .ok (fun _ => 1) := by
    rw [hfin]; unfold initWeights; rw [hw]; simp
  have hex : ∀ m, a.excl = some m → ∀ i, m i = false := by
    intro m hm i
    by_contra hcon
    exact (hc i).2 (Or.inr ⟨m, hm, by simpa using hcon⟩)
  have hst : startValue e a false (isFinite a data) y = fun _ => 0 := by
    unfold startValue; rw [hi]; simp
  obtain ⟨k, hk⟩ : ∃ k, a.maxIter = k + 1 := ⟨a.maxIter - 1, by omega⟩
  unfold smoothn
  rw [if_neg (by omega), if_neg (by omega)]
  simp only
  rw [hiw]
  simp only [Except.bind]
  rw [if_neg (by simp), hmask, if_neg (by simp)]
  simp only [ne_eq, not_true_eq_false, exists_false, decide_false, Option.getD_some, Bool.false_eq_true, if_false]
  rw [hst, hfin, outerLoop, hk, innerLoop, if_pos (by simp [Tol.exceeds, ht.2])]
  cases h1 : innerStep e a ⟨y, fun _ => true, fun _ => 1, a.smooth.isNone, 1⟩ 0
      ⟨fun _ => 0, fun _ => 0, .val 1, 0, a.smooth, none, false, fun _ => 1, 1, 0, []⟩ with
  | error x => rfl
  | ok s =>
    have hq : s.tol.exceeds a.tolZ = false := by
      unfold innerStep at h1
      simp only at h1
      split at h1
      · cases h1
      · split at h1
        · cases h1
        · cases h1
          exact exceeds_zero _ _ ht.1 _
    have hl : innerLoop e a ⟨y, fun _ => true, fun _ => 1, a.smooth.isNone, 1⟩ k (0 + 1) s = .ok s := by
      cases k with
      | zero => rfl
      | succ k => rw [innerLoop, if_neg (by rw [hq]; simp)]
    obtain ⟨k1, k2, k3, -, -, k6⟩ := innerStep_keeps _ _ _ _ _ _ h1
    simp only [Except.bind, hl, hr, Bool.false_eq_true, if_false, Except.map]
    have hsn : (setFlag a 0 s).smooth.isNone = false := by
      show s.smooth.isNone = false
      cases hs : s.smooth with
      | none => rw [hs] at k6; cases k6
      | some v => rfl
    rw [hsn, Bool.and_false]
    have hae : applyExclusion a (setFlag a 0 s).z = fun i => some (s.z i) := by
      funext i; unfold applyExclusion
      split
      · rfl
      · next m hm => simp [hex m hm i, setFlag]
    rw [hae]
    simp only at k1 k2 k3
    simp [setFlag, hq, hk, k1, k2, k3]

/-- C101, part 2: for data without gaps plus an offset, smoothing without weights and robust weights gives the smoothed values plus the
offset; the smoothing parameter and the score are the same, and errors are the same. -/
theorem smoothn_offset_complete {e : Env n} (he : IsDct e) (o : ℝ) (a : Args n) (want : Wanted) (data data' : Fin n → Option ℝ)
    (y : Fin n → ℝ) (hn : 2 ≤ n) (hc : Complete a data y) (hc' : Complete a data' (fun i => y i + o)) (hw : a.weights = none)
    (hi : a.initGuess = none) (hr : a.robust = false) (hm : 1 ≤ a.maxIter) (ht : 0 ≤ a.tolZ ∧ a.tolZ < 1) :
    smoothn e a want data' = (smoothn e a want data).map (fun r =>
      { r with z := r.z.map (offsetOf o), data := offsetOf o r.data }) := by
  rw [smoothn_one_round e a want data y hn hc hw hi hr hm ht, smoothn_one_round e a want data' _ hn hc' hw hi hr hm ht]
  unfold innerStep
  simp only
  by_cases h1 : ¬ (a.order = 1 ∨ a.order = 2)
  · rw [if_pos h1, if_pos h1]; rfl
  rw [if_neg h1, if_neg h1]
  have ho := not_not.mp h1
  by_cases h2 : (!a.smooth.isNone && decide (a.smooth.getD 0 < 0)) = true
  · rw [if_pos h2, if_pos h2]; rfl
  rw [if_neg h2, if_neg h2]
  have hdct : e.dct (fun i => 1 * (y i + o - 0) + 0) = fun k => e.dct (fun i => 1 * (y i - 0) + 0) k + e.dct (fun _ => o) k := by
    rw [← he.add]
    congr 1
    funext i
    ring
  rw [hdct]
  have hws : ∀ v, (if 1 ≤ total (fun _ : Fin n => (1 : ℝ)) / n then none else some (fun _ : Fin n => (1 : ℝ))) = some v →
      ∀ i, v i = 0 ∨ y i + o = y i + o := fun _ _ _ => Or.inr rfl
  generalize e.dct (fun i => 1 * (y i - 0) + 0) = d
  generalize (if 1 ≤ total (fun _ : Fin n => (1 : ℝ)) / n then none else some (fun _ : Fin n => (1 : ℝ))) = w at hws
  have hsc : ∀ x, gcvScore e a.order (fun k => d k + e.dct (fun _ => o) k) (fun i => y i + o) w x = gcvScore e a.order d y w x :=
    gcvScore_offset he a.order ho o d y (fun i => y i + o) w hws
  simp only [choosePBest, smoothOf, hsc, filter_offset he a.order ho]
  simp only [Except.map, Option.map_some]
  congr 3
  funext i
  simp only [offsetOf, Option.map_some, Option.some.injEq]
  ring

/-- C101, part 4: for data with gaps plus an offset (with the initial guess in the same units), smoothing without robust weights gives
the smoothed values plus the offset, if both calls took the same number of rounds; the smoothing parameter, the score and the
weights are the same. Missing, because not true: the number of rounds does not depend on the offset, see `smoothn_offset_rounds`. -/
theorem smoothn_offset_partial {e : Env n} (he : IsDct e) (hq : GuessOk e) (o : ℝ) (a : Args n) (want : Wanted)
    (data : Fin n → Option ℝ) (r r' : Result n) (hn : 2 ≤ n) (hr : a.robust = false) (hg : a.gap = none)
    (hu : ∃ i, ¬ Unused a data i)
    (hi : a.initGuess.isSome = true ∨ (∃ i, Unused a data i) ∨ ∃ w i j, a.weights = some w ∧ w i ≠ w j)
    (h : smoothn e a want data = .ok r) (h' : smoothn e (a.offset o) want (offsetOf o data) = .ok r') (hc : r'.count = r.count) :
    r'.z = r.z.map (offsetOf o) ∧ r'.smooth = r.smooth ∧ r'.exitFlag = r.exitFlag ∧
      r'.stats.gcvScore = r.stats.gcvScore ∧ r'.stats.finalWeights = r.stats.finalWeights ∧
      r'.stats.initialGuess = r.stats.initialGuess.map (fun g i => g i + o) := by
  obtain ⟨w, y, s, h1, -, h3, h4, -, h6⟩ := smoothn_ok e a want data r hn h
  obtain ⟨w', y', s', h1', -, h3', h4', -, h6'⟩ := smoothn_ok e (a.offset o) want (offsetOf o data) r' hn h'
  rw [isFinite_offset o a hg] at h1' h3' h4' h6'
  have hw : initWeights (a.offset o) (isFinite a data) = initWeights a (isFinite a data) := rfl
  rw [hw, h1] at h1'
  cases h1'
  have hy : ∀ i, isFinite a data i = true → y' i = y i + o := by
    intro i hf
    have e1 := h3 i
    have e2 := h3' i
    unfold maskData at e1 e2
    rw [if_pos hf] at e1 e2
    unfold offsetOf at e2
    rw [e1] at e2
    simpa using e2.symm
  have hzero : ∀ i, isFinite a data i = false → w i = 0 := by
    intro i hf
    unfold initWeights at h1
    cases hwt : a.weights with
    | none =>
      rw [hwt] at h1
      simp only [Except.ok.injEq] at h1
      rw [← h1]; simp [hf]
    | some v =>
      rw [hwt] at h1
      simp only at h1
      split at h1
      · cases h1
      · simp only [Except.ok.injEq] at h1
        rw [← h1]; simp [hf]
  have hd : ∀ i, w i = 0 ∨ y' i = y i + o := by
    intro i
    cases hf : isFinite a data i with
    | true => exact Or.inr (hy i hf)
    | false => exact Or.inl (hzero i hf)
  have hwd : decide (∃ i, w i ≠ 1) = true ∨ a.initGuess.isSome = true := by
    rcases hi with hi | ⟨i, hi⟩ | ⟨v, i, j, hv, hij⟩
    · exact Or.inr hi
    · refine Or.inl (decide_eq_true ⟨i, ?_⟩)
      rw [hzero i]
      · exact zero_ne_one
      · by_contra hcon
        exact (isFinite_iff a data i).mp (by simpa using hcon) hi
    · refine Or.inl (decide_eq_true ?_)
      by_contra hcon
      push Not at hcon
      have hz : ∀ k, v k = maxOf v := by
        intro k
        have hk := hcon k
        unfold initWeights at h1
        rw [hv] at h1
        simp only at h1
        by_cases hm : maxOf v = 0
        · rw [if_pos hm] at h1; cases h1
        · rw [if_neg hm] at h1
          simp only [Except.ok.injEq] at h1
          rw [← h1] at hk
          simp only at hk
          by_cases hf : isFinite a data k = true
          · rw [if_pos hf, div_eq_one_iff_eq hm] at hk
            exact hk
          · rw [if_neg hf] at hk
            exact absurd hk zero_ne_one
      exact hij ((hz i).trans (hz j).symm)
  have hfin : ∃ i, isFinite a data i = true := by
    obtain ⟨i, hi⟩ := hu
    exact ⟨i, (isFinite_iff a data i).mpr hi⟩
  have hst := startValue_offset he hq o a (decide (∃ i, w i ≠ 1)) (isFinite a data) y y' hwd hfin hy
  rw [hst] at h4' h6'
  generalize startValue e a (decide (∃ i, w i ≠ 1)) (isFinite a data) y = z0 at h4 h4' h6 h6'
  rw [outerLoop] at h4 h4'
  have hmi : (a.offset o).maxIter = a.maxIter := rfl
  have hsm : (a.offset o).smooth = a.smooth := rfl
  have hrb : (a.offset o).robust = false := hr
  rw [hmi, hsm] at h4'
  cases h5 : innerLoop e a ⟨y, isFinite a data, w, a.smooth.isNone, if decide (∃ i, w i ≠ 1) = true then 1 + 0.75 else 1⟩ a.maxIter 0
      ⟨z0, z0, .val 1, 0, a.smooth, none, decide (∃ i, w i ≠ 1), w, 1, 0, []⟩ with
  | error x => rw [h5] at h4; cases h4
  | ok t =>
    cases h5' : innerLoop e (a.offset o)
        ⟨y', isFinite a data, w, a.smooth.isNone, if decide (∃ i, w i ≠ 1) = true then 1 + 0.75 else 1⟩ a.maxIter 0
        ⟨fun i => z0 i + o, fun i => z0 i + o, .val 1, 0, a.smooth, none, decide (∃ i, w i ≠ 1), w, 1, 0, []⟩ with
    | error x => rw [h5'] at h4'; cases h4'
    | ok t' =>
      rw [h5] at h4
      rw [h5'] at h4'
      simp only [Except.bind, hr, hrb, Bool.false_eq_true, if_false, Except.ok.injEq] at h4 h4'
      have hct : t'.count = t.count := by
        rw [h6, h6'] at hc
        rw [← h4, ← h4'] at hc
        exact hc
      have hS := innerLoop_offset he o a (a.offset o) rfl
        ⟨y, isFinite a data, w, a.smooth.isNone, if decide (∃ i, w i ≠ 1) = true then 1 + 0.75 else 1⟩
        ⟨y', isFinite a data, w, a.smooth.isNone, if decide (∃ i, w i ≠ 1) = true then 1 + 0.75 else 1⟩ rfl rfl a.maxIter 0
        ⟨z0, z0, .val 1, 0, a.smooth, none, decide (∃ i, w i ≠ 1), w, 1, 0, []⟩
        ⟨fun i => z0 i + o, fun i => z0 i + o, .val 1, 0, a.smooth, none, decide (∃ i, w i ≠ 1), w, 1, 0, []⟩ t t'
        ⟨rfl, rfl, rfl, rfl, rfl, rfl, rfl, rfl, rfl⟩ hd h5 h5' hct
      subst h4 h4' h6 h6'
      have hex : ∀ k, applyExclusion (a.offset o) (setFlag (a.offset o) 0 t').z k = offsetOf o (applyExclusion a (setFlag a 0 t).z) k := by
        intro k
        unfold applyExclusion offsetOf
        have e2 : (a.offset o).excl = a.excl := rfl
        have e3 : (a.offset o).gap = none := hg
        have e4 : (setFlag (a.offset o) 0 t').z k = (setFlag a 0 t).z k + o := congrFun hS.z k
        rw [e2, e3, e4, hg]
        cases a.excl with
        | none => rfl
        | some m => simp only; split <;> rfl
      refine ⟨?_, hS.smooth, ?_, ?_, ?_, ?_⟩
      · simp only [Option.map_some, Option.some.injEq]
        exact funext hex
      · show (if (a.offset o).maxIter ≤ 0 ∧ t'.tol.exceeds (a.offset o).tolZ = true then 3 else t'.exitFlag) =
          if a.maxIter ≤ 0 ∧ t.tol.exceeds a.tolZ = true then 3 else t.exitFlag
        rw [hmi, hS.exitFlag]
        by_cases hm0 : a.maxIter = 0
        · rw [hm0] at h5 h5'
          cases h5
          cases h5'
          rfl
        · rw [if_neg (fun hc => hm0 (by omega)), if_neg (fun hc => hm0 (by omega))]
      · simp only [setFlag, hS.score]
      · simp only [setFlag, hS.wtot]
      · simp only
        cases want.initialGuess <;> rfl

/-! ## Concrete cases -/

theorem haar_guess : GuessOk haar where
  near mask i hex hm := by
    obtain ⟨k, hk⟩ := hex
    have hki : k ≠ i := fun h => by rw [h, hm] at hk; cases hk
    have : haar.near mask i = k := by
      show 1 - i = k
      fin_cases i <;> fin_cases k <;> simp_all
    rw [this, hk]
  low i hi := by
    fin_cases i
    · rfl
    · simp [haar] at hi

/-- one number and a gap, in units with the offset `o`; at most two rounds -/
noncomputable def exOff (o : ℝ) : Args 2 :=
  { smooth := some 1, order := 1, robust := false, maxIter := 2, tolZ := 1 / 100, initGuess := some (fun _ => o) }

/-- one round for the number `d` -/
theorem exOff_step (o d : ℝ) (j : ℕ) (s : State 2) (hw : s.wtot = ![1, 0]) (hs : s.smooth = some 1) (hi : s.isweighted = true) :
    ∃ t, innerStep haar (exOff o) ⟨![d, 0], ![true, false], ![1, 0], false, 1 + 0.75⟩ j s = .ok t ∧
      t.z 0 = 7 / 4 * (2 / 3 * d + 1 / 3 * s.z 1) - 3 / 4 * s.z 0 ∧ t.z 1 = 7 / 4 * (1 / 3 * d + 2 / 3 * s.z 1) - 3 / 4 * s.z 1 ∧
      t.tol = quot |t.z 0 - s.z0 0| |t.z 0| ∧ t.smooth = some 1 ∧ t.isweighted = true ∧ t.wtot = ![1, 0] ∧ t.count = s.count + 1 ∧
      t.z0 = t.z := by
  have h2 : Real.sqrt 2 * Real.sqrt 2 = 2 := Real.mul_self_sqrt (by norm_num)
  unfold innerStep
  simp only
  rw [if_neg (by simp [exOff]), if_neg (by simp [hs])]
  have hsm : ∀ dd v, smoothOf ⟨![d, 0], ![true, false], ![1, 0], false, 1 + 0.75⟩ s
      (choosePBest haar (exOff o) ⟨![d, 0], ![true, false], ![1, 0], false, 1 + 0.75⟩ j dd v s) = 1 := by
    intro dd v
    simp [smoothOf, choosePBest, hs]
  rw [hsm]
  refine ⟨_, rfl, ?_, ?_, ?_, rfl, hi, hw, rfl, rfl⟩
  · simp [haar, gamma, exOff, hw]
    generalize Real.sqrt 2 = q at h2
    have hq : q ≠ 0 := fun h => by rw [h] at h2; norm_num at h2
    field_simp
    have : q ^ 2 = 2 := by rw [sq]; exact h2
    simp only [this]
    ring
  · simp [haar, gamma, exOff, hw]
    generalize Real.sqrt 2 = q at h2
    have hq : q ≠ 0 := fun h => by rw [h] at h2; norm_num at h2
    field_simp
    have : q ^ 2 = 2 := by rw [sq]; exact h2
    simp only [this]
    ring
  · simp only [hi, if_true, one_mul, norm, Fin.sum_univ_two, Matrix.cons_val_zero, Matrix.cons_val_one, Bool.false_eq_true, if_false, add_zero,
      Real.sqrt_sq_eq_abs]

theorem exOff_run (o : ℝ) (t : State 2)
    (h : innerLoop haar (exOff o) ⟨![1 + o, 0], ![true, false], ![1, 0], false, 1 + 0.75⟩ 2 0
      ⟨fun _ => o, fun _ => o, .val 1, 0, some 1, none, true, ![1, 0], 1, 0, []⟩ = .ok t) :
    ∃ r, smoothn haar (exOff o) {} ![some (1 + o), none] = .ok r ∧ r.count = t.count ∧ r.z = some (fun i => some (t.z i)) := by
  have hfin : isFinite (exOff o) ![some (1 + o), none] = ![true, false] := by
    funext i; fin_cases i <;> simp [isFinite, exOff]
  have hmask : maskData (isFinite (exOff o) ![some (1 + o), none]) ![some (1 + o), none] = fun i => some (![(1 : ℝ) + o, 0] i) := by
    rw [hfin]; funext i; fin_cases i <;> simp [maskData]
  have hiw : initWeights (exOff o) (isFinite (exOff o) ![some (1 + o), none]) = .ok ![1, 0] := by
    rw [hfin]
    unfold initWeights
    simp only [exOff]
    refine congrArg _ ?_
    funext i; fin_cases i <;> simp
  have hwt : ∃ i, (![1, 0] : Fin 2 → ℝ) i ≠ 1 := ⟨1, by simp⟩
  have houter : outerLoop haar (exOff o) ⟨![1 + o, 0], ![true, false], ![1, 0], false, 1 + 0.75⟩ 3 0
      ⟨fun _ => o, fun _ => o, .val 1, 0, some 1, none, true, ![1, 0], 1, 0, []⟩ = .ok (setFlag (exOff o) 0 t) := by
    rw [outerLoop]
    have : (exOff o).maxIter = 2 := rfl
    rw [this, h]
    simp [Except.bind, exOff]
  refine ⟨⟨some (applyExclusion (exOff o) t.z), t.smooth, (setFlag (exOff o) 0 t).exitFlag, {}, fun i => some (![(1 : ℝ) + o, 0] i), t.count,
    (setFlag (exOff o) 0 t).reached⟩, ?_, rfl, rfl⟩
  unfold smoothn
  rw [if_neg (by omega), if_neg (by omega)]
  simp only
  rw [hiw]
  simp only [Except.bind]
  rw [if_neg (by push Not; intro i; fin_cases i <;> simp), hmask, if_neg (by simp)]
  rw [decide_eq_true hwt]
  have hst : startValue haar (exOff o) true (isFinite (exOff o) ![some (1 + o), none])
      (fun i => (some ((![(1 : ℝ) + o, 0] : Fin 2 → ℝ) i)).getD 0) = fun _ => o := by
    simp [startValue, exOff]
  rw [hst, hfin]
  simp only [Option.getD_some, if_true]
  have e1 : (exOff o).smooth = some 1 := rfl
  rw [e1]
  simp only [Option.isNone_some]
  rw [houter]
  rfl

/-- two rounds where the first change is large relative to the value -/
theorem exOff_two (o : ℝ) (ho : 7 / 6 + o ≠ 0) (hx : 1 / 100 < 7 / 6 / |7 / 6 + o|) :
    ∃ t, innerLoop haar (exOff o) ⟨![1 + o, 0], ![true, false], ![1, 0], false, 1 + 0.75⟩ 2 0
      ⟨fun _ => o, fun _ => o, .val 1, 0, some 1, none, true, ![1, 0], 1, 0, []⟩ = .ok t ∧ t.count = 2 ∧ t.z 1 = 119 / 144 + o := by
  obtain ⟨t1, h1, hz0, hz1, ht1, hs1, hi1, hw1, hc1, -⟩ := exOff_step o (1 + o) 0
    ⟨fun _ => o, fun _ => o, .val 1, 0, some 1, none, true, ![1, 0], 1, 0, []⟩ rfl rfl rfl
  obtain ⟨t2, h2, -, hy1, -, -, -, -, hc2, -⟩ := exOff_step o (1 + o) 1 t1 hw1 hs1 hi1
  simp only at hz0 hz1 ht1 hc1
  have hx1 : t1.tol.exceeds (exOff o).tolZ = true := by
    have e1 : t1.z 0 = 7 / 6 + o := by rw [hz0]; ring
    have e2 : 7 / 6 + o - o = 7 / 6 := by ring
    rw [ht1, e1, e2, abs_of_pos (by norm_num : (0 : ℝ) < 7 / 6)]
    unfold quot
    rw [if_neg (abs_ne_zero.mpr ho)]
    exact decide_eq_true hx
  refine ⟨t2, ?_, by rw [hc2, hc1], ?_⟩
  · rw [innerLoop, if_pos (by simp [Tol.exceeds, exOff]; norm_num), h1]
    show innerLoop _ _ _ 1 1 t1 = _
    rw [innerLoop, if_pos hx1, h2]
    rfl
  · rw [hy1, hz1]
    ring

/-- C101, part 5 (negation): rounds end as soon as the change is small *relative to the values themselves*, so the result for data with gaps
depends on the zero of their scale: one number and a gap in degrees Celsius and in Kelvin, with tolerance 1/100, take two rounds and one
round, and the filled values differ by something else than the offset. -/
theorem smoothn_offset_rounds :
    ∃ (e : Env 2) (a : Args 2) (data : Fin 2 → Option ℝ) (r r' : Result 2), IsDct e ∧ GuessOk e ∧ a.robust = false ∧ a.gap = none ∧
      (∃ i, ¬ Unused a data i) ∧ smoothn e a {} data = .ok r ∧ smoothn e (a.offset 273) {} (offsetOf 273 data) = .ok r' ∧
      r.count = 2 ∧ r'.count = 1 ∧ r'.z ≠ r.z.map (offsetOf 273) := by
  have hA : (exOff 0).offset 273 = exOff 273 := by
    simp [exOff, Args.offset]
  have hD : offsetOf 273 ![some (1 + 0 : ℝ), none] = ![some (1 + 273), none] := by
    funext i; fin_cases i <;> simp [offsetOf]
  obtain ⟨t2, hl, ht2, hy1⟩ := exOff_two 0 (by norm_num) (by norm_num [abs_of_pos])
  obtain ⟨u1, g1, hu0, hu1, hut, -, -, -, hd1, -⟩ := exOff_step 273 (1 + 273) 0
    ⟨fun _ => 273, fun _ => 273, .val 1, 0, some 1, none, true, ![1, 0], 1, 0, []⟩ rfl rfl rfl
  simp only at hu0 hu1 hut hd1
  norm_num at hu0 hu1
  rw [hu0] at hut
  have hx2 : u1.tol.exceeds (1 / 100) = false := by
    rw [hut]; norm_num [quot, Tol.exceeds, abs_of_pos]
  have hl' : innerLoop haar (exOff 273) ⟨![1 + 273, 0], ![true, false], ![1, 0], false, 1 + 0.75⟩ 2 0
      ⟨fun _ => 273, fun _ => 273, .val 1, 0, some 1, none, true, ![1, 0], 1, 0, []⟩ = .ok u1 := by
    rw [innerLoop, if_pos (by simp [Tol.exceeds, exOff]; norm_num), g1]
    show innerLoop _ _ _ 1 1 u1 = _
    rw [innerLoop, if_neg (by rw [show (exOff 273).tolZ = 1 / 100 from rfl, hx2]; simp)]
  obtain ⟨r, hr, hrc, hrz⟩ := exOff_run 0 t2 hl
  obtain ⟨r', hr', hrc', hrz'⟩ := exOff_run 273 u1 hl'
  refine ⟨haar, exOff 0, ![some (1 + 0), none], r, r', haar_isDct, haar_guess, rfl, rfl, ⟨0, ?_⟩, hr, ?_, ?_, ?_, ?_⟩
  · rintro (h | ⟨m, h, -⟩) <;> cases h
  · rw [hA, hD]; exact hr'
  · rw [hrc, ht2]
  · rw [hrc', hd1]
  · rw [hrz, hrz']
    intro hcon
    have := congrFun (Option.some.inj hcon) 1
    simp only [offsetOf, Option.map_some, Option.some.injEq] at this
    rw [hu1, hy1] at this
    norm_num at this

/-- the assumptions of part 1 for two elements -/
example (data : Fin 2 → Option ℝ) : smoothn haar (Args.gain 100 {}) {} (gainOf 100 data) = (smoothn haar {} {} data).map (Result.gain 100) :=
  smoothn_gain haar_isDct (fun _ _ _ => rfl) 100 (by norm_num) {} {} data

/-- the assumptions of part 2 for two numbers -/
example : smoothn haar { robust := false } {} (fun i => some (![1, 5] i + 273)) =
    (smoothn haar { robust := false } {} (fun i => some (![1, 5] i))).map (fun r =>
      { r with z := r.z.map (offsetOf 273), data := offsetOf 273 r.data }) :=
  smoothn_offset_complete haar_isDct 273 { robust := false } {} _ _ ![1, 5] (le_refl _)
    (fun i => ⟨rfl, by rintro (h | ⟨m, h, -⟩) <;> cases h⟩) (fun i => ⟨rfl, by rintro (h | ⟨m, h, -⟩) <;> cases h⟩)
    rfl rfl rfl (by norm_num) ⟨by norm_num, by norm_num⟩

/-- part 3 for two numbers -/
example (data : Fin 2 → Option ℝ) : smoothn haar { weights := some (fun i => 3 * ![1, 2] i) } {} data =
    smoothn haar { weights := some ![1, 2] } {} data :=
  smoothn_weights haar 3 (by norm_num) { weights := some ![1, 2] } ![1, 2] rfl {} data

/-- the assumptions of part 4 for one number and a gap -/
example : ∃ r r', smoothn haar (exOff 0) {} ![some (1 + 0), none] = .ok r ∧
    smoothn haar ((exOff 0).offset 1) {} (offsetOf 1 ![some (1 + 0), none]) = .ok r' ∧ r'.count = r.count ∧ (∃ i, Unused (exOff 0) ![some (1 + 0), none] i) := by
  have hA : (exOff 0).offset 1 = exOff 1 := by
    simp [exOff, Args.offset]
  have hD : offsetOf 1 ![some (1 + 0 : ℝ), none] = ![some (1 + 1), none] := by
    funext i; fin_cases i <;> simp [offsetOf]
  obtain ⟨t, hl, ht, -⟩ := exOff_two 0 (by norm_num) (by norm_num [abs_of_pos])
  obtain ⟨t', hl', ht', -⟩ := exOff_two 1 (by norm_num) (by norm_num [abs_of_pos])
  obtain ⟨r, hr, hrc, -⟩ := exOff_run 0 t hl
  obtain ⟨r', hr', hrc', -⟩ := exOff_run 1 t' hl'
  exact ⟨r, r', hr, by rw [hA, hD]; exact hr', by rw [hrc, hrc', ht, ht'], 1, Or.inl rfl⟩

example (r r' : Result 2) (h : smoothn haar (exOff 0) {} ![some (1 + 0), none] = .ok r)
    (h' : smoothn haar ((exOff 0).offset 1) {} (offsetOf 1 ![some (1 + 0), none]) = .ok r') (hc : r'.count = r.count) :=
  smoothn_offset_partial haar_isDct haar_guess 1 (exOff 0) {} ![some (1 + 0), none] r r' (le_refl _) rfl rfl ⟨0, by simp [Unused, exOff]⟩
    (.inr (.inl ⟨1, Or.inl rfl⟩)) h h' hc

end Verif.Smoothn
