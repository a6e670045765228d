import Verif.Smoothn.Props
import Mathlib.Algebra.BigOperators.Field
import Mathlib.Algebra.Order.BigOperators.Group.Finset
import Mathlib.Tactic.LinearCombination

/-! # C64: `smoothn` solves penalised least squares -/

namespace Verif.Smoothn

set_option linter.unusedSectionVars false

open Classical

variable {n : ℕ}

theorem dct_sub {e : Env n} (he : IsDct e) (x z : Fin n → ℝ) (i : Fin n) :
    e.dct (fun i => x i - z i) i = e.dct x i - e.dct z i := by
  have h := he.add (fun i => x i - z i) z
  simp only [sub_add_cancel] at h
  have := congrFun h i
  change e.dct x i = _ at this
  linarith

/-- difference of the objective from that of a solution of the normal equations -/
theorem objective_diff {e : Env n} (he : IsDct e) (order : ℕ) (w y : Fin n → ℝ) (s : ℝ) (z : Fin n → ℝ)
    (hz : ∀ i, s * (e.lam i ^ order * e.dct z i) = e.dct (fun i => w i * (y i - z i)) i) (x : Fin n → ℝ) :
    objective e order w y s x = objective e order w y s z + ∑ i, w i * (x i - z i) ^ 2 +
      s * ∑ i, e.lam i ^ order * (e.dct x i - e.dct z i) ^ 2 := by
  have h1 : s * ∑ i, e.lam i ^ order * e.dct z i * (e.dct x i - e.dct z i) = ∑ i, w i * (y i - z i) * (x i - z i) := by
    rw [← he.inner (fun i => w i * (y i - z i)) (fun i => x i - z i), Finset.mul_sum]
    refine Finset.sum_congr rfl fun i _ => ?_
    rw [dct_sub he, ← hz i]; ring
  have h2 : ∑ i, w i * (y i - x i) ^ 2 = ∑ i, w i * (y i - z i) ^ 2 + ∑ i, w i * (x i - z i) ^ 2
      - 2 * ∑ i, w i * (y i - z i) * (x i - z i) := by
    rw [Finset.mul_sum, ← Finset.sum_add_distrib, ← Finset.sum_sub_distrib]
    refine Finset.sum_congr rfl fun i _ => ?_
    ring
  have h3 : ∑ i, e.lam i ^ order * e.dct x i ^ 2 = ∑ i, e.lam i ^ order * e.dct z i ^ 2
      + ∑ i, e.lam i ^ order * (e.dct x i - e.dct z i) ^ 2
      + 2 * ∑ i, e.lam i ^ order * e.dct z i * (e.dct x i - e.dct z i) := by
    rw [Finset.mul_sum, ← Finset.sum_add_distrib, ← Finset.sum_add_distrib]
    refine Finset.sum_congr rfl fun i _ => ?_
    ring
  unfold objective
  rw [h2, h3, ← h1]
  ring

theorem isBest_of_normal {e : Env n} (he : IsDct e) (order : ℕ) (w y : Fin n → ℝ) (s : ℝ) (z : Fin n → ℝ)
    (hz : ∀ i, s * (e.lam i ^ order * e.dct z i) = e.dct (fun i => w i * (y i - z i)) i) (hs : 0 ≤ s) (hw : ∀ i, 0 ≤ w i) :
    IsBest e order w y s z := by
  intro x
  rw [objective_diff he order w y s z hz x]
  have h1 : 0 ≤ ∑ i, w i * (x i - z i) ^ 2 := Finset.sum_nonneg fun i _ => mul_nonneg (hw i) (sq_nonneg _)
  have h2 : 0 ≤ s * ∑ i, e.lam i ^ order * (e.dct x i - e.dct z i) ^ 2 :=
    mul_nonneg hs (Finset.sum_nonneg fun i _ => mul_nonneg (pow_nonneg (he.nonneg i) _) (sq_nonneg _))
  linarith

theorem isOnlyBest_of_normal {e : Env n} (he : IsDct e) (order : ℕ) (w y : Fin n → ℝ) (s : ℝ) (z : Fin n → ℝ)
    (hz : ∀ i, s * (e.lam i ^ order * e.dct z i) = e.dct (fun i => w i * (y i - z i)) i) (hs : 0 ≤ s) (hw : ∀ i, 0 < w i) :
    IsOnlyBest e order w y s z := by
  intro x hx
  rw [objective_diff he order w y s z hz x]
  have h1 : 0 < ∑ i, w i * (x i - z i) ^ 2 := by
    obtain ⟨i, hi⟩ : ∃ i, x i ≠ z i := by by_contra hc; push Not at hc; exact hx (funext hc)
    refine Finset.sum_pos' (fun i _ => mul_nonneg (hw i).le (sq_nonneg _)) ⟨i, Finset.mem_univ i, mul_pos (hw i) ?_⟩
    exact (sq_pos_iff).mpr (sub_ne_zero.mpr hi)
  have h2 : 0 ≤ s * ∑ i, e.lam i ^ order * (e.dct x i - e.dct z i) ^ 2 :=
    mul_nonneg hs (Finset.sum_nonneg fun i _ => mul_nonneg (pow_nonneg (he.nonneg i) _) (sq_nonneg _))
  linarith

/-- a filtered array solves the normal equations if it is the fixed point of the filter -/
theorem normal_of_filter {e : Env n} (he : IsDct e) (order : ℕ) (w y : Fin n → ℝ) (s : ℝ) (z : Fin n → ℝ) (hs : 0 ≤ s)
    (hz : z = e.idct (fun k => gamma e order s k * e.dct (fun i => w i * (y i - z i) + z i) k)) (i : Fin n) :
    s * (e.lam i ^ order * e.dct z i) = e.dct (fun i => w i * (y i - z i)) i := by
  have h1 := congrFun (congrArg e.dct hz) i
  rw [he.right, he.add] at h1
  have hpos : 0 < 1 + s * e.lam i ^ order := by
    have := mul_nonneg hs (pow_nonneg (he.nonneg i) order); linarith
  unfold gamma at h1
  rw [one_div_mul_eq_div, eq_div_iff hpos.ne'] at h1
  linear_combination h1

theorem smoothOf_nonneg (f : Fixed n) (s : State n) (p : ℝ) : 0 ≤ smoothOf f s p := by
  unfold smoothOf
  split
  · exact le_refl _
  · exact Real.rpow_nonneg (by norm_num) _

/-- C64, part 1: an array that the iteration no longer changes is a solution of weighted penalised least squares, for the smoothing
parameter in use and the current weights. -/
theorem inner_fixed_point {e : Env n} (he : IsDct e) (a : Args n) (f : Fixed n) (j : ℕ) (s s' : State n)
    (hrf : f.rf ≠ 0) (hw : ∀ i, 0 ≤ s.wtot i) (h : innerStep e a f j s = .ok s') (hfix : s'.z = s.z) :
    ∃ sm, s'.smooth = some sm ∧ 0 ≤ sm ∧ IsBest e a.order s.wtot f.data sm s.z := by
  unfold innerStep at h
  simp only at h
  split at h
  · cases h
  · split at h
    · cases h
    · cases h
      refine ⟨_, rfl, smoothOf_nonneg _ _ _, ?_⟩
      refine isBest_of_normal he _ _ _ _ _ (normal_of_filter he _ _ _ _ _ (smoothOf_nonneg _ _ _) ?_) (smoothOf_nonneg _ _ _) hw
      funext i
      have hi := congrFun hfix i
      simp only at hi
      have h2 : f.rf * (e.idct (fun k => gamma e a.order (smoothOf f s (choosePBest e a f j
          (e.dct fun i => s.wtot i * (f.data i - s.z i) + s.z i)
          (if 1 ≤ total s.wtot / n then none else some s.wtot) s)) k *
            e.dct (fun i => s.wtot i * (f.data i - s.z i) + s.z i) k) i - s.z i) = 0 := by linarith
      rcases mul_eq_zero.mp h2 with h3 | h3
      · exact absurd h3 hrf
      · linarith

/-- the data of an array without gaps -/
def Complete (a : Args n) (data : Fin n → Option ℝ) (y : Fin n → ℝ) : Prop :=
  ∀ i, data i = some (y i) ∧ ¬ Unused a data i

theorem smoothOf_given (f : Fixed n) (s : State n) (s0 : ℝ) (ha : f.autosmooth = false) (hs : s.smooth = some s0) (h0 : 0 ≤ s0) :
    smoothOf f s (Real.log (s.smooth.getD 0) / Real.log 10) = s0 := by
  unfold smoothOf
  rw [ha, hs]
  by_cases hz : s0 = 0
  · simp [hz]
  · have hpos : 0 < s0 := lt_of_le_of_ne h0 (Ne.symm hz)
    simp only [Bool.not_false, Bool.true_and, Option.some.injEq, hz, decide_false, Option.getD_some, Bool.false_eq_true, if_false]
    rw [← Real.exp_log (show (0 : ℝ) < 10 by norm_num), ← Real.exp_mul, Real.exp_log (by norm_num : (0 : ℝ) < 10)]
    have : Real.log 10 * (Real.log s0 / Real.log 10) = Real.log s0 := by
      have : Real.log 10 ≠ 0 := Real.log_ne_zero_of_pos_of_ne_one (by norm_num) (by norm_num)
      field_simp
    rw [this, Real.exp_log hpos]

theorem exceeds_zero (t tolZ : ℝ) (h : 0 ≤ tolZ) (x : ℝ) : (quot (0 * x) t).exceeds tolZ = false := by
  unfold quot
  rw [zero_mul]
  split
  · simp [Tol.exceeds]
  · simp [Tol.exceeds, h]

/-- C64, part 2: without gaps, weights and robust weights, the call succeeds after one round, and its result is the only solution of penalised least
squares for the returned smoothing parameter, which is the given one if there was one. -/
theorem smoothn_complete {e : Env n} (he : IsDct e) (a : Args n) (want : Wanted) (data : Fin n → Option ℝ) (y : Fin n → ℝ) (hn : 2 ≤ n)
    (hc : Complete a data y) (hw : a.weights = none) (hi : a.initGuess = none) (hr : a.robust = false)
    (ho : a.order = 1 ∨ a.order = 2) (hm : 1 ≤ a.maxIter) (ht : 0 ≤ a.tolZ ∧ a.tolZ < 1) (hs : ∀ s, a.smooth = some s → 0 ≤ s) :
    ∃ r z sm, smoothn e a want data = .ok r ∧ r.count = 1 ∧ r.exitFlag = 1 ∧ r.smooth = some sm ∧ 0 ≤ sm ∧
      (∀ s, a.smooth = some s → sm = s) ∧ r.z = some (fun i => some (z i)) ∧
      IsOnlyBest e a.order (fun _ => 1) y sm z := by
  have hfin : isFinite a data = fun _ => true := by
    funext i; rw [isFinite_iff]; exact (hc i).2
  have hmask : maskData (isFinite a data) data = fun i => some (y i) := by
    funext i; rw [hfin]; unfold maskData; rw [if_pos rfl]; exact (hc i).1
  have hiw : initWeights a (isFinite a data) = .ok (fun _ => 1) := by
    rw [hfin]; unfold initWeights; rw [hw]; simp
  have hex : ∀ m, a.excl = some m → ∀ i, m i = false := by
    intro m hm i
    by_contra hcon
    exact (hc i).2 (Or.inr ⟨m, hm, by simpa using hcon⟩)
  -- the state before the loops
  set f : Fixed n := ⟨y, fun _ => true, fun _ => 1, a.smooth.isNone, 1⟩ with hf
  set s0 : State n := ⟨fun _ => 0, fun _ => 0, .val 1, 0, a.smooth, none, false, fun _ => 1, 1, 0, []⟩ with hs0
  obtain ⟨k, hk⟩ : ∃ k, a.maxIter = k + 1 := ⟨a.maxIter - 1, by omega⟩
  -- one round
  obtain ⟨s1, h1, hz1, hsm1, hq1, hc1, hf1, hd1⟩ : ∃ s1, innerStep e a f 0 s0 = .ok s1 ∧
      s1.z = e.idct (fun k => gamma e a.order (s1.smooth.getD 0) k * e.dct y k) ∧
      (∃ sm, s1.smooth = some sm ∧ 0 ≤ sm ∧ ∀ s, a.smooth = some s → sm = s) ∧ s1.tol.exceeds a.tolZ = false ∧ s1.count = 1 ∧ s1.exitFlag = 1 ∧
        s1.reached = [] := by
    have hneg : (!f.autosmooth && decide (s0.smooth.getD 0 < 0)) = false := by
      rcases hsm : a.smooth with _ | s
      · simp [f, hsm]
      · simp [f, s0, hsm, hs s hsm]
    unfold innerStep
    simp only
    rw [if_neg (not_not.mpr ho), hneg]
    refine ⟨_, rfl, ?_, ⟨_, rfl, smoothOf_nonneg _ _ _, ?_⟩, ?_, rfl, rfl, rfl⟩
    · simp [f, s0]
    · intro s hsm
      have hauto : f.autosmooth = false := by simp [f, hsm]
      have : choosePBest e a f 0 (e.dct fun i => s0.wtot i * (f.data i - s0.z i) + s0.z i)
          (if 1 ≤ total s0.wtot / n then none else some s0.wtot) s0 = Real.log (s0.smooth.getD 0) / Real.log 10 := by
        unfold choosePBest; rw [hauto]; simp
      rw [this]
      exact smoothOf_given f s0 s hauto (by simp [s0, hsm]) (hs s hsm)
    · exact exceeds_zero _ _ ht.1 _
  have hinner : innerLoop e a f a.maxIter 0 s0 = .ok s1 := by
    rw [hk, innerLoop, if_pos (by simp [s0, Tol.exceeds, ht.2]), h1]
    show innerLoop e a f k 1 s1 = _
    cases k with
    | zero => rfl
    | succ k => rw [innerLoop, if_neg (by rw [hq1]; simp)]
  obtain ⟨sm, hsm, hsm0, hsmg⟩ := hsm1
  have houter : outerLoop e a f 3 0 s0 = .ok (setFlag a 0 s1) := by
    rw [outerLoop, hinner]
    simp [Except.bind, hr]
  refine ⟨⟨some (fun i => some (s1.z i)), s1.smooth, 1,
    { initialGuess := if want.initialGuess then some (fun _ => 0) else none
      finalWeights := if want.finalWeights then some s1.wtot else none
      gcvScore := if want.gcvScore then s1.score else none }, fun i => some (y i), 1, [true]⟩, s1.z, sm, ?_, rfl, rfl, hsm, hsm0, hsmg, rfl, ?_⟩
  · unfold smoothn
    rw [if_neg (by omega), if_neg (by omega)]
    simp only
    rw [hiw]
    simp only [Except.bind]
    rw [if_neg (by simp), hmask, if_neg (by simp)]
    simp only [ne_eq, not_true_eq_false, exists_false, decide_false, Option.getD_some, Bool.false_eq_true, if_false]
    have hst : startValue e a false (isFinite a data) y = fun _ => 0 := by
      unfold startValue; rw [hi]; simp
    rw [hst, hfin]
    have := houter
    rw [hf, hs0] at this
    rw [this]
    simp only
    rw [if_neg (by simp [setFlag, hsm])]
    have hae : applyExclusion a s1.z = fun i => some (s1.z i) := by
      funext i; unfold applyExclusion
      split
      · rfl
      · next m hm => simp [hex m hm i]
    simp [setFlag, hae, hf1, hc1, hd1, hq1, hk]
  · refine isOnlyBest_of_normal he _ _ _ _ _ (normal_of_filter he _ _ _ _ _ hsm0 ?_) hsm0 (fun _ => one_pos)
    rw [hsm] at hz1
    simp only [Option.getD_some] at hz1
    simpa using hz1

/-- the roughness does not notice constants -/
theorem rough_const {e : Env n} (he : IsDct e) (order : ℕ) (ho : order = 1 ∨ order = 2) (z : Fin n → ℝ) (c : ℝ) (i : Fin n) :
    e.lam i ^ order * e.dct (fun i => z i + c) i ^ 2 = e.lam i ^ order * e.dct z i ^ 2 := by
  by_cases hl : e.lam i = 0
  · rw [hl, zero_pow (by omega), zero_mul, zero_mul]
  · have h := he.add z (fun _ => c)
    rw [h]
    simp only
    rw [he.const c i hl, add_zero]

/-- C64, part 3: the best array has the same sum as the data -/
theorem onlyBest_sum {e : Env n} (he : IsDct e) (order : ℕ) (ho : order = 1 ∨ order = 2) (y z : Fin n → ℝ) (s : ℝ) (hn : 0 < n)
    (hz : IsOnlyBest e order (fun _ => 1) y s z) : ∑ i, z i = ∑ i, y i := by
  by_contra hne
  set m : ℝ := (∑ i, y i - ∑ i, z i) / n with hm
  have hn' : (n : ℝ) ≠ 0 := by exact_mod_cast hn.ne'
  have hm0 : m ≠ 0 := div_ne_zero (sub_ne_zero.mpr (Ne.symm hne)) hn'
  have hx : (fun i => z i + m) ≠ z := by
    intro h
    have := congrFun h ⟨0, hn⟩
    simp at this
    exact hm0 this
  have hlt := hz _ hx
  unfold objective at hlt
  rw [Finset.sum_congr rfl (fun i _ => rough_const he order ho z m i)] at hlt
  have hsum : ∑ i, (1 : ℝ) * (y i - (z i + m)) ^ 2 = ∑ i, (1 : ℝ) * (y i - z i) ^ 2 - n * m ^ 2 := by
    have h1 : ∀ i, (1 : ℝ) * (y i - (z i + m)) ^ 2 = 1 * (y i - z i) ^ 2 - 2 * m * (y i - z i) + m ^ 2 := fun i => by ring
    rw [Finset.sum_congr rfl (fun i _ => h1 i), Finset.sum_add_distrib, Finset.sum_sub_distrib,
      ← Finset.mul_sum Finset.univ (fun i => y i - z i) (2 * m), Finset.sum_sub_distrib]
    have h2 : ∑ i, y i - ∑ i, z i = n * m := by rw [hm]; field_simp
    rw [h2]
    simp
    ring
  rw [hsum] at hlt
  have : 0 < (n : ℝ) * m ^ 2 := mul_pos (by exact_mod_cast hn) ((sq_pos_iff).mpr hm0)
  linarith

/-- C64, part 4: constant data are their own best array -/
theorem onlyBest_const {e : Env n} (he : IsDct e) (order : ℕ) (ho : order = 1 ∨ order = 2) (c s : ℝ) (hs : 0 ≤ s) (z : Fin n → ℝ)
    (hz : IsOnlyBest e order (fun _ => 1) (fun _ => c) s z) : z = fun _ => c := by
  by_contra hne
  have hlt := hz (fun _ => c) (Ne.symm hne)
  have h0 : objective e order (fun _ => 1) (fun _ => c) s (fun _ => c) = 0 := by
    unfold objective
    have h1 : ∀ i, e.lam i ^ order * e.dct (fun _ => c) i ^ 2 = 0 := by
      intro i
      by_cases hl : e.lam i = 0
      · rw [hl, zero_pow (by omega), zero_mul]
      · rw [he.const c i hl]; ring
    rw [Finset.sum_congr rfl (fun i _ => h1 i)]
    simp
  have h1 : 0 ≤ objective e order (fun _ => 1) (fun _ => c) s z := by
    unfold objective
    refine add_nonneg (Finset.sum_nonneg fun i _ => mul_nonneg zero_le_one (sq_nonneg _))
      (mul_nonneg hs (Finset.sum_nonneg fun i _ => mul_nonneg (pow_nonneg (he.nonneg i) _) (sq_nonneg _)))
  linarith

/-- C64, part 5: the result for complete data has the sum (so the mean) of the data, and constant data come back unchanged. -/
theorem smoothn_mean {e : Env n} (he : IsDct e) (a : Args n) (want : Wanted) (data : Fin n → Option ℝ) (y : Fin n → ℝ) (hn : 2 ≤ n)
    (hc : Complete a data y) (hw : a.weights = none) (hi : a.initGuess = none) (hr : a.robust = false)
    (ho : a.order = 1 ∨ a.order = 2) (hm : 1 ≤ a.maxIter) (ht : 0 ≤ a.tolZ ∧ a.tolZ < 1) (hs : ∀ s, a.smooth = some s → 0 ≤ s) :
    ∃ (r : Result n) (z : Fin n → ℝ), smoothn e a want data = .ok r ∧ r.z = some (fun i => some (z i)) ∧ ∑ i, z i = ∑ i, y i ∧
      ∀ c, (∀ i, y i = c) → ∀ i, z i = c := by
  obtain ⟨r, z, sm, h1, -, -, -, h5, -, h7, h8⟩ := smoothn_complete he a want data y hn hc hw hi hr ho hm ht hs
  refine ⟨r, z, h1, h7, onlyBest_sum he a.order ho y z sm (by omega) h8, fun c hyc i => ?_⟩
  obtain rfl : y = fun _ => c := funext hyc
  exact congrFun (onlyBest_const he a.order ho c sm h5 z h8) i

end Verif.Smoothn
