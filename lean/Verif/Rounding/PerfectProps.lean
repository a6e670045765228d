import Verif.Rounding.Perfect
import Verif.Rounding.MetricsProps
import Mathlib.Tactic.FinCases

/-! C107: the metrics of a series with itself in the arithmetic of the machine. -/

namespace Verif.Rounding

section
set_option linter.unusedSectionVars false
variable {K : Type} [Field K] [LinearOrder K] [IsStrictOrderedRing K]

/-- both columns are equal -/
def Same (l : List (K × K)) : Prop := ∀ p ∈ l, p.1 = p.2

theorem tree_zero {rnd : K → K} (h0 : rnd 0 = 0) (t : Tree K) (h : ∀ v ∈ t.leaves, v = 0) : t.sum rnd = 0 := by
  induction t with
  | leaf v => exact h v (by simp [Tree.leaves])
  | node l r hl hr =>
    rw [Tree.sum, hl fun v hv => h v (by simp [Tree.leaves, hv]), hr fun v hv => h v (by simp [Tree.leaves, hv]), add_zero, h0]

theorem welford_same (rnd : K → K) (l : List (K × K)) (hl : Same l) :
    let s := l.foldl (Welford.add rnd) ⟨0, 0, 0, 0, 0, 0⟩
    s.mx = s.my ∧ s.M2x = s.M2y ∧ s.M2x = s.C := by
  have key : ∀ (l : List (K × K)), Same l → ∀ s : Welford K, s.mx = s.my → s.M2x = s.M2y → s.M2x = s.C →
      let r := l.foldl (Welford.add rnd) s
      r.mx = r.my ∧ r.M2x = r.M2y ∧ r.M2x = r.C := by
    intro l
    induction l with
    | nil => intro _ s h1 h2 h3; exact ⟨h1, h2, h3⟩
    | cons p l ih =>
      intro hl s h1 h2 h3
      have hp := hl p List.mem_cons_self
      refine ih (fun q hq => hl q (List.mem_cons_of_mem _ hq)) (s.add rnd p) ?_ ?_ ?_
      · simp only [Welford.add, hp, h1]
      · simp only [Welford.add, hp, h1, h2]
      · simp only [Welford.add, hp, h1, ← h3]
  exact key l hl _ rfl rfl rfl

theorem moments_same (rnd : K → K) (l : List (K × K)) (hl : Same l) :
    (moments rnd l).mx = (moments rnd l).my ∧ (moments rnd l).vx = (moments rnd l).vy ∧ (moments rnd l).vx = (moments rnd l).cov := by
  obtain ⟨h1, h2, h3⟩ := welford_same rnd l hl
  refine ⟨h1, ?_, ?_⟩
  · simp only [moments, h2]
  · simp only [moments, h3]

theorem fold_fst_snd (rnd : K → K) (l : List (K × K)) (hl : Same l) (a : K) :
    l.foldl (fun s p => rnd (s + p.1)) a = l.foldl (fun s p => rnd (s + p.2)) a := by
  induction l generalizing a with
  | nil => rfl
  | cons p l ih =>
    rw [List.foldl_cons, List.foldl_cons, hl p List.mem_cons_self]
    exact ih (fun q hq => hl q (List.mem_cons_of_mem _ hq)) _

/-- C107: for a series and itself, rounding or not: bias, RSS, msd, mean absolute difference, ubRMSD and the bias and variance components of the MSE are exactly 0;
the coefficients of Nash-Sutcliffe and the index of agreement are exactly 1 where they are defined. -/
theorem perfect {rnd : K → K} {u : K} (h : RelErr rnd u) (h1 : rnd 1 = 1) (sq : K → K) (hsq : sq 0 = 0) (order : List K → Tree K)
    (ho : ∀ v : List K, v ≠ [] → (order v).leaves.Perm v) (l : List (K × K)) (hne : l ≠ []) (hl : Same l) :
    bias rnd l = 0 ∧ RSS rnd l = 0 ∧ msd rnd l = 0 ∧ aad rnd order l = 0 ∧ ubrmsd rnd sq l = 0 ∧ mseBias rnd l = 0 ∧
    (mseDecomposition rnd sq l).2.2.1 = 0 ∧ (mseDecomposition rnd sq l).2.2.2 = 0 ∧
    (∀ v, nashSutcliffe rnd order l = some v → v = 1) ∧ (∀ v, indexOfAgreement rnd order l = some v → v = 1) := by
  have h0 := h.zero
  have hb := bias_self h l hl
  have hR : RSS rnd l = 0 := by
    have : ∀ l : List (K × K), Same l → l.foldl (fun s p => rnd (s + rnd (rnd (p.1 - p.2) * rnd (p.1 - p.2)))) 0 = 0 := by
      intro l
      induction l with
      | nil => intro _; rfl
      | cons p l ih =>
        intro hl
        rw [List.foldl_cons, hl p List.mem_cons_self, sub_self, h0, mul_zero, h0, add_zero, h0]
        exact ih fun q hq => hl q (List.mem_cons_of_mem _ hq)
    exact this l hl
  obtain ⟨m1, m2, m3⟩ := moments_same rnd l hl
  refine ⟨hb, hR, ?_, ?_, ?_, ?_, ?_, ?_, ?_, ?_⟩
  · rw [msd, hR, zero_div, h0]
  · unfold aad
    rw [tree_zero h0, zero_div, h0]
    intro v hv
    rw [(ho _ (by simpa using hne)).mem_iff, List.mem_map] at hv
    obtain ⟨p, hp, rfl⟩ := hv
    rw [hl p hp, sub_self, h0, abs_zero]
  · unfold ubrmsd
    simp only
    rw [fold_fst_snd rnd l hl]
    generalize rnd (l.foldl (fun s p => rnd (s + p.2)) 0 / (l.length : K)) = m
    have : ∀ l : List (K × K), Same l → l.foldl (fun s p => rnd (s + rnd (rnd (rnd (p.1 - m) - rnd (p.2 - m)) * rnd (rnd (p.1 - m) - rnd (p.2 - m))))) 0 = 0 := by
      intro l
      induction l with
      | nil => intro _; rfl
      | cons p l ih =>
        intro hl
        rw [List.foldl_cons, hl p List.mem_cons_self, sub_self, h0, mul_zero, h0, add_zero, h0]
        exact ih fun q hq => hl q (List.mem_cons_of_mem _ hq)
    rw [this l hl, zero_div, h0, hsq]
  · rw [mseBias, hb, mul_zero, h0]
  · show mseBiasFromMoments rnd (moments rnd l) = 0
    rw [mseBiasFromMoments, m1, sub_self, h0, mul_zero, h0]
  · show mseVar rnd sq (moments rnd l) = 0
    rw [mseVar, m2, sub_self, h0, mul_zero, h0]
  · intro v hv
    have hn : (order (l.map (fun p => rnd (rnd (p.1 - p.2) * rnd (p.1 - p.2))))).sum rnd = 0 := by
      refine tree_zero h0 _ fun v hv => ?_
      rw [(ho _ (by simpa using hne)).mem_iff, List.mem_map] at hv
      obtain ⟨p, hp, rfl⟩ := hv
      rw [hl p hp, sub_self, h0, mul_zero, h0]
    unfold nashSutcliffe at hv
    simp only [hn, zero_div, h0, sub_zero, h1] at hv
    split at hv
    · cases hv
    · exact (Option.some.inj hv).symm
  · intro v hv
    unfold indexOfAgreement at hv
    simp only [hR, zero_div, h0, sub_zero, h1] at hv
    split at hv
    · cases hv
    · exact (Option.some.inj hv).symm

end

/-- the square root with a relative rounding error of at most `u` -/
def SqrtErr (sq : ℝ → ℝ) (u : ℝ) : Prop := ∀ v, 0 ≤ v → 0 ≤ sq v ∧ |sq v - Real.sqrt v| ≤ u * Real.sqrt v

/-- C107: the correlation component of the MSE of a series and itself is not 0 (`mse_corr_perfect_wrong`) but at most a few units of rounding of the variance. -/
theorem mse_corr_perfect_partial {rnd sq : ℝ → ℝ} {u : ℝ} (h : RelErr rnd u) (hu1 : u < 1) (hsq : SqrtErr sq u) (l : List (ℝ × ℝ)) (hl : Same l)
    (hv : 0 ≤ (moments rnd l).vx) :
    0 ≤ (mseDecomposition rnd sq l).2.1 ∧ (mseDecomposition rnd sq l).2.1 ≤ (1 + u) * ((1 + u) ^ 4 - 1 + u) * (2 * (moments rnd l).vx) := by
  have hu := h.nonneg
  show 0 ≤ mseCorr rnd sq (moments rnd l) ∧ mseCorr rnd sq (moments rnd l) ≤ _
  obtain ⟨-, m2, m3⟩ := moments_same rnd l hl
  unfold mseCorr
  rw [← m2, ← m3]
  set v := (moments rnd l).vx
  set s := sq v
  obtain ⟨s0, s1⟩ := hsq v hv
  refine ⟨le_max_right _ _, ?_⟩
  have hsv : s ≤ (1 + u) * Real.sqrt v := by
    have := (abs_le.mp s1).2
    linarith
  have hss : s * s ≤ (1 + u) ^ 2 * v := by
    have : s * s ≤ ((1 + u) * Real.sqrt v) * ((1 + u) * Real.sqrt v) :=
      mul_le_mul hsv hsv s0 (mul_nonneg (by linarith) (Real.sqrt_nonneg v))
    have e : ((1 + u) * Real.sqrt v) * ((1 + u) * Real.sqrt v) = (1 + u) ^ 2 * v := by
      have := Real.mul_self_sqrt hv
      linear_combination (1 + u) ^ 2 * this
    rwa [e] at this
  have a1 : rnd (2 * s) ≤ (1 + u) * (2 * s) := by
    have := (abs_le.mp (h.err (2 * s))).2
    rw [abs_of_nonneg (by linarith)] at this
    linarith
  have a2 : rnd (rnd (2 * s) * s) ≤ (1 + u) ^ 4 * (2 * v) := by
    have e1 := h.le (2 * s)
    rw [abs_of_nonneg (by linarith : 0 ≤ 2 * s)] at e1
    have e2 : |rnd (2 * s) * s| ≤ (1 + u) * (2 * (s * s)) := by
      rw [abs_mul, abs_of_nonneg s0]
      calc |rnd (2 * s)| * s ≤ ((1 + u) * (2 * s)) * s := mul_le_mul_of_nonneg_right e1 s0
        _ = _ := by ring
    have e3 := h.le (rnd (2 * s) * s)
    calc rnd (rnd (2 * s) * s) ≤ |rnd (rnd (2 * s) * s)| := le_abs_self _
      _ ≤ (1 + u) * |rnd (2 * s) * s| := e3
      _ ≤ (1 + u) * ((1 + u) * (2 * (s * s))) := mul_le_mul_of_nonneg_left e2 (by linarith)
      _ = (1 + u) ^ 2 * 2 * (s * s) := by ring
      _ ≤ (1 + u) ^ 2 * 2 * ((1 + u) ^ 2 * v) := mul_le_mul_of_nonneg_left hss (by positivity)
      _ = _ := by ring
  have a3 : (1 - u) * (2 * v) ≤ rnd (2 * v) := by
    have := (abs_le.mp (h.err (2 * v))).1
    rw [abs_of_nonneg (by linarith)] at this
    linarith
  set d := rnd (rnd (2 * s) * s) - rnd (2 * v) with hd
  have hD : 0 ≤ (1 + u) ^ 4 - 1 + u := by have := one_le_pow hu 4; linarith
  have hd' : d ≤ ((1 + u) ^ 4 - 1 + u) * (2 * v) := by rw [hd]; nlinarith
  have hB : 0 ≤ ((1 + u) ^ 4 - 1 + u) * (2 * v) := mul_nonneg hD (by linarith)
  refine max_le ?_ (by rw [mul_assoc]; exact mul_nonneg (by linarith) hB)
  rw [mul_assoc]
  rcases le_total 0 d with h0 | h0
  · have := h.le d
    rw [abs_of_nonneg h0] at this
    exact (le_abs_self _).trans (this.trans (mul_le_mul_of_nonneg_left hd' (by linarith)))
  · have : rnd d ≤ 0 := by
      have := (abs_le.mp (h.err d)).2
      rw [abs_of_nonpos h0] at this
      nlinarith
    exact this.trans (mul_nonneg (by linarith) hB)

open Verif.Rolling.Fl

/-- the `double` nearest to the square root of 2 -/
def root2 : ℚ := 6369051672525773 / 2 ^ 52

example : (root2 - 1 / 2 ^ 53) ^ 2 < 2 ∧ 2 < (root2 + 1 / 2 ^ 53) ^ 2 ∧ rnd64 root2 = root2 := by decide +kernel

/-- C107, negation: for the series 2, 0, -2, 0 and itself the MSE and its correlation component are 2^-50 and not 0. -/
theorem mse_corr_perfect_wrong (sq : ℚ → ℚ) (h : sq 2 = root2) :
    (mseDecomposition rnd64 sq [(2, 2), (0, 0), (-2, -2), (0, 0)]).2.1 = 1 / 2 ^ 50 ∧
    (mseDecomposition rnd64 sq [(2, 2), (0, 0), (-2, -2), (0, 0)]).1 = 1 / 2 ^ 50 := by
  have hm : moments rnd64 [(2, 2), (0, 0), (-2, -2), (0, 0)] = ⟨0, 0, 2, 2, 2⟩ := by decide +kernel
  simp only [mseDecomposition, hm, mseCorr, mseVar, mseBiasFromMoments, h]
  constructor <;> decide +kernel

example := mse_corr_perfect_wrong (fun x => if x = 2 then root2 else rnd64 x) (by simp)

/-- the `double` nearest to the square roots of the computed variances of 0, 0, 1 and 0, 1, 3 -/
def rootx : ℚ := 4246034448350515 / 2 ^ 53
/-- see `rootx` -/
def rooty : ℚ := 5616975604274395 / 2 ^ 52

example : let vx := (moments rnd64 [(0, 0), (0, 1), (1, (3 : ℚ))]).vx; let vy := (moments rnd64 [(0, 0), (0, 1), (1, (3 : ℚ))]).vy
    (rootx - 1 / 2 ^ 55) ^ 2 < vx ∧ vx < (rootx + 1 / 2 ^ 55) ^ 2 ∧ rnd64 rootx = rootx ∧
    (rooty - 1 / 2 ^ 53) ^ 2 < vy ∧ vy < (rooty + 1 / 2 ^ 53) ^ 2 ∧ rnd64 rooty = rooty := by decide +kernel

/-- C107, negation: exchanging the series changes the covariance, and with it the correlation component of the MSE. -/
theorem mse_corr_exchange_wrong :
    (moments rnd64 [(0, 0), (0, 1), (1, 3)]).cov ≠ (moments rnd64 [(0, 0), (1, 0), (3, (1 : ℚ))]).cov ∧
    ∀ sq : ℚ → ℚ, sq (moments rnd64 [(0, 0), (0, 1), (1, (3 : ℚ))]).vx = rootx → sq (moments rnd64 [(0, 0), (0, 1), (1, (3 : ℚ))]).vy = rooty →
      (mseDecomposition rnd64 sq [(0, 0), (0, 1), (1, 3)]).2.1 ≠ (mseDecomposition rnd64 sq [(0, 0), (1, 0), (3, 1)]).2.1 := by
  refine ⟨by decide +kernel, fun sq h1 h2 => ?_⟩
  have e1 : (moments rnd64 [(0, 0), (1, 0), (3, (1 : ℚ))]).vx = (moments rnd64 [(0, 0), (0, 1), (1, (3 : ℚ))]).vy := by decide +kernel
  have e2 : (moments rnd64 [(0, 0), (1, 0), (3, (1 : ℚ))]).vy = (moments rnd64 [(0, 0), (0, 1), (1, (3 : ℚ))]).vx := by decide +kernel
  simp only [mseDecomposition, mseCorr, e1, e2, h1, h2]
  decide +kernel

/-! ## Concrete cases -/

example : Same [((1 : ℚ) / 10, 1 / 10), (3 / 10, 3 / 10), (7, 7)] ∧ rnd64 1 = 1 ∧
    nashSutcliffe rnd64 fromLeft [(rnd64 (1 / 10), rnd64 (1 / 10)), (rnd64 (3 / 10), rnd64 (3 / 10)), (7, 7)] = some 1 ∧
    indexOfAgreement rnd64 fromLeft [(rnd64 (1 / 10), rnd64 (1 / 10)), (rnd64 (3 / 10), rnd64 (3 / 10)), (7, 7)] = some 1 := by
  refine ⟨?_, ?_, ?_, ?_⟩
  · intro p hp
    fin_cases hp <;> rfl
  all_goals decide +kernel

-- a square root with an error for `mse_corr_perfect_partial`, and data with a variance
example : SqrtErr (fun v => Real.sqrt v * (1 + 1 / 8)) (1 / 4) ∧ 0 ≤ (moments (fun x : ℝ => x) [(0, 0), (2, 2)]).vx := by
  refine ⟨fun v _ => ⟨by positivity, ?_⟩, by norm_num [moments, Welford.add]⟩
  rw [show Real.sqrt v * (1 + 1 / 8) - Real.sqrt v = 1 / 8 * Real.sqrt v by ring, abs_of_nonneg (by positivity)]
  have := Real.sqrt_nonneg v
  linarith

end Verif.Rounding
