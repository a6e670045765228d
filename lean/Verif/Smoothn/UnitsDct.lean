import Verif.Smoothn.Units
import Verif.Smoothn.DctProps

/-! C101: the assumptions of `Verif.Smoothn.Units` for the cosine transform and the first guess of the code. -/

namespace Verif.Smoothn

/-- what is assumed of `scipy.ndimage.distance_transform_edt`: the nearest element without mask has no mask -/
def NearOk {n : ℕ} (near : (Fin n → Bool) → Fin n → Fin n) : Prop :=
  ∀ (mask : Fin n → Bool) i, (∃ k, mask k = false) → mask i = true → mask (near mask i) = false

/-- only the first coefficient has eigenvalue zero, and it is kept -/
theorem eigenvalue_zero (n k : ℕ) (hk : k < n) (h : Axis.eigenvalue n k = 0) : k < kept n := by
  have hn : (0 : ℝ) < n := by exact_mod_cast (by omega : 0 < n)
  have hc : Real.cos (Real.pi * k / n) = 1 := by
    unfold Axis.eigenvalue at h
    linarith
  have hk0 : k = 0 := by
    by_contra hne
    have hkp : (0 : ℝ) < k := by exact_mod_cast Nat.pos_of_ne_zero hne
    have hlt : (k : ℝ) < n := by exact_mod_cast hk
    have hpos : 0 < Real.pi * k / n := div_pos (mul_pos Real.pi_pos hkp) hn
    have hle : Real.pi * k / n ≤ Real.pi := by
      rw [div_le_iff₀ hn]
      exact mul_le_mul_of_nonneg_left hlt.le Real.pi_pos.le
    have := Real.cos_lt_cos_of_nonneg_of_le_pi (le_refl 0) hle hpos
    rw [hc, Real.cos_zero] at this
    exact lt_irrefl _ this
  subst hk0
  unfold kept
  omega

theorem guess_env1 (n : ℕ) (near) (fmin) (h : NearOk near) : GuessOk (env1 n near fmin) where
  near := h
  low k hk := decide_eq_true (eigenvalue_zero n k k.isLt hk)

theorem guess_env2 (a b : ℕ) (near) (fmin) (h : NearOk near) : GuessOk (env2 a b near fmin) where
  near := h
  low p hp := by
    have h1 := (Axis.eigenvalue_nonneg a (finProdFinEquiv.symm p).1.val).1
    have h2 := (Axis.eigenvalue_nonneg b (finProdFinEquiv.symm p).2.val).1
    have h3 : Axis.eigenvalue a (finProdFinEquiv.symm p).1.val + Axis.eigenvalue b (finProdFinEquiv.symm p).2.val = 0 := hp
    simp only [env2, Bool.and_eq_true, decide_eq_true_eq]
    exact ⟨eigenvalue_zero a _ (Fin.isLt _) (by linarith), eigenvalue_zero b _ (Fin.isLt _) (by linarith)⟩

theorem guess_env3 (a b c : ℕ) (near) (fmin) (h : NearOk near) : GuessOk (env3 a b c near fmin) where
  near := h
  low p hp := by
    have h1 := (Axis.eigenvalue_nonneg a (finProdFinEquiv.symm p).1.val).1
    have h2 := (Axis.eigenvalue_nonneg b (finProdFinEquiv.symm (finProdFinEquiv.symm p).2).1.val).1
    have h3 := (Axis.eigenvalue_nonneg c (finProdFinEquiv.symm (finProdFinEquiv.symm p).2).2.val).1
    have h4 : Axis.eigenvalue a (finProdFinEquiv.symm p).1.val + Axis.eigenvalue b (finProdFinEquiv.symm (finProdFinEquiv.symm p).2).1.val +
      Axis.eigenvalue c (finProdFinEquiv.symm (finProdFinEquiv.symm p).2).2.val = 0 := hp
    simp only [env3, Bool.and_eq_true, decide_eq_true_eq]
    exact ⟨eigenvalue_zero a _ (Fin.isLt _) (by linarith), eigenvalue_zero b _ (Fin.isLt _) (by linarith),
      eigenvalue_zero c _ (Fin.isLt _) (by linarith)⟩

/-- C101: the cosine transform, the eigenvalues and the first guess of the code meet the assumptions of the other parts, for arrays of
one, two and three dimensions. -/
theorem code_meets_assumptions (a b c : ℕ) (fmin : (ℝ → ℝ) → ℝ) :
    (∀ near, NearOk near → IsDct (env1 a near fmin) ∧ GuessOk (env1 a near fmin)) ∧
    (∀ near, NearOk near → IsDct (env2 a b near fmin) ∧ GuessOk (env2 a b near fmin)) ∧
    (∀ near, NearOk near → IsDct (env3 a b c near fmin) ∧ GuessOk (env3 a b c near fmin)) :=
  ⟨fun near h => ⟨isDct_env1 a near fmin, guess_env1 a near fmin h⟩, fun near h => ⟨isDct_env2 a b near fmin, guess_env2 a b near fmin h⟩,
    fun near h => ⟨isDct_env3 a b c near fmin, guess_env3 a b c near fmin h⟩⟩

/-- a search for near elements: the first element without mask -/
example (n : ℕ) : NearOk (n := n) (fun mask i => ((List.finRange n).find? (fun k => !mask k)).getD i) := by
  intro mask i ⟨k, hk⟩ _
  cases h : (List.finRange n).find? (fun k => !mask k) with
  | none => exact absurd (List.find?_eq_none.mp h k (List.mem_finRange k)) (by simp [hk])
  | some j =>
    have := List.find?_some h
    show mask (((List.finRange n).find? (fun k => !mask k)).getD i) = false
    rw [h]
    simpa using this

end Verif.Smoothn
