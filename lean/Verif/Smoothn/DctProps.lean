import Mathlib.Tactic.IntervalCases
import Verif.Smoothn.Dct
import Verif.Smoothn.Optimal

/-!
# C88: the transform is an orthonormal change of basis, and the penalty is the sum of squared differences

Cosine sums by telescoping, Kronecker products for several dimensions, summation by parts for the roughness.
-/

set_option linter.unusedSectionVars false

noncomputable section

namespace Verif.Smoothn

open Matrix Real Kronecker

/-! ### Sums of cosines -/

theorem sum_cos (n : ℕ) (θ : ℝ) : 2 * sin θ * ∑ m ∈ Finset.range n, cos ((2 * m + 1) * θ) = sin (2 * n * θ) := by
  induction n with
  | zero => simp
  | succ n ih =>
    rw [Finset.sum_range_succ, mul_add, ih]
    have h1 : sin (2 * ((n : ℝ) + 1) * θ) = sin ((2 * n + 1) * θ + θ) := by congr 1; ring
    have h2 : sin (2 * (n : ℝ) * θ) = sin ((2 * n + 1) * θ - θ) := by congr 1; ring
    push_cast
    rw [h1, h2, sin_add, sin_sub]
    ring

theorem sum_cos_zero (n : ℕ) (j : ℤ) (h0 : j ≠ 0) (h1 : |j| < 2 * n) :
    ∑ m : Fin n, cos (π * j * (2 * (m : ℕ) + 1) / (2 * n)) = 0 := by
  have hn : (n : ℝ) ≠ 0 := by
    rintro h
    have : n = 0 := by exact_mod_cast h
    subst this
    have := abs_nonneg j
    omega
  set θ : ℝ := π * j / (2 * n) with hθ
  have hs : sin θ ≠ 0 := by
    intro hc
    obtain ⟨i, hi⟩ := sin_eq_zero_iff.mp hc
    have : (i : ℝ) * (2 * n) = j := by
      have hpi := pi_ne_zero
      rw [hθ] at hi
      field_simp at hi
      linarith
    have h2 : i * (2 * n) = j := by exact_mod_cast this
    rcases eq_or_ne i 0 with rfl | hi0
    · simp at h2; exact h0 h2.symm
    · have : (1 : ℤ) ≤ |i| := Int.one_le_abs hi0
      rw [← h2, abs_mul, abs_of_nonneg (by positivity : (0 : ℤ) ≤ 2 * n)] at h1
      nlinarith
  have h2 : sin (2 * n * θ) = 0 := by
    rw [show 2 * (n : ℝ) * θ = j * π by rw [hθ]; field_simp]
    exact sin_int_mul_pi j
  have h3 := sum_cos n θ
  rw [h2] at h3
  have h4 : ∑ m ∈ Finset.range n, cos ((2 * (m : ℝ) + 1) * θ) = 0 := by
    rcases mul_eq_zero.mp h3 with h | h
    · exact absurd h (by positivity)
    · exact h
  rw [← h4, ← Fin.sum_univ_eq_sum_range (fun m => cos ((2 * (m : ℝ) + 1) * θ)) n]
  refine Finset.sum_congr rfl fun m _ => ?_
  congr 1
  rw [hθ]
  field_simp

/-- the factor of row `k` -/
def factor (n k : ℕ) : ℝ := if k = 0 then √(1 / n) else √(2 / n)

/-- the transform as matrix -/
def dctMatrix (n : ℕ) : Matrix (Fin n) (Fin n) ℝ := Matrix.of fun k m => factor n k * cos (π * k * (2 * m + 1) / (2 * n))

theorem dct1_eq {n : ℕ} (x : Fin n → ℝ) : dct1 x = dctMatrix n *ᵥ x := by
  funext k
  unfold dct1 dctMatrix
  simp only [mulVec, dotProduct, Matrix.of_apply]
  have hf : (if k.val = 0 then √(1 / (4 * (n : ℝ))) else √(1 / (2 * n))) * 2 = factor n k := by
    have h4 : √(4 : ℝ) = 2 := by rw [show (4 : ℝ) = 2 ^ 2 by norm_num]; exact sqrt_sq (by norm_num)
    unfold factor
    split
    · conv_lhs => rw [← h4]
      rw [← sqrt_mul (by positivity)]; congr 1; field_simp
    · conv_lhs => rw [← h4]
      rw [← sqrt_mul (by positivity)]
      congr 1
      have : (0 : ℝ) < n := by exact_mod_cast (by have := k.isLt; omega : 0 < n)
      rw [h4]
      field_simp; norm_num
  rw [← mul_assoc, hf, Finset.mul_sum]
  exact Finset.sum_congr rfl fun m _ => by ring

theorem idct1_eq {n : ℕ} (x : Fin n → ℝ) : idct1 x = (dctMatrix n)ᵀ *ᵥ x := by
  funext k
  unfold idct1 dctMatrix
  simp only [mulVec, dotProduct, Matrix.transpose_apply, Matrix.of_apply]
  refine Finset.sum_congr rfl fun m _ => ?_
  unfold factor
  split
  · next h => rw [h]; simp; ring
  · have : (0 : ℝ) < n := by exact_mod_cast (by have := k.isLt; omega : 0 < n)
    rw [show π * ((k : ℕ) + 1 / 2) * (m : ℕ) / (n : ℝ) = π * (m : ℕ) * (2 * (k : ℕ) + 1) / (2 * n) by field_simp]
    ring

theorem dctMatrix_orth (n : ℕ) : dctMatrix n * (dctMatrix n)ᵀ = 1 := by
  ext k l
  have hn0 : 0 < n := by have := k.isLt; omega
  have hn : (0 : ℝ) < n := by exact_mod_cast hn0
  rw [Matrix.mul_apply]
  simp only [Matrix.transpose_apply, dctMatrix, Matrix.of_apply]
  have hterm : ∀ m : Fin n, factor n k * cos (π * (k : ℕ) * (2 * (m : ℕ) + 1) / (2 * n)) * (factor n l * cos (π * (l : ℕ) * (2 * (m : ℕ) + 1) / (2 * n))) =
      factor n k * factor n l / 2 * (cos (π * (((k : ℕ) : ℤ) - ((l : ℕ) : ℤ) : ℤ) * (2 * (m : ℕ) + 1) / (2 * n)) +
        cos (π * (((k : ℕ) : ℤ) + ((l : ℕ) : ℤ) : ℤ) * (2 * (m : ℕ) + 1) / (2 * n))) := by
    intro m
    push_cast
    rw [show π * (((k : ℕ) : ℝ) - (l : ℕ)) * (2 * (m : ℕ) + 1) / (2 * n) =
        π * (k : ℕ) * (2 * (m : ℕ) + 1) / (2 * n) - π * (l : ℕ) * (2 * (m : ℕ) + 1) / (2 * n) by ring,
      show π * (((k : ℕ) : ℝ) + (l : ℕ)) * (2 * (m : ℕ) + 1) / (2 * n) =
        π * (k : ℕ) * (2 * (m : ℕ) + 1) / (2 * n) + π * (l : ℕ) * (2 * (m : ℕ) + 1) / (2 * n) by ring, cos_sub, cos_add]
    ring
  rw [Finset.sum_congr rfl fun m _ => hterm m, ← Finset.mul_sum, Finset.sum_add_distrib]
  have hk := k.isLt
  have hl := l.isLt
  have hzero : ∑ m : Fin n, cos (π * ((0 : ℤ) : ℝ) * (2 * (m : ℕ) + 1) / (2 * n)) = n := by simp
  by_cases hkl : k = l
  · subst hkl
    rw [sub_self, hzero, Matrix.one_apply_eq]
    unfold factor
    by_cases h0 : k.val = 0
    · rw [if_pos h0, h0]
      simp
      rw [← mul_inv, mul_self_sqrt hn.le]
      field_simp
      norm_num
    · rw [if_neg h0, sum_cos_zero n _ (by omega) (by rw [abs_of_nonneg (by positivity)]; omega), mul_self_sqrt (by positivity)]
      field_simp
      simp
  · have hne : (k.val : ℤ) - (l.val : ℤ) ≠ 0 := by
      intro h
      exact hkl (Fin.ext (by omega))
    rw [sum_cos_zero n _ hne (by rw [abs_lt]; constructor <;> omega),
      sum_cos_zero n _ (by intro h; apply hne; omega) (by rw [abs_of_nonneg (by positivity)]; omega), Matrix.one_apply_ne hkl]
    ring

/-! ### Summation by parts -/

/-- the second difference as matrix -/
def secondMatrix (n : ℕ) : Matrix (Fin n) (Fin n) ℝ :=
  Matrix.of fun m j => ((if j = m then 1 else 0) - (if j = before m then 1 else 0)) + ((if j = m then 1 else 0) - (if j = after m then 1 else 0))

theorem second_eq {n : ℕ} (x : Fin n → ℝ) : second x = secondMatrix n *ᵥ x := by
  funext m
  simp [second, secondMatrix, mulVec, dotProduct, add_mul, sub_mul, Finset.sum_add_distrib, Finset.sum_sub_distrib]

/-- summation by parts -/
theorem sum_second {n : ℕ} (x y : Fin n → ℝ) : ∑ m, x m * second y m = ∑ m, (x (after m) - x m) * (y (after m) - y m) := by
  cases n with
  | zero => simp
  | succ N =>
    have e1 : ∑ m : Fin (N + 1), x m * (y m - y (before m)) = ∑ m : Fin N, x m.succ * (y m.succ - y m.castSucc) := by
      rw [Fin.sum_univ_succ]
      have h0 : before (0 : Fin (N + 1)) = 0 := by ext; simp [before]
      rw [h0, sub_self, mul_zero, zero_add]
      refine Finset.sum_congr rfl fun m _ => ?_
      have : before m.succ = m.castSucc := by ext; simp [before]
      rw [this]
    have ha : ∀ m : Fin N, after m.castSucc = m.succ := by
      intro m
      unfold after
      rw [dif_pos (by simp)]
      ext; simp
    have hl : after (Fin.last N) = Fin.last N := by
      unfold after
      rw [dif_neg (by simp)]
    have e2 : ∑ m : Fin (N + 1), x m * (y m - y (after m)) = ∑ m : Fin N, x m.castSucc * (y m.castSucc - y m.succ) := by
      rw [Fin.sum_univ_castSucc, hl, sub_self, mul_zero, add_zero]
      exact Finset.sum_congr rfl fun m _ => by rw [ha]
    have e3 : ∑ m : Fin (N + 1), (x (after m) - x m) * (y (after m) - y m) =
        ∑ m : Fin N, (x m.succ - x m.castSucc) * (y m.succ - y m.castSucc) := by
      rw [Fin.sum_univ_castSucc, hl, sub_self, zero_mul, add_zero]
      exact Finset.sum_congr rfl fun m _ => by rw [ha]
    unfold second
    simp only [mul_add]
    rw [Finset.sum_add_distrib, e1, e2, e3, ← Finset.sum_add_distrib]
    exact Finset.sum_congr rfl fun m _ => by ring

theorem sum_second_comm {n : ℕ} (x y : Fin n → ℝ) : ∑ m, x m * second y m = ∑ m, second x m * y m := by
  rw [sum_second]
  have : ∑ m, second x m * y m = ∑ m, y m * second x m := Finset.sum_congr rfl fun m _ => by ring
  rw [this, sum_second]
  exact Finset.sum_congr rfl fun m _ => by ring

/-- the rows of the transform are eigenvectors of the second difference -/
theorem second_cos (n : ℕ) (k : ℕ) (m : Fin n) :
    second (fun m : Fin n => cos (π * k * (2 * (m : ℕ) + 1) / (2 * n))) m =
      Axis.eigenvalue n k * cos (π * k * (2 * (m : ℕ) + 1) / (2 * n)) := by
  have hn0 : 0 < n := by have := m.isLt; omega
  have hn : (0 : ℝ) < n := by exact_mod_cast hn0
  set t : ℝ := π * k * (2 * (m : ℕ) + 1) / (2 * n) with ht
  set d : ℝ := π * k / n with hd
  have hb : cos (π * k * (2 * ((before m).val : ℝ) + 1) / (2 * n)) = cos (t - d) := by
    by_cases h : m.val = 0
    · have : (before m).val = 0 := by simp [before, h]
      rw [this, ht, hd, h, ← cos_neg]
      congr 1
      field_simp
      push_cast
      ring
    · have : ((before m).val : ℝ) = m.val - 1 := by
        simp only [before]
        rw [Nat.cast_sub (by omega)]; norm_num
      rw [this]
      congr 1
      rw [ht, hd]
      field_simp
      ring
  have ha : cos (π * k * (2 * ((after m).val : ℝ) + 1) / (2 * n)) = cos (t + d) := by
    by_cases h : m.val + 1 < n
    · have : ((after m).val : ℝ) = m.val + 1 := by
        unfold after; rw [dif_pos h]; push_cast; rfl
      rw [this]
      congr 1
      rw [ht, hd]
      field_simp
      ring
    · have hm : ((m.val : ℕ) : ℝ) = n - 1 := by
        have : m.val = n - 1 := by have := m.isLt; omega
        rw [this, Nat.cast_sub (by omega)]; norm_num
      have : after m = m := by unfold after; rw [dif_neg h]
      rw [this, ← ht]
      have e : t + d = (k : ℕ) * (2 * π) - t := by
        rw [ht, hd, hm]
        field_simp
        ring
      rw [e, cos_nat_mul_two_pi_sub]
  show (cos t - cos (π * k * (2 * ((before m).val : ℝ) + 1) / (2 * n))) + (cos t - cos (π * k * (2 * ((after m).val : ℝ) + 1) / (2 * n))) = _
  rw [hb, ha, cos_sub, cos_add]
  unfold Axis.eigenvalue
  rw [← hd]
  ring

/-! ### Matrices that change to a basis of eigenvectors -/

/-- `C` is an orthonormal change of basis that makes `L` diagonal, with the numbers `lam`, and `L` vanishes on constants -/
structure IsSpectral {ι : Type} [Fintype ι] [DecidableEq ι] (C L : Matrix ι ι ℝ) (lam : ι → ℝ) : Prop where
  orth : C * Cᵀ = 1
  eig : C * L = Matrix.diagonal lam * C
  nonneg : ∀ i, 0 ≤ lam i
  ones : L *ᵥ (fun _ => 1) = 0

theorem isSpectral_dct (n : ℕ) : IsSpectral (dctMatrix n) (secondMatrix n) (fun k => Axis.eigenvalue n k) where
  orth := dctMatrix_orth n
  eig := by
    ext k j
    rw [Matrix.diagonal_mul]
    have h := sum_second_comm (dctMatrix n k) (fun i => if i = j then 1 else 0)
    have h1 : second (fun i : Fin n => if i = j then (1 : ℝ) else 0) = fun m => secondMatrix n m j := by
      rw [second_eq]
      funext m
      simp [mulVec, dotProduct]
    rw [h1] at h
    rw [Matrix.mul_apply, h]
    simp only [mul_ite, mul_one, mul_zero, Finset.sum_ite_eq', Finset.mem_univ, if_true]
    have h2 := second_cos n k j
    unfold second at h2 ⊢
    simp only [dctMatrix, Matrix.of_apply]
    rw [← mul_sub, ← mul_sub, ← mul_add, h2]
    ring
  nonneg k := (Axis.eigenvalue_nonneg n k).1
  ones := by
    rw [← second_eq]
    funext m
    simp [second]

theorem IsSpectral.prod {ι κ : Type} [Fintype ι] [DecidableEq ι] [Fintype κ] [DecidableEq κ] {C L : Matrix ι ι ℝ} {lam : ι → ℝ}
    {C' L' : Matrix κ κ ℝ} {lam' : κ → ℝ} (h : IsSpectral C L lam) (h' : IsSpectral C' L' lam') :
    IsSpectral (C ⊗ₖ C') (L ⊗ₖ (1 : Matrix κ κ ℝ) + (1 : Matrix ι ι ℝ) ⊗ₖ L') (fun p => lam p.1 + lam' p.2) where
  orth := by
    rw [show (C ⊗ₖ C')ᵀ = Cᵀ ⊗ₖ C'ᵀ from (Matrix.kroneckerMap_transpose _ _ _).symm, ← Matrix.mul_kronecker_mul, h.orth, h'.orth,
      Matrix.one_kronecker_one]
  eig := by
    rw [mul_add, ← Matrix.mul_kronecker_mul, ← Matrix.mul_kronecker_mul, mul_one, mul_one, h.eig, h'.eig]
    have hd : Matrix.diagonal (fun p : ι × κ => lam p.1 + lam' p.2) =
        Matrix.diagonal lam ⊗ₖ (1 : Matrix κ κ ℝ) + (1 : Matrix ι ι ℝ) ⊗ₖ Matrix.diagonal lam' := by
      rw [← Matrix.diagonal_one, ← Matrix.diagonal_one, Matrix.diagonal_kronecker_diagonal, Matrix.diagonal_kronecker_diagonal,
        Matrix.diagonal_add]
      simp
    rw [hd, add_mul, ← Matrix.mul_kronecker_mul, ← Matrix.mul_kronecker_mul, one_mul, one_mul]
  nonneg p := add_nonneg (h.nonneg _) (h'.nonneg _)
  ones := by
    funext p
    have h1 := congrFun h.ones p.1
    have h2 := congrFun h'.ones p.2
    simp only [mulVec, dotProduct, mul_one, Pi.zero_apply] at h1 h2 ⊢
    simp only [Matrix.add_apply, Matrix.kroneckerMap_apply, Finset.sum_add_distrib, Fintype.sum_prod_type]
    rw [← Finset.sum_mul_sum, ← Finset.sum_mul_sum, h1, h2]
    simp

section Spectral
variable {ι : Type} [Fintype ι] [DecidableEq ι] {C L : Matrix ι ι ℝ} {lam : ι → ℝ}

theorem IsSpectral.inner (h : IsSpectral C L lam) (x y : ι → ℝ) : ∑ i, (C *ᵥ x) i * (C *ᵥ y) i = ∑ i, x i * y i := by
  show (C *ᵥ x) ⬝ᵥ (C *ᵥ y) = x ⬝ᵥ y
  rw [Matrix.dotProduct_mulVec, Matrix.vecMul_mulVec, ← Matrix.dotProduct_mulVec, mul_eq_one_comm.mp h.orth, Matrix.one_mulVec]

theorem IsSpectral.left (h : IsSpectral C L lam) (x : ι → ℝ) : Cᵀ *ᵥ (C *ᵥ x) = x := by
  rw [Matrix.mulVec_mulVec, mul_eq_one_comm.mp h.orth, Matrix.one_mulVec]

theorem IsSpectral.right (h : IsSpectral C L lam) (x : ι → ℝ) : C *ᵥ (Cᵀ *ᵥ x) = x := by
  rw [Matrix.mulVec_mulVec, h.orth, Matrix.one_mulVec]

theorem IsSpectral.apply (h : IsSpectral C L lam) (x : ι → ℝ) (i : ι) : (C *ᵥ (L *ᵥ x)) i = lam i * (C *ᵥ x) i := by
  rw [Matrix.mulVec_mulVec, h.eig, ← Matrix.mulVec_mulVec, Matrix.mulVec_diagonal]

theorem IsSpectral.const (h : IsSpectral C L lam) (c : ℝ) (i : ι) (hi : lam i ≠ 0) : (C *ᵥ (fun _ => c)) i = 0 := by
  have h1 := h.apply (fun _ => c) i
  have h2 : L *ᵥ (fun _ => c) = 0 := by
    have : (fun _ : ι => c) = c • (fun _ : ι => (1 : ℝ)) := by funext j; simp
    rw [this, Matrix.mulVec_smul, h.ones, smul_zero]
  rw [h2, Matrix.mulVec_zero] at h1
  rcases mul_eq_zero.mp h1.symm with h3 | h3
  · exact absurd h3 hi
  · exact h3

/-- the penalty of order 1 -/
theorem IsSpectral.rough1 (h : IsSpectral C L lam) (x : ι → ℝ) : ∑ i, lam i ^ 1 * (C *ᵥ x) i ^ 2 = ∑ i, x i * (L *ᵥ x) i := by
  rw [← h.inner x (L *ᵥ x)]
  exact Finset.sum_congr rfl fun i _ => by rw [h.apply]; ring

/-- the penalty of order 2 -/
theorem IsSpectral.rough2 (h : IsSpectral C L lam) (x : ι → ℝ) : ∑ i, lam i ^ 2 * (C *ᵥ x) i ^ 2 = ∑ i, (L *ᵥ x) i ^ 2 := by
  have := h.inner (L *ᵥ x) (L *ᵥ x)
  simp only [← pow_two] at this
  rw [← this]
  exact Finset.sum_congr rfl fun i _ => by rw [h.apply]; ring

/-- an environment that transforms by a matrix, elements numbered by `e` -/
structure Uses {n : ℕ} (E : Env n) (e : ι ≃ Fin n) (C : Matrix ι ι ℝ) (lam : ι → ℝ) : Prop where
  dct : ∀ x k, E.dct x k = (C *ᵥ (fun i => x (e i))) (e.symm k)
  idct : ∀ x k, E.idct x k = (Cᵀ *ᵥ (fun i => x (e i))) (e.symm k)
  lam : ∀ k, E.lam k = lam (e.symm k)

theorem IsSpectral.isDct (h : IsSpectral C L lam) {n : ℕ} {E : Env n} {e : ι ≃ Fin n} (hE : Uses E e C lam) : IsDct E where
  add x y := by
    funext k
    rw [hE.dct, hE.dct, hE.dct]
    have : (fun i => x (e i) + y (e i)) = (fun i => x (e i)) + (fun i => y (e i)) := rfl
    rw [this, Matrix.mulVec_add]
    rfl
  inner x y := by
    have h1 : ∑ k, E.dct x k * E.dct y k = ∑ i, E.dct x (e i) * E.dct y (e i) := (Equiv.sum_comp e (fun k => E.dct x k * E.dct y k)).symm
    have h2 : ∑ k, x k * y k = ∑ i, x (e i) * y (e i) := (Equiv.sum_comp e (fun k => x k * y k)).symm
    rw [h1, h2, ← h.inner (fun i => x (e i)) (fun i => y (e i))]
    exact Finset.sum_congr rfl fun i _ => by rw [hE.dct, hE.dct, Equiv.symm_apply_apply]
  left x := by
    funext k
    rw [hE.idct]
    have : (fun i => E.dct x (e i)) = C *ᵥ (fun i => x (e i)) := by
      funext i; rw [hE.dct, Equiv.symm_apply_apply]
    rw [this, h.left, Equiv.apply_symm_apply]
  right x := by
    funext k
    rw [hE.dct]
    have : (fun i => E.idct x (e i)) = Cᵀ *ᵥ (fun i => x (e i)) := by
      funext i; rw [hE.idct, Equiv.symm_apply_apply]
    rw [this, h.right, Equiv.apply_symm_apply]
  nonneg k := by rw [hE.lam]; exact h.nonneg _
  const c k hk := by
    rw [hE.dct]
    rw [hE.lam] at hk
    exact h.const c _ hk

/-- the objective in terms of `L` -/
theorem IsSpectral.objective (h : IsSpectral C L lam) {n : ℕ} {E : Env n} {e : ι ≃ Fin n} (hE : Uses E e C lam) (w y : Fin n → ℝ) (s : ℝ)
    (x : Fin n → ℝ) :
    Verif.Smoothn.objective E 1 w y s x = ∑ i, w i * (y i - x i) ^ 2 + s * ∑ i, x (e i) * (L *ᵥ (fun i => x (e i))) i ∧
    Verif.Smoothn.objective E 2 w y s x = ∑ i, w i * (y i - x i) ^ 2 + s * ∑ i, (L *ᵥ (fun i => x (e i))) i ^ 2 := by
  have key : ∀ o : ℕ, ∑ k, E.lam k ^ o * E.dct x k ^ 2 = ∑ i, lam i ^ o * (C *ᵥ (fun i => x (e i))) i ^ 2 := by
    intro o
    rw [← Equiv.sum_comp e (fun k => E.lam k ^ o * E.dct x k ^ 2)]
    exact Finset.sum_congr rfl fun i _ => by rw [hE.dct, hE.lam, Equiv.symm_apply_apply]
  unfold Verif.Smoothn.objective
  rw [key, key, h.rough1, h.rough2]
  exact ⟨rfl, rfl⟩

end Spectral

/-! ### One, two and three dimensions -/

/-- the matrix of `dct` or `idct` -/
def mat (inverse : Bool) (n : ℕ) : Matrix (Fin n) (Fin n) ℝ := if inverse then (dctMatrix n)ᵀ else dctMatrix n

theorem func1_eq (inverse : Bool) {n : ℕ} : (func1 inverse : (Fin n → ℝ) → Fin n → ℝ) = fun x => mat inverse n *ᵥ x := by
  funext x
  unfold func1 mat
  cases inverse
  · simp [dct1_eq]
  · simp [idct1_eq]

theorem mat_mul (inverse : Bool) (n : ℕ) : mat (!inverse) n * mat inverse n = 1 := by
  cases inverse
  · exact mul_eq_one_comm.mp (dctMatrix_orth n)
  · exact dctMatrix_orth n

theorem along_kron {a b : ℕ} (A : Matrix (Fin a) (Fin a) ℝ) (B : Matrix (Fin b) (Fin b) ℝ) (x : Fin a → Fin b → ℝ) (p : Fin a × Fin b) :
    along1 (fun v => B *ᵥ v) (along0 (fun v => A *ᵥ v) x) p.1 p.2 = ((A ⊗ₖ B) *ᵥ (fun q => x q.1 q.2)) p := by
  simp only [along1, along0, mulVec, dotProduct, Matrix.kroneckerMap_apply, Fintype.sum_prod_type, Finset.mul_sum]
  rw [Finset.sum_comm]
  exact Finset.sum_congr rfl fun i _ => Finset.sum_congr rfl fun j _ => by ring

theorem along_kron3 {a b c : ℕ} (A : Matrix (Fin a) (Fin a) ℝ) (B : Matrix (Fin b) (Fin b) ℝ) (D : Matrix (Fin c) (Fin c) ℝ)
    (x : Fin a → Fin b → Fin c → ℝ) (p : Fin a × Fin b × Fin c) :
    along2' (fun v => D *ᵥ v) (along1' (fun v => B *ᵥ v) (along0' (fun v => A *ᵥ v) x)) p.1 p.2.1 p.2.2 =
      ((A ⊗ₖ (B ⊗ₖ D)) *ᵥ (fun q => x q.1 q.2.1 q.2.2)) p := by
  simp only [along2', along1', along0', mulVec, dotProduct, Matrix.kroneckerMap_apply, Fintype.sum_prod_type, Finset.mul_sum]
  rw [Finset.sum_comm]
  conv_rhs => rw [Finset.sum_comm]
  refine Finset.sum_congr rfl fun j _ => ?_
  rw [Finset.sum_comm]
  exact Finset.sum_congr rfl fun i _ => Finset.sum_congr rfl fun k _ => by ring

theorem dctNd2_eq (inverse : Bool) {a b : ℕ} (x : Fin a → Fin b → ℝ) (p : Fin a × Fin b) :
    dctNd2 inverse x p.1 p.2 = ((mat inverse a ⊗ₖ mat inverse b) *ᵥ (fun q => x q.1 q.2)) p := by
  unfold dctNd2
  rw [func1_eq, func1_eq, along_kron]

theorem dctNd3_eq (inverse : Bool) {a b c : ℕ} (x : Fin a → Fin b → Fin c → ℝ) (p : Fin a × Fin b × Fin c) :
    dctNd3 inverse x p.1 p.2.1 p.2.2 = ((mat inverse a ⊗ₖ (mat inverse b ⊗ₖ mat inverse c)) *ᵥ (fun q => x q.1 q.2.1 q.2.2)) p := by
  unfold dctNd3
  rw [func1_eq, func1_eq, func1_eq, along_kron3]

/-- **C88.** On arrays of one, two and three dimensions of any size, `dctNd` with `inverse=True` undoes `dctNd`, and the other way round; more
dimensions raise. -/
theorem dctNd_inverse (inverse : Bool) (x : Arr) :
    (dctNd inverse x).bind (dctNd !inverse) = match x with
      | .more => none
      | x => some x := by
  cases x with
  | more => rfl
  | one x =>
    show some (Arr.one (func1 (!inverse) (func1 inverse x))) = _
    rw [func1_eq, func1_eq]
    simp only
    rw [Matrix.mulVec_mulVec, mat_mul, Matrix.one_mulVec]
  | @two a b x =>
    show some (Arr.two (dctNd2 (!inverse) (dctNd2 inverse x))) = _
    have h : dctNd2 (!inverse) (dctNd2 inverse x) = x := by
      funext i j
      rw [dctNd2_eq (!inverse) _ (i, j)]
      have : (fun q : Fin a × Fin b => dctNd2 inverse x q.1 q.2) = (mat inverse a ⊗ₖ mat inverse b) *ᵥ (fun q => x q.1 q.2) :=
        funext fun q => dctNd2_eq inverse x q
      rw [this, Matrix.mulVec_mulVec, ← Matrix.mul_kronecker_mul, mat_mul, mat_mul, Matrix.one_kronecker_one, Matrix.one_mulVec]
    rw [h]
  | @three a b c x =>
    show some (Arr.three (dctNd3 (!inverse) (dctNd3 inverse x))) = _
    have h : dctNd3 (!inverse) (dctNd3 inverse x) = x := by
      funext i j k
      rw [dctNd3_eq (!inverse) _ (i, j, k)]
      have : (fun q : Fin a × Fin b × Fin c => dctNd3 inverse x q.1 q.2.1 q.2.2) =
          (mat inverse a ⊗ₖ (mat inverse b ⊗ₖ mat inverse c)) *ᵥ (fun q => x q.1 q.2.1 q.2.2) :=
        funext fun q => dctNd3_eq inverse x q
      rw [this, Matrix.mulVec_mulVec, ← Matrix.mul_kronecker_mul, ← Matrix.mul_kronecker_mul, mat_mul, mat_mul, mat_mul,
        Matrix.one_kronecker_one, Matrix.one_kronecker_one, Matrix.one_mulVec]
    rw [h]

/-- the sum of the squares of all elements -/
def energy : Arr → ℝ
  | .one x => ∑ i, x i ^ 2
  | .two x => ∑ i, ∑ j, x i j ^ 2
  | .three x => ∑ i, ∑ j, ∑ k, x i j k ^ 2
  | .more => 0

theorem energy_mul {ι : Type} [Fintype ι] [DecidableEq ι] (M M' : Matrix ι ι ℝ) (h : M' * M = 1) (h' : M' = Mᵀ) (x : ι → ℝ) :
    ∑ i, (M *ᵥ x) i ^ 2 = ∑ i, x i ^ 2 := by
  have : (M *ᵥ x) ⬝ᵥ (M *ᵥ x) = x ⬝ᵥ x := by
    rw [Matrix.dotProduct_mulVec, Matrix.vecMul_mulVec, ← Matrix.dotProduct_mulVec, ← h', h, Matrix.one_mulVec]
  simpa [dotProduct, pow_two] using this

theorem mat_transpose (inverse : Bool) (n : ℕ) : mat (!inverse) n = (mat inverse n)ᵀ := by cases inverse <;> simp [mat]

/-- **C88.** The transform and its inverse keep the sum of squares. -/
theorem dctNd_energy (inverse : Bool) (x y : Arr) (h : dctNd inverse x = some y) : energy y = energy x := by
  cases x with
  | more => simp [dctNd] at h
  | one x =>
    simp only [dctNd, Option.some.injEq] at h
    subst h
    show ∑ i, dctNd1 inverse x i ^ 2 = _
    unfold dctNd1
    rw [func1_eq]
    exact energy_mul _ _ (mat_mul inverse _) (mat_transpose inverse _) x
  | @two a b x =>
    simp only [dctNd, Option.some.injEq] at h
    subst h
    have h1 := energy_mul (mat inverse a ⊗ₖ mat inverse b) (mat (!inverse) a ⊗ₖ mat (!inverse) b)
      (by rw [← Matrix.mul_kronecker_mul, mat_mul, mat_mul, Matrix.one_kronecker_one])
      (by rw [mat_transpose, mat_transpose]; exact Matrix.kroneckerMap_transpose _ _ _) (fun q => x q.1 q.2)
    rw [Fintype.sum_prod_type, Fintype.sum_prod_type] at h1
    simp only [← dctNd2_eq] at h1
    exact h1
  | @three a b c x =>
    simp only [dctNd, Option.some.injEq] at h
    subst h
    have h1 := energy_mul (mat inverse a ⊗ₖ (mat inverse b ⊗ₖ mat inverse c)) (mat (!inverse) a ⊗ₖ (mat (!inverse) b ⊗ₖ mat (!inverse) c))
      (by rw [← Matrix.mul_kronecker_mul, ← Matrix.mul_kronecker_mul, mat_mul, mat_mul, mat_mul, Matrix.one_kronecker_one,
        Matrix.one_kronecker_one])
      (by rw [mat_transpose, mat_transpose, mat_transpose, Matrix.kroneckerMap_transpose, Matrix.kroneckerMap_transpose])
      (fun q => x q.1 q.2.1 q.2.2)
    simp only [Fintype.sum_prod_type, ← dctNd3_eq] at h1
    exact h1

/-- **C88.** A constant array has only the first coefficient: `c * sqrt(n)`, with `n` elements. -/
theorem dctNd1_const (n : ℕ) (c : ℝ) (k : Fin n) : dctNd1 false (fun _ : Fin n => c) k = if k.val = 0 then c * √n else 0 := by
  have hn : (0 : ℝ) < n := by exact_mod_cast (by have := k.isLt; omega : 0 < n)
  unfold dctNd1
  rw [func1_eq]
  show ((mat false n) *ᵥ fun _ => c) k = _
  by_cases h : k.val = 0
  · rw [if_pos h]
    have hrow : ∀ m, dctMatrix n k m = √(1 / n) := by
      intro m
      simp [dctMatrix, factor, h]
    show ∑ m, dctMatrix n k m * c = _
    simp only [hrow]
    rw [Finset.sum_const, Finset.card_univ, Fintype.card_fin, nsmul_eq_mul, sqrt_div zero_le_one, sqrt_one]
    field_simp
    rw [sq_sqrt hn.le]
  · rw [if_neg h]
    refine (isSpectral_dct n).const c k ?_
    unfold Axis.eigenvalue
    have : cos (π * (k : ℕ) / n) < 1 := by
      rw [← cos_zero]
      have hk : (0 : ℝ) < (k : ℕ) := by exact_mod_cast Nat.pos_of_ne_zero h
      have hk' : ((k : ℕ) : ℝ) < n := by exact_mod_cast k.isLt
      refine cos_lt_cos_of_nonneg_of_le_pi (le_refl _) ?_ (by positivity)
      rw [div_le_iff₀ hn]
      nlinarith [pi_pos]
    linarith

theorem uses1 (n : ℕ) (near : (Fin n → Bool) → Fin n → Fin n) (fmin : (ℝ → ℝ) → ℝ) :
    Uses (env1 n near fmin) (Equiv.refl _) (dctMatrix n) (fun k => Axis.eigenvalue n k) where
  dct x k := by
    show func1 false x k = _
    rw [func1_eq]; rfl
  idct x k := by
    show func1 true x k = _
    rw [func1_eq]; rfl
  lam _ := rfl

theorem uses2 (a b : ℕ) (near : (Fin (a * b) → Bool) → Fin (a * b) → Fin (a * b)) (fmin : (ℝ → ℝ) → ℝ) :
    Uses (env2 a b near fmin) finProdFinEquiv (dctMatrix a ⊗ₖ dctMatrix b) (fun p => Axis.eigenvalue a p.1 + Axis.eigenvalue b p.2) where
  dct x k := dctNd2_eq false _ _
  idct x k := by
    rw [← Matrix.kroneckerMap_transpose]
    exact dctNd2_eq true _ _
  lam _ := rfl

/-- the numbering of the elements of a three-dimensional array -/
def equiv3 (a b c : ℕ) : Fin a × Fin b × Fin c ≃ Fin (a * (b * c)) := (Equiv.prodCongr (Equiv.refl _) finProdFinEquiv).trans finProdFinEquiv

theorem uses3 (a b c : ℕ) (near : (Fin (a * (b * c)) → Bool) → Fin (a * (b * c)) → Fin (a * (b * c))) (fmin : (ℝ → ℝ) → ℝ) :
    Uses (env3 a b c near fmin) (equiv3 a b c) (dctMatrix a ⊗ₖ (dctMatrix b ⊗ₖ dctMatrix c))
      (fun p => Axis.eigenvalue a p.1 + (Axis.eigenvalue b p.2.1 + Axis.eigenvalue c p.2.2)) where
  dct x k := dctNd3_eq false _ ((equiv3 a b c).symm k)
  idct x k := by
    rw [← Matrix.kroneckerMap_transpose, ← Matrix.kroneckerMap_transpose]
    exact dctNd3_eq true _ ((equiv3 a b c).symm k)
  lam k := add_assoc _ _ _

/-- **C88.** What the theorems on `smoothn` assume of the transform holds for series, images and cubes of any size. -/
theorem isDct_env1 (n : ℕ) (near fmin) : IsDct (env1 n near fmin) := (isSpectral_dct n).isDct (uses1 n near fmin)

theorem isDct_env2 (a b : ℕ) (near fmin) : IsDct (env2 a b near fmin) := ((isSpectral_dct a).prod (isSpectral_dct b)).isDct (uses2 a b near fmin)

theorem isDct_env3 (a b c : ℕ) (near fmin) : IsDct (env3 a b c near fmin) :=
  ((isSpectral_dct a).prod ((isSpectral_dct b).prod (isSpectral_dct c))).isDct (uses3 a b c near fmin)

theorem smoothing_along {a b : ℕ} (x : Fin a × Fin b → ℝ) (p : Fin a × Fin b) :
    ((secondMatrix a ⊗ₖ (1 : Matrix (Fin b) (Fin b) ℝ) + (1 : Matrix (Fin a) (Fin a) ℝ) ⊗ₖ secondMatrix b) *ᵥ x) p =
      second (fun i => x (i, p.2)) p.1 + second (fun j => x (p.1, j)) p.2 := by
  rw [second_eq, second_eq, Matrix.add_mulVec, Pi.add_apply]
  congr 1
  · simp [mulVec, dotProduct, Fintype.sum_prod_type, Matrix.one_apply]
  · simp [mulVec, dotProduct, Fintype.sum_prod_type, Matrix.one_apply]

theorem kron_right {ι κ : Type} [Fintype ι] [DecidableEq ι] [Fintype κ] [DecidableEq κ] (M : Matrix κ κ ℝ) (x : ι × κ → ℝ) (p : ι × κ) :
    (((1 : Matrix ι ι ℝ) ⊗ₖ M) *ᵥ x) p = (M *ᵥ (fun j => x (p.1, j))) p.2 := by
  simp [mulVec, dotProduct, Fintype.sum_prod_type, Matrix.one_apply]

theorem kron_left {ι κ : Type} [Fintype ι] [DecidableEq ι] [Fintype κ] [DecidableEq κ] (M : Matrix ι ι ℝ) (x : ι × κ → ℝ) (p : ι × κ) :
    ((M ⊗ₖ (1 : Matrix κ κ ℝ)) *ᵥ x) p = (M *ᵥ (fun i => x (i, p.2))) p.1 := by
  simp [mulVec, dotProduct, Fintype.sum_prod_type, Matrix.one_apply]

/-- the roughness of a series: squared differences of neighbours for order 1, squared second differences for order 2 -/
def rough1 (order : ℕ) {n : ℕ} (x : Fin n → ℝ) : ℝ :=
  if order = 1 then ∑ m, (x (after m) - x m) ^ 2 else ∑ m, second x m ^ 2

/-- the roughness of an image: neighbours along both axes; the second differences of both axes are added -/
def rough2 (order : ℕ) {a b : ℕ} (x : Fin a → Fin b → ℝ) : ℝ :=
  if order = 1 then ∑ i, ∑ j, ((x (after i) j - x i j) ^ 2 + (x i (after j) - x i j) ^ 2)
  else ∑ i, ∑ j, (second (fun i' => x i' j) i + second (fun j' => x i j') j) ^ 2

/-- the roughness of a cube -/
def rough3 (order : ℕ) {a b c : ℕ} (x : Fin a → Fin b → Fin c → ℝ) : ℝ :=
  if order = 1 then ∑ i, ∑ j, ∑ k, ((x (after i) j k - x i j k) ^ 2 + ((x i (after j) k - x i j k) ^ 2 + (x i j (after k) - x i j k) ^ 2))
  else ∑ i, ∑ j, ∑ k, (second (fun i' => x i' j k) i + (second (fun j' => x i j' k) j + second (fun k' => x i j k') k)) ^ 2

theorem self_second {n : ℕ} (x : Fin n → ℝ) : ∑ m, x m * second x m = ∑ m, (x (after m) - x m) ^ 2 := by
  rw [sum_second]
  exact Finset.sum_congr rfl fun m _ => by ring

/-- **C88.** The objective that `smoothn` minimises, for a series: squared deviations plus `s` times the roughness. -/
theorem objective_series (n : ℕ) (near fmin) (order : ℕ) (ho : order = 1 ∨ order = 2) (w y : Fin n → ℝ) (s : ℝ) (x : Fin n → ℝ) :
    objective (env1 n near fmin) order w y s x = ∑ i, w i * (y i - x i) ^ 2 + s * rough1 order x := by
  have h := (isSpectral_dct n).objective (uses1 n near fmin) w y s x
  unfold rough1
  rcases ho with rfl | rfl
  · rw [if_pos rfl, h.1, ← self_second, second_eq]; rfl
  · rw [if_neg (by decide), h.2, second_eq]; rfl

/-- **C88.** The same for an image. -/
theorem objective_image (a b : ℕ) (near fmin) (order : ℕ) (ho : order = 1 ∨ order = 2) (w y : Fin (a * b) → ℝ) (s : ℝ) (x : Fin (a * b) → ℝ) :
    objective (env2 a b near fmin) order w y s x = ∑ i, w i * (y i - x i) ^ 2 + s * rough2 order (arr2 x) := by
  have h := ((isSpectral_dct a).prod (isSpectral_dct b)).objective (uses2 a b near fmin) w y s x
  unfold rough2
  rcases ho with rfl | rfl
  · rw [if_pos rfl, h.1]
    congr 2
    rw [Fintype.sum_prod_type]
    simp only [smoothing_along, mul_add, Finset.sum_add_distrib]
    congr 1
    · rw [Finset.sum_comm]
      conv_rhs => rw [Finset.sum_comm]
      exact Finset.sum_congr rfl fun j _ => self_second (fun i => x (finProdFinEquiv (i, j)))
    · exact Finset.sum_congr rfl fun i _ => self_second (fun j => x (finProdFinEquiv (i, j)))
  · rw [if_neg (by decide), h.2]
    congr 2
    rw [Fintype.sum_prod_type]
    simp only [smoothing_along]
    rfl

/-- **C88.** The same for a cube. -/
theorem objective_cube (a b c : ℕ) (near fmin) (order : ℕ) (ho : order = 1 ∨ order = 2) (w y : Fin (a * (b * c)) → ℝ) (s : ℝ)
    (x : Fin (a * (b * c)) → ℝ) :
    objective (env3 a b c near fmin) order w y s x = ∑ i, w i * (y i - x i) ^ 2 + s * rough3 order (arr3 x) := by
  have h := ((isSpectral_dct a).prod ((isSpectral_dct b).prod (isSpectral_dct c))).objective (uses3 a b c near fmin) w y s x
  have hL : ∀ p : Fin a × Fin b × Fin c, ((secondMatrix a ⊗ₖ (1 : Matrix (Fin b × Fin c) (Fin b × Fin c) ℝ) + (1 : Matrix (Fin a) (Fin a) ℝ) ⊗ₖ
      (secondMatrix b ⊗ₖ (1 : Matrix (Fin c) (Fin c) ℝ) + (1 : Matrix (Fin b) (Fin b) ℝ) ⊗ₖ secondMatrix c)) *ᵥ (fun i => x (equiv3 a b c i))) p =
      second (fun i => arr3 x i p.2.1 p.2.2) p.1 + (second (fun j => arr3 x p.1 j p.2.2) p.2.1 + second (fun k => arr3 x p.1 p.2.1 k) p.2.2) := by
    intro p
    rw [Matrix.add_mulVec, Pi.add_apply, kron_left, kron_right, smoothing_along, ← second_eq]
    rfl
  have hx : ∀ p : Fin a × Fin b × Fin c, x (equiv3 a b c p) = arr3 x p.1 p.2.1 p.2.2 := fun _ => rfl
  unfold rough3
  rcases ho with rfl | rfl
  · rw [if_pos rfl, h.1]
    congr 2
    rw [Finset.sum_congr rfl fun p _ => by rw [hL p, hx p]]
    simp only [Fintype.sum_prod_type, mul_add, Finset.sum_add_distrib]
    congr 1
    · have e1 : ∀ f : Fin a → Fin b → Fin c → ℝ, ∑ i, ∑ j, ∑ k, f i j k = ∑ j, ∑ k, ∑ i, f i j k := by
        intro f
        rw [Finset.sum_comm]
        exact Finset.sum_congr rfl fun j _ => Finset.sum_comm
      rw [e1, e1]
      exact Finset.sum_congr rfl fun j _ => Finset.sum_congr rfl fun k _ => self_second (fun i => arr3 x i j k)
    · congr 1
      · refine Finset.sum_congr rfl fun i _ => ?_
        rw [Finset.sum_comm]
        conv_rhs => rw [Finset.sum_comm]
        exact Finset.sum_congr rfl fun k _ => self_second (fun j => arr3 x i j k)
      · exact Finset.sum_congr rfl fun i _ => Finset.sum_congr rfl fun j _ => self_second (fun k => arr3 x i j k)
  · rw [if_neg (by decide), h.2]
    congr 2
    simp only [hL, Fintype.sum_prod_type]

/-- `z` is the only array with the smallest squared deviations from `y` plus `s` times roughness -/
def OnlySmoothest {n : ℕ} (rough : (Fin n → ℝ) → ℝ) (y : Fin n → ℝ) (s : ℝ) (z : Fin n → ℝ) : Prop :=
  ∀ x, x ≠ z → ∑ i, (y i - z i) ^ 2 + s * rough z < ∑ i, (y i - x i) ^ 2 + s * rough x

/-- **C88.** `smoothn` of a complete series: the result is the only series with the smallest sum of squared deviations plus `s` times the squared
(second) differences. -/
theorem smoothn_series (n : ℕ) (near fmin) (a : Args n) (want : Wanted) (data : Fin n → Option ℝ) (y : Fin n → ℝ) (hn : 2 ≤ n)
    (hc : Complete a data y) (hw : a.weights = none) (hi : a.initGuess = none) (hr : a.robust = false)
    (ho : a.order = 1 ∨ a.order = 2) (hm : 1 ≤ a.maxIter) (ht : 0 ≤ a.tolZ ∧ a.tolZ < 1) (hs : ∀ s, a.smooth = some s → 0 ≤ s) :
    ∃ r z sm, smoothn (env1 n near fmin) a want data = .ok r ∧ r.exitFlag = 1 ∧ r.smooth = some sm ∧ 0 ≤ sm ∧
      (∀ s, a.smooth = some s → sm = s) ∧ r.z = some (fun i => some (z i)) ∧ OnlySmoothest (rough1 a.order) y sm z := by
  obtain ⟨r, z, sm, h1, -, h3, h4, h5, h6, h7, h8⟩ := smoothn_complete (isDct_env1 n near fmin) a want data y hn hc hw hi hr ho hm ht hs
  refine ⟨r, z, sm, h1, h3, h4, h5, h6, h7, fun x hx => ?_⟩
  have := h8 x hx
  rw [objective_series _ _ _ _ ho, objective_series _ _ _ _ ho] at this
  simpa using this

/-- **C88.** The same for a complete image. -/
theorem smoothn_image (p q : ℕ) (near fmin) (a : Args (p * q)) (want : Wanted) (data : Fin (p * q) → Option ℝ) (y : Fin (p * q) → ℝ)
    (hn : 2 ≤ p * q) (hc : Complete a data y) (hw : a.weights = none) (hi : a.initGuess = none) (hr : a.robust = false)
    (ho : a.order = 1 ∨ a.order = 2) (hm : 1 ≤ a.maxIter) (ht : 0 ≤ a.tolZ ∧ a.tolZ < 1) (hs : ∀ s, a.smooth = some s → 0 ≤ s) :
    ∃ r z sm, smoothn (env2 p q near fmin) a want data = .ok r ∧ r.exitFlag = 1 ∧ r.smooth = some sm ∧ 0 ≤ sm ∧
      (∀ s, a.smooth = some s → sm = s) ∧ r.z = some (fun i => some (z i)) ∧ OnlySmoothest (fun x => rough2 a.order (arr2 x)) y sm z := by
  obtain ⟨r, z, sm, h1, -, h3, h4, h5, h6, h7, h8⟩ := smoothn_complete (isDct_env2 p q near fmin) a want data y hn hc hw hi hr ho hm ht hs
  refine ⟨r, z, sm, h1, h3, h4, h5, h6, h7, fun x hx => ?_⟩
  have := h8 x hx
  rw [objective_image _ _ _ _ _ ho, objective_image _ _ _ _ _ ho] at this
  simpa using this

/-- **C88.** The same for a complete cube. -/
theorem smoothn_cube (p q t : ℕ) (near fmin) (a : Args (p * (q * t))) (want : Wanted) (data : Fin (p * (q * t)) → Option ℝ)
    (y : Fin (p * (q * t)) → ℝ)
    (hn : 2 ≤ p * (q * t)) (hc : Complete a data y) (hw : a.weights = none) (hi : a.initGuess = none) (hr : a.robust = false)
    (ho : a.order = 1 ∨ a.order = 2) (hm : 1 ≤ a.maxIter) (ht : 0 ≤ a.tolZ ∧ a.tolZ < 1) (hs : ∀ s, a.smooth = some s → 0 ≤ s) :
    ∃ r z sm, smoothn (env3 p q t near fmin) a want data = .ok r ∧ r.exitFlag = 1 ∧ r.smooth = some sm ∧ 0 ≤ sm ∧
      (∀ s, a.smooth = some s → sm = s) ∧ r.z = some (fun i => some (z i)) ∧ OnlySmoothest (fun x => rough3 a.order (arr3 x)) y sm z := by
  obtain ⟨r, z, sm, h1, -, h3, h4, h5, h6, h7, h8⟩ := smoothn_complete (isDct_env3 p q t near fmin) a want data y hn hc hw hi hr ho hm ht hs
  refine ⟨r, z, sm, h1, h3, h4, h5, h6, h7, fun x hx => ?_⟩
  have := h8 x hx
  rw [objective_cube _ _ _ _ _ _ ho, objective_cube _ _ _ _ _ _ ho] at this
  simpa using this

/-- **C88.** The eigenvalues of the three environments are the array `Lambda` that `smoothn` builds with `axis=None`. -/
theorem lam_env (a b c : ℕ) (near1 fmin1 near2 fmin2 near3 fmin3) :
    (∃ L, Axis.lambdaArr [a] .all = .ok L ∧ ∀ i : Fin a, (env1 a near1 fmin1).lam i = L [i.val]) ∧
    (∃ L, Axis.lambdaArr [a, b] .all = .ok L ∧ ∀ (i : Fin a) (j : Fin b), arr2 (env2 a b near2 fmin2).lam i j = L [i.val, j.val]) ∧
    (∃ L, Axis.lambdaArr [a, b, c] .all = .ok L ∧
      ∀ (i : Fin a) (j : Fin b) (k : Fin c), arr3 (env3 a b c near3 fmin3).lam i j k = L [i.val, j.val, k.val]) := by
  refine ⟨?_, ?_, ?_⟩
  · obtain ⟨L, h, hL⟩ := Axis.axis_all [a]
    refine ⟨L, h, fun i => ?_⟩
    rw [hL [i.val] rfl (by intro d hd; have : d = 0 := by simpa using hd
                           subst this; simp)]
    simp [env1]
  · obtain ⟨L, h, hL⟩ := Axis.axis_all [a, b]
    refine ⟨L, h, fun i j => ?_⟩
    rw [hL [i.val, j.val] rfl (by intro d hd; have : d < 2 := by simpa using hd
                                  interval_cases d <;> simp)]
    simp [env2, arr2, flat2, List.range_succ]
  · obtain ⟨L, h, hL⟩ := Axis.axis_all [a, b, c]
    refine ⟨L, h, fun i j k => ?_⟩
    rw [hL [i.val, j.val, k.val] rfl (by intro d hd; have : d < 3 := by simpa using hd
                                         interval_cases d <;> simp)]
    simp [env3, arr3, flat3, List.range_succ, add_assoc]

theorem lt_kept (k n : ℕ) : k < kept n ↔ 10 * k < n := by unfold kept; omega

/-- **C88.** The first guess keeps exactly the coefficients in the first tenth of every axis. -/
theorem low_env (a b c : ℕ) (near1 fmin1 near2 fmin2 near3 fmin3) :
    (∀ i : Fin a, (env1 a near1 fmin1).low i = true ↔ 10 * i.val < a) ∧
    (∀ (i : Fin a) (j : Fin b), (env2 a b near2 fmin2).low (finProdFinEquiv (i, j)) = true ↔ 10 * i.val < a ∧ 10 * j.val < b) ∧
    (∀ (i : Fin a) (j : Fin b) (k : Fin c), (env3 a b c near3 fmin3).low (finProdFinEquiv (i, finProdFinEquiv (j, k))) = true ↔
      10 * i.val < a ∧ 10 * j.val < b ∧ 10 * k.val < c) := by
  refine ⟨?_, ?_, ?_⟩
  · intro i; simp [env1, lt_kept]
  · intro i j
    simp only [env2]
    rw [Equiv.symm_apply_apply]
    simp [lt_kept]
  · intro i j k
    simp only [env3]
    rw [Equiv.symm_apply_apply]
    simp only
    rw [Equiv.symm_apply_apply]
    simp [lt_kept]

/-! ### Examples -/

/-- a series that meets the hypotheses -/
example : ∃ r z sm, smoothn (env1 3 (fun _ i => i) (fun _ => 0)) { smooth := some 1, robust := false } {} (fun i => some ((![1, 2, 4] : Fin 3 → ℝ) i)) = .ok r ∧
    r.exitFlag = 1 ∧ r.smooth = some sm ∧ 0 ≤ sm ∧ (∀ s, some (1 : ℝ) = some s → sm = s) ∧ r.z = some (fun i => some (z i)) ∧
    OnlySmoothest (rough1 2) ![1, 2, 4] sm z :=
  smoothn_series 3 (fun _ i => i) (fun _ => 0) { smooth := some 1, robust := false } {} _ _ (by decide)
    (fun i => ⟨rfl, by simp [Unused]⟩) rfl rfl rfl (Or.inr rfl) (by decide) ⟨by norm_num, by norm_num⟩
    (by intro s h; cases h; norm_num)

/-- a rough series: `1, 2, 4` has squared second differences 1, 1 and 4, squared differences 1 and 4 -/
example : rough1 2 (![1, 2, 4] : Fin 3 → ℝ) = 6 ∧ rough1 1 (![1, 2, 4] : Fin 3 → ℝ) = 5 := by
  constructor <;> simp [rough1, second, Fin.sum_univ_three, before, after] <;> norm_num

example := smoothn_image 2 3 (fun _ i => i) (fun _ => 0) { smooth := some 1, robust := false } {} (fun i => some ((i : ℕ) : ℝ)) (fun i => ((i : ℕ) : ℝ)) (by decide)
  (fun i => ⟨rfl, by simp [Unused]⟩) rfl rfl rfl (Or.inr rfl) (by decide) ⟨by norm_num, by norm_num⟩ (by intro s h; cases h; norm_num)
example := smoothn_cube 2 3 2 (fun _ i => i) (fun _ => 0) { smooth := some 1, robust := false, order := 1 } {} (fun i => some ((i : ℕ) : ℝ)) (fun i => ((i : ℕ) : ℝ)) (by decide)
  (fun i => ⟨rfl, by simp [Unused]⟩) rfl rfl rfl (Or.inl rfl) (by decide) ⟨by norm_num, by norm_num⟩ (by intro s h; cases h; norm_num)

example (y) (h : dctNd true (.two (fun (i : Fin 2) (j : Fin 3) => (i + j : ℝ))) = some y) := dctNd_energy true (.two (fun (i : Fin 2) (j : Fin 3) => (i + j : ℝ))) y h

end Verif.Smoothn
