import Mathlib.Tactic.FieldSimp
import Mathlib.Tactic.Linarith
import Mathlib.LinearAlgebra.Matrix.DotProduct
import Mathlib.LinearAlgebra.Matrix.ToLinearEquiv
import Verif.Moments.Ineq
import Verif.Ecol.Model
import Verif.Ecol.Spec

namespace Verif.Ecol

open Matrix

variable {n : ℕ}

theorem checkIfBiased_iff (combs correlated : List (Fin n × Fin n)) :
    checkIfBiased combs correlated = true ↔ ∃ p ∈ combs, Declared correlated p.1 p.2 := by
  unfold checkIfBiased Declared
  simp only [List.any_eq_true, Bool.or_eq_true, decide_eq_true_eq]
  constructor
  · rintro ⟨c, hc, p, hp, e | e⟩
    · exact ⟨p, hp, Or.inl (e ▸ hc)⟩
    · subst e; exact ⟨_, hp, Or.inr (by simpa using hc)⟩
  · rintro ⟨p, hp, h | h⟩
    · exact ⟨p, h, p, hp, Or.inl rfl⟩
    · exact ⟨(p.2, p.1), h, p, hp, Or.inr rfl⟩

theorem mem_combinations2 {α : Type} (l : List α) (c d : α) (h : (c, d) ∈ combinations2 l) : c ∈ l ∧ d ∈ l := by
  induction l with
  | nil => simp [combinations2] at h
  | cons a l ih =>
    simp only [combinations2, List.mem_append, List.mem_map, Prod.mk.injEq, List.mem_cons] at h ⊢
    rcases h with ⟨b, hb, rfl, rfl⟩ | h
    · exact ⟨Or.inl rfl, Or.inr hb⟩
    · exact ⟨Or.inr (ih h).1, Or.inr (ih h).2⟩

theorem combinations2_ne {α : Type} (l : List α) (hn : l.Nodup) (c d : α) (h : (c, d) ∈ combinations2 l) : c ≠ d := by
  induction l with
  | nil => simp [combinations2] at h
  | cons a l ih =>
    rw [List.nodup_cons] at hn
    simp only [combinations2, List.mem_append, List.mem_map, Prod.mk.injEq] at h
    rcases h with ⟨b, hb, rfl, rfl⟩ | h
    · rintro rfl; exact hn.1 hb
    · exact ih hn.2 h

theorem combinations2_of_mem {α : Type} (l : List α) (c d : α) (hc : c ∈ l) (hd : d ∈ l) (hcd : c ≠ d) :
    (c, d) ∈ combinations2 l ∨ (d, c) ∈ combinations2 l := by
  induction l with
  | nil => simp at hc
  | cons a l ih =>
    simp only [combinations2, List.mem_append, List.mem_map, Prod.mk.injEq]
    rcases List.mem_cons.mp hc with hc | hc
    · rcases List.mem_cons.mp hd with hd | hd
      · exact absurd (hc.trans hd.symm) hcd
      · exact Or.inl (Or.inl ⟨d, hd, hc.symm, rfl⟩)
    · rcases List.mem_cons.mp hd with hd | hd
      · exact Or.inr (Or.inl ⟨c, hc, hd.symm, rfl⟩)
      · rcases ih hc hd with h | h
        · exact Or.inl (Or.inr h)
        · exact Or.inr (Or.inr h)

theorem mem_permutations2 {α : Type} [DecidableEq α] (l : List α) (c d : α) :
    (c, d) ∈ permutations2 l ↔ c ∈ l ∧ d ∈ l ∧ d ≠ c := by
  simp [permutations2]

theorem Declared.symm {correlated : List (Fin n × Fin n)} {a b : Fin n} (h : Declared correlated a b) :
    Declared correlated b a := Or.symm h

theorem mem_signalRows (cov : Fin n → Fin n → ℝ) (correlated : List (Fin n × Fin n)) (e : Eqn n correlated.length) :
    e ∈ signalRows cov correlated → ∃ a c d, c ≠ a ∧ d ≠ a ∧ c ≠ d ∧
      ¬ Declared correlated a c ∧ ¬ Declared correlated a d ∧ ¬ Declared correlated c d ∧
      e = (unitRow (.inl (.inl a)), cov a c * cov a d / cov c d) := by
  unfold signalRows
  simp only [List.mem_flatMap, List.mem_map, List.mem_filter, Bool.not_eq_true', List.mem_finRange, true_and]
  rintro ⟨a, ⟨c, d⟩, ⟨hm, hb⟩, rfl⟩
  have h1 := mem_combinations2 _ _ _ hm
  have h2 := combinations2_ne _ ((List.nodup_finRange n).filter _) _ _ hm
  simp only [List.mem_filter, List.mem_finRange, true_and, decide_eq_true_eq] at h1
  have hb' : ¬ checkIfBiased [(a, c), (a, d), (c, d)] correlated = true := by simpa using hb
  rw [checkIfBiased_iff] at hb'
  refine ⟨a, c, d, h1.1, h1.2, h2, fun h => hb' ⟨(a, c), by simp, h⟩, fun h => hb' ⟨(a, d), by simp, h⟩,
    fun h => hb' ⟨(c, d), by simp, h⟩, rfl⟩

/-- a usable triplet contributes a row -/
theorem signalRow_exists (cov : Fin n → Fin n → ℝ) (correlated : List (Fin n × Fin n)) (a c d : Fin n)
    (hc : c ≠ a) (hd : d ≠ a) (hcd : c ≠ d) (h1 : ¬ Declared correlated a c) (h2 : ¬ Declared correlated a d)
    (h3 : ¬ Declared correlated c d) : ∃ y, (unitRow (.inl (.inl a)), y) ∈ signalRows cov correlated := by
  have aux : ∀ c d : Fin n, (c, d) ∈ combinations2 ((List.finRange n).filter (fun c => c ≠ a)) →
      ¬ Declared correlated a c → ¬ Declared correlated a d → ¬ Declared correlated c d →
      ∃ y, (unitRow (.inl (.inl a)), y) ∈ signalRows cov correlated := by
    intro c d hm h1 h2 h3
    refine ⟨cov a c * cov a d / cov c d, ?_⟩
    unfold signalRows
    simp only [List.mem_flatMap, List.mem_map, List.mem_filter, Bool.not_eq_true', List.mem_finRange, true_and]
    refine ⟨a, (c, d), ⟨hm, ?_⟩, rfl⟩
    rw [← Bool.not_eq_true, checkIfBiased_iff]
    rintro ⟨p, hp, h⟩
    simp at hp
    rcases hp with rfl | rfl | rfl
    · exact h1 h
    · exact h2 h
    · exact h3 h
  have hcm : c ∈ (List.finRange n).filter (fun c => c ≠ a) := by simp [hc]
  have hdm : d ∈ (List.finRange n).filter (fun c => c ≠ a) := by simp [hd]
  rcases combinations2_of_mem _ c d hcm hdm hcd with h | h
  · exact aux c d h h1 h2 h3
  · exact aux d c h h2 h1 (fun h => h3 h.symm)

theorem mem_crossRows (cov : Fin n → Fin n → ℝ) (correlated : List (Fin n × Fin n)) (e : Eqn n correlated.length) :
    e ∈ crossRows cov correlated → ∃ i c d, let a := (correlated.get i).1; let b := (correlated.get i).2
      c ≠ a ∧ c ≠ b ∧ d ≠ a ∧ d ≠ b ∧ c ≠ d ∧
      ¬ Declared correlated a c ∧ ¬ Declared correlated b d ∧ ¬ Declared correlated c d ∧
      e = (unitRow (.inl (.inr i)), cov a c * cov b d / cov c d) := by
  unfold crossRows
  simp only [List.mem_flatMap, List.mem_map, List.mem_filter, Bool.not_eq_true', List.mem_finRange, true_and]
  rintro ⟨i, ⟨c, d⟩, ⟨hm, hb⟩, rfl⟩
  rw [mem_permutations2] at hm
  simp only [List.mem_filter, List.mem_finRange, true_and, decide_eq_true_eq] at hm
  have hb' : ¬ checkIfBiased [((correlated.get i).1, c), ((correlated.get i).2, d), (c, d)] correlated = true := by
    simpa using hb
  rw [checkIfBiased_iff] at hb'
  refine ⟨i, c, d, hm.1.1, hm.1.2, hm.2.1.1, hm.2.1.2, hm.2.2.symm,
    fun h => hb' ⟨((correlated.get i).1, c), by simp, h⟩, fun h => hb' ⟨((correlated.get i).2, d), by simp, h⟩,
    fun h => hb' ⟨(c, d), by simp, h⟩, rfl⟩

theorem crossRow_exists (cov : Fin n → Fin n → ℝ) (correlated : List (Fin n × Fin n)) (i : Fin correlated.length)
    (c d : Fin n) (h : let a := (correlated.get i).1; let b := (correlated.get i).2
      c ≠ a ∧ c ≠ b ∧ d ≠ a ∧ d ≠ b ∧ c ≠ d ∧
      ¬ Declared correlated a c ∧ ¬ Declared correlated b d ∧ ¬ Declared correlated c d) :
    ∃ y, (unitRow (.inl (.inr i)), y) ∈ crossRows cov correlated := by
  obtain ⟨c1, c2, d1, d2, cd, h1, h2, h3⟩ := h
  refine ⟨cov (correlated.get i).1 c * cov (correlated.get i).2 d / cov c d, ?_⟩
  unfold crossRows
  simp only [List.mem_flatMap, List.mem_map, List.mem_filter, Bool.not_eq_true', List.mem_finRange, true_and]
  refine ⟨i, (c, d), ⟨?_, ?_⟩, rfl⟩
  · rw [mem_permutations2]
    simp only [List.mem_filter, List.mem_finRange, true_and, decide_eq_true_eq]
    exact ⟨⟨c1, c2⟩, ⟨d1, d2⟩, cd.symm⟩
  · rw [← Bool.not_eq_true, checkIfBiased_iff]
    rintro ⟨p, hp, h⟩
    simp only [List.mem_cons, List.not_mem_nil, or_false] at hp
    rcases hp with rfl | rfl | rfl
    · exact h1 h
    · exact h2 h
    · exact h3 h

/-- `v` solves the homogeneous equations -/
def Kernel {k : ℕ} (eqs : List (Eqn n k)) (v : Param n k → ℝ) : Prop := ∀ e ∈ eqs, e.1 ⬝ᵥ v = 0
/-- `x` solves all equations -/
def Solves {k : ℕ} (eqs : List (Eqn n k)) (x : Param n k → ℝ) : Prop := ∀ e ∈ eqs, e.1 ⬝ᵥ x = e.2

theorem designMatrix_mulVec {k : ℕ} (eqs : List (Eqn n k)) (v : Param n k → ℝ) :
    designMatrix eqs *ᵥ v = fun r => (eqs.get r).1 ⬝ᵥ v := rfl

theorem kernel_iff {k : ℕ} (eqs : List (Eqn n k)) (v : Param n k → ℝ) :
    Kernel eqs v ↔ designMatrix eqs *ᵥ v = 0 := by
  rw [designMatrix_mulVec]
  constructor
  · intro h; funext r; exact h _ (List.get_mem _ _)
  · intro h e he
    obtain ⟨r, rfl⟩ := List.get_of_mem he
    exact congrFun h r

theorem det_zero_iff {k : ℕ} (eqs : List (Eqn n k)) :
    ((designMatrix eqs)ᵀ * designMatrix eqs).det = 0 ↔ ∃ v, v ≠ 0 ∧ Kernel eqs v := by
  rw [← Matrix.exists_mulVec_eq_zero_iff]
  constructor
  · rintro ⟨v, hv, h⟩
    refine ⟨v, hv, (kernel_iff _ _).mpr ?_⟩
    have : (designMatrix eqs *ᵥ v) ⬝ᵥ (designMatrix eqs *ᵥ v) = 0 := by
      rw [← Matrix.mulVec_mulVec] at h
      rw [Matrix.dotProduct_mulVec, ← Matrix.mulVec_transpose, h, zero_dotProduct]
    exact dotProduct_self_eq_zero.mp this
  · rintro ⟨v, hv, h⟩
    refine ⟨v, hv, ?_⟩
    rw [← Matrix.mulVec_mulVec, (kernel_iff _ _).mp h, Matrix.mulVec_zero]

theorem solve_of_solves {k : ℕ} (eqs : List (Eqn n k)) (x : Param n k → ℝ) (hx : Solves eqs x)
    (hdet : ¬ ∃ v, v ≠ 0 ∧ Kernel eqs v) : solve eqs = .ok x := by
  have hd : ((designMatrix eqs)ᵀ * designMatrix eqs).det ≠ 0 := by rwa [Ne, det_zero_iff]
  unfold solve
  simp only
  rw [if_neg hd]
  have hy : obsVector eqs = designMatrix eqs *ᵥ x := by
    rw [designMatrix_mulVec]; funext r; exact (hx _ (List.get_mem _ _)).symm
  rw [hy, Matrix.mulVec_mulVec, Matrix.mul_assoc,
    Matrix.nonsing_inv_mul _ (isUnit_iff_ne_zero.mpr hd), Matrix.one_mulVec]

theorem unitRow_dot {k : ℕ} (p : Param n k) (v : Param n k → ℝ) : unitRow p ⬝ᵥ v = v p := by
  unfold unitRow dotProduct
  simp

theorem twoRow_dot {k : ℕ} (p q : Param n k) (hpq : p ≠ q) (v : Param n k → ℝ) :
    (fun r => if r = p ∨ r = q then (1 : ℝ) else 0) ⬝ᵥ v = v p + v q := by
  unfold dotProduct
  have : ∀ r, (if r = p ∨ r = q then (1 : ℝ) else 0) * v r =
      (if r = p then v r else 0) + (if r = q then v r else 0) := by
    intro r
    by_cases h1 : r = p
    · subst h1; simp [hpq]
    · by_cases h2 : r = q <;> simp [h1, h2]
      intro h; exact absurd h.symm hpq
  simp only [this, Finset.sum_add_distrib, Finset.sum_ite_eq', Finset.mem_univ, if_true]

end Verif.Ecol
