import Mathlib.Data.Rat.Defs
import Mathlib.Algebra.Order.Ring.Rat
import Verif.Moments.Lemmas

/-! C09: the one-pass moments are the textbook ones. -/

namespace Verif.Moments

variable {K : Type} [Field K] [CharZero K]

/-- C09. For every non-empty pair of arrays, `_moments_welford` returns the means, population variances and population
covariance. -/
theorem moments_welford_correct (l : List (K × K)) (hl : l ≠ []) :
    momentsWelford l = ⟨mean (l.map Prod.fst), mean (l.map Prod.snd), pvar (l.map Prod.fst),
      pvar (l.map Prod.snd), pcov l⟩ := by
  have h := Inv_foldl [] l init Inv_init
  rw [List.nil_append] at h
  have hn : (l.length : K) ≠ 0 := by
    have : l.length ≠ 0 := by simpa using hl
    exact_mod_cast this
  obtain ⟨hx, hy⟩ := Inv_mean h hl
  obtain ⟨h1, h2, h3⟩ := Inv_var h hl
  unfold momentsWelford
  simp only [Moments.mk.injEq]
  refine ⟨hx, hy, ?_, ?_, ?_⟩
  · rw [h1]; field_simp
  · rw [h2]; field_simp
  · rw [h3]; field_simp

example : momentsWelford ([(1, 2), (3, 5), (8, 2)] : List (ℚ × ℚ)) = ⟨4, 3, 26 / 3, 2, -1⟩ := by decide +kernel

/-! ### n-dimensional version -/

/-- State after the first `m` columns of a row. -/
theorem ndStep_fold (d m : Nat) (hm : m ≤ d) (row : Nat → K) (s : NdState K) :
    let new := fun a => s.mean a + (row a - s.mean a) / s.nobs
    let r := (List.range m).foldl (ndColumn d row) s
    r.nobs = s.nobs ∧ (∀ a, r.mean a = if a < m then new a else s.mean a) ∧
    (∀ a b, r.C a b = if a < m ∧ a ≤ b ∧ b < d then
        s.C a b + (row a - new a) * (row b - (if b = a then new a else s.mean b)) else s.C a b) := by
  intro new r
  induction m with
  | zero => simp [r]
  | succ m ih =>
    obtain ⟨i1, i2, i3⟩ := ih (by omega)
    have hr : r = ndColumn d row ((List.range m).foldl (ndColumn d row) s) m := by
      simp only [r]; rw [List.range_succ, List.foldl_append]; rfl
    set q := (List.range m).foldl (ndColumn d row) s with hq
    have hmm : q.mean m = s.mean m := by rw [i2]; simp
    refine ⟨?_, ?_, ?_⟩
    · rw [hr]; exact i1
    · intro a
      rw [hr]
      simp only [ndColumn, ndInner]
      by_cases ha : a = m
      · subst ha
        simp [new, hmm, i1]
      · rw [if_neg ha, i2]
        have : a < m + 1 ↔ a < m := by omega
        simp [this]
    · intro a b
      rw [hr]
      simp only [ndColumn, ndInner]
      by_cases ha : a = m
      · subst ha
        by_cases hb : a ≤ b ∧ b < d
        · have hc : a < a + 1 ∧ a ≤ b ∧ b < d := ⟨by omega, hb⟩
          have hc' : ¬ (a < a ∧ a ≤ b ∧ b < d) := by omega
          have hb' : a = a ∧ a ≤ b ∧ b < d := ⟨rfl, hb⟩
          rw [if_pos hb', if_pos hc, i3, if_neg hc', if_pos trivial, hmm, i1]
          by_cases hab : b = a
          · subst hab; simp [new]
          · rw [if_neg hab, if_neg hab, i2, if_neg (by omega)]
        · rw [if_neg (by tauto), if_neg (by tauto), i3, if_neg (by omega)]
      · rw [if_neg (by tauto), i3]
        have : a < m + 1 ↔ a < m := by omega
        simp [this]

/-- Reading the columns `j < k` off the n-dimensional state gives the state of the two-column routine. -/
theorem nd_refines (d j k : Nat) (hjk : j < k) (hk : k < d) (rows : List (Nat → K)) (s : NdState K) (p : State K)
    (h0 : p.nobs = s.nobs) (h1 : p.mx = s.mean j) (h2 : p.my = s.mean k) (h3 : p.C = s.C j k) :
    let r := rows.foldl (ndStep d) s
    let q := (rows.map (fun r => (r j, r k))).foldl step p
    q.nobs = r.nobs ∧ q.mx = r.mean j ∧ q.my = r.mean k ∧ q.C = r.C j k := by
  induction rows generalizing s p with
  | nil => exact ⟨h0, h1, h2, h3⟩
  | cons row rows ih =>
    simp only [List.foldl_cons, List.map_cons]
    obtain ⟨e0, e1, e2⟩ := ndStep_fold d d le_rfl row { s with nobs := s.nobs + 1 }
    apply ih
    · unfold ndStep; rw [e0]; simp [step, h0]
    · unfold ndStep; rw [e1, if_pos (by omega)]; simp [step, h0, h1]
    · unfold ndStep; rw [e1, if_pos (by omega)]; simp [step, h0, h2]
    · unfold ndStep
      rw [e2, if_pos ⟨by omega, by omega, hk⟩, if_neg (by omega)]
      simp [step, h0, h1, h2, h3]

/-- C09, n-dimensional routine: means and all off-diagonal entries (both triangles) are right. Missing for the full claim: the
diagonal, see `moments_nd_diagonal_wrong`. -/
theorem moments_nd_offdiagonal_partial (d j k : Nat) (hjk : j < k) (hk : k < d) (rows : List (Nat → K)) (hr : rows ≠ []) :
    (momentsNd d rows).1 j = mean (rows.map (fun r => r j)) ∧
    (momentsNd d rows).1 k = mean (rows.map (fun r => r k)) ∧
    (momentsNd d rows).2 j k = pcov (rows.map (fun r => (r j, r k))) ∧
    (momentsNd d rows).2 k j = pcov (rows.map (fun r => (r j, r k))) := by
  obtain ⟨r0, r1, r2, r3⟩ := nd_refines d j k hjk hk rows ⟨0, fun _ => 0, fun _ _ => 0⟩ init rfl rfl rfl rfl
  have hl : rows.map (fun r => (r j, r k)) ≠ [] := by simpa using hr
  have h := Inv_foldl [] (rows.map (fun r => (r j, r k))) init Inv_init
  rw [List.nil_append] at h
  have hn : ((rows.map (fun r => (r j, r k))).length : K) ≠ 0 := by
    have : (rows.map (fun r => (r j, r k))).length ≠ 0 := by simpa using hr
    exact_mod_cast this
  obtain ⟨hx, hy⟩ := Inv_mean h hl
  obtain ⟨_, _, h3⟩ := Inv_var h hl
  have hC : (rows.foldl (ndStep d) ⟨0, fun _ => 0, fun _ _ => 0⟩).C j k /
      (rows.foldl (ndStep d) ⟨0, fun _ => 0, fun _ _ => 0⟩).nobs = pcov (rows.map (fun r => (r j, r k))) := by
    rw [← r3, ← r0, h3, h.nobs]; field_simp
  refine ⟨?_, ?_, ?_, ?_⟩
  · simp only [momentsNd]; rw [← r1, hx]; simp [Function.comp_def]
  · simp only [momentsNd]; rw [← r2, hy]; simp [Function.comp_def]
  · simp only [momentsNd]; rw [if_pos hjk.le]; exact hC
  · simp only [momentsNd]; rw [if_neg (by omega)]; exact hC

/-- three columns, the second and the third of them -/
example : (momentsNd 3 ([[1, 2, 4], [2, 0, (6 : ℚ)]].map (fun r n => r.getD n 0))).2 1 2 = -1 :=
  ((moments_nd_offdiagonal_partial 3 1 2 (by decide) (by decide) _ (by simp)).2.2.1).trans (by decide +kernel)

/-- two columns, two rows: the hypotheses are met -/
example : (momentsNd 2 [fun _ => (0 : ℚ), fun c => if c = 0 then 2 else 6]).2 0 1 = 3 := by decide +kernel

/-- C09 fails for the diagonal of `_moments_welford_nd`: the "variance" of `[0, 2]` is 1/2 instead of 1. -/
theorem moments_nd_diagonal_wrong :
    ∃ rows : List (Nat → ℚ), (momentsNd 1 rows).2 0 0 ≠ pvar (rows.map (fun r => r 0)) :=
  ⟨[fun _ => 0, fun _ => 2], by decide +kernel⟩

end Verif.Moments
