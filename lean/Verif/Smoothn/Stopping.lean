import Verif.Smoothn.Units

/-! C47 and C67: when the rounds end, and the leverage used for robust weights. -/

namespace Verif.Smoothn

variable {n : ℕ}

/-- the comparison of numpy's quotient with the tolerance is the comparison without division, also for a norm of 0 -/
theorem exceeds_iff (x y t : ℝ) (hx : 0 ≤ x) (hy : 0 ≤ y) : (quot x y).exceeds t = true ↔ t * y < x := by
  unfold quot
  rcases hy.lt_or_eq with h | h
  · rw [if_neg h.ne']
    simp only [Tol.exceeds, decide_eq_true_eq]
    exact lt_div_iff₀ h
  · subst h
    rw [if_pos rfl, mul_zero]
    rcases hx.lt_or_eq with h | h
    · rw [if_neg h.ne']
      simp [Tol.exceeds, h]
    · subst h
      simp [Tol.exceeds]

/-- the distance of two arrays over the selected elements -/
noncomputable def distance (sel : Fin n → Bool) (x y : Fin n → ℝ) : ℝ := Real.sqrt (∑ i, if sel i then (x i - y i) ^ 2 else 0)

/-- the size of an array over the selected elements -/
noncomputable def size (sel : Fin n → Bool) (x : Fin n → ℝ) : ℝ := Real.sqrt (∑ i, if sel i then x i ^ 2 else 0)

/-- **C47**: if the inner loop ends before its last allowed round, the last round changed the used elements by at most `TolZ` times their size
(or there are no weights, where one round is exact); and no earlier round did. -/
theorem inner_ends_at_tolerance (e : Env n) (a : Args n) (f : Fixed n) : ∀ (k j : ℕ) (s s' : State n), innerLoop e a f k j s = .ok s' →
    s.count < s'.count → ∃ (i : ℕ) (p : State n), innerStep e a f i p = .ok s' ∧ p.tol.exceeds a.tolZ = true ∧ (s'.count < s.count + k →
      s.isweighted = false ∨ distance f.fin s'.z p.z0 ≤ a.tolZ * size f.fin s'.z) := by
  intro k
  induction k with
  | zero => intro j s s' h hc; rw [innerLoop] at h; cases h; omega
  | succ k ih =>
    intro j s s' h hc
    rw [innerLoop] at h
    split at h
    · next hx =>
      cases hs : innerStep e a f j s with
      | error er => rw [hs] at h; cases h
      | ok s1 =>
        rw [hs] at h
        have hk := innerStep_keeps e a f j s s1 hs
        have h' : innerLoop e a f k (j + 1) s1 = .ok s' := h
        by_cases hc1 : s1.count < s'.count
        · obtain ⟨i, p, h1, h2, h3⟩ := ih (j + 1) s1 s' h' hc1
          refine ⟨i, p, h1, h2, fun hlt => ?_⟩
          rw [← hk.2.2.2.2.1]
          exact h3 (by omega)
        · have hstop : s' = s1 := by
            cases k with
            | zero => rw [innerLoop] at h'; cases h'; rfl
            | succ k =>
              rw [innerLoop] at h'
              split at h'
              · cases hs2 : innerStep e a f (j + 1) s1 with
                | error er => rw [hs2] at h'; cases h'
                | ok s2 =>
                  rw [hs2] at h'
                  have h2 : innerLoop e a f k (j + 1 + 1) s2 = .ok s' := h'
                  have hk2 := innerStep_keeps e a f (j + 1) s1 s2 hs2
                  have := innerLoop_count_mono e a f k (j + 1 + 1) s2 s' h2
                  omega
              · cases h'; rfl
          subst hstop
          refine ⟨j, s, hs, hx, fun hlt => ?_⟩
          have hend := (innerLoop_count e a f k (j + 1) s' s' h').2 (by omega)
          cases hw : s.isweighted with
          | false => exact .inl rfl
          | true =>
            refine .inr ?_
            have ht : s'.tol = quot (norm f.fin (fun i => s'.z i - s.z0 i)) (norm f.fin s'.z) := by
              unfold innerStep at hs
              simp only at hs
              split at hs
              · cases hs
              · split at hs
                · cases hs
                · cases hs
                  simp
            rw [ht] at hend
            have h0 : 0 ≤ norm f.fin (fun i => s'.z i - s.z0 i) := Real.sqrt_nonneg _
            have h1 : 0 ≤ norm f.fin s'.z := Real.sqrt_nonneg _
            have := (exceeds_iff _ _ a.tolZ h0 h1).not.1 (by rw [hend]; simp)
            exact not_lt.1 this
    · cases h; omega

/-- **C67**: the leverage of order 1 and 2, in terms of the smoothing parameter: `h² (1 + 4 s) = 1` and `2 (1 + 16 s) h² - 1 = √(1 + 16 s)` -/
theorem leverage_eq (s : ℝ) (hs : 0 ≤ s) :
    (0 < leverage 1 s ∧ leverage 1 s ^ 2 * (1 + 4 * s) = 1) ∧
    (0 < leverage 2 s ∧ (2 * (1 + 16 * s) * leverage 2 s ^ 2 - 1) = Real.sqrt (1 + 16 * s)) := by
  have p1 : 0 < 1 + 4 * s := by linarith
  have p2 : 0 < 1 + 16 * s := by linarith
  have q1 := Real.sqrt_pos.2 p1
  have q2 := Real.sqrt_pos.2 p2
  have q3 : 0 < Real.sqrt (1 + Real.sqrt (1 + 16 * s)) := Real.sqrt_pos.2 (by linarith)
  have e1 := Real.sq_sqrt p1.le
  have e2 := Real.sq_sqrt p2.le
  have e3 := Real.sq_sqrt (by linarith : 0 ≤ 1 + Real.sqrt (1 + 16 * s))
  have e4 := Real.sq_sqrt (by norm_num : (0 : ℝ) ≤ 2)
  have q4 : 0 < Real.sqrt 2 := Real.sqrt_pos.2 (by norm_num)
  refine ⟨⟨?_, ?_⟩, ?_, ?_⟩
  · unfold leverage; simp only [if_true]; positivity
  · unfold leverage; simp only [if_true]
    rw [div_pow, e1]
    field_simp
  · unfold leverage; norm_num; positivity
  · unfold leverage
    rw [if_neg (by norm_num), div_pow, div_pow, e3, e4, e2]
    field_simp
    ring

/-- **C67**: with a positive smoothing parameter the leverage is below 1, so that the residuals are divided by a positive number; without smoothing
it is 1 -/
theorem leverage_range (order : ℕ) (ho : order = 1 ∨ order = 2) (s : ℝ) (hs : 0 ≤ s) :
    0 < leverage order s ∧ leverage order s ≤ 1 ∧ (leverage order s = 1 ↔ s = 0) := by
  obtain ⟨⟨a1, a2⟩, b1, b2⟩ := leverage_eq s hs
  rcases ho with rfl | rfl
  · refine ⟨a1, ?_, ?_, ?_⟩
    · nlinarith
    · intro h
      rw [h] at a2
      linarith
    · rintro rfl
      nlinarith
  · have p2 : 0 < 1 + 16 * s := by linarith
    have q2 := Real.sqrt_pos.2 p2
    have e2 := Real.sq_sqrt p2.le
    set q := Real.sqrt (1 + 16 * s)
    have hq1 : 1 ≤ q := by nlinarith
    set h := leverage 2 s
    have key : 2 * q ^ 2 * h ^ 2 = 1 + q := by rw [e2]; linarith
    have hh : h ^ 2 ≤ 1 := by
      have : 0 < q ^ 2 := by positivity
      by_contra hc
      push Not at hc
      nlinarith
    refine ⟨b1, by nlinarith, ?_, ?_⟩
    · intro h1
      rw [h1] at key
      have hq : q = 1 := by nlinarith
      rw [hq] at e2
      linarith
    · intro h0
      have hq : q = 1 := by
        rw [h0] at e2
        nlinarith
      rw [hq] at key
      nlinarith

/-- **C67**: a stronger smoothing has a smaller leverage -/
theorem leverage_antitone (order : ℕ) (ho : order = 1 ∨ order = 2) (s t : ℝ) (hs : 0 ≤ s) (hst : s < t) : leverage order t < leverage order s := by
  have ht : 0 ≤ t := hs.trans hst.le
  obtain ⟨⟨a1, a2⟩, b1, b2⟩ := leverage_eq s hs
  obtain ⟨⟨c1, c2⟩, d1, d2⟩ := leverage_eq t ht
  rcases ho with rfl | rfl
  · refine lt_of_pow_lt_pow_left₀ 2 a1.le ?_
    by_contra hc
    push Not at hc
    have h1 : 0 < leverage 1 s ^ 2 := by positivity
    nlinarith
  · have p1 : 0 < 1 + 16 * s := by linarith
    have p2 : 0 < 1 + 16 * t := by linarith
    have e1 := Real.sq_sqrt p1.le
    have e2 := Real.sq_sqrt p2.le
    have q1 := Real.sqrt_pos.2 p1
    have q2 := Real.sqrt_pos.2 p2
    have hlt : Real.sqrt (1 + 16 * s) < Real.sqrt (1 + 16 * t) := Real.sqrt_lt_sqrt p1.le (by linarith)
    have k1 : leverage 2 s ^ 2 = (1 + Real.sqrt (1 + 16 * s)) / (2 * Real.sqrt (1 + 16 * s) ^ 2) := by
      rw [e1, eq_div_iff (by positivity)]
      linarith
    have k2 : leverage 2 t ^ 2 = (1 + Real.sqrt (1 + 16 * t)) / (2 * Real.sqrt (1 + 16 * t) ^ 2) := by
      rw [e2, eq_div_iff (by positivity)]
      linarith
    refine lt_of_pow_lt_pow_left₀ 2 b1.le ?_
    rw [k1, k2]
    set q := Real.sqrt (1 + 16 * s)
    set r := Real.sqrt (1 + 16 * t)
    rw [div_lt_div_iff₀ (by positivity) (by positivity)]
    have h1 : 0 < (r - q) * (q * r) := mul_pos (by linarith) (mul_pos q1 q2)
    have h2 : 0 < (r - q) * (r + q) := mul_pos (by linarith) (by linarith)
    nlinarith

/-! ### Examples -/

/-- smoothing parameter 2 of order 1 -/
example : leverage 1 2 = 1 / 3 := by
  obtain ⟨⟨h1, h2⟩, -⟩ := leverage_eq 2 (by norm_num)
  nlinarith [sq_nonneg (leverage 1 2 - 1 / 3)]

example := leverage_range 2 (.inr rfl) 3 (by norm_num)

example := leverage_antitone 2 (.inr rfl) 1 3 (by norm_num) (by norm_num)

/-- one number and a gap: the first of two allowed rounds changes the number by less than 1/100 of it -/
example : ∃ t, innerLoop haar (exOff 273) ⟨![1 + 273, 0], ![true, false], ![1, 0], false, 1 + 0.75⟩ 2 0
    ⟨fun _ => 273, fun _ => 273, .val 1, 0, some 1, none, true, ![1, 0], 1, 0, []⟩ = .ok t ∧ t.count = 1 ∧
    ∃ p : State 2, distance ![true, false] t.z p.z0 ≤ 1 / 100 * size ![true, false] t.z := by
  obtain ⟨u1, g1, hu0, hu1, hut, -, -, -, hd1, -⟩ := exOff_step 273 (1 + 273) 0
    ⟨fun _ => 273, fun _ => 273, .val 1, 0, some 1, none, true, ![1, 0], 1, 0, []⟩ rfl rfl rfl
  simp only at hu0 hu1 hut hd1
  norm_num at hu0 hu1
  rw [hu0] at hut
  have hx2 : u1.tol.exceeds (1 / 100) = false := by
    rw [hut]; norm_num [quot, Tol.exceeds, abs_of_pos]
  have hl' : innerLoop haar (exOff 273) ⟨![1 + 273, 0], ![true, false], ![1, 0], false, 1 + 0.75⟩ 2 0
      ⟨fun _ => 273, fun _ => 273, .val 1, 0, some 1, none, true, ![1, 0], 1, 0, []⟩ = .ok u1 := by
    rw [innerLoop, if_pos (by simp [Tol.exceeds, exOff]; norm_num), g1]
    show innerLoop _ _ _ 1 1 u1 = _
    rw [innerLoop, if_neg (by rw [show (exOff 273).tolZ = 1 / 100 from rfl, hx2]; simp)]
  refine ⟨u1, hl', hd1, ?_⟩
  obtain ⟨i, p, -, -, h3⟩ := inner_ends_at_tolerance haar (exOff 273) _ 2 0 _ u1 hl' (by rw [hd1]; exact Nat.zero_lt_one)
  rcases h3 (by rw [hd1]; show 1 < 0 + 2; omega) with h | h
  · cases h
  · exact ⟨p, h⟩

/-- all elements become 0 although they were not: no tolerance is reached -/
example : (quot 1 0).exceeds (1 / 1000) = true := (exceeds_iff 1 0 _ (by norm_num) le_rfl).2 (by norm_num)

end Verif.Smoothn
