import Verif.Rolling.Lemmas

/-! C08: rolling correlation and RMSD. -/

namespace Verif.Rolling

open Verif.Moments Verif.Pairwise

/-- What the previous rounds leave behind, for either window type. -/
def Prev (B : ℕ → ℕ → ℕ → Prop) (d : ℕ → ℝ × ℝ) (i : ℕ) (s : State) : Prop :=
  ((i = 0 ∧ s.lower = 0 ∧ s.hi = 0) ∨ (∃ i', i = i' + 1 ∧ B i' s.lower s.hi)) ∧
  RInv (seg d s.lower s.hi) (s.m, s.msd)

theorem loop_correct (betainc : ℝ → ℝ → ℝ → ℝ) (ts : ℕ → ℝ) (d : ℕ → ℝ × ℝ) (n : ℕ) (w : ℝ) (center : Bool)
    (minPeriods : ℤ) (B : ℕ → ℕ → ℕ → Prop)
    (hB : ∀ i lo hi, i < n → ((i = 0 ∧ lo = 0 ∧ hi = 0) ∨ (∃ i', i = i' + 1 ∧ B i' lo hi)) →
      B i (bounds ts n w center i lo hi).1 (bounds ts n w center i lo hi).2 ∧
      lo ≤ (bounds ts n w center i lo hi).1 ∧ hi ≤ (bounds ts n w center i lo hi).2 ∧ lo ≤ hi ∧
      (bounds ts n w center i lo hi).1 < (bounds ts n w center i lo hi).2)
    (win : ℕ → List (ℝ × ℝ)) (hwin : ∀ i lo hi, i < n → B i lo hi → win i = seg d lo hi)
    (k i : ℕ) (hk : i + k = n) (s : State) (hs : Prev B d i s) :
    (loop betainc ts d n w center minPeriods s (List.range' i k)).length = k ∧
    ∀ j, j < k → ∃ o, (loop betainc ts d n w center minPeriods s (List.range' i k))[j]? = some o ∧
      o.pr = expectedPr betainc minPeriods (win (i + j)) ∧ o.rmsd = expectedRmsd minPeriods (win (i + j)) := by
  induction k generalizing i s with
  | zero => simp [loop]
  | succ k ih =>
    rw [List.range'_succ]
    unfold loop
    obtain ⟨hp, hv⟩ := hs
    have hin : i < n := by omega
    obtain ⟨b1, b2, b3, b4, b5⟩ := hB i s.lower s.hi hin hp
    have hv' := round_values d (s.m, s.msd) _ _ _ _ hv b2 b3 b5 b4
    have hnext : Prev B d (i + 1) (round betainc ts d n w center minPeriods s i).1 := by
      refine ⟨Or.inr ⟨i, rfl, b1⟩, ?_⟩
      exact hv'
    obtain ⟨i1, i2⟩ := ih (i + 1) (by omega) _ hnext
    refine ⟨by simp [i1], ?_⟩
    intro j hj
    cases j with
    | zero =>
      refine ⟨_, rfl, ?_⟩
      simp only [Nat.add_zero]
      rw [hwin i _ _ hin b1]
      set l := seg d (bounds ts n w center i s.lower s.hi).1 (bounds ts n w center i s.lower s.hi).2 with hl
      have hlen : l.length = (bounds ts n w center i s.lower s.hi).2 - (bounds ts n w center i s.lower s.hi).1 :=
        seg_length ..
      have hlne : l ≠ [] := by
        intro hc
        rw [hc] at hlen
        simp at hlen
        omega
      obtain ⟨o1, o2⟩ := out_values betainc l hlne _ hv'
      have hnum : (((bounds ts n w center i s.lower s.hi).2 : ℤ) - ((bounds ts n w center i s.lower s.hi).1 : ℤ)) =
          (l.length : ℤ) := by rw [hlen]; omega
      simp only [round]
      rw [hnum]
      have hne0 : ¬ ((l.length : ℤ) = 0) := by
        have : l.length ≠ 0 := by simpa using hlne
        exact_mod_cast this
      unfold expectedPr expectedRmsd
      by_cases hmp : (l.length : ℤ) < minPeriods
      · rw [if_pos (Or.inr hmp), if_pos hmp, if_pos hmp]
        exact ⟨rfl, rfl⟩
      · rw [if_neg (by tauto), if_neg hmp, if_neg hmp]
        exact ⟨o1, congrArg some o2⟩
    | succ j =>
      obtain ⟨o, h1, h2, h3⟩ := i2 j (by omega)
      refine ⟨o, ?_, ?_, ?_⟩
      · simpa using h1
      · rw [h2]; congr 2; omega
      · rw [h3]; congr 2; omega

theorem Prev_init (B : ℕ → ℕ → ℕ → Prop) (d : ℕ → ℝ × ℝ) : Prev B d 0 init := by
  refine ⟨Or.inl ⟨rfl, rfl, rfl⟩, ?_, ?_⟩
  · exact Inv_init
  · simp [init, seg, rangeAB]

/-- C08, centred window: for sorted time stamps (repetitions allowed) and any window size ≥ 0 every output is computed
from exactly the observations with `|t_j - t_i| ≤ w`. -/
theorem rolling_center_correct (betainc : ℝ → ℝ → ℝ → ℝ) (ts : ℕ → ℝ) (d : ℕ → ℝ × ℝ) (n : ℕ) (w : ℝ) (minPeriods : ℤ)
    (hw : 0 ≤ w) (hs : ∀ a b, a ≤ b → b < n → ts a ≤ ts b) :
    (rollingPrRmsd betainc ts d n w true minPeriods).length = n ∧
    ∀ i, i < n → ∃ o, (rollingPrRmsd betainc ts d n w true minPeriods)[i]? = some o ∧
      o.pr = expectedPr betainc minPeriods (window ts d n w true i) ∧
      o.rmsd = expectedRmsd minPeriods (window ts d n w true i) := by
  unfold rollingPrRmsd
  rw [List.range_eq_range']
  have := loop_correct betainc ts d n w true minPeriods (CBounds ts n w) (by
      intro i lo hi hin hp
      obtain ⟨h1, h2, h3, h4⟩ := bounds_center ts n w hw hs i lo hi hin hp
      exact ⟨h1, h2, h3, h4, by obtain ⟨q1, q2, _⟩ := h1; omega⟩)
    (window ts d n w true) (by
      intro i lo hi hin hb
      obtain ⟨q1, q2, q3, q4⟩ := hb
      unfold window seg rangeAB
      rw [filter_range_block _ n lo hi (by omega) q3]
      intro j hj
      simpa using q4 j hj) n 0 (by omega) init (Prev_init _ _)
  simpa using this

/-- C08, trailing window, for strictly increasing time stamps and any window size > 0: exactly the observations with
`t_i - w < t_j ≤ t_i`. -/
theorem rolling_trailing_correct (betainc : ℝ → ℝ → ℝ → ℝ) (ts : ℕ → ℝ) (d : ℕ → ℝ × ℝ) (n : ℕ) (w : ℝ) (minPeriods : ℤ)
    (hw : 0 < w) (hs : ∀ a b, a < b → b < n → ts a < ts b) :
    (rollingPrRmsd betainc ts d n w false minPeriods).length = n ∧
    ∀ i, i < n → ∃ o, (rollingPrRmsd betainc ts d n w false minPeriods)[i]? = some o ∧
      o.pr = expectedPr betainc minPeriods (window ts d n w false i) ∧
      o.rmsd = expectedRmsd minPeriods (window ts d n w false i) := by
  have hs' : Sorted ts n := by
    intro a b hab hb
    rcases Nat.lt_or_eq_of_le hab with h | rfl
    · exact (hs a b h hb).le
    · exact le_rfl
  unfold rollingPrRmsd
  rw [List.range_eq_range']
  have := loop_correct betainc ts d n w false minPeriods (TBounds ts n w) (by
      intro i lo hi hin hp
      obtain ⟨h1, h2, h3, h4⟩ := bounds_trailing ts n w hw hs' i lo hi hin hp
      exact ⟨h1, h2, h3, h4, by obtain ⟨q1, q2, _⟩ := h1; omega⟩)
    (window ts d n w false) (by
      intro i lo hi hin hb
      obtain ⟨q1, q2, q3, q4⟩ := hb
      unfold window seg rangeAB
      rw [filter_range_block _ n lo hi (by omega) q3]
      intro j hj
      rw [← q4 j hj]
      simp only [Bool.false_eq_true, if_false, decide_eq_true_eq]
      have : ts j ≤ ts i ↔ j ≤ i := by
        constructor
        · intro h
          by_contra hc
          exact absurd (hs i j (by omega) hj) (not_lt.mpr h)
        · intro h; exact hs' j i h hin
      rw [this]; tauto) n 0 (by omega) init (Prev_init _ _)
  simpa using this

/-- C08, trailing window with repeated time stamps: the window of `i` consists of the observations up to *position* `i`; later
observations with the same time stamp are left out, contrary to the claim. -/
theorem rolling_trailing_positions_partial (betainc : ℝ → ℝ → ℝ → ℝ) (ts : ℕ → ℝ) (d : ℕ → ℝ × ℝ) (n : ℕ) (w : ℝ)
    (minPeriods : ℤ) (hw : 0 < w) (hs : ∀ a b, a ≤ b → b < n → ts a ≤ ts b) :
    ∀ i, i < n → ∃ o, (rollingPrRmsd betainc ts d n w false minPeriods)[i]? = some o ∧
      o.pr = expectedPr betainc minPeriods (window ts d (i + 1) w false i) ∧
      o.rmsd = expectedRmsd minPeriods (window ts d (i + 1) w false i) := by
  unfold rollingPrRmsd
  rw [List.range_eq_range']
  have := loop_correct betainc ts d n w false minPeriods (TBounds ts n w) (by
      intro i lo hi hin hp
      obtain ⟨h1, h2, h3, h4⟩ := bounds_trailing ts n w hw hs i lo hi hin hp
      exact ⟨h1, h2, h3, h4, by obtain ⟨q1, q2, _⟩ := h1; omega⟩)
    (fun i => window ts d (i + 1) w false i) (by
      intro i lo hi hin hb
      obtain ⟨q1, q2, q3, q4⟩ := hb
      unfold window seg rangeAB
      rw [filter_range_block _ (i + 1) lo hi (by omega) (by omega)]
      intro j hj
      rw [← q4 j (by omega)]
      simp only [Bool.false_eq_true, if_false, decide_eq_true_eq]
      have : ts j ≤ ts i := hs j i (by omega) hin
      constructor
      · intro h; exact ⟨by omega, h.1⟩
      · intro h; exact ⟨h.2, this⟩) n 0 (by omega) init (Prev_init _ _)
  simpa using this.2

/-- C08 fails for repeated time stamps in a trailing window: two observations at the same time, the first output ignores the
second one (RMSD 1 instead of `sqrt 5`). -/
theorem rolling_trailing_ties_wrong (betainc : ℝ → ℝ → ℝ → ℝ) :
    ∃ (ts : ℕ → ℝ) (d : ℕ → ℝ × ℝ) (o : Out), (∀ a b, a ≤ b → b < 2 → ts a ≤ ts b) ∧
      (rollingPrRmsd betainc ts d 2 1 false 1)[0]? = some o ∧
      o.rmsd ≠ expectedRmsd 1 (window ts d 2 1 false 0) := by
  obtain ⟨o, h1, _, h3⟩ := rolling_trailing_positions_partial betainc (fun _ => 0)
    (fun j => if j = 0 then (1, 0) else (3, 0)) 2 1 1 one_pos (fun _ _ _ _ => le_rfl) 0 (by omega)
  refine ⟨fun _ => 0, fun j => if j = 0 then (1, 0) else (3, 0), o, fun _ _ _ _ => le_rfl, h1, ?_⟩
  rw [h3]
  have e1 : window (fun _ => 0) (fun j => if j = 0 then (1, 0) else (3, 0)) (0 + 1) 1 false 0 = [(1, 0)] := by
    simp [window]
  have e2 : window (fun _ => 0) (fun j => if j = 0 then (1, 0) else (3, 0)) 2 1 false 0 = [(1, 0), (3, 0)] := by
    simp [window, List.range_succ]
  rw [e1, e2]
  norm_num [expectedRmsd, meanSqDiff, mean]
  intro h
  have := Real.sq_sqrt (show (0 : ℝ) ≤ 5 by norm_num)
  rw [← h] at this
  norm_num at this

/-- sorted, strictly increasing time stamps exist -/
example : (∀ a b : ℕ, a < b → b < 5 → ((fun j : ℕ => (j : ℝ)) a) < ((fun j : ℕ => (j : ℝ)) b)) := by
  intro a b h _; show (a : ℝ) < (b : ℝ); exact_mod_cast h

end Verif.Rolling
