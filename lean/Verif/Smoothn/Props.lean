import Verif.Smoothn.Spec
import Mathlib.Tactic.Linarith
import Mathlib.Tactic.Ring
import Mathlib.Tactic.FieldSimp
import Mathlib.Tactic.Positivity
import Mathlib.Tactic.NormNum

/-! # C47, C63: the iteration of `smoothn` and the role of gaps -/

namespace Verif.Smoothn

set_option linter.unusedSectionVars false

open Classical

variable {n : ℕ}

/-! ## The loops -/

theorem innerLoop_inv (e : Env n) (a : Args n) (f : Fixed n) (P : State n → Prop)
    (hstep : ∀ j s s', P s → innerStep e a f j s = .ok s' → P s') :
    ∀ k j s s', P s → innerLoop e a f k j s = .ok s' → P s' := by
  intro k
  induction k with
  | zero => intro j s s' hP h; rw [innerLoop] at h; cases h; exact hP
  | succ k ih =>
    intro j s s' hP h
    rw [innerLoop] at h
    split at h
    · cases hs : innerStep e a f j s with
      | error er => rw [hs] at h; cases h
      | ok s1 => rw [hs] at h; exact ih _ _ _ (hstep _ _ _ hP hs) h
    · cases h; exact hP

/-- what one round does not touch -/
theorem innerStep_keeps (e : Env n) (a : Args n) (f : Fixed n) (j : ℕ) (s s' : State n) (h : innerStep e a f j s = .ok s') :
    s'.count = s.count + 1 ∧ s'.exitFlag = s.exitFlag ∧ s'.reached = s.reached ∧ s'.wtot = s.wtot ∧ s'.isweighted = s.isweighted ∧
      s'.smooth.isSome := by
  unfold innerStep at h
  simp only at h
  split at h
  · cases h
  · split at h
    · cases h
    · cases h; exact ⟨rfl, rfl, rfl, rfl, rfl, rfl⟩

theorem innerLoop_keeps (e : Env n) (a : Args n) (f : Fixed n) (k j : ℕ) (s s' : State n) (h : innerLoop e a f k j s = .ok s') :
    s'.exitFlag = s.exitFlag ∧ s'.reached = s.reached ∧ s'.wtot = s.wtot ∧ s'.isweighted = s.isweighted := by
  refine innerLoop_inv e a f (fun t => t.exitFlag = s.exitFlag ∧ t.reached = s.reached ∧ t.wtot = s.wtot ∧ t.isweighted = s.isweighted)
    (fun j t t' ht hs => ?_) k j s s' ⟨rfl, rfl, rfl, rfl⟩ h
  have hk := innerStep_keeps e a f j t t' hs
  exact ⟨hk.2.1.trans ht.1, hk.2.2.1.trans ht.2.1, hk.2.2.2.1.trans ht.2.2.1, hk.2.2.2.2.1.trans ht.2.2.2⟩

theorem innerLoop_count (e : Env n) (a : Args n) (f : Fixed n) :
    ∀ k j s s', innerLoop e a f k j s = .ok s' → s'.count ≤ s.count + k ∧ (s'.count < s.count + k → s'.tol.exceeds a.tolZ = false) := by
  intro k
  induction k with
  | zero => intro j s s' h; rw [innerLoop] at h; cases h; exact ⟨le_refl _, fun h => absurd h (lt_irrefl _)⟩
  | succ k ih =>
    intro j s s' h
    rw [innerLoop] at h
    split at h
    · cases hs : innerStep e a f j s with
      | error er => rw [hs] at h; cases h
      | ok s1 =>
        rw [hs] at h
        have h1 := ih _ _ _ h
        have h2 := (innerStep_keeps e a f j s s1 hs).1
        exact ⟨by omega, fun h => h1.2 (by omega)⟩
    · next hx => cases h; exact ⟨by omega, fun _ => by simpa using hx⟩

/-- what holds before and after every round of the outer loop -/
structure Inv (a : Args n) (i : ℕ) (s : State n) : Prop where
  rounds : s.reached.length = i
  count : s.count ≤ i * a.maxIter
  flag : s.exitFlag = if ∃ j, a.maxIter ≤ j ∧ s.reached[j]? = some false then 3 else 1

theorem inv_round (e : Env n) (a : Args n) (f : Fixed n) (i : ℕ) (s s' : State n) (hI : Inv a i s)
    (h : innerLoop e a f a.maxIter 0 s = .ok s') : Inv a (i + 1) (setFlag a i s') := by
  obtain ⟨h1, h2, h3⟩ := hI
  have hk := innerLoop_keeps e a f _ _ s s' h
  have hc := innerLoop_count e a f _ _ s s' h
  refine ⟨?_, ?_, ?_⟩
  · simp [setFlag, hk.2.1, h1]
  · show s'.count ≤ _
    have := hc.1
    rw [Nat.add_mul]; omega
  · show (if a.maxIter ≤ i ∧ s'.tol.exceeds a.tolZ = true then 3 else s'.exitFlag) = _
    rw [hk.1, h3]
    have key : (∃ j, a.maxIter ≤ j ∧ (setFlag a i s').reached[j]? = some false) ↔
        (a.maxIter ≤ i ∧ s'.tol.exceeds a.tolZ = true) ∨ ∃ j, a.maxIter ≤ j ∧ s.reached[j]? = some false := by
      show (∃ j, a.maxIter ≤ j ∧ (s'.reached ++ [!s'.tol.exceeds a.tolZ])[j]? = some false) ↔ _
      rw [hk.2.1]
      constructor
      · rintro ⟨j, hj, hr⟩
        rcases Nat.lt_trichotomy j i with hlt | heq | hgt
        · rw [List.getElem?_append_left (by omega)] at hr
          exact Or.inr ⟨j, hj, hr⟩
        · subst heq
          rw [List.getElem?_append_right (by omega)] at hr
          simp [h1] at hr
          exact Or.inl ⟨hj, hr⟩
        · rw [List.getElem?_eq_none (by simp; omega)] at hr; cases hr
      · rintro (⟨hi, ht⟩ | ⟨j, hj, hr⟩)
        · refine ⟨i, hi, ?_⟩
          rw [List.getElem?_append_right (by omega)]
          simp [h1, ht]
        · refine ⟨j, hj, ?_⟩
          have hlt : j < s.reached.length := by
            by_contra hge
            rw [List.getElem?_eq_none (by omega)] at hr; cases hr
          rw [List.getElem?_append_left hlt]; exact hr
    by_cases hA : a.maxIter ≤ i ∧ s'.tol.exceeds a.tolZ = true
    · rw [if_pos hA, if_pos (key.mpr (Or.inl hA))]
    · rw [if_neg hA]
      by_cases hB : ∃ j, a.maxIter ≤ j ∧ s.reached[j]? = some false
      · rw [if_pos hB, if_pos (key.mpr (Or.inr hB))]
      · rw [if_neg hB, if_neg (fun hc => (key.mp hc).elim hA hB)]

theorem outerLoop_inv (e : Env n) (a : Args n) (f : Fixed n) :
    ∀ k i s s', Inv a i s → outerLoop e a f k i s = .ok s' →
      Inv a (if a.robust then i + k else if k = 0 then i else i + 1) s' := by
  intro k
  induction k with
  | zero =>
    intro i s s' hI h
    rw [outerLoop] at h; cases h
    cases a.robust <;> simpa using hI
  | succ k ih =>
    intro i s s' hI h
    rw [outerLoop] at h
    cases hs : innerLoop e a f a.maxIter 0 s with
    | error er => rw [hs] at h; cases h
    | ok s1 =>
      rw [hs] at h
      have h1 := inv_round e a f i s s1 hI hs
      simp only [Except.bind] at h
      by_cases hr : a.robust = true
      · rw [if_pos hr] at h
        cases hsm : (setFlag a i s1).smooth with
        | none => rw [hsm] at h; cases h
        | some sm =>
          rw [hsm] at h
          have h2 := ih (i + 1) _ s' ?_ h
          · rw [if_pos hr] at h2
            rw [if_pos hr]
            have hi : i + 1 + k = i + (k + 1) := by omega
            rw [← hi]; exact h2
          · exact ⟨h1.rounds, h1.count, h1.flag⟩
      · rw [if_neg hr] at h
        cases h
        rw [if_neg hr, if_neg (by omega)]
        exact h1

/-- the parts of a successful call -/
theorem smoothn_ok (e : Env n) (a : Args n) (want : Wanted) (data : Fin n → Option ℝ) (r : Result n) (hn : 2 ≤ n)
    (h : smoothn e a want data = .ok r) :
    ∃ w y s, initWeights a (isFinite a data) = .ok w ∧ (∀ i, 0 ≤ w i) ∧ (∀ i, maskData (isFinite a data) data i = some (y i)) ∧
      outerLoop e a ⟨y, isFinite a data, w, a.smooth.isNone, if decide (∃ i, w i ≠ 1) then 1 + 0.75 else 1⟩ 3 0
        ⟨startValue e a (decide (∃ i, w i ≠ 1)) (isFinite a data) y, startValue e a (decide (∃ i, w i ≠ 1)) (isFinite a data) y, .val 1, 0,
          a.smooth, none, decide (∃ i, w i ≠ 1), w, 1, 0, []⟩ = .ok s ∧
      (a.smooth = none → s.smooth ≠ none) ∧
      r = ⟨some (applyExclusion a s.z), s.smooth, s.exitFlag,
        { initialGuess := if want.initialGuess then some (startValue e a (decide (∃ i, w i ≠ 1)) (isFinite a data) y) else none
          finalWeights := if want.finalWeights then some s.wtot else none
          gcvScore := if want.gcvScore then s.score else none }, maskData (isFinite a data) data, s.count, s.reached⟩ := by
  unfold smoothn at h
  rw [if_neg (by omega), if_neg (by omega)] at h
  simp only at h
  cases hw : initWeights a (isFinite a data) with
  | error er => rw [hw] at h; cases h
  | ok w =>
    rw [hw] at h
    simp only [Except.bind] at h
    split at h
    · cases h
    next hneg =>
    split at h
    · cases h
    next hnan =>
    push Not at hneg hnan
    have hy : ∀ i, maskData (isFinite a data) data i = some ((maskData (isFinite a data) data i).getD 0) := by
      intro i
      cases hm : maskData (isFinite a data) data i with
      | none => exact absurd hm (hnan i)
      | some v => rfl
    cases hs : outerLoop e a ⟨fun i => (maskData (isFinite a data) data i).getD 0, isFinite a data, w, a.smooth.isNone,
        if decide (∃ i, w i ≠ 1) then 1 + 0.75 else 1⟩ 3 0
        ⟨startValue e a (decide (∃ i, w i ≠ 1)) (isFinite a data) (fun i => (maskData (isFinite a data) data i).getD 0),
          startValue e a (decide (∃ i, w i ≠ 1)) (isFinite a data) (fun i => (maskData (isFinite a data) data i).getD 0), .val 1, 0,
          a.smooth, none, decide (∃ i, w i ≠ 1), w, 1, 0, []⟩ with
    | error er => rw [hs] at h; cases h
    | ok s =>
      rw [hs] at h
      simp only at h
      split at h
      · cases h
      next hsm =>
      cases h
      refine ⟨w, fun i => (maskData (isFinite a data) data i).getD 0, s, rfl, hneg, hy, hs, ?_, rfl⟩
      intro ha hs'
      rw [ha, hs'] at hsm
      exact hsm rfl

/-! ## C47 -/

/-- C47, part 1: the iteration ends: the number of inner rounds is at most `MaxIter` times the number of outer rounds, of which there is
one without and three with robust weights; with fewer rounds the tolerance was reached. The exit flag is 3 exactly if the
tolerance was not reached in an outer round whose *number* is at least `MaxIter`. -/
theorem smoothn_rounds_partial (e : Env n) (a : Args n) (want : Wanted) (data : Fin n → Option ℝ) (r : Result n) (hn : 2 ≤ n)
    (h : smoothn e a want data = .ok r) :
    r.reached.length = (if a.robust then 3 else 1) ∧ r.count ≤ (if a.robust then 3 else 1) * a.maxIter ∧
      (r.exitFlag = 3 ∨ r.exitFlag = 1) ∧ (r.exitFlag = 3 → false ∈ r.reached) ∧
      (r.exitFlag = 3 ↔ ∃ j, a.maxIter ≤ j ∧ r.reached[j]? = some false) := by
  obtain ⟨w, y, s, hw, hw0, hy, hs, -, rfl⟩ := smoothn_ok e a want data r hn h
  have hI := outerLoop_inv e a _ 3 0 _ s ⟨rfl, Nat.zero_le _, by simp⟩ hs
  have e3 : (if a.robust = true then 0 + 3 else if 3 = 0 then 0 else 0 + 1) = if a.robust = true then 3 else 1 := by
    split <;> rfl
  rw [e3] at hI
  obtain ⟨h1, h2, h3⟩ := hI
  refine ⟨h1, h2, ?_, ?_, ?_⟩
  · rw [h3]; split <;> simp
  · intro hf
    show false ∈ s.reached
    have hf' : s.exitFlag = 3 := hf
    rw [h3] at hf'
    split at hf'
    · next hex => obtain ⟨j, -, hj⟩ := hex; exact List.mem_of_getElem? hj
    · cases hf'
  · show s.exitFlag = 3 ↔ _
    rw [h3]
    constructor
    · intro hf
      split at hf
      · assumption
      · cases hf
    · intro hex; rw [if_pos hex]

/-- C47, part 2 (negation): with three or more allowed rounds — or, without robust weights, one or more — the flag is always 1, so no failure to
converge is ever reported. -/
theorem smoothn_never_reports (e : Env n) (a : Args n) (want : Wanted) (data : Fin n → Option ℝ) (r : Result n) (hn : 2 ≤ n)
    (h : smoothn e a want data = .ok r) (hm : (if a.robust then 3 else 1) ≤ a.maxIter) : r.exitFlag = 1 := by
  obtain ⟨h1, -, h3, -, h5⟩ := smoothn_rounds_partial e a want data r hn h
  rcases h3 with h3 | h3
  · obtain ⟨j, hj, hr⟩ := h5.mp h3
    rw [List.getElem?_eq_none (by omega)] at hr
    cases hr
  · exact h3

/-! ## C63: gaps and excluded elements -/

theorem isFinite_iff (a : Args n) (data : Fin n → Option ℝ) (i : Fin n) : isFinite a data i = true ↔ ¬ Unused a data i := by
  unfold isFinite Unused
  rcases hg : a.gap with _ | g <;> rcases he : a.excl with _ | m <;> simp [Option.isSome_iff_ne_none]

/-- C63: the result of a call, including an exception, is the same for two arrays that have gaps at the same places and agree where
they have none. -/
theorem smoothn_ignores_unused (e : Env n) (a : Args n) (want : Wanted) (data data' : Fin n → Option ℝ) (hn : 2 ≤ n)
    (hgap : ∀ i, Unused a data i ↔ Unused a data' i) (heq : ∀ i, ¬ Unused a data i → data i = data' i) :
    smoothn e a want data = smoothn e a want data' := by
  have hfin : isFinite a data = isFinite a data' := by
    funext i
    rw [Bool.eq_iff_iff, isFinite_iff, isFinite_iff, hgap i]
  have hmask : maskData (isFinite a data) data = maskData (isFinite a data') data' := by
    funext i
    unfold maskData
    rw [← hfin]
    split
    · next hi => exact heq i ((isFinite_iff a data i).mp hi)
    · rfl
  unfold smoothn
  rw [if_neg (by omega), if_neg (by omega), if_neg (by omega), if_neg (by omega)]
  simp only
  rw [hmask, hfin]

/-- C63: what stands at excluded places has no influence at all -/
theorem smoothn_ignores_excluded (e : Env n) (a : Args n) (want : Wanted) (m : Fin n → Bool) (data data' : Fin n → Option ℝ)
    (hn : 2 ≤ n) (hm : a.excl = some m) (heq : ∀ i, m i = false → data i = data' i) :
    smoothn e a want data = smoothn e a want data' := by
  have hex : ∀ i, m i = true → ∀ d, Unused a d i := fun i hi d => Or.inr ⟨m, hm, hi⟩
  refine smoothn_ignores_unused e a want data data' hn (fun i => ?_) (fun i hi => ?_)
  · cases hi : m i with
    | true => exact ⟨fun _ => hex i hi _, fun _ => hex i hi _⟩
    | false => unfold Unused; rw [heq i hi]
  · cases hmi : m i with
    | true => exact absurd (hex i hmi data) hi
    | false => exact heq i hmi

/-- C63: the result has the gap value exactly where the elements are excluded (and possibly where the number `gap_value` is the smoothed value)
and a number everywhere else: no gap is left. -/
theorem smoothn_fills (e : Env n) (a : Args n) (want : Wanted) (data : Fin n → Option ℝ) (r : Result n) (hn : 2 ≤ n)
    (h : smoothn e a want data = .ok r) :
    ∃ z, r.z = some z ∧ (∀ m, a.excl = some m → ∀ i, m i = true → z i = a.gap) ∧
      ∀ i, (∀ m, a.excl = some m → m i = false) → (z i).isSome := by
  obtain ⟨w, y, s, -, -, -, -, -, rfl⟩ := smoothn_ok e a want data r hn h
  refine ⟨_, rfl, fun m hm i hi => ?_, fun i hi => ?_⟩
  · simp [applyExclusion, hm, hi]
  · unfold applyExclusion
    split
    · rfl
    · next m hm => simp [hi m hm]

/-- Fewer than two elements, counted with the gaps, give no array and the exit flag 2. -/
theorem smoothn_too_short (e : Env n) (a : Args n) (want : Wanted) (data : Fin n → Option ℝ) (hn : n < 2)
    (hw : n = 0 → a.weights = none) :
    smoothn e a want data = .ok ⟨none, a.smooth, 2, {}, data, 0, []⟩ := by
  unfold smoothn
  rw [if_neg (by rintro ⟨h0, h1⟩; rw [hw h0] at h1; cases h1), if_pos hn]

/-- the flag 2 is for short arrays only: two elements without a single sample do not get it, although the documentation says "less than 2
data samples" -/
theorem smoothn_flag_two (e : Env n) (a : Args n) (want : Wanted) (data : Fin n → Option ℝ) (r : Result n)
    (h : smoothn e a want data = .ok r) : r.exitFlag = 2 ↔ n < 2 := by
  by_cases hn : n < 2
  · refine ⟨fun _ => hn, fun _ => ?_⟩
    by_cases h0 : n = 0 ∧ a.weights.isSome
    · unfold smoothn at h; rw [if_pos h0] at h; cases h
    · unfold smoothn at h; rw [if_neg h0, if_pos hn] at h; cases h; rfl
  · have := (smoothn_rounds_partial e a want data r (by omega) h).2.2.1
    constructor
    · intro h2; rw [h2] at this; omega
    · intro h2; exact absurd h2 hn

/-! ## C65: the array of the caller -/

/-- C65 (negation): the call overwrites all gaps and excluded elements of the caller's array with 0 and leaves the others as they are. -/
theorem smoothn_overwrites (e : Env n) (a : Args n) (want : Wanted) (data : Fin n → Option ℝ) (r : Result n) (hn : 2 ≤ n)
    (h : smoothn e a want data = .ok r) (i : Fin n) :
    (Unused a data i → r.data i = some 0) ∧ (¬ Unused a data i → r.data i = data i) := by
  obtain ⟨w, y, s, -, -, -, -, -, rfl⟩ := smoothn_ok e a want data r hn h
  constructor
  · intro hu
    show maskData (isFinite a data) data i = _
    unfold maskData
    rw [if_neg (fun hc => (isFinite_iff a data i).mp hc hu)]
  · intro hu
    show maskData (isFinite a data) data i = _
    unfold maskData
    rw [if_pos ((isFinite_iff a data i).mpr hu)]

/-- C65 for arrays without gaps and excluded elements: they are left alone. Missing: all others, see `smoothn_overwrites`. -/
theorem smoothn_keeps_data_partial (e : Env n) (a : Args n) (want : Wanted) (data : Fin n → Option ℝ) (r : Result n) (hn : 2 ≤ n)
    (h : smoothn e a want data = .ok r) (hd : ∀ i, ¬ Unused a data i) : r.data = data :=
  funext fun i => (smoothn_overwrites e a want data r hn h i).2 (hd i)

/-! ## C68: the side products -/

theorem innerStep_score (e : Env n) (a : Args n) (f : Fixed n) (j : ℕ) (s s' : State n) (h : innerStep e a f j s = .ok s') :
    s'.score.isSome := by
  unfold innerStep at h
  simp only at h
  split at h
  · cases h
  · split at h
    · cases h
    · cases h; rfl

theorem innerLoop_score (e : Env n) (a : Args n) (f : Fixed n) (k j : ℕ) (s s' : State n) (hk : 1 ≤ k) (ht : s.tol.exceeds a.tolZ)
    (h : innerLoop e a f k j s = .ok s') : s'.score.isSome := by
  obtain ⟨k, rfl⟩ : ∃ k', k = k' + 1 := ⟨k - 1, by omega⟩
  rw [innerLoop, if_pos ht] at h
  cases hs : innerStep e a f j s with
  | error er => rw [hs] at h; cases h
  | ok s1 =>
    rw [hs] at h
    exact innerLoop_inv e a f (fun t => t.score.isSome) (fun j t t' _ h => innerStep_score e a f j t t' h) _ _ _ _
      (innerStep_score e a f j s s1 hs) h

theorem outerLoop_score (e : Env n) (a : Args n) (f : Fixed n) (hm : 1 ≤ a.maxIter) (ht : a.tolZ < 1) :
    ∀ k i s s', 1 ≤ k → s.tol = .val 1 → outerLoop e a f k i s = .ok s' → s'.score.isSome := by
  intro k
  induction k with
  | zero => intro i s s' hk; omega
  | succ k ih =>
    intro i s s' _ h1 h
    rw [outerLoop] at h
    cases hs : innerLoop e a f a.maxIter 0 s with
    | error er => rw [hs] at h; cases h
    | ok s1 =>
      rw [hs] at h
      have hsc := innerLoop_score e a f _ _ s s1 hm (by rw [h1]; simpa [Tol.exceeds] using ht) hs
      simp only [Except.bind] at h
      split at h
      · split at h
        · cases h
        · cases k with
          | zero => rw [outerLoop] at h; cases h; exact hsc
          | succ k => exact ih _ _ _ (by omega) rfl h
      · cases h; exact hsc

/-- C68 (partial): the initial guess, weights and score are returned exactly if they are asked for. -/
theorem smoothn_stats_partial (e : Env n) (a : Args n) (want : Wanted) (data : Fin n → Option ℝ) (r : Result n) (hn : 2 ≤ n)
    (h : smoothn e a want data = .ok r) (hm : 1 ≤ a.maxIter) (ht : a.tolZ < 1) :
    (r.stats.initialGuess.isSome ↔ want.initialGuess) ∧ (r.stats.finalWeights.isSome ↔ want.finalWeights) ∧
      (r.stats.gcvScore.isSome ↔ want.gcvScore) ∧ (∀ g, a.initGuess = some g → want.initialGuess → r.stats.initialGuess = some g) := by
  obtain ⟨w, y, s, -, -, -, hs, -, rfl⟩ := smoothn_ok e a want data r hn h
  refine ⟨?_, ?_, ?_, ?_⟩
  · show (if want.initialGuess then _ else none).isSome = true ↔ _
    cases want.initialGuess <;> simp
  · show (if want.finalWeights then _ else none).isSome = true ↔ _
    cases want.finalWeights <;> simp
  · have hsc := outerLoop_score e a _ hm ht 3 0 _ s (by omega) rfl hs
    show (if want.gcvScore then s.score else none).isSome = true ↔ _
    cases want.gcvScore <;> simp [hsc]
  · intro g hg hwant
    show (if want.initialGuess then _ else none) = _
    rw [if_pos hwant]
    simp [startValue, hg]

/-- C68 (negation): the distances are never returned, even if asked for. -/
theorem smoothn_no_distance (e : Env n) (a : Args n) (want : Wanted) (data : Fin n → Option ℝ) (r : Result n)
    (h : smoothn e a want data = .ok r) : r.stats.euclideanDistance = none := by
  by_cases hn : 2 ≤ n
  · obtain ⟨w, y, s, -, -, -, -, -, rfl⟩ := smoothn_ok e a want data r hn h
    rfl
  · unfold smoothn at h
    split at h
    · cases h
    · rw [if_pos (by omega)] at h; cases h; rfl

end Verif.Smoothn
