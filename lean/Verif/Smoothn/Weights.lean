import Verif.Smoothn.Optimal
import Mathlib.Tactic.FinCases
import Mathlib.Data.List.GetD

/-! # C67: weights; and witnesses for the theorems on `smoothn` -/

namespace Verif.Smoothn

set_option linter.unusedSectionVars false

open Classical

variable {n : ℕ}

/-! ## Robust weights -/

theorem robustWeights_range (r : Fin n → ℝ) (h : ℝ) (mask : Option (Fin n → Bool)) (i : Fin n) :
    0 ≤ robustWeights r h mask i ∧ robustWeights r h mask i ≤ 1 := by
  unfold robustWeights
  simp only
  split
  · exact ⟨le_refl _, zero_le_one⟩
  · have hsq := sq_nonneg (|r i / (1.4826 * mad (selected (fun k => !(mask.getD (fun _ => true)) k) r))| / Real.sqrt (1 - h) / 2.385)
    constructor
    · positivity
    · rw [div_le_one (by linarith)]; linarith

/-- C67: a larger residual never has a larger weight -/
theorem robustWeights_antitone (r : Fin n → ℝ) (h : ℝ) (mask : Option (Fin n → Bool)) (i j : Fin n) (hij : |r i| ≤ |r j|) :
    robustWeights r h mask j ≤ robustWeights r h mask i := by
  unfold robustWeights
  simp only
  split
  · exact le_refl _
  · refine one_div_le_one_div_of_le (by positivity) ?_
    have : |r i / (1.4826 * mad (selected (fun k => !(mask.getD (fun _ => true)) k) r))| ≤
        |r j / (1.4826 * mad (selected (fun k => !(mask.getD (fun _ => true)) k) r))| := by
      rw [abs_div, abs_div]
      exact div_le_div_of_nonneg_right hij (abs_nonneg _)
    gcongr

/-- C67 (negation): without a mask `RobustWeights` gives the weight 0 to everything, although the documentation says that all residuals are
used then. -/
theorem robustWeights_no_mask (r : Fin n → ℝ) (h : ℝ) (i : Fin n) : robustWeights r h none i = 0 := by
  unfold robustWeights
  simp only
  rw [if_pos]
  left
  unfold selected
  simp

/-- C67 (negation): if more than half of the residuals are equal — the smoothing went exactly through most of the data — all data are
ignored in the next round. Stated for equal residuals at all used elements. -/
theorem robustWeights_exact_fit (r : Fin n → ℝ) (h c : ℝ) (mask : Fin n → Bool) (hc : ∀ i, mask i = false → r i = c) (i : Fin n) :
    robustWeights r h (some mask) i = 0 := by
  unfold robustWeights
  simp only [Option.getD_some]
  by_cases hl : selected (fun k => !mask k) r = []
  · rw [if_pos (Or.inl hl)]
  · rw [if_pos (Or.inr (Or.inl ?_))]
    have hall : ∀ x ∈ selected (fun k => !mask k) r, x = c := by
      intro x hx
      unfold selected at hx
      rw [List.mem_map] at hx
      obtain ⟨k, hk, rfl⟩ := hx
      rw [List.mem_filter] at hk
      exact hc k (by simpa using hk.2)
    have hmed : ∀ (l : List ℝ) (c : ℝ), l ≠ [] → (∀ x ∈ l, x = c) → median l = c := by
      intro l c hne hl
      have hlen : (l.insertionSort (· ≤ ·)).length = l.length := List.length_insertionSort _ _
      have hget : ∀ k, k < l.length → (l.insertionSort (· ≤ ·)).getD k 0 = c := by
        intro k hk
        rw [List.getD_eq_getElem _ _ (by rw [hlen]; exact hk)]
        exact hl _ ((List.perm_insertionSort _ l).mem_iff.mp (List.getElem_mem _))
      have hpos : 0 < l.length := List.length_pos_of_ne_nil hne
      unfold median
      simp only
      rw [hlen, hget _ (by omega), hget _ (by omega)]
      ring
    unfold mad
    refine hmed _ 0 (by simpa using hl) ?_
    intro x hx
    rw [List.mem_map] at hx
    obtain ⟨v, hv, rfl⟩ := hx
    rw [hmed _ c hl hall, hall v hv]
    simp

/-! ## The weights of a call -/

theorem maxOf_spec (w : Fin n → ℝ) (i : Fin n) : w i ≤ maxOf w ∧ ∃ k, maxOf w = w k := by
  unfold maxOf
  have hi : w i ∈ List.ofFn w := by rw [List.mem_ofFn]; exact ⟨i, rfl⟩
  cases hl : List.ofFn w with
  | nil => rw [hl] at hi; cases hi
  | cons y ys =>
    simp only
    have key : ∀ (ys : List ℝ) (y : ℝ), (∀ x ∈ y :: ys, x ≤ ys.foldl max y) ∧ ys.foldl max y ∈ y :: ys := by
      intro ys
      induction ys with
      | nil => intro y; simp
      | cons a as ih =>
        intro y
        obtain ⟨h1, h2⟩ := ih (max y a)
        rw [List.foldl_cons]
        constructor
        · intro x hx
          have hm := h1 _ (List.mem_cons_self ..)
          rcases List.mem_cons.mp hx with rfl | hx
          · exact le_trans (le_max_left _ _) hm
          rcases List.mem_cons.mp hx with rfl | hx
          · exact le_trans (le_max_right _ _) hm
          · exact h1 x (List.mem_cons_of_mem _ hx)
        · rcases List.mem_cons.mp h2 with h2 | h2
          · rw [h2]; rcases max_choice y a with h | h <;> rw [h] <;> simp
          · exact List.mem_cons_of_mem _ (List.mem_cons_of_mem _ h2)
    obtain ⟨h1, h2⟩ := key ys y
    refine ⟨h1 _ (hl ▸ hi), ?_⟩
    rw [← hl, List.mem_ofFn] at h2
    obtain ⟨k, hk⟩ := h2
    exact ⟨k, hk.symm⟩

/-- weights of the first round -/
theorem initWeights_ok (a : Args n) (data : Fin n → Option ℝ) (w : Fin n → ℝ) (h : initWeights a (isFinite a data) = .ok w) (i : Fin n) :
    (Unused a data i → w i = 0) ∧ (¬ Unused a data i → (a.weights = none → w i = 1) ∧
      ∀ w0, a.weights = some w0 → w i = w0 i / maxOf w0 ∧ maxOf w0 ≠ 0) := by
  unfold initWeights at h
  cases hw : a.weights with
  | none =>
    rw [hw] at h
    cases h
    refine ⟨fun hu => ?_, fun hu => ⟨fun _ => ?_, fun _ hc => (by cases hc)⟩⟩
    · simp only; rw [if_neg (fun hc => (isFinite_iff a data i).mp hc hu)]
    · simp only; rw [if_pos ((isFinite_iff a data i).mpr hu)]
  | some w0 =>
    rw [hw] at h
    simp only at h
    split at h
    · cases h
    next hm =>
    cases h
    refine ⟨fun hu => ?_, fun hu => ⟨fun hc => (by cases hc), fun w1 hc => ?_⟩⟩
    · simp only; rw [if_neg (fun hc => (isFinite_iff a data i).mp hc hu)]
    · cases hc
      simp only; rw [if_pos ((isFinite_iff a data i).mpr hu)]
      exact ⟨rfl, hm⟩

theorem outerLoop_wtot (e : Env n) (a : Args n) (f : Fixed n) (Q : (Fin n → ℝ) → Prop)
    (hQ : ∀ r h mask, Q (fun i => f.weights i * robustWeights r h mask i)) :
    ∀ k i s s', Q s.wtot → outerLoop e a f k i s = .ok s' → Q s'.wtot := by
  intro k
  induction k with
  | zero => intro i s s' hs h; rw [outerLoop] at h; cases h; exact hs
  | succ k ih =>
    intro i s s' hs h
    rw [outerLoop] at h
    cases hl : innerLoop e a f a.maxIter 0 s with
    | error er => rw [hl] at h; cases h
    | ok s1 =>
      rw [hl] at h
      simp only [Except.bind] at h
      split at h
      · split at h
        · cases h
        · refine ih _ _ _ ?_ h
          exact hQ _ _ _
      · cases h
        show Q s1.wtot
        rw [(innerLoop_keeps e a f _ _ s s1 hl).2.2.1]
        exact hs

/-- C67, part 1: if the largest weight is positive, the final weights are between 0 and 1 everywhere and 0 for gaps and excluded elements. -/
theorem smoothn_final_weights_partial (e : Env n) (a : Args n) (want : Wanted) (data : Fin n → Option ℝ) (r : Result n) (hn : 2 ≤ n)
    (h : smoothn e a want data = .ok r) (hw : ∀ w0, a.weights = some w0 → 0 < maxOf w0) (hwant : want.finalWeights) :
    ∃ w, r.stats.finalWeights = some w ∧ ∀ i, 0 ≤ w i ∧ w i ≤ 1 ∧ (Unused a data i → w i = 0) := by
  obtain ⟨w, y, s, hiw, hw0, -, hs, -, rfl⟩ := smoothn_ok e a want data r hn h
  have hb : ∀ i, 0 ≤ w i ∧ w i ≤ 1 ∧ (Unused a data i → w i = 0) := by
    intro i
    have hk := initWeights_ok a data w hiw i
    refine ⟨hw0 i, ?_, hk.1⟩
    by_cases hu : Unused a data i
    · rw [hk.1 hu]; exact zero_le_one
    · cases hwt : a.weights with
      | none => rw [(hk.2 hu).1 hwt]
      | some w0 =>
        rw [((hk.2 hu).2 w0 hwt).1, div_le_one (hw w0 hwt)]
        exact (maxOf_spec w0 i).1
  refine ⟨s.wtot, by simp [hwant], ?_⟩
  refine outerLoop_wtot e a _ (fun v => ∀ i, 0 ≤ v i ∧ v i ≤ 1 ∧ (Unused a data i → v i = 0)) ?_ 3 0 _ s hb hs
  intro r h mask i
  have h1 := robustWeights_range r h mask i
  refine ⟨mul_nonneg (hb i).1 h1.1, mul_le_one₀ (hb i).2.1 h1.1 h1.2, fun hu => ?_⟩
  show w i * _ = 0
  rw [(hb i).2.2 hu, zero_mul]

/-- C67, part 2: if the largest weight is positive, a negative weight of a used element is a ValueError. -/
theorem smoothn_negative_weight_partial (e : Env n) (a : Args n) (want : Wanted) (data : Fin n → Option ℝ) (hn : 2 ≤ n)
    (w0 : Fin n → ℝ) (hw : a.weights = some w0) (hm : 0 < maxOf w0) (i : Fin n) (hu : ¬ Unused a data i) (hneg : w0 i < 0) :
    smoothn e a want data = .error .valueError := by
  unfold smoothn
  rw [if_neg (by omega), if_neg (by omega)]
  simp only
  cases hiw : initWeights a (isFinite a data) with
  | error er =>
    unfold initWeights at hiw
    rw [hw] at hiw
    simp only at hiw
    rw [if_neg hm.ne'] at hiw
    cases hiw
  | ok w =>
    have hk := ((initWeights_ok a data w hiw i).2 hu).2 w0 hw
    simp only [Except.bind]
    rw [if_pos ⟨i, by rw [hk.1]; exact div_neg_of_neg_of_pos hneg hm⟩]

/-- C67, part 3 (negation): if all weights are negative, none of them is refused: whether the call fails does not depend on their signs, the weights
are the quotients by the largest one and at least 1. -/
theorem smoothn_all_negative (a : Args n) (data : Fin n → Option ℝ) (w0 : Fin n → ℝ) (hw : a.weights = some w0)
    (hneg : ∀ i, w0 i < 0) (hn : 0 < n) :
    ∃ w, initWeights a (isFinite a data) = .ok w ∧ (∀ i, 0 ≤ w i) ∧ ∀ i, ¬ Unused a data i → 1 ≤ w i := by
  obtain ⟨k, hk⟩ := (maxOf_spec w0 ⟨0, hn⟩).2
  have hm : maxOf w0 < 0 := by rw [hk]; exact hneg k
  cases hiw : initWeights a (isFinite a data) with
  | error er =>
    unfold initWeights at hiw
    rw [hw] at hiw
    simp only at hiw
    rw [if_neg hm.ne] at hiw
    cases hiw
  | ok w =>
    refine ⟨w, rfl, fun i => ?_, fun i hu => ?_⟩
    · by_cases hu : Unused a data i
      · rw [(initWeights_ok a data w hiw i).1 hu]
      · rw [(((initWeights_ok a data w hiw i).2 hu).2 w0 hw).1]
        exact (div_pos_of_neg_of_neg (hneg i) hm).le
    · rw [(((initWeights_ok a data w hiw i).2 hu).2 w0 hw).1, one_le_div_of_neg hm]
      exact (maxOf_spec w0 i).1

/-! ## A concrete transform: two elements -/

/-- the orthonormal cosine transform of two elements, with eigenvalues 0 and 2 -/
noncomputable def haar : Env 2 where
  dct x := ![(x 0 + x 1) / Real.sqrt 2, (x 0 - x 1) / Real.sqrt 2]
  idct x := ![(x 0 + x 1) / Real.sqrt 2, (x 0 - x 1) / Real.sqrt 2]
  lam := ![0, 2]
  near _ i := 1 - i
  low i := decide (i = 0)
  fmin _ := 0

theorem haar_isDct : IsDct haar where
  add x y := by
    funext i; fin_cases i <;> simp [haar] <;> ring
  inner x y := by
    have h2 : Real.sqrt 2 * Real.sqrt 2 = 2 := Real.mul_self_sqrt (by norm_num)
    simp only [haar, Fin.sum_univ_two, Matrix.cons_val_zero, Matrix.cons_val_one]
    rw [div_mul_div_comm, div_mul_div_comm, h2]
    ring
  left x := by
    have h2 : Real.sqrt 2 * Real.sqrt 2 = 2 := Real.mul_self_sqrt (by norm_num)
    funext i
    fin_cases i <;> simp [haar, ← add_div, ← sub_div, div_div, h2]
  right x := by
    have h2 : Real.sqrt 2 * Real.sqrt 2 = 2 := Real.mul_self_sqrt (by norm_num)
    funext i
    fin_cases i <;> simp [haar, ← add_div, ← sub_div, div_div, h2]
  nonneg i := by fin_cases i <;> simp [haar]
  const c i hi := by
    fin_cases i
    · simp [haar] at hi
    · simp [haar]

/-- the hypotheses of C64 for two numbers -/
example : ∃ r z sm, smoothn haar { smooth := some 3, robust := false } {} (fun i => some (![1, 5] i)) = .ok r ∧ r.count = 1 ∧
    r.exitFlag = 1 ∧ r.smooth = some sm ∧ 0 ≤ sm ∧ (∀ s, some 3 = some s → sm = s) ∧ r.z = some (fun i => some (z i)) ∧
    IsOnlyBest haar 2 (fun _ => 1) ![1, 5] sm z :=
  smoothn_complete haar_isDct { smooth := some 3, robust := false } {} _ ![1, 5] (le_refl _)
    (fun i => ⟨rfl, by rintro (h | ⟨m, h, -⟩) <;> cases h⟩) rfl rfl rfl (Or.inr rfl) (by norm_num) ⟨by norm_num, by norm_num⟩
    (fun s hs => by cases hs; norm_num)

/-- one number and a gap, weights `w` for the two, one round -/
noncomputable def exArgs (w : Fin 2 → ℝ) : Args 2 :=
  { smooth := some 1, order := 1, robust := false, maxIter := 1, initGuess := some (fun _ => 0), weights := some w }

def exData : Fin 2 → Option ℝ := ![some 1, none]

theorem ex_result (w : Fin 2 → ℝ) (h0 : 0 < w 0) (hm : 0 < maxOf w) :
    ∃ r, smoothn haar (exArgs w) {} exData = .ok r ∧ r.exitFlag = 1 ∧ r.reached = [false] ∧ r.count = 1 ∧
      r.z = some (fun i => some (![7 / 6, 7 / 12] i * (w 0 / maxOf w))) := by
  have hfin : isFinite (exArgs w) exData = ![true, false] := by
    funext i; fin_cases i <;> simp [isFinite, exArgs, exData]
  have hmask : maskData (isFinite (exArgs w) exData) exData = fun i => some (![(1 : ℝ), 0] i) := by
    rw [hfin]; funext i; fin_cases i <;> simp [maskData, exData]
  have hiw : initWeights (exArgs w) (isFinite (exArgs w) exData) = .ok ![w 0 / maxOf w, 0] := by
    rw [hfin]
    unfold initWeights
    simp only [exArgs]
    rw [if_neg hm.ne']
    refine congrArg _ ?_
    funext i; fin_cases i <;> simp
  have hq : 0 < w 0 / maxOf w := div_pos h0 hm
  have h2 : Real.sqrt 2 * Real.sqrt 2 = 2 := Real.mul_self_sqrt (by norm_num)
  have hwt : ∃ i, (![w 0 / maxOf w, 0] : Fin 2 → ℝ) i ≠ 1 := ⟨1, by simp⟩
  set q := w 0 / maxOf w with hqd
  set f : Fixed 2 := ⟨![1, 0], ![true, false], ![q, 0], false, 1 + 0.75⟩ with hf
  set s0 : State 2 := ⟨fun _ => 0, fun _ => 0, .val 1, 0, some 1, none, true, ![q, 0], 1, 0, []⟩ with hs0
  obtain ⟨s1, hs1, hz1, ht1, hc1, hf1, hr1, hsm1⟩ : ∃ s1, innerStep haar (exArgs w) f 0 s0 = .ok s1 ∧
      s1.z = (fun i => ![7 / 6, 7 / 12] i * q) ∧ s1.tol.exceeds (exArgs w).tolZ = true ∧ s1.count = 1 ∧ s1.exitFlag = 1 ∧ s1.reached = [] ∧
      s1.smooth.isSome := by
    unfold innerStep
    simp only
    rw [if_neg (by simp [exArgs]), if_neg (by simp [f, s0])]
    have hsm : ∀ d v, smoothOf f s0 (choosePBest haar (exArgs w) f 0 d v s0) = 1 := by
      intro d v
      simp [smoothOf, choosePBest, f, s0]
    have hz : (fun i => f.rf * haar.idct (fun k => gamma haar (exArgs w).order 1 k *
        haar.dct (fun i => s0.wtot i * (f.data i - s0.z i) + s0.z i) k) i + (1 - f.rf) * s0.z i) =
        fun i => (![7 / 6, 7 / 12] : Fin 2 → ℝ) i * q := by
      funext i
      fin_cases i
      · simp [f, s0, haar, gamma, exArgs]
        have h3 : q / Real.sqrt 2 / Real.sqrt 2 = q / 2 := by rw [div_div, h2]
        calc _ = (1 + 0.75) * (1 + (1 + 2 : ℝ)⁻¹) * (q / Real.sqrt 2 / Real.sqrt 2) := by ring
          _ = _ := by rw [h3]; norm_num; ring
      · simp [f, s0, haar, gamma, exArgs]
        have h3 : q / Real.sqrt 2 / Real.sqrt 2 = q / 2 := by rw [div_div, h2]
        calc _ = (1 + 0.75) * (1 - (1 + 2 : ℝ)⁻¹) * (q / Real.sqrt 2 / Real.sqrt 2) := by ring
          _ = _ := by rw [h3]; norm_num; ring
    rw [hsm]
    refine ⟨_, rfl, hz, ?_, rfl, rfl, rfl, rfl⟩
    have hzi := fun i => congrFun hz i
    simp only [hzi]
    have hn : norm f.fin (fun i => (![7 / 6, 7 / 12] : Fin 2 → ℝ) i * q) = 7 / 6 * q := by
      simp only [norm, f, Fin.sum_univ_two]
      simp
      rw [Real.sqrt_sq (by positivity)]
    have hn' : norm f.fin (fun i => (![7 / 6, 7 / 12] : Fin 2 → ℝ) i * q - s0.z0 i) = 7 / 6 * q := by
      rw [← hn]; simp [s0]
    rw [hn, hn']
    have hpos : (7 / 6 * q) ≠ 0 := by positivity
    simp [quot, s0, hq.ne', Tol.exceeds, exArgs]
    norm_num
  have hinner : innerLoop haar (exArgs w) f (exArgs w).maxIter 0 s0 = .ok s1 := by
    show innerLoop haar (exArgs w) f 1 0 s0 = .ok s1
    rw [innerLoop, if_pos (by simp [s0, Tol.exceeds, exArgs]; norm_num), hs1]
    rfl
  have houter : outerLoop haar (exArgs w) f 3 0 s0 = .ok (setFlag (exArgs w) 0 s1) := by
    rw [outerLoop, hinner]
    simp [Except.bind, exArgs]
  refine ⟨⟨some (applyExclusion (exArgs w) s1.z), s1.smooth, (setFlag (exArgs w) 0 s1).exitFlag, {}, fun i => some (![(1 : ℝ), 0] i), s1.count,
    (setFlag (exArgs w) 0 s1).reached⟩, ?_, ?_, ?_, ?_, ?_⟩
  · unfold smoothn
    rw [if_neg (by omega), if_neg (by omega)]
    simp only
    rw [hiw]
    simp only [Except.bind]
    rw [if_neg (by push Not; intro i; fin_cases i <;> simp [hq.le]), hmask, if_neg (by simp)]
    rw [decide_eq_true hwt]
    have hst : startValue haar (exArgs w) true (isFinite (exArgs w) exData) (fun i => (some ((![(1 : ℝ), 0] : Fin 2 → ℝ) i)).getD 0) = fun _ => 0 := by
      simp [startValue, exArgs]
    rw [hst, hfin]
    simp only [Option.getD_some, if_true]
    have := houter
    rw [hf, hs0] at this
    have e1 : (exArgs w).smooth = some 1 := rfl
    rw [e1]
    simp only [Option.isNone_some]
    rw [this]
    rfl
  · simp [setFlag, hf1, exArgs]
  · simp [setFlag, hr1, ht1]
  · exact hc1
  · show some (applyExclusion (exArgs w) s1.z) = _
    refine congrArg some (funext fun i => ?_)
    rw [hz1]
    rfl

theorem maxOf_two (w : Fin 2 → ℝ) : maxOf w = max (w 0) (w 1) := by
  unfold maxOf
  simp [List.ofFn_succ]

/-- C47, part 3 (negation): a call that stops after `MaxIter` rounds without reaching the tolerance and returns the exit flag 1, "ok". -/
theorem smoothn_hidden_failure :
    ∃ (e : Env 2) (a : Args 2) (data : Fin 2 → Option ℝ) (r : Result 2), IsDct e ∧ smoothn e a {} data = .ok r ∧ r.count = a.maxIter ∧
      r.reached = [false] ∧ r.exitFlag = 1 := by
  obtain ⟨r, h1, h2, h3, h4, -⟩ := ex_result (fun _ => 1) one_pos (by rw [maxOf_two]; simp)
  exact ⟨haar, exArgs (fun _ => 1), exData, r, haar_isDct, h1, h4, h3, h2⟩

/-- C67, part 4 (negation): the weight of a gap changes the result. -/
theorem smoothn_gap_weight :
    ∃ (e : Env 2) (a a' : Args 2) (w w' : Fin 2 → ℝ) (data : Fin 2 → Option ℝ) (r r' : Result 2), IsDct e ∧ a.weights = some w ∧
      a' = { a with weights := some w' } ∧ (∀ i, ¬ Unused a data i → w i = w' i) ∧
      smoothn e a {} data = .ok r ∧ smoothn e a' {} data = .ok r' ∧ r.z ≠ r'.z := by
  obtain ⟨r, h1, -, -, -, h5⟩ := ex_result (fun _ => 1) one_pos (by rw [maxOf_two]; simp)
  obtain ⟨r', h1', -, -, -, h5'⟩ := ex_result ![1, 2] one_pos (by rw [maxOf_two]; simp)
  refine ⟨haar, exArgs (fun _ => 1), exArgs ![1, 2], fun _ => 1, ![1, 2], exData, r, r', haar_isDct, rfl, rfl, ?_, h1, h1', ?_⟩
  · intro i hi
    fin_cases i
    · rfl
    · exact absurd (Or.inl rfl) hi
  · rw [h5, h5']
    intro hc
    have := congrFun (Option.some.inj hc) 0
    rw [maxOf_two, maxOf_two] at this
    norm_num at this

/-! The theorems of C60 to C65 applied to one number and a gap, or two numbers. -/
example (r) (h : smoothn haar (exArgs ![2, 3]) {} exData = .ok r) := smoothn_fills haar (exArgs ![2, 3]) {} exData r (le_refl _) h
example (r) (h : smoothn haar (exArgs ![2, 3]) {} exData = .ok r) := smoothn_overwrites haar (exArgs ![2, 3]) {} exData r (le_refl _) h 1
example (r) (h : smoothn haar (exArgs ![2, 3]) {} (fun i => some (![1, 5] i)) = .ok r) :=
  smoothn_keeps_data_partial haar (exArgs ![2, 3]) {} (fun i => some (![1, 5] i)) r (le_refl _) h (by rintro i (h | ⟨m, h, -⟩) <;> cases h)
example (r) (h : smoothn haar (exArgs ![2, 3]) {} exData = .ok r) := smoothn_never_reports haar (exArgs ![2, 3]) {} exData r (le_refl _) h (by simp [exArgs])
example (r) (h : smoothn haar (exArgs ![2, 3]) {} exData = .ok r) := smoothn_flag_two haar (exArgs ![2, 3]) {} exData r h
example (r) (h : smoothn haar (exArgs ![2, 3]) {} exData = .ok r) := smoothn_no_distance haar (exArgs ![2, 3]) {} exData r h
example (r) (h : smoothn haar (exArgs ![2, 3]) {} exData = .ok r) := smoothn_stats_partial haar (exArgs ![2, 3]) {} exData r (le_refl _) h (by simp [exArgs])
  (by norm_num [exArgs])
example (r) (h : smoothn haar (exArgs ![2, 3]) { finalWeights := true } exData = .ok r) :=
  smoothn_final_weights_partial haar (exArgs ![2, 3]) { finalWeights := true } exData r (le_refl _) h
    (by
      intro w0 hw
      cases hw
      exact lt_of_lt_of_le (by norm_num : (0 : ℝ) < ![(2 : ℝ), 3] 0) (maxOf_spec ![(2 : ℝ), 3] 0).1) rfl
example := smoothn_ignores_excluded haar { excl := some ![false, true] } {} ![false, true] ![some 1, some 5] ![some 1, none] (le_refl _) rfl
  (by intro i; fin_cases i <;> simp)
example (e : Env 1) := smoothn_too_short e {} {} (fun _ => some 3) (by decide) (by decide)
example := smoothn_negative_weight_partial haar { weights := some ![2, -1] } {} ![some 1, some 5] (le_refl _) ![2, -1] rfl
  (lt_of_lt_of_le (by norm_num : (0 : ℝ) < ![(2 : ℝ), -1] 0) (maxOf_spec ![(2 : ℝ), -1] 0).1) 1 (by simp [Unused]) (by simp)
example := smoothn_all_negative { weights := some ![-2, -1] } ![some 1, some 5] ![-2, -1] rfl (by intro i; fin_cases i <;> simp) (by decide)
example := robustWeights_antitone ![1, -2, 5] (1 / 10) (some ![false, false, false]) 1 2 (by show |(-2 : ℝ)| ≤ |(5 : ℝ)|; norm_num)
example := robustWeights_exact_fit ![3, 3, 5] (1 / 10) 3 ![false, false, true] (by intro i; fin_cases i <;> simp) 2
example := robustWeights_no_mask ![1, -2, 5] (1 / 10) 2
example := smoothn_mean haar_isDct { smooth := some 3, robust := false } {} (fun i => some (![1, 5] i)) ![1, 5] (le_refl _)
  (fun i => ⟨rfl, by rintro (h | ⟨m, h, -⟩) <;> cases h⟩) rfl rfl rfl (Or.inr rfl) (by norm_num) ⟨by norm_num, by norm_num⟩
  (fun s hs => by cases hs; norm_num)
/-- a state that does not change any more -/
example (s s' : State 2) (hw : ∀ i, 0 ≤ s.wtot i) (h : innerStep haar (exArgs ![2, 3]) ⟨![1, 0], ![true, false], ![1, 0], false, 1 + 0.75⟩ 0 s = .ok s') (hz : s'.z = s.z) :=
  inner_fixed_point haar_isDct (exArgs ![2, 3]) ⟨![1, 0], ![true, false], ![1, 0], false, 1 + 0.75⟩ 0 s s' (by norm_num) hw h hz

end Verif.Smoothn
