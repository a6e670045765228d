import Mathlib.Algebra.BigOperators.Fin
import Verif.Ecol.Props
import Verif.Tcol.IeeeProps

/-!
C135: what `ecol` (`src/pytesmo/metrics/tcol.py:164-391`) estimates from arbitrary data, not only from data that follow the error model
(C14), and how this is related to triple collocation (`tcol_metrics`, C13 and C116).
-/

namespace Verif.Ecol

open Matrix

variable {n : ℕ}

/-! ### Specification -/

open Classical in
/-- The classical triplets of a data set: pairs of other data sets, no two of the three declared as correlated. -/
noncomputable def triplets (correlated : List (Fin n × Fin n)) (a : Fin n) : Finset (Fin n × Fin n) :=
  Finset.univ.filter (fun q => q.1 < q.2 ∧ q.1 ≠ a ∧ q.2 ≠ a ∧ ¬ Declared correlated a q.1 ∧ ¬ Declared correlated a q.2 ∧
    ¬ Declared correlated q.1 q.2)

open Classical in
/-- The bridges of a declared pair: ordered pairs of two further data sets. -/
noncomputable def bridges (correlated : List (Fin n × Fin n)) (a b : Fin n) : Finset (Fin n × Fin n) :=
  Finset.univ.filter (fun q => q.1 ≠ a ∧ q.1 ≠ b ∧ q.2 ≠ a ∧ q.2 ≠ b ∧ q.1 ≠ q.2 ∧ ¬ Declared correlated a q.1 ∧
    ¬ Declared correlated b q.2 ∧ ¬ Declared correlated q.1 q.2)

/-- Mean of the triple collocation estimates of the signal variance of `a` over its triplets. -/
noncomputable def signalMean (C : Fin n → Fin n → ℝ) (correlated : List (Fin n × Fin n)) (a : Fin n) : ℝ :=
  (∑ q ∈ triplets correlated a, C a q.1 * C a q.2 / C q.1 q.2) / ((triplets correlated a).card : ℝ)

/-- Mean of the estimates of the common signal of a declared pair over its bridges. -/
noncomputable def commonMean (C : Fin n → Fin n → ℝ) (correlated : List (Fin n × Fin n)) (a b : Fin n) : ℝ :=
  (∑ q ∈ bridges correlated a b, C a q.1 * C b q.2 / C q.1 q.2) / ((bridges correlated a b).card : ℝ)

/-! ### Normal equations -/

theorem solve_of_normal {k : ℕ} (eqs : List (Eqn n k)) (x : Param n k → ℝ)
    (hx : ∀ p, (eqs.map (fun e => e.1 p * (e.2 - e.1 ⬝ᵥ x))).sum = 0)
    (hdet : ¬ ∃ v, v ≠ 0 ∧ Kernel eqs v) : solve eqs = .ok x := by
  have hd : ((designMatrix eqs)ᵀ * designMatrix eqs).det ≠ 0 := by rwa [Ne, det_zero_iff]
  unfold solve
  simp only
  rw [if_neg hd]
  have hy : (designMatrix eqs)ᵀ *ᵥ obsVector eqs = ((designMatrix eqs)ᵀ * designMatrix eqs) *ᵥ x := by
    rw [← Matrix.mulVec_mulVec, ← sub_eq_zero, ← Matrix.mulVec_sub]
    funext p
    have h := hx p
    rw [← Fin.sum_univ_fun_getElem] at h
    exact h
  rw [← Matrix.mulVec_mulVec, hy, Matrix.mulVec_mulVec, Matrix.nonsing_inv_mul _ (isUnit_iff_ne_zero.mpr hd), Matrix.one_mulVec]

theorem residuals_zero (l : List ℝ) (m : ℝ) (hm : m = l.sum / (l.length : ℝ)) : (l.map (fun e => e - m)).sum = 0 := by
  have h : ∀ l : List ℝ, (l.map (fun e => e - m)).sum = l.sum - (l.length : ℝ) * m := by
    intro l
    induction l with
    | nil => simp
    | cons a l ih => simp only [List.map_cons, List.sum_cons, List.length_cons, ih]; push_cast; ring
  rw [h, hm]
  by_cases h0 : l = []
  · simp [h0]
  · have : (l.length : ℝ) ≠ 0 := by simpa using h0
    field_simp
    ring

/-! ### The lists of the code as sets -/

theorem combinations2_nodup {α : Type} (l : List α) (h : l.Nodup) : (combinations2 l).Nodup := by
  induction l with
  | nil => simp [combinations2]
  | cons a l ih =>
    rw [List.nodup_cons] at h
    unfold combinations2
    rw [List.nodup_append]
    refine ⟨h.2.map (fun b c hbc => (Prod.mk.inj hbc).2), ih h.2, ?_⟩
    rintro ⟨b, c⟩ hb q hq rfl
    obtain ⟨d, hd, e⟩ := List.mem_map.1 hb
    have := (mem_combinations2 l b c hq).1
    rw [← (Prod.mk.inj e).1] at this
    exact h.1 this

theorem combinations2_lt (l : List (Fin n)) (h : l.Pairwise (· < ·)) (c d : Fin n) : (c, d) ∈ combinations2 l ↔ c ∈ l ∧ d ∈ l ∧ c < d := by
  induction l with
  | nil => simp [combinations2]
  | cons a l ih =>
    rw [List.pairwise_cons] at h
    simp only [combinations2, List.mem_append, List.mem_map, Prod.mk.injEq, List.mem_cons, ih h.2]
    constructor
    · rintro (⟨b, hb, rfl, rfl⟩ | ⟨h1, h2, h3⟩)
      · exact ⟨.inl rfl, .inr hb, h.1 _ hb⟩
      · exact ⟨.inr h1, .inr h2, h3⟩
    · rintro ⟨rfl | h1, rfl | h2, h3⟩
      · exact absurd h3 (lt_irrefl _)
      · exact .inl ⟨d, h2, rfl, rfl⟩
      · exact absurd (h.1 _ h1) (not_lt.2 h3.le)
      · exact .inr ⟨h1, h2, h3⟩

theorem permutations2_nodup {α : Type} [DecidableEq α] (l : List α) (h : l.Nodup) : (permutations2 l).Nodup := by
  unfold permutations2
  rw [List.nodup_flatMap]
  refine ⟨fun a _ => (h.filter _).map (fun b c hbc => (Prod.mk.inj hbc).2), ?_⟩
  refine h.imp ?_
  intro a b hab
  rw [Function.onFun, List.disjoint_left]
  rintro ⟨c, d⟩ h1 h2
  obtain ⟨x, -, hx⟩ := List.mem_map.1 h1
  obtain ⟨y, -, hy⟩ := List.mem_map.1 h2
  exact hab ((Prod.mk.inj hx).1.trans (Prod.mk.inj hy).1.symm)

/-- the combinations that the code uses for one data set -/
def usedTriplets (correlated : List (Fin n × Fin n)) (a : Fin n) : List (Fin n × Fin n) :=
  (combinations2 ((List.finRange n).filter (fun c => c ≠ a))).filter
    (fun comb => !checkIfBiased [(a, comb.1), (a, comb.2), (comb.1, comb.2)] correlated)

/-- the permutations that the code uses for one declared pair -/
def usedBridges (correlated : List (Fin n × Fin n)) (a b : Fin n) : List (Fin n × Fin n) :=
  (permutations2 ((List.finRange n).filter (fun c => c ≠ a ∧ c ≠ b))).filter
    (fun comb => !checkIfBiased [(a, comb.1), (b, comb.2), comb] correlated)

theorem usedTriplets_toFinset (correlated : List (Fin n × Fin n)) (a : Fin n) :
    (usedTriplets correlated a).Nodup ∧ (usedTriplets correlated a).toFinset = triplets correlated a := by
  constructor
  · exact (combinations2_nodup _ ((List.nodup_finRange n).filter _)).filter _
  · ext ⟨c, d⟩
    have hs : ((List.finRange n).filter (fun c => c ≠ a)).Pairwise (· < ·) := (List.pairwise_lt_finRange n).filter _
    unfold usedTriplets triplets
    simp only [List.mem_toFinset, List.mem_filter, combinations2_lt _ hs, Bool.not_eq_true', ← Bool.not_eq_true, checkIfBiased_iff,
      List.mem_finRange, true_and, decide_eq_true_eq, Finset.mem_filter, Finset.mem_univ, List.mem_cons, List.not_mem_nil, or_false,
      exists_eq_or_imp, exists_eq_left, not_or]
    tauto

theorem usedBridges_toFinset (correlated : List (Fin n × Fin n)) (a b : Fin n) :
    (usedBridges correlated a b).Nodup ∧ (usedBridges correlated a b).toFinset = bridges correlated a b := by
  constructor
  · exact (permutations2_nodup _ ((List.nodup_finRange n).filter _)).filter _
  · ext ⟨c, d⟩
    unfold usedBridges bridges
    simp only [List.mem_toFinset, List.mem_filter, mem_permutations2, Bool.not_eq_true', ← Bool.not_eq_true, checkIfBiased_iff,
      List.mem_finRange, true_and, decide_eq_true_eq, Finset.mem_filter, Finset.mem_univ, List.mem_cons, List.not_mem_nil, or_false,
      exists_eq_or_imp, exists_eq_left, not_or]
    have : d ≠ c ↔ c ≠ d := ne_comm
    tauto

theorem mean_of_list (l : List (Fin n × Fin n)) (s : Finset (Fin n × Fin n)) (h : l.Nodup ∧ l.toFinset = s) (f : Fin n × Fin n → ℝ) :
    (∑ q ∈ s, f q) / (s.card : ℝ) = (l.map f).sum / ((l.map f).length : ℝ) := by
  rw [← h.2, List.sum_toFinset f h.1, List.toFinset_card_of_nodup h.1, List.length_map]

/-! ### The estimates -/

/-- the estimated parameter vector -/
noncomputable def estimates (C : Fin n → Fin n → ℝ) (correlated : List (Fin n × Fin n)) : Param n correlated.length → ℝ
  | .inl (.inl i) => signalMean C correlated i
  | .inl (.inr i) => commonMean C correlated (correlated.get i).1 (correlated.get i).2
  | .inr (.inl i) => C i i - signalMean C correlated i
  | .inr (.inr i) => C (correlated.get i).1 (correlated.get i).2 - commonMean C correlated (correlated.get i).1 (correlated.get i).2

theorem sum_flatMap_map {α β : Type} (l : List α) (g : α → List β) (f : β → ℝ) :
    ((l.flatMap g).map f).sum = (l.map (fun a => ((g a).map f).sum)).sum := by
  induction l with
  | nil => rfl
  | cons a l ih => rw [List.flatMap_cons, List.map_append, List.sum_append, ih, List.map_cons, List.sum_cons]

/-- rows that only speak about one parameter each, with the mean as value of that parameter -/
theorem normal_units {k m : ℕ} (par : Fin m → Param n k) (x : Param n k → ℝ) (used : Fin m → List (Fin n × Fin n))
    (f : Fin m → Fin n × Fin n → ℝ) (hx : ∀ i, x (par i) = ((used i).map (f i)).sum / (((used i).map (f i)).length : ℝ)) (p : Param n k) :
    (((List.finRange m).flatMap (fun i => (used i).map (fun q => ((unitRow (par i), f i q) : Eqn n k)))).map
      (fun e => e.1 p * (e.2 - e.1 ⬝ᵥ x))).sum = 0 := by
  rw [sum_flatMap_map]
  apply List.sum_eq_zero
  intro v hv
  obtain ⟨i, -, rfl⟩ := List.mem_map.1 hv
  rw [List.map_map]
  have e : ((fun e : Eqn n k => e.1 p * (e.2 - e.1 ⬝ᵥ x)) ∘ fun q => ((unitRow (par i), f i q) : Eqn n k))
      = fun q => unitRow (par i) p * (f i q - x (par i)) := by
    funext q
    simp only [Function.comp, unitRow_dot]
  rw [e, List.sum_map_mul_left]
  have := residuals_zero ((used i).map (f i)) (x (par i)) (hx i)
  rw [List.map_map] at this
  have e2 : ((fun e => e - x (par i)) ∘ f i) = fun q => f i q - x (par i) := rfl
  rw [e2] at this
  rw [this, mul_zero]

theorem estimates_normal (C : Fin n → Fin n → ℝ) (correlated : List (Fin n × Fin n)) (p : Param n correlated.length) :
    ((equations C correlated).map (fun e => e.1 p * (e.2 - e.1 ⬝ᵥ estimates C correlated))).sum = 0 := by
  unfold equations
  rw [List.map_append, List.map_append, List.sum_append, List.sum_append]
  have h1 : ((totalRows C correlated).map (fun e => e.1 p * (e.2 - e.1 ⬝ᵥ estimates C correlated))).sum = 0 := by
    apply List.sum_eq_zero
    intro v hv
    obtain ⟨e, he, rfl⟩ := List.mem_map.1 hv
    unfold totalRows at he
    simp only [List.mem_append, List.mem_map] at he
    rcases he with ⟨i, _, rfl⟩ | ⟨i, _, rfl⟩
    · rw [twoRow_dot _ _ (by simp)]; simp only [estimates]; ring
    · rw [twoRow_dot _ _ (by simp)]; simp only [estimates]; ring
  have h2 := normal_units (fun i => .inl (.inl i)) (estimates C correlated) (fun i => usedTriplets correlated i)
    (fun i q => C i q.1 * C i q.2 / C q.1 q.2) (fun i => mean_of_list _ _ (usedTriplets_toFinset correlated i) _) p
  have h3 := normal_units (fun i => .inl (.inr i)) (estimates C correlated)
    (fun i => usedBridges correlated (correlated.get i).1 (correlated.get i).2)
    (fun i q => C (correlated.get i).1 q.1 * C (correlated.get i).2 q.2 / C q.1 q.2)
    (fun i => mean_of_list _ _ (usedBridges_toFinset correlated _ _) _) p
  rw [h1, zero_add]
  exact (congrArg₂ (· + ·) h2 h3).trans (add_zero 0)

/-- **C135.** For every covariance matrix without zeros (the observed one, reduced by the error covariance given in advance), whenever the
declared pairs can be identified: the signal variance of a data set is the mean of the triple collocation estimates over all its triplets
without declared pairs, the error variance is the rest of the variance; the error covariance of a declared pair is the covariance without
the mean of the estimates of the common signal over all bridges. -/
theorem ecol_estimates (cov : Fin n → Fin n → ℝ) (correlated : List (Fin n × Fin n)) (ec : Option (Fin n × Fin n × ℝ)) (absEst : Bool)
    (C : Fin n → Fin n → ℝ) (hC : ∀ i j, C i j = cov i j - known ec i j) (_hne : ∀ i j, i ≠ j → C i j ≠ 0)
    (hk : ∀ p q v, ec = some (p, q, v) → p ≠ q) (hid : Identifiable correlated) :
    ∃ r, ecolFromCov cov correlated ec absEst = .ok r ∧
      (∀ i, r.sig i = (if absEst then |signalMean C correlated i| else signalMean C correlated i) ∧
        r.err i = (if absEst then |C i i - signalMean C correlated i| else C i i - signalMean C correlated i) ∧
        r.snr i = 10 * Real.logb 10 (r.sig i / r.err i)) ∧
      (∀ i, let p := (correlated.get i).1; let q := (correlated.get i).2
        r.errCov i = C p q - commonMean C correlated p q ∧
        r.errCorr i = (C p q - commonMean C correlated p q) /
          Real.sqrt ((C p p - signalMean C correlated p) * (C q q - signalMean C correlated q))) := by
  have hcov : subtractKnown cov ec = C := by
    funext i j
    rw [subtractKnown_eq _ _ hk, hC]
  have hsol := solve_of_normal _ _ (estimates_normal C correlated) (kernel_trivial C correlated hid)
  refine ⟨_, by unfold ecolFromCov; rw [hcov, hsol], ?_, ?_⟩
  · intro i
    exact ⟨rfl, rfl, rfl⟩
  · intro i
    exact ⟨rfl, rfl⟩

/-- **C135.** The number under the root of `err_corr` is the product of the estimates before `abs_est` makes them positive: if they have
opposite signs the correlation is NaN (root of a negative number) beside two positive error variances. -/
theorem err_corr_undefined (cov : Fin n → Fin n → ℝ) (correlated : List (Fin n × Fin n)) (hid : Identifiable correlated)
    (k : Fin correlated.length) (hp : cov (correlated.get k).1 (correlated.get k).1 < signalMean cov correlated (correlated.get k).1)
    (hq : signalMean cov correlated (correlated.get k).2 < cov (correlated.get k).2 (correlated.get k).2) :
    ∃ x r, solve (equations cov correlated) = .ok x ∧ ecolFromCov cov correlated none true = .ok r ∧
      0 < r.err (correlated.get k).1 ∧ 0 < r.err (correlated.get k).2 ∧
      x (.inr (.inl (correlated.get k).1)) * x (.inr (.inl (correlated.get k).2)) < 0 := by
  have hsol := solve_of_normal _ _ (estimates_normal cov correlated) (kernel_trivial cov correlated hid)
  refine ⟨_, _, hsol, by unfold ecolFromCov; rw [show subtractKnown cov none = cov from rfl, hsol], ?_, ?_, ?_⟩
  · show 0 < |cov _ _ - signalMean cov correlated _|
    exact abs_pos.2 (by linarith)
  · show 0 < |cov _ _ - signalMean cov correlated _|
    exact abs_pos.2 (by linarith)
  · exact mul_neg_of_neg_of_pos (by simp only [estimates]; linarith) (by simp only [estimates]; linarith)

/-! ### Three data sets -/

theorem identifiable_three : Identifiable ([] : List (Fin 3 × Fin 3)) := by
  refine ⟨fun a => ⟨a + 1, a + 2, ?_, ?_, ?_, ?_, ?_, ?_⟩, fun a b h => absurd h (by simp)⟩
  · revert a; decide
  · revert a; decide
  · revert a; decide
  · simp [Declared]
  · simp [Declared]
  · simp [Declared]

theorem signalMean_three (C : Fin 3 → Fin 3 → ℝ) (hs : ∀ i j, C i j = C j i) (i : Fin 3) : signalMean C [] i = Tcol.signalVar C i := by
  have h0 : triplets ([] : List (Fin 3 × Fin 3)) 0 = {(1, 2)} := by
    ext ⟨c, d⟩; fin_cases c <;> fin_cases d <;> simp [triplets, Declared]
  have h1 : triplets ([] : List (Fin 3 × Fin 3)) 1 = {(0, 2)} := by
    ext ⟨c, d⟩; fin_cases c <;> fin_cases d <;> simp [triplets, Declared]
  have h2 : triplets ([] : List (Fin 3 × Fin 3)) 2 = {(0, 1)} := by
    ext ⟨c, d⟩; fin_cases c <;> fin_cases d <;> simp [triplets, Declared]
  unfold signalMean Tcol.signalVar
  fin_cases i
  · show (∑ q ∈ triplets [] (0 : Fin 3), _) / ((triplets [] (0 : Fin 3)).card : ℝ) = C 0 1 * C 0 2 / C 1 2
    rw [h0]; simp
  · show (∑ q ∈ triplets [] (1 : Fin 3), _) / ((triplets [] (1 : Fin 3)).card : ℝ) = C 1 2 * C 1 0 / C 2 0
    rw [h1]; simp [hs 0 2, mul_comm]
  · show (∑ q ∈ triplets [] (2 : Fin 3), _) / ((triplets [] (2 : Fin 3)).card : ℝ) = C 2 0 * C 2 1 / C 0 1
    rw [h2]; simp

/-- three complete columns as frame -/
def frameOf (rows : List Tcol.Row) : Frame 3 := rows.map (fun r i => some (r i))

theorem dataCov_frameOf (rows : List Tcol.Row) : dataCov (dropna (frameOf rows)) = Tcol.npCov rows := by
  have h : dropna (frameOf rows) = frameOf rows := by
    unfold dropna frameOf
    rw [List.filter_eq_self]
    intro r hr
    obtain ⟨q, -, rfl⟩ := List.mem_map.1 hr
    simp
  rw [h]
  funext i j
  unfold dataCov Tcol.npCov Tcol.avg frameOf value
  simp [List.map_map, Function.comp_def]

/-- What `ecol` returns for three data sets without missing values, no declared pair and no known covariance. -/
theorem ecol_three (rows : List Tcol.Row) (hc : Tcol.Correlated (Tcol.npCov rows)) (absEst : Bool) :
    ∃ r, (ecol (frameOf rows) [] none absEst).2 = .ok r ∧ ∀ i,
      r.sig i = (if absEst then |Tcol.signalVar (Tcol.npCov rows) i| else Tcol.signalVar (Tcol.npCov rows) i) ∧
      r.err i = (if absEst then |Tcol.errorVar (Tcol.npCov rows) i| else Tcol.errorVar (Tcol.npCov rows) i) ∧
      r.snr i = 10 * Real.logb 10 (r.sig i / r.err i) := by
  obtain ⟨r, h1, h2, -⟩ := ecol_estimates (Tcol.npCov rows) [] none absEst (Tcol.npCov rows) (by simp [known]) hc (by simp) identifiable_three
  refine ⟨r, ?_, ?_⟩
  · unfold ecol
    simp only [dataCov_frameOf]
    exact h1
  · intro i
    have := h2 i
    rw [signalMean_three _ (Tcol.npCov_symm rows)] at this
    exact this

/-- **C135, proved for positive signal variances.** With three data sets extended collocation is triple collocation: the same
signal-to-noise ratio as `tcol_metrics`, and the error standard deviation of `tcol_metrics` is the root of the error variance times the
scaling coefficient. Missing: negative signal variances (`three_differ`), negative error variances (where `tcol_metrics` has NaN as
error) and data without error (infinite ratios). -/
theorem three_is_triple_partial (rows : List Tcol.Row) (h2 : 2 ≤ rows.length) (hc : Tcol.Correlated (Tcol.npCov rows)) (absEst : Bool)
    (ref : Fin 3) :
    ∃ r, (ecol (frameOf rows) [] none absEst).2 = .ok r ∧ ∀ i, 0 < Tcol.signalVar (Tcol.npCov rows) i →
      0 < Tcol.errorVar (Tcol.npCov rows) i →
      (Tcol.tcolFl rows ref i).snr = .fin (r.snr i) ∧
      (Tcol.tcolFl rows ref i).errStd = .fin (Real.sqrt (r.err i) * Tcol.betaOf (Tcol.npCov rows) ref i) := by
  obtain ⟨r, h, hr⟩ := ecol_three rows hc absEst
  refine ⟨r, h, fun i hs he => ?_⟩
  obtain ⟨t1, t2, -⟩ := Tcol.snr_and_error_agree_partial rows h2 hc ref i hs he
  obtain ⟨r1, r2, r3⟩ := hr i
  rw [abs_of_pos hs, ite_self] at r1
  rw [abs_of_pos he, ite_self] at r2
  rw [t1, t2, r3, r1, r2]
  exact ⟨rfl, rfl⟩

/-- **C135, negation.** If the estimated signal variance is negative (one or three of the covariances are negative), the two functions
disagree for all data that vary: extended collocation with absolute values reports a smaller signal-to-noise ratio than `tcol_metrics`. -/
theorem three_differ (rows : List Tcol.Row) (h2 : 2 ≤ rows.length) (hc : Tcol.Correlated (Tcol.npCov rows)) (ref i : Fin 3)
    (hs : Tcol.signalVar (Tcol.npCov rows) i < 0) (hv : 0 < Tcol.npCov rows i i)
    (hn : Tcol.npCov rows i i ≠ -Tcol.signalVar (Tcol.npCov rows) i) :
    ∃ r t, (ecol (frameOf rows) [] none true).2 = .ok r ∧ (Tcol.tcolFl rows ref i).snr = .fin t ∧ r.snr i < t := by
  obtain ⟨r, h, hr⟩ := ecol_three rows hc true
  obtain ⟨-, -, t⟩ := Tcol.snr_of_negative_signal rows h2 hc ref i hs hv.le
  rw [if_neg hn] at t
  refine ⟨r, _, h, t, ?_⟩
  obtain ⟨r1, r2, r3⟩ := hr i
  simp only [if_true] at r1 r2
  have he : 0 < Tcol.errorVar (Tcol.npCov rows) i := by unfold Tcol.errorVar; linarith
  rw [abs_of_neg hs] at r1
  rw [abs_of_pos he] at r2
  rw [r3, r1, r2]
  set s := Tcol.signalVar (Tcol.npCov rows) i with hs'
  set v := Tcol.npCov rows i i
  have e : Tcol.errorVar (Tcol.npCov rows) i = v - s := rfl
  rw [e] at he ⊢
  have hpos : 0 < |v + s| := abs_pos.2 (fun h0 => hn (by linarith))
  have hlt : |v + s| < v - s := abs_lt.2 ⟨by linarith, by linarith⟩
  have : Real.logb 10 (-s / (v - s)) < Real.logb 10 (-s / |v + s|) :=
    Real.logb_lt_logb (by norm_num) (div_pos (by linarith) he) (div_lt_div_of_pos_left (by linarith) hpos hlt)
  linarith

/-! ### Examples -/

/-- The hypotheses of `three_is_triple_partial`: the observations of `Tcol.exRows` with `a = 1/2`. -/
example : ∃ r, (ecol (frameOf (Tcol.exRows (1 / 2))) [] none true).2 = .ok r ∧ r.sig 0 = 16 / 9 := by
  obtain ⟨r, h, hr⟩ := ecol_three (Tcol.exRows (1 / 2)) (Tcol.exRows_correlated _ (by norm_num)) true
  refine ⟨r, h, ?_⟩
  rw [(hr 0).1, Tcol.exRows_signal]
  norm_num

/-- Four data sets, the first two declared: the covariances of the example of `err_corr_undefined`. -/
noncomputable def exCov : Fin 4 → Fin 4 → ℝ := ![![1, 1 / 5, 1, 1], ![1 / 5, 1, 1 / 2, 1 / 2], ![1, 1 / 2, 4, 1 / 2], ![1, 1 / 2, 1 / 2, 4]]

theorem exCov_triplets : triplets [((0 : Fin 4), (1 : Fin 4))] 0 = {(2, 3)} ∧ triplets [((0 : Fin 4), (1 : Fin 4))] 1 = {(2, 3)} := by
  constructor <;> (ext ⟨c, d⟩; fin_cases c <;> fin_cases d <;> simp [triplets, Declared])

example : ∃ x r, solve (equations exCov [(0, 1)]) = .ok x ∧ ecolFromCov exCov [(0, 1)] none true = .ok r ∧
      0 < r.err 0 ∧ 0 < r.err 1 ∧ x (.inr (.inl 0)) * x (.inr (.inl 1)) < 0 := by
  have c00 : exCov 0 0 = 1 := rfl
  have c11 : exCov 1 1 = 1 := rfl
  have c02 : exCov 0 2 = 1 := rfl
  have c03 : exCov 0 3 = 1 := rfl
  have c12 : exCov 1 2 = 1 / 2 := rfl
  have c13 : exCov 1 3 = 1 / 2 := rfl
  have c23 : exCov 2 3 = 1 / 2 := rfl
  refine err_corr_undefined exCov [(0, 1)] identifiable_four ⟨0, by simp⟩ ?_ ?_
  · show exCov 0 0 < signalMean exCov [(0, 1)] 0
    unfold signalMean
    rw [exCov_triplets.1, Finset.sum_singleton, Finset.card_singleton, c00, c02, c03, c23]
    norm_num
  · show signalMean exCov [(0, 1)] 1 < exCov 1 1
    unfold signalMean
    rw [exCov_triplets.2, Finset.sum_singleton, Finset.card_singleton, c11, c12, c13, c23]
    norm_num

/-- Data to which `three_differ` applies: the signal variance of the first data set is -4/9. -/
example : ∃ r t, (ecol (frameOf (Tcol.exRows 2)) [] none true).2 = .ok r ∧ (Tcol.tcolFl (Tcol.exRows 2) 0 0).snr = .fin t ∧ r.snr 0 < t := by
  have hs := Tcol.exRows_signal 2
  have hv := (Tcol.exRows_cov 2).1
  refine three_differ (Tcol.exRows 2) (by simp [Tcol.exRows]) (Tcol.exRows_correlated _ (by norm_num)) 0 0 ?_ ?_ ?_
  · rw [hs]; norm_num
  · rw [hv]; norm_num
  · rw [hs, hv]; norm_num

end Verif.Ecol
