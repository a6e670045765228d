import Verif.Ecol.Estimates

/-!
C136: when `ecol` (`src/pytesmo/metrics/tcol.py:164-391`) returns numbers.

`Ecol.Model` divides in ℝ. Here `none` is a result that is not finite (NaN or an infinity), so that divisions by zero, logarithms and roots
outside of their domain and covariances of fewer than two rows are what they are on the machine: a product with a factor that is not finite
and a sum with such a summand are not finite. The entries of the design matrix are as in `Ecol.Model`.
-/

namespace Verif.Ecol.Finite

open Verif.Ecol

variable {n : ℕ}

/-- tcol.py:304, 336: `cov[a][c] * cov[a][d] / cov[c][d]`; a division by zero gives NaN or an infinity -/
noncomputable def quotient : Option ℝ → Option ℝ → Option ℝ → Option ℝ
  | some a, some b, some c => if c = 0 then none else some (a * b / c)
  | _, _, _ => none

/-- one row of the design matrix and the entry of `y`. Used for tcol.py:259-340. -/
abbrev EqnFl (n k : ℕ) := (Param n k → ℝ) × Option ℝ

/-- tcol.py:246 `data.cov()`: NaN for fewer than two rows -/
noncomputable def covFl (data : Frame n) (i j : Fin n) : Option ℝ := if data.length < 2 then none else some (dataCov data i j)

/-- tcol.py:248-251: subtract a known error covariance from both entries -/
def subtractKnownFl (cov : Fin n → Fin n → Option ℝ) : Option (Fin n × Fin n × ℝ) → Fin n → Fin n → Option ℝ
  | none => cov
  | some (p, q, v) =>
    let c1 : Fin n → Fin n → Option ℝ := fun i j => if i = p ∧ j = q then (cov i j).map (· - v) else cov i j
    fun i j => if i = q ∧ j = p then (c1 i j).map (· - v) else c1 i j

/-- tcol.py:259, 270, 274-279: the rows `[I I]` -/
def totalRowsFl (cov : Fin n → Fin n → Option ℝ) (correlated : List (Fin n × Fin n)) : List (EqnFl n correlated.length) :=
  (List.finRange n).map (fun i => (fun q => if q = .inl (.inl i) ∨ q = .inr (.inl i) then 1 else 0, cov i i)) ++
  (List.finRange correlated.length).map
    (fun i => (fun q => if q = .inl (.inr i) ∨ q = .inr (.inr i) then 1 else 0, cov (correlated.get i).1 (correlated.get i).2))

/-- tcol.py:285-304: classical triple collocation estimators -/
noncomputable def signalRowsFl (cov : Fin n → Fin n → Option ℝ) (correlated : List (Fin n × Fin n)) : List (EqnFl n correlated.length) :=
  (List.finRange n).flatMap (fun col =>
    ((combinations2 ((List.finRange n).filter (fun c => c ≠ col))).filter
      (fun comb => !checkIfBiased [(col, comb.1), (col, comb.2), (comb.1, comb.2)] correlated)).map
      (fun comb => (unitRow (.inl (.inl col)), quotient (cov col comb.1) (cov col comb.2) (cov comb.1 comb.2))))

/-- tcol.py:310-338: cross-biased estimators -/
noncomputable def crossRowsFl (cov : Fin n → Fin n → Option ℝ) (correlated : List (Fin n × Fin n)) : List (EqnFl n correlated.length) :=
  (List.finRange correlated.length).flatMap (fun i =>
    ((permutations2 ((List.finRange n).filter
        (fun c => c ≠ (correlated.get i).1 ∧ c ≠ (correlated.get i).2))).filter
      (fun comb => !checkIfBiased
        [((correlated.get i).1, comb.1), ((correlated.get i).2, comb.2), comb] correlated)).map
      (fun comb => (unitRow (.inl (.inr i)),
        quotient (cov (correlated.get i).1 comb.1) (cov (correlated.get i).2 comb.2) (cov comb.1 comb.2))))

/-- all rows of `A` and `y`. Used for tcol.py:247-391. -/
noncomputable def equationsFl (cov : Fin n → Fin n → Option ℝ) (correlated : List (Fin n × Fin n)) : List (EqnFl n correlated.length) :=
  totalRowsFl cov correlated ++ signalRowsFl cov correlated ++ crossRowsFl cov correlated

/-- the rows with 0 in place of the numbers that are not finite. Used for tcol.py:344. -/
def zeroed {k : ℕ} (eqs : List (EqnFl n k)) : List (Eqn n k) := eqs.map (fun e => (e.1, e.2.getD 0))

/-- tcol.py:344 `(A.T * A).I * A.T * y`: the inverse does not depend on `y`; every entry of the result is a sum over all entries of `y`
(times a coefficient, which may be zero), hence not finite as soon as one entry of `y` is not -/
noncomputable def solveFl {k : ℕ} (eqs : List (EqnFl n k)) : Except Err (Param n k → Option ℝ) :=
  match solve (zeroed eqs) with
  | .error e => .error e
  | .ok x => .ok (fun p => if eqs.all (fun e => e.2.isSome) then some (x p) else none)

/-- the returned dictionary, `none` for NaN and infinities. Used for tcol.py:349-391. -/
structure ResultFl (n k : ℕ) where
  sig : Fin n → Option ℝ
  err : Fin n → Option ℝ
  snr : Fin n → Option ℝ
  errCov : Fin k → Option ℝ
  errCorr : Fin k → Option ℝ

/-- tcol.py:385-389: `10 * np.log10(sig / err)`; not finite for a ratio that is negative, zero or infinite. (A finite number divided by an
infinity does not occur, see `all_or_nothing`.) -/
noncomputable def decibel : Option ℝ → Option ℝ → Option ℝ
  | some s, some e => if e ≠ 0 ∧ 0 < s / e then some (10 * Real.logb 10 (s / e)) else none
  | _, _ => none

/-- tcol.py:359-367: `err_cov / np.sqrt(err_1 * err_2)` -/
noncomputable def correlation : Option ℝ → Option ℝ → Option ℝ → Option ℝ
  | some c, some a, some b => if 0 < a * b then some (c / Real.sqrt (a * b)) else none
  | _, _, _ => none

/-- tcol.py:349-391: the result dictionary from the parameter vector -/
noncomputable def buildResultFl (correlated : List (Fin n × Fin n)) (absEst : Bool)
    (x : Param n correlated.length → Option ℝ) : ResultFl n correlated.length :=
  let sig0 := fun i => x (.inl (.inl i))
  let err0 := fun i => x (.inr (.inl i))
  let errCov := fun i => x (.inr (.inr i))
  let errCorr := fun i => correlation (errCov i) (err0 (correlated.get i).1) (err0 (correlated.get i).2)
  let sig := fun i => if absEst then (sig0 i).map (fun v => |v|) else sig0 i
  let err := fun i => if absEst then (err0 i).map (fun v => |v|) else err0 i
  { sig := sig, err := err, snr := fun i => decibel (sig i) (err i), errCov := errCov, errCorr := errCorr }

/-- tcol.py:164-391 `ecol(data, correlated, err_cov, abs_est)`, the returned value -/
noncomputable def ecolFl (data : Frame n) (correlated : List (Fin n × Fin n)) (errCov : Option (Fin n × Fin n × ℝ))
    (absEst : Bool) : Except Err (ResultFl n correlated.length) :=
  match solveFl (equationsFl (subtractKnownFl (covFl (dropna data)) errCov) correlated) with
  | .error e => .error e
  | .ok x => .ok (buildResultFl correlated absEst x)

/-! ### Lemmas -/

theorem quotient_getD (a b c : Option ℝ) : (quotient a b c).getD 0 = a.getD 0 * b.getD 0 / c.getD 0 := by
  unfold quotient
  cases a <;> cases b <;> cases c <;> simp
  split <;> simp_all

theorem zeroed_equations (cov : Fin n → Fin n → Option ℝ) (correlated : List (Fin n × Fin n)) :
    zeroed (equationsFl cov correlated) = equations (fun i j => (cov i j).getD 0) correlated := by
  unfold zeroed equationsFl equations
  rw [List.map_append, List.map_append]
  congr 1
  · congr 1
    · unfold totalRowsFl totalRows
      simp [List.map_append, List.map_map, Function.comp_def]
    · unfold signalRowsFl signalRows
      simp [List.map_flatMap, List.map_map, Function.comp_def, quotient_getD]
  · unfold crossRowsFl crossRows
    simp [List.map_flatMap, List.map_map, Function.comp_def, quotient_getD]

/-- specification: the data determine what is asked for. At least two complete rows, and no estimator divides by a covariance that is zero.
`C` is the covariance of the complete rows without the known error covariance. -/
def Determined (m : ℕ) (C : Fin n → Fin n → ℝ) (correlated : List (Fin n × Fin n)) : Prop :=
  2 ≤ m ∧ (∀ a, ∀ q ∈ triplets correlated a, C q.1 q.2 ≠ 0) ∧ ∀ p ∈ correlated, ∀ q ∈ bridges correlated p.1 p.2, C q.1 q.2 ≠ 0

theorem mem_usedTriplets (correlated : List (Fin n × Fin n)) (a : Fin n) (q : Fin n × Fin n) :
    q ∈ usedTriplets correlated a ↔ q ∈ triplets correlated a := by
  rw [← (usedTriplets_toFinset correlated a).2, List.mem_toFinset]

theorem mem_usedBridges (correlated : List (Fin n × Fin n)) (a b : Fin n) (q : Fin n × Fin n) :
    q ∈ usedBridges correlated a b ↔ q ∈ bridges correlated a b := by
  rw [← (usedBridges_toFinset correlated a b).2, List.mem_toFinset]

theorem all_finite (C : Fin n → Fin n → ℝ) (correlated : List (Fin n × Fin n)) :
    (equationsFl (fun i j => some (C i j)) correlated).all (fun e => e.2.isSome) = true ↔
      (∀ a, ∀ q ∈ triplets correlated a, C q.1 q.2 ≠ 0) ∧ ∀ p ∈ correlated, ∀ q ∈ bridges correlated p.1 p.2, C q.1 q.2 ≠ 0 := by
  have hq : ∀ a b c : ℝ, (quotient (some a) (some b) (some c)).isSome = true ↔ c ≠ 0 := by
    intro a b c
    unfold quotient
    by_cases h : c = 0 <;> simp [h]
  have h1 : (signalRowsFl (fun i j => some (C i j)) correlated).all (fun e => e.2.isSome) = true ↔
      ∀ a, ∀ q ∈ triplets correlated a, C q.1 q.2 ≠ 0 := by
    rw [List.all_eq_true]
    constructor
    · intro h a q hm
      have := h (unitRow (.inl (.inl a)), quotient (some (C a q.1)) (some (C a q.2)) (some (C q.1 q.2)))
        (List.mem_flatMap.2 ⟨a, List.mem_finRange a, List.mem_map.2 ⟨q, (mem_usedTriplets correlated a q).2 hm, rfl⟩⟩)
      exact (hq _ _ _).1 this
    · intro h e he
      obtain ⟨a, -, he⟩ := List.mem_flatMap.1 he
      obtain ⟨q, hm, rfl⟩ := List.mem_map.1 he
      exact (hq _ _ _).2 (h a q ((mem_usedTriplets correlated a q).1 hm))
  have h2 : (crossRowsFl (fun i j => some (C i j)) correlated).all (fun e => e.2.isSome) = true ↔
      ∀ p ∈ correlated, ∀ q ∈ bridges correlated p.1 p.2, C q.1 q.2 ≠ 0 := by
    rw [List.all_eq_true]
    constructor
    · intro h p hp q hm
      obtain ⟨i, hi⟩ := List.mem_iff_get.1 hp
      rw [← hi] at hm
      have := h (unitRow (.inl (.inr i)), quotient (some (C (correlated.get i).1 q.1)) (some (C (correlated.get i).2 q.2)) (some (C q.1 q.2)))
        (List.mem_flatMap.2 ⟨i, List.mem_finRange i, List.mem_map.2 ⟨q, (mem_usedBridges correlated _ _ q).2 hm, rfl⟩⟩)
      exact (hq _ _ _).1 this
    · intro h e he
      obtain ⟨i, -, he⟩ := List.mem_flatMap.1 he
      obtain ⟨q, hm, rfl⟩ := List.mem_map.1 he
      exact (hq _ _ _).2 (h _ (List.get_mem _ _) q ((mem_usedBridges correlated _ _ q).1 hm))
  have h0 : (totalRowsFl (fun i j => some (C i j)) correlated).all (fun e => e.2.isSome) = true := by
    unfold totalRowsFl
    simp
  unfold equationsFl
  rw [List.all_append, List.all_append, h0, Bool.true_and, Bool.and_eq_true, h1, h2]

theorem subtractKnownFl_some (cov : Fin n → Fin n → ℝ) (ec : Option (Fin n × Fin n × ℝ)) :
    subtractKnownFl (fun i j => some (cov i j)) ec = fun i j => some (subtractKnown cov ec i j) := by
  cases ec with
  | none => rfl
  | some x =>
    obtain ⟨p, q, v⟩ := x
    funext i j
    unfold subtractKnownFl subtractKnown
    simp only
    split <;> split <;> simp

theorem subtractKnownFl_none (ec : Option (Fin n × Fin n × ℝ)) (i j : Fin n) :
    subtractKnownFl (fun _ _ => none) ec i j = none := by
  cases ec with
  | none => rfl
  | some x =>
    obtain ⟨p, q, v⟩ := x
    unfold subtractKnownFl
    simp

/-- the covariances that `ecol` works with -/
noncomputable def usedCov (data : Frame n) (ec : Option (Fin n × Fin n × ℝ)) (i j : Fin n) : ℝ := dataCov (dropna data) i j - known ec i j

theorem usedCov_eq (data : Frame n) (ec : Option (Fin n × Fin n × ℝ)) (hk : ∀ p q v, ec = some (p, q, v) → p ≠ q) :
    subtractKnown (dataCov (dropna data)) ec = usedCov data ec := by
  funext i j
  rw [subtractKnown_eq _ _ hk]
  rfl

/-! ### Theorems -/

/-- **C136.** If the data determine everything: signal and error variances are numbers, namely the means of the estimates (C135); the
signal-to-noise ratio is one exactly if both (after `abs_est`) have the same sign and are not zero, and the error correlation exactly if the
two error variances have the same sign. -/
theorem finite_results (data : Frame n) (correlated : List (Fin n × Fin n)) (ec : Option (Fin n × Fin n × ℝ)) (absEst : Bool)
    (hk : ∀ p q v, ec = some (p, q, v) → p ≠ q) (hid : Identifiable correlated)
    (hd : Determined (dropna data).length (usedCov data ec) correlated) :
    ∃ r, ecolFl data correlated ec absEst = .ok r ∧
      (∀ i, let C := usedCov data ec
        let s := if absEst then |signalMean C correlated i| else signalMean C correlated i
        let e := if absEst then |C i i - signalMean C correlated i| else C i i - signalMean C correlated i
        r.sig i = some s ∧ r.err i = some e ∧ r.snr i = if 0 < s * e then some (10 * Real.logb 10 (s / e)) else none) ∧
      (∀ i, let C := usedCov data ec
        let p := (correlated.get i).1; let q := (correlated.get i).2
        let e := (C p p - signalMean C correlated p) * (C q q - signalMean C correlated q)
        r.errCov i = some (C p q - commonMean C correlated p q) ∧
        r.errCorr i = if 0 < e then some ((C p q - commonMean C correlated p q) / Real.sqrt e) else none) := by
  obtain ⟨h2, hfin⟩ := hd
  have hcov : covFl (dropna data) = fun i j => some (dataCov (dropna data) i j) := by
    funext i j
    unfold covFl
    rw [if_neg (by omega)]
  have hsub : subtractKnownFl (covFl (dropna data)) ec = fun i j => some (usedCov data ec i j) := by
    rw [hcov, subtractKnownFl_some, usedCov_eq data ec hk]
  have hsol := solve_of_normal _ _ (estimates_normal (usedCov data ec) correlated) (kernel_trivial (usedCov data ec) correlated hid)
  have hx : solveFl (equationsFl (subtractKnownFl (covFl (dropna data)) ec) correlated) =
      .ok (fun p => some (estimates (usedCov data ec) correlated p)) := by
    unfold solveFl
    rw [hsub, zeroed_equations]
    simp only [Option.getD_some, hsol, (all_finite (usedCov data ec) correlated).2 hfin, if_true]
  refine ⟨_, by unfold ecolFl; rw [hx], ?_, ?_⟩
  · intro i
    simp only
    have hsig : ∀ v : ℝ, (if absEst then (some v).map (fun v => |v|) else some v) = some (if absEst then |v| else v) := by
      intro v; cases absEst <;> rfl
    refine ⟨hsig _, hsig _, ?_⟩
    show decibel (if absEst then (some _).map (fun v => |v|) else some _) (if absEst then (some _).map (fun v => |v|) else some _) = _
    rw [hsig, hsig]
    simp only [decibel, estimates]
    congr 1
    rw [eq_iff_iff]
    constructor
    · rintro ⟨h0, h1⟩
      rcases div_pos_iff.1 h1 with ⟨a, b⟩ | ⟨a, b⟩
      · exact mul_pos a b
      · exact mul_pos_of_neg_of_neg a b
    · intro h
      rcases mul_pos_iff.1 h with ⟨a, b⟩ | ⟨a, b⟩
      · exact ⟨b.ne', div_pos a b⟩
      · exact ⟨b.ne, div_pos_of_neg_of_neg a b⟩
  · intro i
    exact ⟨rfl, rfl⟩

/-- **C136.** If the data do not determine everything, nothing is a number: one covariance that is zero and by which one estimator divides
makes the results of all data sets and of all declared pairs NaN or infinite. -/
theorem nothing_finite (data : Frame n) (correlated : List (Fin n × Fin n)) (ec : Option (Fin n × Fin n × ℝ)) (absEst : Bool)
    (hk : ∀ p q v, ec = some (p, q, v) → p ≠ q) (hid : Identifiable correlated) (hn : 0 < n)
    (hd : ¬ Determined (dropna data).length (usedCov data ec) correlated) :
    ∃ r, ecolFl data correlated ec absEst = .ok r ∧ (∀ i, r.sig i = none ∧ r.err i = none ∧ r.snr i = none) ∧
      ∀ i, r.errCov i = none ∧ r.errCorr i = none := by
  have hall : (equationsFl (subtractKnownFl (covFl (dropna data)) ec) correlated).all (fun e => e.2.isSome) = false := by
    by_cases h2 : 2 ≤ (dropna data).length
    · have hcov : covFl (dropna data) = fun i j => some (dataCov (dropna data) i j) := by
        funext i j
        unfold covFl
        rw [if_neg (by omega)]
      rw [hcov, subtractKnownFl_some, usedCov_eq data ec hk, ← Bool.not_eq_true, all_finite]
      exact fun h => hd ⟨h2, h⟩
    · have hcov : covFl (dropna data) = fun _ _ => none := by
        funext i j
        unfold covFl
        rw [if_pos (by omega)]
      rw [hcov, ← Bool.not_eq_true, List.all_eq_true]
      intro h
      have := h (fun q => if q = .inl (.inl ⟨0, hn⟩) ∨ q = .inr (.inl ⟨0, hn⟩) then 1 else 0, subtractKnownFl (fun _ _ => none) ec ⟨0, hn⟩ ⟨0, hn⟩) (by
        unfold equationsFl totalRowsFl
        refine List.mem_append_left _ (List.mem_append_left _ (List.mem_append_left _ (List.mem_map.2 ⟨⟨0, hn⟩, List.mem_finRange _, rfl⟩)))
        )
      rw [subtractKnownFl_none] at this
      exact absurd this (by simp)
  set D : Fin n → Fin n → ℝ := fun i j => (subtractKnownFl (covFl (dropna data)) ec i j).getD 0 with hD
  have hsol := solve_of_normal _ _ (estimates_normal D correlated) (kernel_trivial D correlated hid)
  have hx : solveFl (equationsFl (subtractKnownFl (covFl (dropna data)) ec) correlated) = .ok (fun _ => none) := by
    unfold solveFl
    rw [zeroed_equations, ← hD, hsol]
    simp [hall]
  refine ⟨_, by unfold ecolFl; rw [hx], ?_, ?_⟩
  · intro i
    cases absEst <;> exact ⟨rfl, rfl, rfl⟩
  · intro i
    exact ⟨rfl, rfl⟩

/-- the signal variances of a result are all finite or all not, and with them the error variances -/
theorem all_or_nothing (data : Frame n) (correlated : List (Fin n × Fin n)) (ec : Option (Fin n × Fin n × ℝ)) (absEst : Bool)
    (hk : ∀ p q v, ec = some (p, q, v) → p ≠ q) (hid : Identifiable correlated) (hn : 0 < n) :
    ∃ r, ecolFl data correlated ec absEst = .ok r ∧
      ∀ i, ((r.sig i).isSome = true ↔ Determined (dropna data).length (usedCov data ec) correlated) ∧
        ((r.err i).isSome = true ↔ Determined (dropna data).length (usedCov data ec) correlated) := by
  by_cases hd : Determined (dropna data).length (usedCov data ec) correlated
  · obtain ⟨r, h, hr, -⟩ := finite_results data correlated ec absEst hk hid hd
    refine ⟨r, h, fun i => ?_⟩
    rw [(hr i).1, (hr i).2.1]
    simp [hd]
  · obtain ⟨r, h, hr, -⟩ := nothing_finite data correlated ec absEst hk hid hn hd
    refine ⟨r, h, fun i => ?_⟩
    rw [(hr i).1, (hr i).2.1]
    simp [hd]

theorem dataCov_constant (data : Frame n) (j : Fin n) (c : ℝ) (h : ∀ r ∈ data, r j = some c) (i : Fin n) :
    dataCov data i j = 0 ∧ dataCov data j i = 0 := by
  by_cases he : data = []
  · subst he; simp [dataCov]
  have hlen : (data.length : ℝ) ≠ 0 := by
    have : data.length ≠ 0 := by simpa using he
    exact_mod_cast this
  have hv : ∀ r ∈ data, value r j = c := fun r hr => by simp [value, h r hr]
  have hm : (data.map (fun r => value r j)).sum / (data.length : ℝ) = c := by
    rw [List.map_congr_left hv, List.map_const', List.sum_replicate, nsmul_eq_mul]
    field_simp
  constructor
  · unfold dataCov
    simp only
    rw [List.map_congr_left (g := fun _ => (0 : ℝ)) (fun r hr => by rw [hm, hv r hr, sub_self, mul_zero])]
    simp
  · unfold dataCov
    simp only
    rw [List.map_congr_left (g := fun _ => (0 : ℝ)) (fun r hr => by rw [hm, hv r hr, sub_self, zero_mul])]
    simp

theorem two_others (h3 : 3 ≤ n) (a : Fin n) : ∃ c d : Fin n, c ≠ a ∧ d ≠ a ∧ c ≠ d := by
  have h0 : (0 : ℕ) < n := by omega
  have h1 : (1 : ℕ) < n := by omega
  have h2 : (2 : ℕ) < n := by omega
  by_cases e0 : a.val = 0
  · exact ⟨⟨1, h1⟩, ⟨2, h2⟩, by simp [Fin.ext_iff, e0], by simp [Fin.ext_iff, e0], by simp [Fin.ext_iff]⟩
  · by_cases e1 : a.val = 1
    · exact ⟨⟨0, h0⟩, ⟨2, h2⟩, by simp [Fin.ext_iff, e1], by simp [Fin.ext_iff, e1], by simp [Fin.ext_iff]⟩
    · exact ⟨⟨0, h0⟩, ⟨1, h1⟩, by simp only [ne_eq, Fin.ext_iff]; omega, by simp only [ne_eq, Fin.ext_iff]; omega, by simp [Fin.ext_iff]⟩

theorem identifiable_empty (h3 : 3 ≤ n) : Identifiable ([] : List (Fin n × Fin n)) := by
  refine ⟨fun a => ?_, fun a b h => absurd h (by simp)⟩
  obtain ⟨c, d, hc, hd, hcd⟩ := two_others h3 a
  exact ⟨c, d, hc, hd, hcd, by simp [Declared], by simp [Declared], by simp [Declared]⟩

/-- **C136, negation.** One data set that is constant in the complete rows takes the results of all others with it, however many there are. -/
theorem constant_data_set (data : Frame n) (h3 : 3 ≤ n) (j : Fin n) (c : ℝ) (h : ∀ r ∈ dropna data, r j = some c) (absEst : Bool) :
    ∃ r, ecolFl data [] none absEst = .ok r ∧ ∀ i, r.sig i = none ∧ r.err i = none ∧ r.snr i = none := by
  have hd : ¬ Determined (dropna data).length (usedCov data none) [] := by
    rintro ⟨-, ht, -⟩
    obtain ⟨a, b, ha, hb, hab⟩ : ∃ a b : Fin n, a ≠ j ∧ b ≠ j ∧ a ≠ b := two_others h3 j
    have hz := dataCov_constant (dropna data) j c h b
    rcases lt_or_gt_of_ne hb with hlt | hgt
    · refine ht a (b, j) ?_ (by simpa [usedCov, known] using hz.1)
      simp only [triplets, Finset.mem_filter, Finset.mem_univ, true_and, Declared, List.not_mem_nil, or_self, not_false_eq_true, and_true]
      exact ⟨hlt, hab.symm, ha.symm⟩
    · refine ht a (j, b) ?_ (by simpa [usedCov, known] using hz.2)
      simp only [triplets, Finset.mem_filter, Finset.mem_univ, true_and, Declared, List.not_mem_nil, or_self, not_false_eq_true, and_true]
      exact ⟨hgt, ha.symm, hab.symm⟩
  obtain ⟨r, hr, h1, -⟩ := nothing_finite data [] none absEst (by simp) (identifiable_empty h3) (by omega) hd
  exact ⟨r, hr, h1⟩

/-! ### Concrete cases -/

/-- three data sets of which the estimates are numbers -/
theorem three_finite : ∃ r, ecolFl (frameOf (Tcol.exRows (1 / 2))) [] none true = .ok r ∧ ∀ i, (r.sig i).isSome = true ∧ (r.err i).isSome = true := by
  have hcov := dataCov_frameOf (Tcol.exRows (1 / 2))
  have hc := Tcol.exRows_correlated (1 / 2) (by norm_num)
  have hd : Determined (dropna (frameOf (Tcol.exRows (1 / 2)))).length (usedCov (frameOf (Tcol.exRows (1 / 2))) none) [] := by
    refine ⟨?_, ?_, by simp⟩
    · simp [frameOf, dropna, Tcol.exRows]
    · intro a q hq
      have : q.1 < q.2 := by
        simp only [triplets, Finset.mem_filter] at hq
        exact hq.2.1
      show dataCov (dropna (frameOf (Tcol.exRows (1 / 2)))) q.1 q.2 - 0 ≠ 0
      rw [hcov, sub_zero]
      exact hc q.1 q.2 this.ne
  obtain ⟨r, h, hr⟩ := all_or_nothing (frameOf (Tcol.exRows (1 / 2))) [] none true (by simp) identifiable_three (by norm_num)
  exact ⟨r, h, fun i => ⟨(hr i).1.2 hd, (hr i).2.2 hd⟩⟩

/-- the same three data sets and a fourth one that is 0 everywhere -/
noncomputable def exFrame : Frame 4 := (Tcol.exRows (1 / 2)).map (fun r => ![some (r 0), some (r 1), some (r 2), some 0])

/-- **C136, negation.** Three data sets with estimates lose them when a fourth data set is added, although the triplets of the three are
still there. -/
theorem fourth_takes_all : (∃ r, ecolFl (frameOf (Tcol.exRows (1 / 2))) [] none true = .ok r ∧ ∀ i, (r.sig i).isSome = true ∧ (r.err i).isSome = true) ∧
    (∀ r ∈ exFrame, ∀ i, (r i).isSome = true) ∧
    ∃ r, ecolFl exFrame [] none true = .ok r ∧ ∀ i, r.sig i = none ∧ r.err i = none ∧ r.snr i = none := by
  refine ⟨three_finite, ?_, constant_data_set exFrame (by norm_num) 3 0 ?_ true⟩
  · intro r hr i
    obtain ⟨q, -, rfl⟩ := List.mem_map.1 hr
    fin_cases i <;> rfl
  · intro r hr
    obtain ⟨q, -, rfl⟩ := List.mem_map.1 (List.mem_filter.1 hr).1
    rfl

end Verif.Ecol.Finite
