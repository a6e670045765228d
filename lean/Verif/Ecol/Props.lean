import Mathlib.Tactic.FinCases
import Mathlib.Tactic.Ring
import Verif.Ecol.Lemmas

/-! C14: extended collocation. -/

namespace Verif.Ecol

open Matrix Verif.Moments

variable {n : ℕ}

/-- the parameter vector of the error model -/
def trueParams (b : Fin n → ℝ) (s : ℝ) (E : Fin n → Fin n → ℝ) (correlated : List (Fin n × Fin n)) :
    Param n correlated.length → ℝ
  | .inl (.inl i) => b i * b i * s
  | .inl (.inr i) => b (correlated.get i).1 * b (correlated.get i).2 * s
  | .inr (.inl i) => E i i
  | .inr (.inr i) => E (correlated.get i).1 (correlated.get i).2

theorem kernel_trivial (cov : Fin n → Fin n → ℝ) (correlated : List (Fin n × Fin n)) (hid : Identifiable correlated) :
    ¬ ∃ v, v ≠ 0 ∧ Kernel (equations cov correlated) v := by
  rintro ⟨v, hv, hk⟩
  apply hv
  have hsub : ∀ e, e ∈ totalRows cov correlated ∨ e ∈ signalRows cov correlated ∨ e ∈ crossRows cov correlated →
      e.1 ⬝ᵥ v = 0 := by
    intro e he
    apply hk
    unfold equations
    simp only [List.mem_append]
    tauto
  have hs : ∀ a, v (.inl (.inl a)) = 0 := by
    intro a
    obtain ⟨c, d, h1, h2, h3, h4, h5, h6⟩ := hid.triplet a
    obtain ⟨y, hy⟩ := signalRow_exists cov correlated a c d h1 h2 h3 h4 h5 h6
    have := hsub _ (Or.inr (Or.inl hy))
    rwa [unitRow_dot] at this
  have hc : ∀ i, v (.inl (.inr i)) = 0 := by
    intro i
    obtain ⟨c, d, h⟩ := hid.bridge (correlated.get i).1 (correlated.get i).2 (List.get_mem _ _)
    obtain ⟨y, hy⟩ := crossRow_exists cov correlated i c d h
    have := hsub _ (Or.inr (Or.inr hy))
    rwa [unitRow_dot] at this
  have he : ∀ a, v (.inr (.inl a)) = 0 := by
    intro a
    have := hsub (_, cov a a) (Or.inl (by
      unfold totalRows; rw [List.mem_append]; left
      exact List.mem_map.mpr ⟨a, List.mem_finRange a, rfl⟩))
    rw [twoRow_dot _ _ (by simp), hs, zero_add] at this
    exact this
  have hce : ∀ i, v (.inr (.inr i)) = 0 := by
    intro i
    have := hsub (_, cov (correlated.get i).1 (correlated.get i).2) (Or.inl (by
      unfold totalRows; rw [List.mem_append]; right
      exact List.mem_map.mpr ⟨i, List.mem_finRange i, rfl⟩))
    rw [twoRow_dot _ _ (by simp), hc, zero_add] at this
    exact this
  funext p
  rcases p with (p | p) | (p | p)
  · exact hs p
  · exact hc p
  · exact he p
  · exact hce p

theorem trueParams_solves (b : Fin n → ℝ) (s : ℝ) (E : Fin n → Fin n → ℝ) (correlated : List (Fin n × Fin n))
    (hb : ∀ i, b i ≠ 0) (hs : s ≠ 0) (hE : ∀ i j, i ≠ j → ¬ Declared correlated i j → E i j = 0) :
    Solves (equations (fun i j => b i * b j * s + E i j) correlated) (trueParams b s E correlated) := by
  intro e he
  unfold equations at he
  simp only [List.mem_append] at he
  rcases he with (he | he) | he
  · unfold totalRows at he
    simp only [List.mem_append, List.mem_map] at he
    rcases he with ⟨i, _, rfl⟩ | ⟨i, _, rfl⟩
    · rw [twoRow_dot _ _ (by simp)]; rfl
    · rw [twoRow_dot _ _ (by simp)]; rfl
  · obtain ⟨a, c, d, h1, h2, h3, h4, h5, h6, rfl⟩ := mem_signalRows _ _ _ he
    rw [unitRow_dot]
    simp only [trueParams]
    rw [hE a c h1.symm h4, hE a d h2.symm h5, hE c d h3 h6]
    have := hb a; have := hb c; have := hb d
    simp only [add_zero]
    field_simp
  · obtain ⟨i, c, d, h1, h2, h3, h4, h5, h6, h7, h8, rfl⟩ := mem_crossRows _ _ _ he
    rw [unitRow_dot]
    simp only [trueParams]
    rw [hE _ c h1.symm h6, hE _ d h4.symm h7, hE c d h5 h8]
    have := hb (correlated.get i).1; have := hb (correlated.get i).2; have := hb c; have := hb d
    simp only [add_zero]
    field_simp

theorem subtractKnown_eq (cov : Fin n → Fin n → ℝ) (ec : Option (Fin n × Fin n × ℝ))
    (hk : ∀ p q v, ec = some (p, q, v) → p ≠ q) (i j : Fin n) :
    subtractKnown cov ec i j = cov i j - known ec i j := by
  cases ec with
  | none => simp [subtractKnown, known]
  | some x =>
    obtain ⟨p, q, v⟩ := x
    have hpq := hk p q v rfl
    simp only [subtractKnown, known]
    by_cases h1 : i = q ∧ j = p
    · have h2 : ¬ (i = p ∧ j = q) := fun h2 => hpq (h2.1.symm.trans h1.1)
      rw [if_pos h1, if_neg h2, if_pos (Or.inr h1)]
    · rw [if_neg h1]
      by_cases h2 : i = p ∧ j = q
      · rw [if_pos h2, if_pos (Or.inl h2)]
      · rw [if_neg h2, if_neg (by tauto), sub_zero]

/-- C14, from the covariance matrix on: exact recovery. -/
theorem ecol_from_cov_recovers (b : Fin n → ℝ) (s : ℝ) (E : Fin n → Fin n → ℝ) (correlated : List (Fin n × Fin n))
    (ec : Option (Fin n × Fin n × ℝ)) (absEst : Bool) (hb : ∀ i, b i ≠ 0) (hs : 0 < s) (hpos : ∀ i, 0 < E i i)
    (hk : ∀ p q v, ec = some (p, q, v) → p ≠ q)
    (hE : ∀ i j, i ≠ j → ¬ Declared correlated i j → E i j = known ec i j) (hid : Identifiable correlated) :
    ∃ r, ecolFromCov (fun i j => b i * b j * s + E i j) correlated ec absEst = .ok r ∧
      (∀ i, r.sig i = b i ^ 2 * s ∧ r.err i = E i i ∧ r.snr i = 10 * Real.logb 10 (b i ^ 2 * s / E i i)) ∧
      (∀ i, let p := (correlated.get i).1; let q := (correlated.get i).2
        r.errCov i = E p q - known ec p q ∧ r.errCorr i = (E p q - known ec p q) / Real.sqrt (E p p * E q q)) := by
  have hcov : subtractKnown (fun i j => b i * b j * s + E i j) ec =
      fun i j => b i * b j * s + (fun i j => E i j - known ec i j) i j := by
    funext i j
    rw [subtractKnown_eq _ _ hk]; ring
  have hdiag : ∀ i, known ec i i = 0 := by
    intro i
    cases ec with
    | none => rfl
    | some x =>
      obtain ⟨p, q, v⟩ := x
      have hpq := hk p q v rfl
      simp only [known]
      rw [if_neg]
      rintro (⟨rfl, h⟩ | ⟨rfl, h⟩)
      · exact hpq h
      · exact hpq h.symm
  have hsol := solve_of_solves _ _ (trueParams_solves b s (fun i j => E i j - known ec i j) correlated hb hs.ne'
    (fun i j hij hd => by rw [hE i j hij hd, sub_self])) (kernel_trivial _ correlated hid)
  refine ⟨_, by unfold ecolFromCov; rw [hcov, hsol], ?_, ?_⟩
  · intro i
    have h1 : 0 < b i * b i * s := mul_pos (mul_self_pos.mpr (hb i)) hs
    have h2 := hpos i
    have e1 : |b i * b i * s| = b i ^ 2 * s := by rw [abs_of_pos h1]; ring
    have e2 : |E i i| = E i i := abs_of_pos h2
    simp only [buildResult, trueParams, hdiag, sub_zero, e1, e2, sq]
    cases absEst <;> simp
  · intro i
    simp only [buildResult, trueParams, hdiag, sub_zero, and_self]

/-- C14: whether the estimation is possible depends only on the declared pairs: `ecol` raises exactly if a data set is in no
classical triplet or a declared pair cannot be bridged. -/
theorem ecol_error_iff (data : Frame n) (correlated : List (Fin n × Fin n)) (ec : Option (Fin n × Fin n × ℝ))
    (absEst : Bool) : (ecol data correlated ec absEst).2 = .error .singular ↔ ¬ Identifiable correlated := by
  set cov := subtractKnown (dataCov (dropna data)) ec with hcov
  have hmain : (ecol data correlated ec absEst).2 = .error .singular ↔
      ∃ v, v ≠ 0 ∧ Kernel (equations cov correlated) v := by
    rw [← det_zero_iff]
    simp only [ecol, ecolFromCov]
    rw [← hcov]
    unfold solve
    by_cases h : ((designMatrix (equations cov correlated))ᵀ * designMatrix (equations cov correlated)).det = 0
    · simp [h]
    · simp [h]
  rw [hmain]
  constructor
  · intro h hid; exact kernel_trivial cov correlated hid h
  · intro hid
    by_cases ht : ∀ a, ∃ c d, c ≠ a ∧ d ≠ a ∧ c ≠ d ∧
        ¬ Declared correlated a c ∧ ¬ Declared correlated a d ∧ ¬ Declared correlated c d
    · have hbr : ∃ a b, (a, b) ∈ correlated ∧ ¬ ∃ c d, c ≠ a ∧ c ≠ b ∧ d ≠ a ∧ d ≠ b ∧ c ≠ d ∧
          ¬ Declared correlated a c ∧ ¬ Declared correlated b d ∧ ¬ Declared correlated c d := by
        by_contra hcon
        apply hid
        refine ⟨ht, ?_⟩
        intro a b hab
        by_contra h
        exact hcon ⟨a, b, hab, h⟩
      obtain ⟨a, b, hab, hno⟩ := hbr
      obtain ⟨i, hi⟩ := List.get_of_mem hab
      refine ⟨fun p => if p = .inl (.inr i) then 1 else if p = .inr (.inr i) then -1 else 0, ?_, ?_⟩
      · intro h; have := congrFun h (.inl (.inr i)); simp at this
      · intro e he
        unfold equations at he
        simp only [List.mem_append] at he
        rcases he with (he | he) | he
        · unfold totalRows at he
          simp only [List.mem_append, List.mem_map] at he
          rcases he with ⟨j, _, rfl⟩ | ⟨j, _, rfl⟩
          · rw [twoRow_dot _ _ (by simp)]; simp
          · rw [twoRow_dot _ _ (by simp)]
            by_cases hj : j = i <;> simp [hj]
        · obtain ⟨a', c, d, _, _, _, _, _, _, rfl⟩ := mem_signalRows _ _ _ he
          rw [unitRow_dot]; simp
        · obtain ⟨j, c, d, h1, h2, h3, h4, h5, h6, h7, h8, rfl⟩ := mem_crossRows _ _ _ he
          rw [unitRow_dot]
          by_cases hj : j = i
          · subst hj
            exfalso; apply hno
            rw [hi] at h1 h2 h3 h4 h6 h7
            exact ⟨c, d, h1, h2, h3, h4, h5, h6, h7, h8⟩
          · simp [hj]
    · push Not at ht
      obtain ⟨a, ha⟩ := ht
      refine ⟨fun p => if p = .inl (.inl a) then 1 else if p = .inr (.inl a) then -1 else 0, ?_, ?_⟩
      · intro h; have := congrFun h (.inl (.inl a)); simp at this
      · intro e he
        unfold equations at he
        simp only [List.mem_append] at he
        rcases he with (he | he) | he
        · unfold totalRows at he
          simp only [List.mem_append, List.mem_map] at he
          rcases he with ⟨j, _, rfl⟩ | ⟨j, _, rfl⟩
          · rw [twoRow_dot _ _ (by simp)]
            by_cases hj : j = a <;> simp [hj]
          · rw [twoRow_dot _ _ (by simp)]; simp
        · obtain ⟨a', c, d, h1, h2, h3, h4, h5, h6, rfl⟩ := mem_signalRows _ _ _ he
          rw [unitRow_dot]
          by_cases hj : a' = a
          · subst hj; exact absurd (ha c d h1 h2 h3 h4 h5) h6
          · simp [hj]
        · obtain ⟨j, c, d, _, _, _, _, _, _, _, _, rfl⟩ := mem_crossRows _ _ _ he
          rw [unitRow_dot]; simp

/-- Sample covariances of the observations. -/
theorem dataCov_observe (a b : Fin n → ℝ) (ts : List (Truth n)) (hts : ts ≠ []) (i j : Fin n) :
    dataCov (ts.map (observe a b)) i j =
      b i * b j * sampleCov ts Truth.signal Truth.signal + b i * sampleCov ts Truth.signal (fun t => t.err j) +
      b j * sampleCov ts Truth.signal (fun t => t.err i) +
      sampleCov ts (fun t => t.err i) (fun t => t.err j) := by
  have hn := (len_pos (K := ℝ) ts hts).ne'
  have hmean : ∀ i : Fin n, ((ts.map (observe a b)).map (fun r => value r i)).sum / ((ts.map (observe a b)).length : ℝ) =
      a i + b i * sampleMean ts Truth.signal + sampleMean ts (fun t => t.err i) := by
    intro i
    unfold sampleMean
    rw [List.map_map, List.length_map]
    have : (ts.map ((fun r => value r i) ∘ observe a b)).sum =
        (ts.length : ℝ) * a i + b i * S ts Truth.signal + S ts (fun t => t.err i) := by
      change S ts (fun t => a i + b i * t.signal + t.err i) = _
      rw [S_add, S_add, S_const, S_mul]
    rw [this]
    change _ = a i + b i * (S ts Truth.signal / _) + S ts (fun t => t.err i) / _
    field_simp
  unfold dataCov
  simp only
  rw [hmean, hmean, List.map_map, List.length_map]
  set θ := sampleMean ts Truth.signal with hθ
  set μi := sampleMean ts (fun t => t.err i) with hμi
  set μj := sampleMean ts (fun t => t.err j) with hμj
  have hsum : (ts.map ((fun r => (value r i - (a i + b i * θ + μi)) * (value r j - (a j + b j * θ + μj))) ∘
      observe a b)).sum =
      b i * b j * S ts (fun t => (t.signal - θ) * (t.signal - θ)) +
      b i * S ts (fun t => (t.signal - θ) * (t.err j - μj)) +
      b j * S ts (fun t => (t.signal - θ) * (t.err i - μi)) +
      S ts (fun t => (t.err i - μi) * (t.err j - μj)) := by
    rw [← S_mul, ← S_mul, ← S_mul, ← S_add, ← S_add, ← S_add]
    change S ts _ = _
    apply S_congr
    intro t _
    simp only [observe, Function.comp, value, Option.getD_some]
    ring
  rw [hsum]
  have c1 : sampleCov ts Truth.signal Truth.signal = S ts (fun t => (t.signal - θ) * (t.signal - θ)) /
      ((ts.length : ℝ) - 1) := rfl
  have c2 : ∀ k, sampleCov ts Truth.signal (fun t => t.err k) =
      S ts (fun t => (t.signal - θ) * (t.err k - sampleMean ts (fun t => t.err k))) / ((ts.length : ℝ) - 1) :=
    fun _ => rfl
  have c3 : sampleCov ts (fun t => t.err i) (fun t => t.err j) =
      S ts (fun t => (t.err i - μi) * (t.err j - μj)) / ((ts.length : ℝ) - 1) := rfl
  rw [c1, c2, c2, c3]
  ring

/-- C14. For every number of data sets, offsets, non-zero gains and every sample whose errors are uncorrelated with the signal
and with each other except for declared pairs and the a-priori known pair: if the declared pairs allow an estimation at all,
`ecol` returns the signal variances, error variances, SNRs, error covariances and error correlations of the sample. Rows of the
data with a missing value do not matter. -/
theorem ecol_recovers (a b : Fin n → ℝ) (hb : ∀ i, b i ≠ 0) (data : Frame n) (ts : List (Truth n))
    (hdata : data.filter (fun r => (List.finRange n).all (fun i => (r i).isSome)) = ts.map (observe a b))
    (correlated : List (Fin n × Fin n)) (ec : Option (Fin n × Fin n × ℝ)) (absEst : Bool)
    (hsig : 0 < sampleCov ts Truth.signal Truth.signal)
    (herr : ∀ i, 0 < sampleCov ts (fun t => t.err i) (fun t => t.err i))
    (h1 : ∀ i, sampleCov ts Truth.signal (fun t => t.err i) = 0)
    (hk : ∀ p q v, ec = some (p, q, v) → p ≠ q)
    (h2 : ∀ i j, i ≠ j → ¬ Declared correlated i j →
      sampleCov ts (fun t => t.err i) (fun t => t.err j) = known ec i j)
    (hid : Identifiable correlated) :
    let E := fun i j => sampleCov ts (fun t => t.err i) (fun t => t.err j)
    let s := sampleCov ts Truth.signal Truth.signal
    ∃ r, (ecol data correlated ec absEst).2 = .ok r ∧
      (∀ i, r.sig i = b i ^ 2 * s ∧ r.err i = E i i ∧ r.snr i = 10 * Real.logb 10 (b i ^ 2 * s / E i i)) ∧
      (∀ i, let p := (correlated.get i).1; let q := (correlated.get i).2
        r.errCov i = E p q - known ec p q ∧ r.errCorr i = (E p q - known ec p q) / Real.sqrt (E p p * E q q)) := by
  intro E s
  have hts : ts ≠ [] := by rintro rfl; simp [sampleCov] at hsig
  have hcov : dataCov (dropna data) = fun i j => b i * b j * s + E i j := by
    unfold dropna
    rw [hdata]
    funext i j
    rw [dataCov_observe a b ts hts, h1, h1]
    simp only [s, E]; ring
  have := ecol_from_cov_recovers b s E correlated ec absEst hb hsig herr hk h2 hid
  unfold ecol
  simp only
  rw [hcov]
  exact this

/-- Finding: the caller's frame loses every row with a missing value. -/
theorem ecol_mutates_input (data : Frame n) (correlated : List (Fin n × Fin n)) (ec : Option (Fin n × Fin n × ℝ))
    (absEst : Bool) : (ecol data correlated ec absEst).1 = data ↔ ∀ r ∈ data, ∀ i, (r i).isSome := by
  simp only [ecol, dropna, List.filter_eq_self, List.all_eq_true, List.mem_finRange, true_imp_iff]

/-- Four data sets, the first two with correlated errors: identifiable. -/
theorem identifiable_four : Identifiable (n := 4) [(0, 1)] := by
  constructor
  · intro a
    fin_cases a
    · exact ⟨2, 3, by decide, by decide, by decide, by unfold Declared; decide, by unfold Declared; decide, by unfold Declared; decide⟩
    · exact ⟨2, 3, by decide, by decide, by decide, by unfold Declared; decide, by unfold Declared; decide, by unfold Declared; decide⟩
    · exact ⟨0, 3, by decide, by decide, by decide, by unfold Declared; decide, by unfold Declared; decide, by unfold Declared; decide⟩
    · exact ⟨0, 2, by decide, by decide, by decide, by unfold Declared; decide, by unfold Declared; decide, by unfold Declared; decide⟩
  · intro a b h
    simp at h
    obtain ⟨rfl, rfl⟩ := h
    exact ⟨2, 3, by decide, by decide, by decide, by decide, by decide, by unfold Declared; decide, by unfold Declared; decide, by unfold Declared; decide⟩

/-- Three data sets, two of them with correlated errors: not identifiable. -/
example : ¬ Identifiable (n := 3) [(0, 1)] := by
  intro h
  obtain ⟨c, d, h1, h2, h3, h4, h5, h6⟩ := h.triplet 2
  unfold Declared at h4 h5 h6
  fin_cases c <;> fin_cases d <;> simp_all

/-- A sample of the truth with the covariance structure required by `ecol_recovers` for four data sets and the declared pair
(0, 1): the errors of the first two data sets have covariance 8/7, all others are uncorrelated. -/
def exampleTruth : List (Truth 4) :=
  [⟨1, ![2, 1, 1, 1]⟩, ⟨1, ![2, 1, -1, -1]⟩, ⟨1, ![-2, -1, 1, -1]⟩, ⟨1, ![-2, -1, -1, 1]⟩,
   ⟨-1, ![0, 1, 1, 1]⟩, ⟨-1, ![0, 1, -1, -1]⟩, ⟨-1, ![0, -1, 1, -1]⟩, ⟨-1, ![0, -1, -1, 1]⟩]

example : 0 < sampleCov exampleTruth Truth.signal Truth.signal ∧
    (∀ i, 0 < sampleCov exampleTruth (fun t => t.err i) (fun t => t.err i)) ∧
    (∀ i, sampleCov exampleTruth Truth.signal (fun t => t.err i) = 0) ∧
    (∀ i j, i ≠ j → ¬ Declared [(0, 1)] i j →
      sampleCov exampleTruth (fun t => t.err i) (fun t => t.err j) = known none i j) ∧
    sampleCov exampleTruth (fun t => t.err 0) (fun t => t.err 1) = 8 / 7 := by
  refine ⟨?_, ?_, ?_, ?_, ?_⟩
  · norm_num [sampleCov, sampleMean, exampleTruth]
  · intro i; fin_cases i <;> norm_num [sampleCov, sampleMean, exampleTruth]
  · intro i; fin_cases i <;> norm_num [sampleCov, sampleMean, exampleTruth]
  · intro i j h hd
    fin_cases i <;> fin_cases j <;>
      first
      | exact absurd rfl h
      | exact absurd (by unfold Declared; decide) hd
      | norm_num [sampleCov, sampleMean, exampleTruth, known]
  · norm_num [sampleCov, sampleMean, exampleTruth]

end Verif.Ecol
