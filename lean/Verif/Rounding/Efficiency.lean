import Verif.Rounding.ScalingAccuracy

/-! C130: Nash-Sutcliffe efficiency and index of agreement in floating point. The model is `Rounding.Perfect` (`nashSutcliffe`, `indexOfAgreement`). -/

namespace Verif.Rounding

open Moments (mean pvar S)
open Rolling.Fl (rnd64)

variable {K : Type} [Field K] [LinearOrder K] [IsStrictOrderedRing K]

/-! ### Specification -/

/-- mean squared difference over variance of the observations -/
def errorRatio (l : List (K × K)) : K := mean (l.map (fun p => (p.1 - p.2) ^ 2)) / pvar (l.map Prod.fst)

/-- the largest possible squared difference of a pair around `m`, mean over all pairs -/
def potential (m : K) (l : List (K × K)) : K := mean (l.map (fun p => (|p.2 - m| + |p.1 - m|) ^ 2))

/-- mean squared difference over potential error -/
def potentialRatio (l : List (K × K)) : K := mean (l.map (fun p => (p.1 - p.2) ^ 2)) / potential (mean (l.map Prod.fst)) l

/-! ### Steps -/

theorem order_adds {rnd : K → K} {order : List K → Tree K} (ho : ∀ v : List K, v ≠ [] → (order v).leaves.Perm v) :
    Adds rnd (fun v => (order v).sum rnd) := fun l hl => ⟨order l, ho l hl, rfl⟩

/-- one minus a quotient of numbers with relative errors -/
theorem one_sub_ratio_err {rnd : K → K} {u R R' D D' κ δ : K} (h : RelErr rnd u) (hu : 100 * u ≤ 1) (hR : 0 ≤ R) (hD : 0 < D) (hκ : 0 ≤ κ)
    (hδ0 : 0 ≤ δ) (hδ : 5 * δ ≤ 1) (hR' : |R' - R| ≤ κ * R) (hD' : |D' - D| ≤ δ * D) :
    0 < D' ∧ |rnd (1 - rnd (R' / D')) - (1 - R / D)| ≤ (13 / 10 * (κ + δ) + 21 / 10 * u) * (R / D) + u := by
  have hu0 := h.nonneg
  have hδD : δ * D ≤ 1 / 5 * D := mul_le_mul_of_nonneg_right (by linarith) hD.le
  obtain ⟨d1, d2⟩ := abs_le.1 hD'
  have hD'0 : 4 / 5 * D ≤ D' := by linarith
  have hD'p : 0 < D' := by linarith
  refine ⟨hD'p, ?_⟩
  have hq : 0 ≤ R / D := div_nonneg hR hD.le
  have hκδ : 0 ≤ κ + δ := by linarith
  have s1 : |R' / D' - R / D| ≤ 5 / 4 * (κ + δ) * (R / D) := by
    have e : R' / D' - R / D = ((R' - R) * D - R * (D' - D)) / (D' * D) := by
      field_simp
      ring
    have n1 : |(R' - R) * D - R * (D' - D)| ≤ (κ + δ) * (R * D) := by
      refine (abs_sub _ _).trans ?_
      rw [abs_mul, abs_mul, abs_of_pos hD, abs_of_nonneg hR]
      have t1 := mul_le_mul_of_nonneg_right hR' hD.le
      have t2 := mul_le_mul_of_nonneg_left hD' hR
      linarith
    rw [e, abs_div, abs_of_pos (mul_pos hD'p hD), div_le_iff₀ (mul_pos hD'p hD)]
    refine n1.trans ?_
    have e2 : 5 / 4 * (κ + δ) * (R / D) * (D' * D) = 5 / 4 * ((κ + δ) * R) * D' := by
      field_simp
    rw [e2]
    have := mul_le_mul_of_nonneg_left hD'0 (mul_nonneg hκδ hR)
    linarith
  have s2 := rnd_err h s1
  rw [abs_of_nonneg hq] at s2
  set q := R / D
  set s := 5 / 4 * (κ + δ)
  have s3 : |1 - rnd (R' / D') - (1 - q)| ≤ s * q * (1 + u) + u * q := by
    rw [show 1 - rnd (R' / D') - (1 - q) = -(rnd (R' / D') - q) by ring, abs_neg]
    exact s2
  have s4 := rnd_err h s3
  have a1 : |1 - q| ≤ 1 + q := by
    refine (abs_sub _ _).trans ?_
    rw [abs_one, abs_of_nonneg hq]
  have a2 := mul_le_mul_of_nonneg_left a1 hu0
  refine s4.trans ?_
  have hs0 : 0 ≤ s * q := mul_nonneg (by positivity) hq
  have uq : 0 ≤ u * q := mul_nonneg hu0 hq
  have g1 : s * q * u ≤ s * q * (1 / 100) := mul_le_mul_of_nonneg_left (by linarith) hs0
  have g2 : u * q * u ≤ u * q * (1 / 100) := mul_le_mul_of_nonneg_left (by linarith) uq
  have g3 : s * q * u * u ≤ s * q * (1 / 100) * (1 / 100) := by
    have := mul_le_mul g1 (by linarith : u ≤ 1 / 100) hu0 (by positivity)
    exact this
  have e : (s * q * (1 + u) + u * q) * (1 + u) = s * q + 2 * (s * q * u) + s * q * u * u + u * q + u * q * u := by ring
  rw [e]
  have e3 : s * q = 5 / 4 * ((κ + δ) * q) := by ring
  have : 0 ≤ (κ + δ) * q := mul_nonneg hκδ hq
  have e4 : (13 / 10 * (κ + δ) + 21 / 10 * u) * q + u = 13 / 10 * ((κ + δ) * q) + 21 / 10 * (u * q) + u := by ring
  rw [e4]
  linarith

/-- the exponent of the sums -/
theorem pow_bound {u : K} (hu : 0 ≤ u) (n k : ℕ) (hk : k ≤ 5) (hn : 40 * ((n : K) + 6) * u ≤ 1) : (1 + u) ^ (n + k) - 1 ≤ 2 * ((n : K) + k) * u := by
  have := pow_small hu (n + k) (by
    push_cast
    have hk' : (k : K) ≤ 5 := by exact_mod_cast hk
    have : ((n : K) + k) * u ≤ ((n : K) + 6) * u := mul_le_mul_of_nonneg_right (by linarith) hu
    linarith)
  push_cast at this
  exact this

/-- sum of the squared differences -/
theorem num_err {rnd : K → K} {u : K} {order : List K → Tree K} (h : RelErr rnd u) (ho : ∀ v : List K, v ≠ [] → (order v).leaves.Perm v)
    (l : List (K × K)) (hl : l ≠ []) (d : K × K → K) :
    |(order (l.map (fun p => rnd (rnd (d p) * rnd (d p))))).sum rnd - S l (fun p => d p ^ 2)| ≤
      ((1 + u) ^ (l.length + 3) - 1) * S l (fun p => d p ^ 2) := by
  have := sum_terms_err h (order_adds (rnd := rnd) ho) l hl (fun p => d p ^ 2) (fun p => rnd (rnd (d p) * rnd (d p))) (ε := (1 + u) ^ 3 - 1)
    (fun p _ => sq_nonneg _) (fun p _ => by
      have := square_err h (d p)
      rwa [abs_of_nonneg (sq_nonneg (d p))] at this)
  rw [show (1 : K) + ((1 + u) ^ 3 - 1) = (1 + u) ^ 3 by ring, ← pow_add] at this
  exact this

/-- `|p - m| + |o - m|` -/
theorem pot_term {rnd : K → K} {u : K} (h : RelErr rnd u) (a b : K) :
    |rnd (rnd (|rnd a| + |rnd b|) * rnd (|rnd a| + |rnd b|)) - (|a| + |b|) ^ 2| ≤ ((1 + u) ^ 5 - 1) * (|a| + |b|) ^ 2 := by
  have hu0 := h.nonneg
  have A0 : 0 ≤ |a| + |b| := add_nonneg (abs_nonneg _) (abs_nonneg _)
  have h1 : |(|rnd a| + |rnd b|) - (|a| + |b|)| ≤ u * (|a| + |b|) := by
    have e : (|rnd a| + |rnd b|) - (|a| + |b|) = (|rnd a| - |a|) + (|rnd b| - |b|) := by ring
    rw [e]
    refine (abs_add_le _ _).trans ?_
    have t1 := (abs_abs_sub_abs_le (rnd a) a).trans (h.err a)
    have t2 := (abs_abs_sub_abs_le (rnd b) b).trans (h.err b)
    linarith
  set A := |a| + |b|
  have h2 := round_err h u A A _ (le_of_eq (abs_of_nonneg A0)) hu0 h1
  set x := rnd (|rnd a| + |rnd b|)
  have hw : 0 ≤ (1 + u) * (1 + u) - 1 := by nlinarith
  have h3 : |x + A| ≤ (2 + ((1 + u) * (1 + u) - 1)) * A := by
    have e : x + A = (x - A) + 2 * A := by ring
    rw [e]
    refine (abs_add_le _ _).trans ?_
    rw [abs_of_nonneg (by linarith : 0 ≤ 2 * A)]
    linarith
  have h4 : |x * x - A ^ 2| ≤ ((1 + u) ^ 4 - 1) * A ^ 2 := by
    have e : x * x - A ^ 2 = (x - A) * (x + A) := by ring
    rw [e, abs_mul]
    refine (mul_le_mul h2 h3 (abs_nonneg _) (mul_nonneg hw A0)).trans (le_of_eq ?_)
    ring
  have p4 := one_le_pow hu0 4
  have h5 := round_err h _ _ _ _ (le_of_eq (abs_of_nonneg (sq_nonneg A))) (by linarith : 0 ≤ (1 + u) ^ 4 - 1) h4
  refine h5.trans (le_of_eq ?_)
  ring

/-- the denominator of the index of agreement -/
theorem pot_err {rnd : K → K} {u : K} {order : List K → Tree K} (h : RelErr rnd u) (ho : ∀ v : List K, v ≠ [] → (order v).leaves.Perm v)
    (l : List (K × K)) (hl : l ≠ []) (m : K) :
    |(order (l.map (fun p => rnd (rnd (|rnd (p.2 - m)| + |rnd (p.1 - m)|) * rnd (|rnd (p.2 - m)| + |rnd (p.1 - m)|))))).sum rnd -
        S l (fun p => (|p.2 - m| + |p.1 - m|) ^ 2)| ≤ ((1 + u) ^ (l.length + 5) - 1) * S l (fun p => (|p.2 - m| + |p.1 - m|) ^ 2) := by
  have := sum_terms_err h (order_adds (rnd := rnd) ho) l hl (fun p => (|p.2 - m| + |p.1 - m|) ^ 2)
    (fun p => rnd (rnd (|rnd (p.2 - m)| + |rnd (p.1 - m)|) * rnd (|rnd (p.2 - m)| + |rnd (p.1 - m)|))) (ε := (1 + u) ^ 5 - 1)
    (fun p _ => sq_nonneg _) (fun p _ => pot_term h _ _)
  rw [show (1 : K) + ((1 + u) ^ 5 - 1) = (1 + u) ^ 5 by ring, ← pow_add] at this
  exact this

theorem small_of_bound {u : K} (hu : 0 ≤ u) (n : ℕ) (hn : 40 * ((n : K) + 6) * u ≤ 1) :
    100 * u ≤ 1 ∧ 5 * ((n : K) + 1) * u ≤ 1 ∧ 2 * ((n : K) + 3) * u ≤ 1 / 20 ∧ 2 * ((n : K) + 5) * u ≤ 1 / 20 := by
  have h0 : (0 : K) ≤ n := Nat.cast_nonneg n
  have h1 : (0 : K) ≤ n * u := mul_nonneg h0 hu
  refine ⟨?_, ?_, ?_, ?_⟩ <;> linarith

/-! ### Nash-Sutcliffe efficiency -/

/-- **C130.** For `n` pairs with observations of at most `B` and a standard deviation of at least `σ`, the Nash-Sutcliffe efficiency is a number; its
distance from 1 has a relative error of at most `6 (n + 3) u + 2 (5 (n + 1) u B / σ)²`, and the result is off by a rounding more. -/
theorem nash_accuracy {rnd : K → K} {u B σ : K} {order : List K → Tree K} (h : RelErr rnd u)
    (ho : ∀ v : List K, v ≠ [] → (order v).leaves.Perm v) (l : List (K × K)) (hl : l ≠ []) (hn : 40 * ((l.length : K) + 6) * u ≤ 1)
    (hb : ∀ p ∈ l, |p.1| ≤ B) (hσ : 0 < σ) (hv : σ ^ 2 ≤ pvar (l.map Prod.fst)) (hB : 25 * ((l.length : K) + 1) * (u * B) ≤ σ) :
    ∃ v, nashSutcliffe rnd order l = some v ∧
      |v - (1 - errorRatio l)| ≤ (6 * ((l.length : K) + 3) * u + 2 * (5 * ((l.length : K) + 1) * (u * B) / σ) ^ 2) * errorRatio l + u := by
  have hu0 := h.nonneg
  obtain ⟨hu, hn5, hk, -⟩ := small_of_bound hu0 l.length hn
  have hpos := Moments.len_pos (K := K) l hl
  have hmean := npMeanF_err (rnd := rnd) (add := fun v => (order v).sum rnd) h (order_adds ho) (l.map Prod.fst) (by simpa using hl)
    (by simpa using hn5) (B := B) (by
      intro x hx
      obtain ⟨p, hp, rfl⟩ := List.mem_map.1 hx
      exact hb p hp)
  rw [List.length_map] at hmean
  have hm' : npMeanF rnd (fun v => (order v).sum rnd) (l.map Prod.fst) = npMean rnd order (l.map Prod.fst) := rfl
  rw [hm'] at hmean
  have hnum := num_err h ho l hl (fun p => p.1 - p.2)
  have hden := num_err h ho l hl (fun p => p.1 - npMean rnd order (l.map Prod.fst))
  have hpw := pow_bound hu0 l.length 3 (by norm_num) hn
  push_cast at hpw
  set m := npMean rnd order (l.map Prod.fst) with hmd
  set k := 2 * ((l.length : K) + 3) * u with hkd
  set e := 5 * ((l.length : K) + 1) * (u * B) with hed
  set τ := (e / σ) ^ 2 with hτd
  have hk0 : 0 ≤ k := by positivity
  have hk8 : 8 * u ≤ k := by
    have h1 : (1 : K) ≤ (l.length : K) := by
      have : 1 ≤ l.length := List.length_pos_iff.2 hl
      exact_mod_cast this
    have := mul_le_mul_of_nonneg_right h1 hu0
    linarith
  have hτ0 : 0 ≤ τ := sq_nonneg _
  have he0 : 0 ≤ e := (abs_nonneg _).trans hmean
  have hτ25 : τ ≤ 1 / 25 := by
    have h1 : e / σ ≤ 1 / 5 := by
      rw [div_le_iff₀ hσ]
      linarith
    have h2 : 0 ≤ e / σ := div_nonneg he0 hσ.le
    calc τ ≤ (1 / 5) ^ 2 := pow_le_pow_left₀ h2 h1 2
      _ = 1 / 25 := by norm_num
  -- the denominator
  have hshift : S l (fun p => (p.1 - m) ^ 2) = (l.length : K) * pvar (l.map Prod.fst) + (l.length : K) * (mean (l.map Prod.fst) - m) ^ 2 := by
    have := mean_sq_shift (l.map Prod.fst) (by simpa using hl) m
    rw [List.map_map] at this
    have h2 := Moments.len_mul_mean l (fun p : K × K => (p.1 - m) ^ 2)
    rw [← h2]
    have h3 : ((fun x => (x - m) ^ 2) ∘ Prod.fst : K × K → K) = fun p => (p.1 - m) ^ 2 := rfl
    rw [h3] at this
    rw [this]
    ring
  set D := (l.length : K) * pvar (l.map Prod.fst) with hDd
  have hD : 0 < D := mul_pos hpos (lt_of_lt_of_le (by positivity) hv)
  have hsh : (l.length : K) * (mean (l.map Prod.fst) - m) ^ 2 ≤ τ * D := by
    have h1 : (mean (l.map Prod.fst) - m) ^ 2 ≤ e ^ 2 := by
      rw [← sq_abs, abs_sub_comm]
      exact pow_le_pow_left₀ (abs_nonneg _) hmean 2
    have h2 : e ^ 2 = τ * σ ^ 2 := by
      rw [hτd]
      field_simp
    have h3 : τ * σ ^ 2 ≤ τ * pvar (l.map Prod.fst) := mul_le_mul_of_nonneg_left hv hτ0
    have h4 := mul_le_mul_of_nonneg_left (h1.trans (h2.le.trans h3)) hpos.le
    linarith [show τ * D = (l.length : K) * (τ * pvar (l.map Prod.fst)) by rw [hDd]; ring]
  have hsh0 : 0 ≤ (l.length : K) * (mean (l.map Prod.fst) - m) ^ 2 := by positivity
  have hden' : |(order (l.map (fun p => rnd (rnd (p.1 - m) * rnd (p.1 - m))))).sum rnd - D| ≤ (k + τ + k * τ) * D := by
    refine (abs_tri _ (S l (fun p => (p.1 - m) ^ 2)) _).trans ?_
    have h1 := hden.trans (mul_le_mul_of_nonneg_right hpw (by rw [hshift]; linarith))
    have h2 : |S l (fun p => (p.1 - m) ^ 2) - D| ≤ τ * D := by
      rw [hshift, add_sub_cancel_left, abs_of_nonneg hsh0]
      exact hsh
    have h3 : k * S l (fun p => (p.1 - m) ^ 2) ≤ k * (D + τ * D) := mul_le_mul_of_nonneg_left (by rw [hshift]; linarith) hk0
    linarith [show k * (D + τ * D) + τ * D = (k + τ + k * τ) * D by ring]
  have hR0 : 0 ≤ S l (fun p => (p.1 - p.2) ^ 2) := Moments.S_nonneg l _ (fun p _ => sq_nonneg _)
  have hnum' := hnum.trans (mul_le_mul_of_nonneg_right hpw hR0)
  have hkτ : k * τ ≤ 1 / 20 * τ := mul_le_mul_of_nonneg_right hk hτ0
  have hkτ0 : 0 ≤ k * τ := mul_nonneg hk0 hτ0
  obtain ⟨r1, r2⟩ := one_sub_ratio_err h hu hR0 hD hk0 (by linarith : 0 ≤ k + τ + k * τ) (by linarith) hnum' hden'
  have hq : S l (fun p => (p.1 - p.2) ^ 2) / D = errorRatio l := by
    unfold errorRatio
    rw [← Moments.len_mul_mean, hDd, mul_div_mul_left _ _ hpos.ne']
  rw [hq] at r2
  have hq0 : 0 ≤ errorRatio l := by
    rw [← hq]
    exact div_nonneg hR0 hD.le
  refine ⟨_, by unfold nashSutcliffe; simp only [← hmd]; rw [if_neg r1.ne'], r2.trans ?_⟩
  have h6 : 6 * ((l.length : K) + 3) * u = 3 * k := by rw [hkd]; ring
  rw [h6]
  have : (13 / 10 * (k + (k + τ + k * τ)) + 21 / 10 * u) * errorRatio l ≤ (3 * k + 2 * τ) * errorRatio l :=
    mul_le_mul_of_nonneg_right (by linarith) hq0
  linarith

/-! ### Index of agreement -/

/-- **C130.** The index of agreement is never below `-6 (n + 5) u`. -/
theorem agreement_lower_partial {rnd : K → K} {u : K} {order : List K → Tree K} (h : RelErr rnd u)
    (ho : ∀ v : List K, v ≠ [] → (order v).leaves.Perm v) (l : List (K × K)) (hl : l ≠ []) (hn : 40 * ((l.length : K) + 6) * u ≤ 1) (v : K)
    (hv : indexOfAgreement rnd order l = some v) : -(6 * ((l.length : K) + 5) * u) ≤ v := by
  have hu0 := h.nonneg
  obtain ⟨hu, hn5, hk3, hk⟩ := small_of_bound hu0 l.length hn
  have hnum := RSS_err h l
  have hden := pot_err h ho l hl (npMean rnd order (l.map Prod.fst))
  have hpw3 := pow_bound hu0 l.length 3 (by norm_num) hn
  have hpw5 := pow_bound hu0 l.length 5 (by norm_num) hn
  push_cast at hpw3 hpw5
  unfold indexOfAgreement at hv
  simp only at hv
  set m := npMean rnd order (l.map Prod.fst) with hmd
  split at hv
  · cases hv
  rename_i hne
  rw [← Option.some.inj hv]
  set k := 2 * ((l.length : K) + 5) * u with hkd
  have hk0 : 0 ≤ k := by positivity
  have hn0 : (0 : K) ≤ l.length := Nat.cast_nonneg _
  have hk10 : 10 * u ≤ k := by
    have := mul_nonneg hn0 hu0
    linarith
  have hR0 : 0 ≤ S l (fun p => (p.1 - p.2) ^ 2) := Moments.S_nonneg l _ (fun p _ => sq_nonneg _)
  have hnum' : |RSS rnd l - S l (fun p => (p.1 - p.2) ^ 2)| ≤ k * S l (fun p => (p.1 - p.2) ^ 2) := by
    refine hnum.trans (mul_le_mul_of_nonneg_right ?_ hR0)
    linarith
  have hP0 : 0 ≤ S l (fun p => (|p.2 - m| + |p.1 - m|) ^ 2) := Moments.S_nonneg l _ (fun p _ => sq_nonneg _)
  have hden' := hden.trans (mul_le_mul_of_nonneg_right hpw5 hP0)
  have hP : 0 < S l (fun p => (|p.2 - m| + |p.1 - m|) ^ 2) := by
    rcases hP0.lt_or_eq with h1 | h1
    · exact h1
    · rw [← h1, mul_zero, sub_zero] at hden'
      exact absurd (abs_eq_zero.1 (le_antisymm hden' (abs_nonneg _))) hne
  have hle : S l (fun p => (p.1 - p.2) ^ 2) ≤ S l (fun p => (|p.2 - m| + |p.1 - m|) ^ 2) := by
    refine Moments.S_le l _ _ (fun p _ => ?_)
    rw [← sq_abs (p.1 - p.2)]
    refine pow_le_pow_left₀ (abs_nonneg _) ?_ 2
    have := abs_sub (p.1 - m) (p.2 - m)
    rw [show p.1 - m - (p.2 - m) = p.1 - p.2 by ring] at this
    linarith
  obtain ⟨-, r2⟩ := one_sub_ratio_err h hu hR0 hP hk0 hk0 (by linarith) hnum' hden'
  have hq1 : S l (fun p => (p.1 - p.2) ^ 2) / S l (fun p => (|p.2 - m| + |p.1 - m|) ^ 2) ≤ 1 := (div_le_one hP).2 hle
  have hq0 := div_nonneg hR0 hP0
  set q := S l (fun p => (p.1 - p.2) ^ 2) / S l (fun p => (|p.2 - m| + |p.1 - m|) ^ 2)
  have := (abs_le.1 r2).1
  have h1 : (13 / 10 * (k + k) + 21 / 10 * u) * q ≤ (13 / 10 * (k + k) + 21 / 10 * u) * 1 := mul_le_mul_of_nonneg_left hq1 (by linarith)
  have h6 : 6 * ((l.length : K) + 5) * u = 3 * k := by rw [hkd]; ring
  rw [h6]
  linarith

/-- potential errors around two centres -/
theorem pot_shift (l : List (K × K)) (m c e σ lam : K) (he : |m - c| ≤ e) (hσ : 0 ≤ σ) (hlam : 0 ≤ lam) (hel : e = lam * σ) :
    |S l (fun p => (|p.2 - m| + |p.1 - m|) ^ 2) - S l (fun p => (|p.2 - c| + |p.1 - c|) ^ 2)| ≤
      2 * lam * S l (fun p => (|p.2 - c| + |p.1 - c|) ^ 2) + (2 * lam + 4 * lam ^ 2) * ((l.length : K) * σ ^ 2) := by
  have he0 : 0 ≤ e := (abs_nonneg _).trans he
  have term : ∀ a b : K, |(|b - m| + |a - m|) ^ 2 - (|b - c| + |a - c|) ^ 2| ≤ 2 * lam * (|b - c| + |a - c|) ^ 2 + (2 * lam + 4 * lam ^ 2) * σ ^ 2 := by
    intro a b
    have s1 : ∀ x : K, |(|x - m|) - (|x - c|)| ≤ e := by
      intro x
      refine (abs_abs_sub_abs_le _ _).trans ?_
      rw [show x - m - (x - c) = -(m - c) by ring, abs_neg]
      exact he
    have A0 : 0 ≤ |b - c| + |a - c| := add_nonneg (abs_nonneg _) (abs_nonneg _)
    have d1 : |(|b - m| + |a - m|) - (|b - c| + |a - c|)| ≤ 2 * e := by
      rw [show (|b - m| + |a - m|) - (|b - c| + |a - c|) = (|b - m| - |b - c|) + (|a - m| - |a - c|) by ring]
      refine (abs_add_le _ _).trans ?_
      linarith [s1 a, s1 b]
    set A := |b - c| + |a - c|
    set A' := |b - m| + |a - m|
    have d2 : |A' + A| ≤ 2 * A + 2 * e := by
      rw [show A' + A = (A' - A) + 2 * A by ring]
      refine (abs_add_le _ _).trans ?_
      rw [abs_of_nonneg (by linarith : 0 ≤ 2 * A)]
      linarith
    rw [show A' ^ 2 - A ^ 2 = (A' - A) * (A' + A) by ring, abs_mul]
    refine (mul_le_mul d1 d2 (abs_nonneg _) (by linarith)).trans ?_
    have h1 : 0 ≤ lam * (A - σ) ^ 2 := mul_nonneg hlam (sq_nonneg _)
    rw [hel]
    have h2 : 2 * (lam * σ) * (2 * A + 2 * (lam * σ)) = 2 * lam * A ^ 2 + (2 * lam + 4 * lam ^ 2) * σ ^ 2 - 2 * (lam * (A - σ) ^ 2) := by ring
    rw [h2]
    linarith
  induction l with
  | nil => simp [S]
  | cons p l ih =>
    simp only [S, List.map_cons, List.sum_cons, List.length_cons] at ih ⊢
    have t := term p.1 p.2
    push_cast
    refine le_trans (b := |(|p.2 - m| + |p.1 - m|) ^ 2 - (|p.2 - c| + |p.1 - c|) ^ 2| + _) ?_ ((add_le_add t ih).trans (le_of_eq ?_))
    · rw [add_sub_add_comm]
      exact abs_add_le _ _
    · ring

/-- **C130.** For `n` pairs with observations of at most `B` and a standard deviation of at least `σ`, the index of agreement is a number; its distance
from 1 has a relative error of at most `6 (n + 5) u + 6 (5 (n + 1) u B / σ)`, and the result is off by a rounding more. -/
theorem agreement_accuracy {rnd : K → K} {u B σ : K} {order : List K → Tree K} (h : RelErr rnd u)
    (ho : ∀ v : List K, v ≠ [] → (order v).leaves.Perm v) (l : List (K × K)) (hl : l ≠ []) (hn : 40 * ((l.length : K) + 6) * u ≤ 1)
    (hb : ∀ p ∈ l, |p.1| ≤ B) (hσ : 0 < σ) (hv : σ ^ 2 ≤ pvar (l.map Prod.fst)) (hB : 200 * ((l.length : K) + 1) * (u * B) ≤ σ) :
    ∃ v, indexOfAgreement rnd order l = some v ∧
      |v - (1 - potentialRatio l)| ≤ (6 * ((l.length : K) + 5) * u + 6 * (5 * ((l.length : K) + 1) * (u * B) / σ)) * potentialRatio l + u := by
  have hu0 := h.nonneg
  obtain ⟨hu, hn5, -, hk⟩ := small_of_bound hu0 l.length hn
  have hpos := Moments.len_pos (K := K) l hl
  have hmean := npMeanF_err (rnd := rnd) (add := fun v => (order v).sum rnd) h (order_adds ho) (l.map Prod.fst) (by simpa using hl)
    (by simpa using hn5) (B := B) (by
      intro x hx
      obtain ⟨p, hp, rfl⟩ := List.mem_map.1 hx
      exact hb p hp)
  rw [List.length_map] at hmean
  have hm' : npMeanF rnd (fun v => (order v).sum rnd) (l.map Prod.fst) = npMean rnd order (l.map Prod.fst) := rfl
  rw [hm'] at hmean
  have hnum := RSS_err h l
  have hden := pot_err h ho l hl (npMean rnd order (l.map Prod.fst))
  have hpw3 := pow_bound hu0 l.length 3 (by norm_num) hn
  have hpw5 := pow_bound hu0 l.length 5 (by norm_num) hn
  push_cast at hpw3 hpw5
  set m := npMean rnd order (l.map Prod.fst) with hmd
  set c := mean (l.map Prod.fst) with hcd
  set k := 2 * ((l.length : K) + 5) * u with hkd
  set e := 5 * ((l.length : K) + 1) * (u * B) with hed
  set lam := e / σ with hld
  have he0 : 0 ≤ e := (abs_nonneg _).trans hmean
  have hlam0 : 0 ≤ lam := div_nonneg he0 hσ.le
  have hlam : lam ≤ 1 / 40 := by
    rw [hld, div_le_iff₀ hσ]
    linarith
  have hel : e = lam * σ := by
    rw [hld]
    field_simp
  have hk0 : 0 ≤ k := by positivity
  have hn0 : (0 : K) ≤ l.length := Nat.cast_nonneg _
  have hk10 : 10 * u ≤ k := by
    have := mul_nonneg hn0 hu0
    linarith
  have hR0 : 0 ≤ S l (fun p => (p.1 - p.2) ^ 2) := Moments.S_nonneg l _ (fun p _ => sq_nonneg _)
  have hnum' : |RSS rnd l - S l (fun p => (p.1 - p.2) ^ 2)| ≤ k * S l (fun p => (p.1 - p.2) ^ 2) := by
    refine hnum.trans (mul_le_mul_of_nonneg_right ?_ hR0)
    linarith
  have hsh := pot_shift l m c e σ lam hmean hσ.le hlam0 hel
  set P := S l (fun p => (|p.2 - m| + |p.1 - m|) ^ 2) with hPd
  set D := S l (fun p => (|p.2 - c| + |p.1 - c|) ^ 2) with hDd
  have hP0 : 0 ≤ P := Moments.S_nonneg l _ (fun p _ => sq_nonneg _)
  have hvar : (l.length : K) * pvar (l.map Prod.fst) ≤ D := by
    have h1 : (l.length : K) * pvar (l.map Prod.fst) = S l (fun p => (p.1 - c) ^ 2) := by
      have := mean_sq_shift (l.map Prod.fst) (by simpa using hl) c
      rw [← hcd, sub_self, List.map_map] at this
      rw [← Moments.len_mul_mean l (fun p : K × K => (p.1 - c) ^ 2)]
      have h3 : ((fun x => (x - c) ^ 2) ∘ Prod.fst : K × K → K) = fun p => (p.1 - c) ^ 2 := rfl
      rw [h3] at this
      rw [this]
      ring
    rw [h1]
    refine Moments.S_le l _ _ (fun p _ => ?_)
    rw [← sq_abs (p.1 - c)]
    exact pow_le_pow_left₀ (abs_nonneg _) (by linarith [abs_nonneg (p.2 - c)]) 2
  have hnσ : (l.length : K) * σ ^ 2 ≤ D := (mul_le_mul_of_nonneg_left hv hn0).trans hvar
  have hD : 0 < D := lt_of_lt_of_le (by positivity) hnσ
  have hl2 : lam ^ 2 ≤ 1 / 40 * lam := by
    rw [sq]
    exact mul_le_mul_of_nonneg_right hlam hlam0
  have hl20 : 0 ≤ lam ^ 2 := sq_nonneg _
  have hsh' : |P - D| ≤ 41 / 10 * lam * D := by
    refine hsh.trans ?_
    have h1 := mul_le_mul_of_nonneg_left hnσ (by linarith : 0 ≤ 2 * lam + 4 * lam ^ 2)
    have h2 : (2 * lam + 4 * lam ^ 2) * D ≤ 21 / 10 * lam * D := mul_le_mul_of_nonneg_right (by linarith) hD.le
    linarith
  have hden' : |(order (l.map (fun p => rnd (rnd (|rnd (p.2 - m)| + |rnd (p.1 - m)|) * rnd (|rnd (p.2 - m)| + |rnd (p.1 - m)|))))).sum rnd - D| ≤
      (k + 41 / 10 * lam + k * (41 / 10 * lam)) * D := by
    refine (abs_tri _ P _).trans ?_
    have h1 := hden.trans (mul_le_mul_of_nonneg_right hpw5 hP0)
    have h2 : P ≤ D + 41 / 10 * lam * D := by linarith [(abs_le.1 hsh').2]
    have h3 := mul_le_mul_of_nonneg_left h2 hk0
    linarith [show k * (D + 41 / 10 * lam * D) + 41 / 10 * lam * D = (k + 41 / 10 * lam + k * (41 / 10 * lam)) * D by ring]
  have hkl : k * (41 / 10 * lam) ≤ 1 / 20 * (41 / 10 * lam) := mul_le_mul_of_nonneg_right hk (by linarith)
  have hkl0 : 0 ≤ k * (41 / 10 * lam) := mul_nonneg hk0 (by linarith)
  obtain ⟨r1, r2⟩ := one_sub_ratio_err h hu hR0 hD hk0 (by linarith : 0 ≤ k + 41 / 10 * lam + k * (41 / 10 * lam)) (by linarith) hnum' hden'
  have hq : S l (fun p => (p.1 - p.2) ^ 2) / D = potentialRatio l := by
    unfold potentialRatio potential
    rw [← Moments.len_mul_mean, hDd, ← Moments.len_mul_mean, ← hcd, mul_div_mul_left _ _ hpos.ne']
  rw [hq] at r2
  have hq0 : 0 ≤ potentialRatio l := by
    rw [← hq]
    exact div_nonneg hR0 hD.le
  refine ⟨_, by unfold indexOfAgreement; simp only [← hmd]; rw [if_neg r1.ne'], r2.trans ?_⟩
  have h6 : 6 * ((l.length : K) + 5) * u = 3 * k := by rw [hkd]; ring
  rw [h6]
  have : (13 / 10 * (k + (k + 41 / 10 * lam + k * (41 / 10 * lam))) + 21 / 10 * u) * potentialRatio l ≤ (3 * k + 6 * lam) * potentialRatio l :=
    mul_le_mul_of_nonneg_right (by linarith) hq0
  linarith

/-- without rounding the potential error is at least the squared difference, so the index is between 0 and 1 -/
theorem potentialRatio_le_one (l : List (K × K)) : potentialRatio l ≤ 1 := by
  unfold potentialRatio potential
  set c := mean (l.map Prod.fst)
  rcases eq_or_ne l [] with rfl | hl
  · simp [mean]
  have hpos := Moments.len_pos (K := K) l hl
  rw [← mul_div_mul_left _ _ hpos.ne', Moments.len_mul_mean, Moments.len_mul_mean]
  refine div_le_one_of_le₀ (Moments.S_le l _ _ (fun p _ => ?_)) (Moments.S_nonneg l _ (fun p _ => sq_nonneg _))
  rw [← sq_abs (p.1 - p.2)]
  refine pow_le_pow_left₀ (abs_nonneg _) ?_ 2
  have := abs_sub (p.1 - c) (p.2 - c)
  rw [show p.1 - c - (p.2 - c) = p.1 - p.2 by ring] at this
  linarith

/-! ### Double precision -/

/-- **C130**, negation: the documented range 0 to 1 of the index of agreement is left in double precision, with observations 1.6 and 1.7 and
predictions 1.9 and -1.7 -/
theorem agreement_below_zero : (indexOfAgreement rnd64 fromLeft [(rnd64 (8 / 5), rnd64 (19 / 10)), (rnd64 (17 / 10), rnd64 (-(17 / 10)))]) = some (-(1 / 2 ^ 52)) := by
  decide +kernel

/-- **C130**, negation: for constant observations 0.1 the efficiency has no value, but the mean of three times 0.1 differs from 0.1 and the
computed efficiency is below -10^33 -/
theorem nash_constant_observations :
    pvar [rnd64 (1 / 10), rnd64 (1 / 10), rnd64 (1 / 10)] = 0 ∧
    ∃ v, nashSutcliffe rnd64 fromLeft [(rnd64 (1 / 10), 1), (rnd64 (1 / 10), 1), (rnd64 (1 / 10), 1)] = some v ∧ v < -(10 ^ 33) := by
  refine ⟨by decide +kernel, ?_⟩
  have h : (nashSutcliffe rnd64 fromLeft [(rnd64 (1 / 10), 1), (rnd64 (1 / 10), 1), (rnd64 (1 / 10), 1)]).map (fun v => decide (v < -(10 ^ 33))) = some true := by
    decide +kernel
  obtain ⟨v, h1, h2⟩ := Option.map_eq_some_iff.1 h
  exact ⟨v, h1, of_decide_eq_true h2⟩

/-! ### Examples -/

/-- observations 1, 2, 4 and predictions 2, 2, 3 in double precision -/
example : ∃ v, nashSutcliffe rnd64 fromLeft [((1 : ℚ), 2), (2, 2), (4, 3)] = some v ∧ |v - (1 - 3 / 7)| ≤ 10⁻¹ ^ 12 := by
  obtain ⟨v, h1, h2⟩ := nash_accuracy (K := ℚ) (B := 4) (σ := 1) rnd64_relErr fromLeft_leaves [(1, 2), (2, 2), (4, 3)]
    (by decide) (by norm_num) (by decide +kernel) (by norm_num) (by decide +kernel) (by norm_num)
  refine ⟨v, h1, ?_⟩
  have e : errorRatio [((1 : ℚ), 2), (2, 2), (4, 3)] = 3 / 7 := by decide +kernel
  rw [e] at h2
  refine h2.trans ?_
  norm_num

example : ∃ v, indexOfAgreement rnd64 fromLeft [((1 : ℚ), 2), (2, 2), (4, 3)] = some v ∧ |v - (1 - 3 / 13)| ≤ 10⁻¹ ^ 12 := by
  obtain ⟨v, h1, h2⟩ := agreement_accuracy (K := ℚ) (B := 4) (σ := 1) rnd64_relErr fromLeft_leaves [(1, 2), (2, 2), (4, 3)]
    (by decide) (by norm_num) (by decide +kernel) (by norm_num) (by decide +kernel) (by norm_num)
  refine ⟨v, h1, ?_⟩
  have e : potentialRatio [((1 : ℚ), 2), (2, 2), (4, 3)] = 3 / 13 := by decide +kernel
  rw [e] at h2
  refine h2.trans ?_
  norm_num

/-- the lower bound with the data of `agreement_below_zero` -/
example : -(6 * 7 * (1 / 2 ^ 53)) ≤ (-(1 / 2 ^ 52) : ℚ) := by
  have := agreement_lower_partial (K := ℚ) rnd64_relErr fromLeft_leaves
    [(rnd64 (8 / 5), rnd64 (19 / 10)), (rnd64 (17 / 10), rnd64 (-(17 / 10)))] (by simp) (by norm_num) _ agreement_below_zero
  norm_num at this ⊢

end Verif.Rounding
