import Mathlib.Tactic.Linarith
import Mathlib.Tactic.Positivity
import Mathlib.Tactic.Ring
import Mathlib.Tactic.FieldSimp
import Verif.Rounding.Percentiles

/-! C120, continued: CDF matching whose bins hold at least ten values (`minobs` of 10 or more, 20 by default in `pytesmo.scaling.cdf_match`) never meets the failure
of `percentiles_unsorted`, whatever the number of bins. -/

namespace Verif.Rounding

open Rolling.Fl (rnd64 expo rnd64_eq expo_spec)

/-- two doubles have a relative distance of at least 2^-53 -/
theorem rnd64_spaced (x y : ℚ) (hx : rnd64 x = x) (hy : rnd64 y = y) (h0 : 0 < x) (h : x < y) : y / 2 ^ 53 ≤ y - x := by
  have y0 : 0 < y := h0.trans h
  obtain ⟨a1, a2⟩ := expo_spec x h0.ne'
  obtain ⟨b1, b2⟩ := expo_spec y y0.ne'
  rw [rnd64_eq x h0.ne'] at hx
  rw [rnd64_eq y y0.ne'] at hy
  rw [abs_of_pos h0] at a1 a2
  rw [abs_of_pos y0] at b1 b2
  have p2 : (0 : ℚ) < 2 := by norm_num
  have hE : (0 : ℚ) < 2 ^ expo x := zpow_pos p2 _
  have hF : (0 : ℚ) < 2 ^ expo y := zpow_pos p2 _
  generalize Rolling.Fl.nearestEven (x / 2 ^ expo x) = a at hx
  generalize Rolling.Fl.nearestEven (y / 2 ^ expo y) = b at hy
  have double : ∀ s t : ℤ, s < t → 2 * (2 : ℚ) ^ s ≤ 2 ^ t := by
    intro s t hst
    have := zpow_le_zpow_right₀ (by norm_num : (1 : ℚ) ≤ 2) (show s + 1 ≤ t by omega)
    rw [zpow_add₀ p2.ne', zpow_one] at this
    linarith
  have xa : x / 2 ^ expo x = a := by rw [div_eq_iff hE.ne']; exact hx.symm
  have yb : y / 2 ^ expo y = b := by rw [div_eq_iff hF.ne']; exact hy.symm
  rw [xa] at a1 a2
  rw [yb] at b1 b2
  have a3 : a + 1 ≤ 2 ^ 53 := by
    have : a < 2 ^ 53 := by exact_mod_cast a2
    omega
  have a4 : (a : ℚ) + 1 ≤ 2 ^ 53 := by exact_mod_cast a3
  rw [← hx, ← hy] at h ⊢
  rcases lt_trichotomy (expo x) (expo y) with he | he | he
  · have d := double _ _ he
    generalize (2 : ℚ) ^ expo x = E at *
    generalize (2 : ℚ) ^ expo y = F at *
    have t1 : (a : ℚ) * E ≤ (2 ^ 53 - 1) * E := mul_le_mul_of_nonneg_right (by linarith) hE.le
    have t2 : (2 ^ 53 - 1 : ℚ) * E ≤ (2 ^ 53 - 1) * (F / 2) := mul_le_mul_of_nonneg_left (by linarith) (by norm_num)
    have t3 := mul_le_mul_of_nonneg_right b1 hF.le
    norm_num at t1 t2 t3 ⊢
    linarith
  · rw [← he] at h ⊢ hF
    generalize (2 : ℚ) ^ expo x = E at *
    have hab : (a : ℚ) < b := lt_of_mul_lt_mul_right h hE.le
    have hab2 : a + 1 ≤ b := by
      have : a < b := by exact_mod_cast hab
      omega
    have hab3 : (a : ℚ) + 1 ≤ b := by exact_mod_cast hab2
    have t1 := mul_le_mul_of_nonneg_right hab3 hE.le
    have t2 := mul_le_mul_of_nonneg_right b2.le hE.le
    norm_num at t1 t2 ⊢
    linarith
  · exfalso
    have d := double _ _ he
    generalize (2 : ℚ) ^ expo x = E at *
    generalize (2 : ℚ) ^ expo y = F at *
    have t1 := mul_le_mul_of_nonneg_right a1 hE.le
    have t2 := mul_lt_mul_of_pos_right b2 hF
    norm_num at t1 t2
    linarith

/-- the level `k` of `nb` bins -/
theorem level_err (nb k : ℕ) :
    (1 - 3 / 2 ^ 53) * (100 * (k : ℚ) / nb) ≤ rnd64 (rnd64 ((k : ℚ) / nb) * 100) ∧ rnd64 (rnd64 ((k : ℚ) / nb) * 100) ≤ (1 + 3 / 2 ^ 53) * (100 * (k : ℚ) / nb) := by
  have h0 : 0 ≤ (k : ℚ) / nb := by positivity
  have e : 100 * (k : ℚ) / nb = 100 * ((k : ℚ) / nb) := by ring
  rw [e]
  generalize (k : ℚ) / nb = q at *
  have a1 := rnd64_relErr.ge_of h0
  have a2 := rnd64_relErr.le_of h0
  have a0 := rnd64_relErr.nonneg_of (by norm_num) h0
  generalize rnd64 q = r at *
  have b1 := rnd64_relErr.ge_of (show 0 ≤ r * 100 by positivity)
  have b2 := rnd64_relErr.le_of (show 0 ≤ r * 100 by positivity)
  norm_num at a1 a2 b1 b2 ⊢
  constructor <;> linarith

/-- the levels of up to 2^45 bins are strictly increasing -/
theorem levels_strict (nb : ℕ) (h1 : 1 ≤ nb) (h : nb ≤ 2 ^ 45) : (regularPercentiles rnd64 nb).Pairwise (· < ·) := by
  unfold regularPercentiles
  rw [List.pairwise_map]
  refine List.Pairwise.imp_of_mem ?_ List.pairwise_lt_range
  intro a b ha hb hab
  have hb' : b ≤ nb := by have := List.mem_range.1 hb; omega
  obtain ⟨_, a2⟩ := level_err nb a
  obtain ⟨b1, _⟩ := level_err nb b
  have npos : (0 : ℚ) < nb := by exact_mod_cast h1
  have s : 100 * (a : ℚ) / nb + 100 * (1 / nb) ≤ 100 * (b : ℚ) / nb := by
    have : (a : ℚ) + 1 ≤ b := by exact_mod_cast hab
    rw [mul_one_div, ← add_div]
    exact div_le_div_of_nonneg_right (by linarith) npos.le
  have t : 100 * (b : ℚ) / nb ≤ 100 := by
    have : (b : ℚ) ≤ nb := by exact_mod_cast hb'
    rw [div_le_iff₀ npos]; linarith
  have inv1 : 1 / 2 ^ 45 ≤ 1 / (nb : ℚ) := one_div_le_one_div_of_le npos (by exact_mod_cast h)
  generalize 100 * (a : ℚ) / nb = A at *
  generalize 100 * (b : ℚ) / nb = B at *
  generalize 1 / (nb : ℚ) = iv at *
  norm_num at a2 b1 inv1
  linarith

/-- the percentiles of `nb` bins with at least ten values each are sorted and inside the range of the data, for all sorted data of up to 2^25 doubles -/
theorem percentiles_bins (data : List ℚ) (hne : data ≠ []) (nb : ℕ) (hnb : 1 ≤ nb) (hbin : 10 * nb ≤ data.length) (hn : data.length ≤ 2 ^ 25)
    (hd : ∀ d ∈ data, rnd64 d = d) (hs : data.Pairwise (· ≤ ·)) :
    ∃ out, matlabPercentiles rnd64 data (regularPercentiles rnd64 nb) = .ok out ∧ out.length = nb + 1 ∧ out.Pairwise (· ≤ ·) ∧
      ∀ v ∈ out, data.head hne ≤ v ∧ v ≤ data.getLast hne := by
  have hhalf : ∀ m : ℕ, m ≤ 200 * data.length → rnd64 ((m : ℚ) / 2) = m / 2 := by
    intro m hm
    have := Moving.rnd64_half (m : ℤ) (by rw [abs_of_nonneg (by positivity)]; have : m ≤ 200 * 2 ^ 25 := hm.trans (by omega); omega)
    simpa using this
  refine (percentiles_clear rnd64_relErr Rolling.Fl.rnd64_mono (by norm_num) data hne hhalf hd hs (regularPercentiles rnd64 nb) ?_ ?_).imp
    fun out ⟨a, b, c⟩ => ⟨a, by rw [b]; simp [regularPercentiles], c⟩
  · exact (levels_strict nb hnb (by omega)).imp le_of_lt
  intro x hx
  unfold regularPercentiles at hx
  obtain ⟨k, hk, rfl⟩ := List.mem_map.1 hx
  have hknb : k ≤ nb := by have := List.mem_range.1 hk; omega
  obtain ⟨f1, f2⟩ := level_err nb k
  have fid : rnd64 (rnd64 (rnd64 ((k : ℚ) / nb) * 100)) = rnd64 (rnd64 ((k : ℚ) / nb) * 100) := rnd64_idem _
  generalize rnd64 (rnd64 ((k : ℚ) / nb) * 100) = p at f1 f2 fid ⊢
  generalize hN : data.length = n at hn hhalf hbin
  have n1 : 10 ≤ n := by omega
  have nK : (10 : ℚ) ≤ n := by exact_mod_cast n1
  have npos : (0 : ℚ) < n := by linarith
  have bpos : (0 : ℚ) < nb := by exact_mod_cast hnb
  have hr := rank_eq (rnd := rnd64) n hhalf
  refine ranks_chain rnd64 _ fun j b c hb hc hlo hhi => ?_
  have hj : j + 1 < n := by
    rw [← hN]
    exact (List.getElem?_eq_some_iff.1 hc).1
  simp only [hN] at hlo hhi ⊢
  rw [hr j (by omega)] at hlo ⊢
  rw [hr (j + 1) hj] at hhi ⊢
  have hjK : (j : ℚ) + 2 ≤ n := by exact_mod_cast hj
  have j0 : (0 : ℚ) ≤ j := Nat.cast_nonneg j
  have q1 : 50 * (2 * ((j + 1 : ℕ) : ℚ) + 1) / n ≤ 100 := by
    rw [div_le_iff₀ npos]
    push_cast
    linarith
  have q0 : 0 ≤ 50 * (2 * ((j + 1 : ℕ) : ℚ) + 1) / n := by positivity
  have q3 : 50 * (2 * (j : ℚ) + 1) / n + 100 * (1 / n) = 50 * (2 * ((j + 1 : ℕ) : ℚ) + 1) / n := by
    push_cast
    field_simp
    ring
  have q4 : 0 ≤ 50 * (2 * (j : ℚ) + 1) / n := by positivity
  have inv1 : 1 / 2 ^ 25 ≤ 1 / (n : ℚ) := one_div_le_one_div_of_le npos (by exact_mod_cast hn)
  have inv2 : 1 / (n : ℚ) ≤ 1 / 10 := one_div_le_one_div_of_le (by norm_num) nK
  have g1 := rnd64_relErr.ge_of q0
  have g2 := rnd64_relErr.le_of q0
  have g3 := rnd64_relErr.ge_of q4
  have gid : rnd64 (rnd64 (50 * (2 * ((j + 1 : ℕ) : ℚ) + 1) / n)) = rnd64 (50 * (2 * ((j + 1 : ℕ) : ℚ) + 1) / n) := rnd64_idem _
  have L1 : 100 * (k : ℚ) / nb ≤ 100 := by
    have : (k : ℚ) ≤ nb := by exact_mod_cast hknb
    rw [div_le_iff₀ bpos]; linarith
  -- a difference of exact numbers is at least 500/2^50
  have small : (500 : ℚ) / 2 ^ 50 ≤ 50 / (n * nb) := by
    rw [div_le_div_iff₀ (by norm_num) (by positivity)]
    have i1 : (n : ℚ) ≤ 2 ^ 25 := by exact_mod_cast hn
    have i2 : (10 : ℚ) * nb ≤ n := by exact_mod_cast hbin
    have i3 : (n : ℚ) * (10 * nb) ≤ 2 ^ 25 * 2 ^ 25 := mul_le_mul i1 (i2.trans i1) (by positivity) (by norm_num)
    linarith
  rcases lt_trichotomy (2 * k * n) ((2 * (j + 1) + 1) * nb) with hlt | heq | hgt
  · -- the exact rank is larger than the exact level
    have s2 : 100 * (k : ℚ) / nb + 50 / (n * nb) ≤ 50 * (2 * ((j + 1 : ℕ) : ℚ) + 1) / n := by
      have s4 : 2 * k * n + 1 ≤ (2 * (j + 1) + 1) * nb := hlt
      have s5 : 2 * (k : ℚ) * n + 1 ≤ (2 * ((j + 1 : ℕ) : ℚ) + 1) * nb := by exact_mod_cast s4
      have e1 : 100 * (k : ℚ) / nb + 50 / (n * nb) = 50 * (2 * k * n + 1) / (n * nb) := by
        field_simp
        ring
      have e2 : 50 * (2 * ((j + 1 : ℕ) : ℚ) + 1) / n = 50 * ((2 * ((j + 1 : ℕ) : ℚ) + 1) * nb) / (n * nb) := by
        field_simp
      rw [e1, e2]
      exact div_le_div_of_nonneg_right (by linarith) (by positivity)
    generalize 50 * (2 * ((j + 1 : ℕ) : ℚ) + 1) / n = Q at *
    generalize 50 * (2 * (j : ℚ) + 1) / n = Q0 at *
    generalize 100 * (k : ℚ) / nb = L at *
    generalize 50 / ((n : ℚ) * nb) = w at *
    generalize 1 / (n : ℚ) = iv at *
    norm_num at f1 f2 g1 g2 g3 inv1 inv2 small ⊢
    linarith
  · -- equal: the spacing of doubles is enough, as the rank is at least the tenth
    have s2 : 50 * (2 * ((j + 1 : ℕ) : ℚ) + 1) / n = 100 * (k : ℚ) / nb := by
      have s5 : 2 * (k : ℚ) * n = (2 * ((j + 1 : ℕ) : ℚ) + 1) * nb := by exact_mod_cast heq
      rw [div_eq_div_iff npos.ne' bpos.ne']
      linarith
    have k1 : 1 ≤ k := by
      rcases Nat.eq_zero_or_pos k with rfl | h
      · simp only [Nat.mul_zero, Nat.zero_mul] at heq
        have := Nat.mul_pos (show 0 < 2 * (j + 1) + 1 by omega) hnb
        omega
      · exact h
    have k1Q : (1 : ℚ) ≤ k := by exact_mod_cast k1
    have big : 1000 * (1 / (n : ℚ)) ≤ 100 * (k : ℚ) / nb := by
      have i2 : (10 : ℚ) * nb ≤ n := by exact_mod_cast hbin
      rw [mul_one_div, div_le_div_iff₀ npos bpos]
      have : 1 * (n : ℚ) ≤ k * n := mul_le_mul_of_nonneg_right k1Q npos.le
      linarith
    have p0 : 0 < p := by
      have : (0 : ℚ) < 100 * (k : ℚ) / nb := by positivity
      refine lt_of_lt_of_le ?_ f1
      exact mul_pos (by norm_num) this
    have sp := rnd64_spaced p _ fid gid p0 hhi
    generalize 50 * (2 * ((j + 1 : ℕ) : ℚ) + 1) / n = Q at *
    generalize 50 * (2 * (j : ℚ) + 1) / n = Q0 at *
    generalize 100 * (k : ℚ) / nb = L at *
    generalize 1 / (n : ℚ) = iv at *
    norm_num at f1 f2 g1 g2 g3 inv1 inv2 small sp ⊢
    linarith
  · -- the exact rank is smaller than the exact level: the rounded one as well
    exfalso
    have s2 : 50 * (2 * ((j + 1 : ℕ) : ℚ) + 1) / n + 50 / (n * nb) ≤ 100 * (k : ℚ) / nb := by
      have s4 : (2 * (j + 1) + 1) * nb + 1 ≤ 2 * k * n := hgt
      have s5 : (2 * ((j + 1 : ℕ) : ℚ) + 1) * nb + 1 ≤ 2 * (k : ℚ) * n := by exact_mod_cast s4
      have e1 : 100 * (k : ℚ) / nb = 50 * (2 * k * n) / (n * nb) := by
        field_simp
        ring
      have e2 : 50 * (2 * ((j + 1 : ℕ) : ℚ) + 1) / n + 50 / (n * nb) = 50 * ((2 * ((j + 1 : ℕ) : ℚ) + 1) * nb + 1) / (n * nb) := by
        field_simp
      rw [e1, e2]
      exact div_le_div_of_nonneg_right (by linarith) (by positivity)
    generalize 50 * (2 * ((j + 1 : ℕ) : ℚ) + 1) / n = Q at *
    generalize 100 * (k : ℚ) / nb = L at *
    generalize 50 / ((n : ℚ) * nb) = w at *
    norm_num at f1 f2 g1 g2 small
    linarith

/-- C120: the percentiles of a single bin, or of `nb` bins with at least ten values each, are sorted and inside the range of the data, for all sorted data of up to
2^25 doubles. -/
theorem percentiles_binned (data : List ℚ) (hne : data ≠ []) (nb : ℕ) (hnb : 1 ≤ nb) (hbin : nb = 1 ∨ 10 * nb ≤ data.length) (hn : data.length ≤ 2 ^ 25)
    (hd : ∀ d ∈ data, rnd64 d = d) (hs : data.Pairwise (· ≤ ·)) :
    ∃ out, matlabPercentiles rnd64 data (regularPercentiles rnd64 nb) = .ok out ∧ out.length = nb + 1 ∧ out.Pairwise (· ≤ ·) ∧
      ∀ v ∈ out, data.head hne ≤ v ∧ v ≤ data.getLast hne := by
  rcases hbin with rfl | hbin
  · have e : regularPercentiles rnd64 1 = ([0, 100] : List ℕ).map (fun p : ℕ => (p : ℚ)) := by decide +kernel
    rw [e]
    exact percentiles_double data hne (hn.trans (by norm_num)) hd hs [0, 100] (by decide) (by decide)
  · exact percentiles_bins data hne nb hnb hbin hn hd hs

theorem interp_after (rnd : ℚ → ℚ) (left : ℚ) (knots : List (ℚ × ℚ)) (hne : knots ≠ []) (x : ℚ) (h : ∀ k ∈ knots, k.1 ≤ x) : interp rnd left knots x = (knots.getLast hne).2 := by
  induction knots with
  | nil => exact absurd rfl hne
  | cons p l ih =>
    have hp := h p (by simp)
    cases l with
    | nil => simp [interp, not_lt.2 hp]
    | cons q rest =>
      have hq := h q (by simp)
      rw [interp, if_neg (not_lt.2 hp), if_pos hq, ih (by simp) (fun k hk => h k (List.mem_cons_of_mem _ hk))]
      exact (congrArg Prod.snd (List.getLast_cons (a := p) (l := q :: rest) (by simp))).symm

/-- C120: with at least ten values in each bin the percentile values of CDF matching exist. Unless all data are equal they are strictly increasing; they start with the
smallest and end with the largest value. -/
theorem percentile_values_binned (data : List ℚ) (hne : data ≠ []) (nb : ℕ) (hnb : 1 ≤ nb) (hbin : nb = 1 ∨ 10 * nb ≤ data.length) (hn : data.length ≤ 2 ^ 25)
    (hd : ∀ d ∈ data, rnd64 d = d) (hs : data.Pairwise (· ≤ ·)) :
    ∃ out, percentileValues rnd64 true data (regularPercentiles rnd64 nb) = .ok out ∧ out.length = nb + 1 ∧ out.head? = some (data.head hne) ∧
      out.getLast? = some (data.getLast hne) ∧ (data.head hne < data.getLast hne → out.Pairwise (· < ·)) ∧
      (data.head hne = data.getLast hne → out = List.replicate (nb + 1) (data.head hne)) := by
  obtain ⟨perc, e1, e2, e3, e4⟩ := percentiles_binned data hne nb hnb hbin hn hd hs
  have hlen : (regularPercentiles rnd64 nb).length = nb + 1 := by simp [regularPercentiles]
  have hst := levels_strict nb hnb (by omega)
  have npos : (0 : ℚ) < data.length := by exact_mod_cast List.length_pos_iff.2 hne
  have hhalf : ∀ m : ℕ, m ≤ 200 * data.length → rnd64 ((m : ℚ) / 2) = m / 2 := by
    intro m hm
    have := Moving.rnd64_half (m : ℤ) (by rw [abs_of_nonneg (by positivity)]; have : m ≤ 200 * 2 ^ 25 := hm.trans (by omega); omega)
    simpa using this
  have hr := rank_eq (rnd := rnd64) data.length hhalf
  have h100 : rnd64 (100 : ℚ) = 100 := by decide +kernel
  have hrank : ∀ k ∈ ranks rnd64 data, 0 < k.1 ∧ k.1 ≤ 100 := by
    intro k hk
    unfold ranks at hk
    obtain ⟨v, hv, rfl⟩ := List.mem_map.1 hk
    have hv1 : v.2 < data.length := by
      have := List.snd_lt_of_mem_zipIdx hv
      omega
    simp only
    rw [hr v.2 hv1]
    have q0 : (0 : ℚ) < 50 * (2 * (v.2 : ℚ) + 1) / data.length := by positivity
    refine ⟨lt_of_lt_of_le (mul_pos (by norm_num) q0) (rnd64_relErr.ge_of q0.le), ?_⟩
    rw [← h100]
    refine Rolling.Fl.rnd64_mono _ _ ?_
    rw [div_le_iff₀ npos]
    have : (v.2 : ℚ) + 1 ≤ data.length := by exact_mod_cast hv1
    linarith
  -- the outermost percentiles
  obtain ⟨a, l, rfl⟩ : ∃ a l, data = a :: l := by
    cases data with
    | nil => exact absurd rfl hne
    | cons a l => exact ⟨a, l, rfl⟩
  have heq : perc = (regularPercentiles rnd64 nb).map (interp rnd64 a (ranks rnd64 (a :: l))) := by
    unfold matlabPercentiles at e1
    exact (Except.ok.inj e1).symm
  have hfirst : perc.head? = some a := by
    rw [heq]
    unfold regularPercentiles
    rw [List.range_succ_eq_map, List.map_cons, List.map_cons, List.head?_cons]
    congr 1
    have z : rnd64 (rnd64 (((0 : ℕ) : ℚ) / nb) * 100) = 0 := by simp [rnd64]
    rw [z]
    obtain ⟨p0, rest, hrk⟩ : ∃ p0 rest, ranks rnd64 (a :: l) = p0 :: rest := ⟨_, _, by unfold ranks; rw [List.zipIdx_cons, List.map_cons]⟩
    have := (hrank p0 (by rw [hrk]; simp)).1
    rw [hrk]
    cases rest <;> simp [interp, this]
  have hlast : perc.getLast? = some ((a :: l).getLast hne) := by
    rw [heq]
    unfold regularPercentiles
    rw [List.range_succ, List.map_append, List.map_append, List.map_cons, List.map_nil, List.map_cons, List.map_nil, List.getLast?_append, List.getLast?_singleton,
      Option.some_or]
    congr 1
    have npb : (nb : ℚ) ≠ 0 := by exact_mod_cast (by omega : nb ≠ 0)
    have h1 : rnd64 (1 : ℚ) = 1 := by decide +kernel
    rw [div_self npb, h1, one_mul, h100]
    have hrne : ranks rnd64 (a :: l) ≠ [] := by unfold ranks; rw [List.zipIdx_cons, List.map_cons]; simp
    rw [interp_after rnd64 a _ hrne _ fun k hk => (hrank k hk).2]
    have e : (ranks rnd64 (a :: l)).map Prod.snd = a :: l := by
      unfold ranks
      rw [List.map_map]
      exact (List.map_congr_left fun v _ => rfl).trans (List.zipIdx_map_fst 0 (a :: l))
    rw [← List.getLast_map (f := Prod.snd) (l := ranks rnd64 (a :: l)) (by simpa using hrne)]
    congr 1
  have hpv : percentileValues rnd64 true (a :: l) (regularPercentiles rnd64 nb) = Cdf.uniquePercentiles true perc (regularPercentiles rnd64 nb) := by
    unfold percentileValues
    rw [e1]
    rfl
  simp only [List.head_cons] at e4 ⊢
  rcases eq_or_ne a ((a :: l).getLast hne) with hal | hal
  · have hall : perc = List.replicate (nb + 1) a := by
      rw [List.eq_replicate_iff]
      refine ⟨e2, fun v hv => le_antisymm ((e4 v hv).2.trans hal.ge) (e4 v hv).1⟩
    refine ⟨perc, ?_, e2, hfirst, hlast, fun h => absurd hal h.ne, fun _ => hall⟩
    rw [hpv, hall]
    exact Cdf.unique_percentiles_constant true a _ (nb + 1) (by omega)
  · obtain ⟨out, o1, o2, o3, o4, o5, _⟩ := Cdf.unique_percentiles_strict perc (regularPercentiles rnd64 nb) e3 hst (by rw [e2, hlen])
      ⟨a, List.mem_of_head? hfirst, _, List.mem_of_getLast? hlast, hal⟩
    exact ⟨out, hpv.trans o1, by rw [o3, e2], by rw [o4, hfirst], by rw [o5, hlast], fun _ => o2, fun h => absurd h hal⟩

example := percentile_values_binned (List.replicate 15 (rnd64 (1 / 10)) ++ List.replicate 15 (rnd64 (3 / 10))) (by simp) 3 (by norm_num) (Or.inr (by decide)) (by decide)
  (by simp only [List.mem_append, List.mem_replicate]; rintro d (⟨_, rfl⟩ | ⟨_, rfl⟩) <;> exact rnd64_idem _) (by decide +kernel)

/-! ### The number of bins -/

/-- cdf_matching.py:160-181 `_calc_percentiles` without given percentiles and with `minobs`: the percentiles and the number of bins -/
def calcPercentiles (rnd : ℚ → ℚ) (nbins minobs nsamples : ℕ) : Except Cdf.Err (List ℚ × ℕ) :=
  match (Cdf.diff (regularPercentiles rnd nbins)).map rnd with
  | [] => .error .valueError
  | d :: ds =>
    if rnd (rnd ((nsamples : ℚ) * ds.foldl min d) / 100) < (minobs : ℚ) then
      let n := ⌊rnd ((nsamples : ℚ) / minobs)⌋.toNat
      let nb := if n = 0 then 1 else if n > nbins then nbins else n
      .ok (regularPercentiles rnd nb, nb)
    else .ok (regularPercentiles rnd nbins, nbins)

theorem foldl_min_le_first (ds : List ℚ) (d : ℚ) : ds.foldl min d ≤ d := by
  induction ds generalizing d with
  | nil => exact le_rfl
  | cons a l ih => exact (ih (min d a)).trans (min_le_left _ _)

/-- the bins hold at least `minobs` values, or there is one bin -/
theorem calcPercentiles_bins (nbins minobs nsamples : ℕ) (h1 : 1 ≤ nbins) (hm : 1 ≤ minobs) (hn : nsamples ≤ 2 ^ 25) :
    ∃ nb, calcPercentiles rnd64 nbins minobs nsamples = .ok (regularPercentiles rnd64 nb, nb) ∧ 1 ≤ nb ∧ nb ≤ nbins ∧ (nb = 1 ∨ minobs * nb ≤ nsamples) := by
  have npos : (0 : ℚ) < nbins := by exact_mod_cast h1
  have mpos : (0 : ℚ) < minobs := by exact_mod_cast hm
  have n0 : (0 : ℚ) ≤ nsamples := by positivity
  have nQ : (nsamples : ℚ) ≤ 33554432 := by exact_mod_cast hn
  obtain ⟨m, rfl⟩ : ∃ m, nbins = m + 1 := ⟨nbins - 1, by omega⟩
  obtain ⟨ds, hds⟩ : ∃ ds, (Cdf.diff (regularPercentiles rnd64 (m + 1))).map rnd64 = rnd64 (rnd64 (rnd64 ((1 : ℚ) / (m + 1 : ℕ)) * 100) - 0) :: ds := by
    have z : rnd64 (rnd64 (((0 : ℕ) : ℚ) / (m + 1 : ℕ)) * 100) = 0 := by simp [rnd64]
    unfold regularPercentiles
    rw [List.range_succ_eq_map, List.range_succ_eq_map, List.map_cons, List.map_cons, List.map_cons, Cdf.diff, List.map_cons, z, show Nat.succ 0 = 1 from rfl, Nat.cast_one]
    exact ⟨_, rfl⟩
  rw [sub_zero, rnd64_idem] at hds
  unfold calcPercentiles
  rw [hds]
  simp only
  have hmin := foldl_min_le_first ds (rnd64 (rnd64 ((1 : ℚ) / (m + 1 : ℕ)) * 100))
  have hlev := (level_err (m + 1) 1).2
  generalize ds.foldl min (rnd64 (rnd64 ((1 : ℚ) / (m + 1 : ℕ)) * 100)) = mb at *
  by_cases hc : rnd64 (rnd64 ((nsamples : ℚ) * mb) / 100) < (minobs : ℚ)
  · rw [if_pos hc]
    refine ⟨_, rfl, ?_⟩
    generalize ht : ⌊rnd64 ((nsamples : ℚ) / minobs)⌋.toNat = t
    have key : minobs * t ≤ nsamples := by
      by_contra hcon
      have c1 : nsamples + 1 ≤ minobs * t := by omega
      have c2 : (nsamples : ℚ) + 1 ≤ minobs * t := by exact_mod_cast c1
      have q0 : (0 : ℚ) ≤ (nsamples : ℚ) / minobs := by positivity
      have c3 : (t : ℚ) ≤ rnd64 ((nsamples : ℚ) / minobs) := by
        have f0 : 0 ≤ ⌊rnd64 ((nsamples : ℚ) / minobs)⌋ := Int.floor_nonneg.2 (rnd64_relErr.nonneg_of (by norm_num) q0)
        have : ((t : ℤ) : ℚ) ≤ rnd64 ((nsamples : ℚ) / minobs) := by
          rw [← ht, Int.toNat_of_nonneg f0]
          exact Int.floor_le _
        exact_mod_cast this
      have c4 := c3.trans (rnd64_relErr.le_of q0)
      have c5 := mul_le_mul_of_nonneg_left c4 mpos.le
      have e : (minobs : ℚ) * ((1 + 1 / 2 ^ 53) * ((nsamples : ℚ) / minobs)) = (1 + 1 / 2 ^ 53) * nsamples := by
        field_simp
      rw [e] at c5
      norm_num at c5
      linarith
    split_ifs with g1 g2
    · exact ⟨le_rfl, by omega, Or.inl rfl⟩
    · exact ⟨by omega, le_rfl, Or.inr ((Nat.mul_le_mul_left _ g2.le).trans key)⟩
    · exact ⟨by omega, by omega, Or.inr key⟩
  · rw [if_neg hc]
    refine ⟨_, rfl, h1, le_rfl, Or.inr ?_⟩
    by_contra hcon
    have c1 : nsamples + 1 ≤ minobs * (m + 1) := by omega
    have c2 : (nsamples : ℚ) + 1 ≤ minobs * ((m + 1 : ℕ) : ℚ) := by exact_mod_cast c1
    have d1 := hmin.trans hlev
    have d2 : (minobs : ℚ) ≤ rnd64 (rnd64 ((nsamples : ℚ) * ((1 + 3 / 2 ^ 53) * (100 * ((1 : ℕ) : ℚ) / (m + 1 : ℕ)))) / 100) := by
      refine (not_lt.1 hc).trans (Rolling.Fl.rnd64_mono _ _ (div_le_div_of_nonneg_right (Rolling.Fl.rnd64_mono _ _ ?_) (by norm_num)))
      refine mul_le_mul_of_nonneg_left ?_ n0
      simpa using d1
    have x0 : (0 : ℚ) ≤ (nsamples : ℚ) * ((1 + 3 / 2 ^ 53) * (100 * ((1 : ℕ) : ℚ) / (m + 1 : ℕ))) := by positivity
    have d3 := rnd64_relErr.le_of x0
    have r0 := rnd64_relErr.nonneg_of (by norm_num) x0
    have d4 := d2.trans (rnd64_relErr.le_of (div_nonneg r0 (by norm_num : (0 : ℚ) ≤ 100)))
    have d5 : (minobs : ℚ) ≤ (1 + 1 / 2 ^ 53) * ((1 + 1 / 2 ^ 53) * ((nsamples : ℚ) * ((1 + 3 / 2 ^ 53) * (100 * ((1 : ℕ) : ℚ) / (m + 1 : ℕ)))) / 100) :=
      d4.trans (mul_le_mul_of_nonneg_left (div_le_div_of_nonneg_right d3 (by norm_num)) (by norm_num))
    have d6 := mul_le_mul_of_nonneg_right d5 npos.le
    have e : (1 + 1 / 2 ^ 53) * ((1 + 1 / 2 ^ 53) * ((nsamples : ℚ) * ((1 + 3 / 2 ^ 53) * (100 * ((1 : ℕ) : ℚ) / (m + 1 : ℕ)))) / 100) * ((m + 1 : ℕ) : ℚ) =
        (1 + 1 / 2 ^ 53) * (1 + 1 / 2 ^ 53) * (1 + 3 / 2 ^ 53) * nsamples := by
      rw [Nat.cast_one]
      field_simp
    rw [e] at d6
    norm_num only at d6
    linarith

/-- C120, CDF matching with `minobs` of at least 10 (20 by default in `pytesmo.scaling.cdf_match`) in double precision: for every number of bins and every data set of up to
2^25 values the percentile values exist, start with the smallest and end with the largest value and are strictly increasing unless all values are equal. -/
theorem percentile_values_minobs (data : List ℚ) (hne : data ≠ []) (nbins minobs nsamples : ℕ) (h1 : 1 ≤ nbins) (hm : 10 ≤ minobs) (hns : nsamples ≤ data.length)
    (hn : data.length ≤ 2 ^ 25) (hd : ∀ d ∈ data, rnd64 d = d) (hs : data.Pairwise (· ≤ ·)) :
    ∃ levels nb out, calcPercentiles rnd64 nbins minobs nsamples = .ok (levels, nb) ∧ 1 ≤ nb ∧ nb ≤ nbins ∧ percentileValues rnd64 true data levels = .ok out ∧
      out.length = nb + 1 ∧ out.head? = some (data.head hne) ∧ out.getLast? = some (data.getLast hne) ∧
      (data.head hne < data.getLast hne → out.Pairwise (· < ·)) ∧ (data.head hne = data.getLast hne → out = List.replicate (nb + 1) (data.head hne)) := by
  obtain ⟨nb, e, h2, h3, h4⟩ := calcPercentiles_bins nbins minobs nsamples h1 (by omega) (hns.trans hn)
  have hb : nb = 1 ∨ 10 * nb ≤ data.length := h4.imp id fun h => (Nat.mul_le_mul_right nb hm).trans (h.trans hns)
  obtain ⟨out, o⟩ := percentile_values_binned data hne nb h2 hb hn hd hs
  exact ⟨_, nb, out, e, h2, h3, o⟩

example := percentile_values_minobs (List.replicate 15 (rnd64 (1 / 10)) ++ List.replicate 45 (rnd64 (3 / 10))) (by simp) 100 20 55 (by norm_num) (by norm_num) (by decide) (by decide)
  (by simp only [List.mem_append, List.mem_replicate]; rintro d (⟨_, rfl⟩ | ⟨_, rfl⟩) <;> exact rnd64_idem _) (by decide +kernel)

end Verif.Rounding
