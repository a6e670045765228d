import Verif.Rounding.Stored
import Verif.Rounding.Single
import Verif.Rounding.PerfectProps

/-! C111: results of the pairwise metrics as computed by the machine and stored in single precision. -/

set_option linter.unusedSectionVars false

namespace Verif.Rounding

open Verif.Rolling.Fl (rnd64)

variable {K : Type} [Field K] [LinearOrder K] [IsStrictOrderedRing K]

/-- what is needed of a rounding: relative error at most 2/5, the order is kept, machine numbers are kept, signs do not matter -/
structure Machine (r : K → K) (u : K) : Prop where
  err : RelErr r u
  small : u ≤ 2 / 5
  mono : ∀ x y, x ≤ y → r x ≤ r y
  idem : ∀ x, r (r x) = r x
  odd : ∀ x, r (-x) = -r x

theorem Machine.zero {r : K → K} {u : K} (h : Machine r u) : r 0 = 0 := h.err.zero

theorem Machine.nonneg {r : K → K} {u : K} (h : Machine r u) {x : K} (hx : 0 ≤ x) : 0 ≤ r x := by
  have := h.mono 0 x hx
  rwa [h.zero] at this

theorem Machine.nonpos {r : K → K} {u : K} (h : Machine r u) {x : K} (hx : x ≤ 0) : r x ≤ 0 := by
  have := h.mono x 0 hx
  rwa [h.zero] at this

/-! ## The variances are never negative -/

/-- the new mean lies between the old one and the new value -/
theorem mean_between {r : K → K} {u : K} (h : Machine r u) (m x : K) (hm : r m = m) (hx : r x = x) (n : ℕ) (hn : 2 ≤ n) :
    (m ≤ x → m ≤ r (m + r (r (x - m) / (n : K))) ∧ r (m + r (r (x - m) / (n : K))) ≤ x) ∧
    (x ≤ m → x ≤ r (m + r (r (x - m) / (n : K))) ∧ r (m + r (r (x - m) / (n : K))) ≤ m) := by
  have hn' : (2 : K) ≤ n := by exact_mod_cast hn
  have hu := h.err.nonneg
  have key : ∀ d : K, 0 ≤ d → 0 ≤ r (r d / (n : K)) ∧ r (r d / (n : K)) ≤ d := by
    intro d hd
    have r0 := h.nonneg hd
    have q0 : 0 ≤ r d / (n : K) := div_nonneg r0 (by linarith)
    refine ⟨h.nonneg q0, ?_⟩
    have e1 := (abs_le.mp (h.err.err d)).2
    have e2 := (abs_le.mp (h.err.err (r d / (n : K)))).2
    rw [abs_of_nonneg hd] at e1
    rw [abs_of_nonneg q0] at e2
    have q1 : r d / (n : K) ≤ r d / 2 := div_le_div_of_nonneg_left r0 (by norm_num) hn'
    have q2 : u * (r d / (n : K)) ≤ 2 / 5 * (r d / 2) := mul_le_mul h.small q1 q0 (by norm_num)
    have q3 : u * d ≤ 2 / 5 * d := mul_le_mul_of_nonneg_right h.small hd
    linarith
  constructor
  · intro hmx
    obtain ⟨k1, k2⟩ := key (x - m) (by linarith)
    constructor
    · have := h.mono m (m + r (r (x - m) / (n : K))) (by linarith)
      rwa [hm] at this
    · have := h.mono (m + r (r (x - m) / (n : K))) x (by linarith)
      rwa [hx] at this
  · intro hmx
    obtain ⟨k1, k2⟩ := key (m - x) (by linarith)
    have e : r (r (x - m) / (n : K)) = -r (r (m - x) / (n : K)) := by
      rw [← neg_sub m x, h.odd, neg_div, h.odd]
    rw [e]
    constructor
    · have := h.mono x (m + -r (r (m - x) / (n : K))) (by linarith)
      rwa [hx] at this
    · have := h.mono (m + -r (r (m - x) / (n : K))) m (by linarith)
      rwa [hm] at this

/-- the product added to the sum of squares is not negative -/
theorem product_nonneg {r : K → K} {u : K} (h : Machine r u) (m x : K) (hm : r m = m) (hx : r x = x) (n : ℕ) (hn : 1 ≤ n) (h1 : n = 1 → m = 0) :
    0 ≤ r (r (x - r (m + r (r (x - m) / (n : K)))) * r (x - m)) := by
  apply h.nonneg
  rcases Nat.lt_or_ge 1 n with h2 | h2
  · obtain ⟨a, b⟩ := mean_between h m x hm hx n h2
    rcases le_total m x with c | c
    · exact mul_nonneg (h.nonneg (by linarith [(a c).2])) (h.nonneg (by linarith))
    · exact mul_nonneg_of_nonpos_of_nonpos (h.nonpos (by linarith [(b c).1])) (h.nonpos (by linarith))
  · obtain rfl : n = 1 := by omega
    rw [h1 rfl]
    simp only [sub_zero, Nat.cast_one, div_one, zero_add, hx, sub_self, h.zero, zero_mul, le_refl]

/-- the values are numbers of the machine -/
def Stored (r : K → K) (l : List (K × K)) : Prop := ∀ p ∈ l, r p.1 = p.1 ∧ r p.2 = p.2

theorem welford_nonneg {r : K → K} {u : K} (h : Machine r u) (l : List (K × K)) (hl : Stored r l) :
    0 ≤ (l.foldl (Welford.add r) ⟨0, 0, 0, 0, 0, 0⟩).M2x ∧ 0 ≤ (l.foldl (Welford.add r) ⟨0, 0, 0, 0, 0, 0⟩).M2y := by
  have key : ∀ l : List (K × K), Stored r l → ∀ s : Welford K, r s.mx = s.mx → r s.my = s.my → (s.nobs = 0 → s.mx = 0 ∧ s.my = 0) → 0 ≤ s.M2x → 0 ≤ s.M2y →
      0 ≤ (l.foldl (Welford.add r) s).M2x ∧ 0 ≤ (l.foldl (Welford.add r) s).M2y := by
    intro l
    induction l with
    | nil => intro _ s _ _ _ a b; exact ⟨a, b⟩
    | cons p l ih =>
      intro hl s a b c d e
      obtain ⟨p1, p2⟩ := hl p List.mem_cons_self
      rw [List.foldl_cons]
      refine ih (fun q hq => hl q (List.mem_cons_of_mem _ hq)) _ (h.idem _) (h.idem _) (fun hc => absurd hc (Nat.succ_ne_zero _)) ?_ ?_
      · exact h.nonneg (add_nonneg d (product_nonneg h _ _ a p1 _ (by omega) (fun hc => (c (by omega)).1)))
      · exact h.nonneg (add_nonneg e (product_nonneg h _ _ b p2 _ (by omega) (fun hc => (c (by omega)).2)))
  exact key l hl _ h.zero h.zero (fun _ => ⟨rfl, rfl⟩) le_rfl le_rfl

/-- C111: the variances of the machine are never negative, so their square roots are never NaN. -/
theorem variance_nonneg {r : K → K} {u : K} (h : Machine r u) (l : List (K × K)) (hl : Stored r l) : 0 ≤ (moments r l).vx ∧ 0 ≤ (moments r l).vy := by
  obtain ⟨a, b⟩ := welford_nonneg h l hl
  exact ⟨h.nonneg (div_nonneg a (Nat.cast_nonneg _)), h.nonneg (div_nonneg b (Nat.cast_nonneg _))⟩

theorem rnd64_machine : Machine rnd64 (1 / 2 ^ 53) :=
  ⟨rnd64_relErr, by norm_num, Verif.Rolling.Fl.rnd64_mono, rnd64_idem, rnd64_neg⟩

theorem rnd32_machine : Machine rnd32 (1 / 2 ^ 24) :=
  ⟨rnd32_relErr, by norm_num, rnd32_mono, rnd32_idem, rnd32_neg⟩

/-- C107 without its condition on the variance: the correlation component of the MSE of a series of machine numbers and itself is at most a few units of rounding of the variance. -/
theorem mse_corr_self_partial {rnd sq : ℝ → ℝ} {u : ℝ} (h : Machine rnd u) (hsq : SqrtErr sq u) (l : List (ℝ × ℝ)) (hl : Same l) (hs : Stored rnd l) :
    0 ≤ (mseDecomposition rnd sq l).2.1 ∧ (mseDecomposition rnd sq l).2.1 ≤ (1 + u) * ((1 + u) ^ 4 - 1 + u) * (2 * (moments rnd l).vx) :=
  mse_corr_perfect_partial h.err (by linarith [h.small]) hsq l hl (variance_nonneg h l hs).1

/-- the exact arithmetic is one without errors -/
example : 0 ≤ (mseDecomposition (id : ℝ → ℝ) Real.sqrt [(1, 1), (4, 4), (2, 2)]).2.1 :=
  (mse_corr_self_partial (u := 0) ⟨⟨le_rfl, fun x => by simp⟩, by norm_num, fun _ _ h => h, fun _ => rfl, fun _ => rfl⟩ (fun v _ => ⟨Real.sqrt_nonneg v, by simp⟩) _
    (by intro p hp; fin_cases hp <;> rfl) (fun _ _ => ⟨rfl, rfl⟩)).1

/-! ## A square root of `double` -/

/-- exponent for the square root -/
def halfExpo (x : ℚ) : ℤ := Verif.Rolling.Fl.expo x / 2 - 100

/-- the square root rounded down to 127 digits, then to `double` -/
def sqrt64 (x : ℚ) : ℚ := if x ≤ 0 then 0 else rnd64 ((Nat.sqrt ⌊x / 4 ^ halfExpo x⌋₊ : ℚ) * 2 ^ halfExpo x)

theorem halfExpo_spec (x : ℚ) (hx : 0 < x) : (2 : ℚ) ^ 252 ≤ x / 4 ^ halfExpo x ∧ x / 4 ^ halfExpo x < 2 ^ 254 := by
  obtain ⟨h1, h2⟩ := Verif.Rolling.Fl.expo_spec x hx.ne'
  rw [abs_of_pos hx] at h1 h2
  unfold halfExpo
  generalize Verif.Rolling.Fl.expo x = e at *
  have p2 : (0 : ℚ) < 2 := by norm_num
  have e4 : (4 : ℚ) ^ (e / 2 - 100) = 2 ^ (e - e % 2 - 200) := by
    rw [show (4 : ℚ) = 2 ^ (2 : ℤ) by norm_num, ← zpow_mul]
    congr 1
    omega
  have es : x / (2 : ℚ) ^ (e - e % 2 - 200) = x / 2 ^ e * 2 ^ (e % 2) * 2 ^ 200 := by
    rw [zpow_sub₀ p2.ne', zpow_sub₀ p2.ne']
    have := zpow_pos p2 e
    have := zpow_pos p2 (e % 2)
    field_simp
  rw [e4, es]
  have hq : (0 : ℚ) < x / 2 ^ e := div_pos hx (zpow_pos p2 _)
  rcases Int.emod_two_eq_zero_or_one e with h | h <;> rw [h] <;> norm_num at * <;> constructor <;> linarith

theorem natSqrt_bounds (y : ℚ) (h1 : (2 : ℚ) ^ 252 ≤ y) (h2 : y < 2 ^ 254) :
    (2 : ℚ) ^ 126 ≤ (Nat.sqrt ⌊y⌋₊ : ℚ) ∧ (Nat.sqrt ⌊y⌋₊ : ℚ) < 2 ^ 127 ∧ (Nat.sqrt ⌊y⌋₊ : ℚ) ^ 2 ≤ y ∧ y ≤ ((Nat.sqrt ⌊y⌋₊ : ℚ) + 1) ^ 2 := by
  have y0 : 0 ≤ y := by linarith [show (0 : ℚ) ≤ 2 ^ 252 by norm_num]
  have f1 : ((⌊y⌋₊ : ℕ) : ℚ) ≤ y := Nat.floor_le y0
  have f2 : y < (⌊y⌋₊ : ℕ) + 1 := Nat.lt_floor_add_one y
  generalize ⌊y⌋₊ = Y at *
  have s1 : Nat.sqrt Y ^ 2 ≤ Y := Nat.sqrt_le' Y
  have s2 : Y < (Nat.sqrt Y + 1) ^ 2 := Nat.lt_succ_sqrt' Y
  have s3 : 2 ^ 126 ≤ Nat.sqrt Y := by
    rw [Nat.le_sqrt']
    have : ((2 ^ 252 : ℕ) : ℚ) < (Y + 1 : ℕ) := by push_cast; linarith
    have : 2 ^ 252 < Y + 1 := by exact_mod_cast this
    calc (2 ^ 126) ^ 2 = 2 ^ 252 := by norm_num
      _ ≤ Y := by omega
  have s4 : Nat.sqrt Y < 2 ^ 127 := by
    rw [Nat.sqrt_lt']
    have : (Y : ℚ) < (2 ^ 254 : ℕ) := by push_cast; linarith
    have : Y < 2 ^ 254 := by exact_mod_cast this
    calc Y < 2 ^ 254 := this
      _ = (2 ^ 127) ^ 2 := by norm_num
  generalize Nat.sqrt Y = s at *
  refine ⟨by exact_mod_cast s3, by exact_mod_cast s4, ?_, ?_⟩
  · have : ((s ^ 2 : ℕ) : ℚ) ≤ Y := by exact_mod_cast s1
    push_cast at this
    linarith
  · have : ((Y + 1 : ℕ) : ℚ) ≤ ((s + 1) ^ 2 : ℕ) := by exact_mod_cast s2
    push_cast at this
    linarith

/-- what is needed of a square root: not negative, the order is kept, and the square is within a relative error -/
structure SqrtOk (sq : K → K) (w : K) : Prop where
  nonneg : ∀ v, 0 ≤ v → 0 ≤ sq v
  mono : ∀ a b, 0 ≤ a → a ≤ b → sq a ≤ sq b
  err : ∀ v, 0 ≤ v → |sq v ^ 2 - v| ≤ w * v

theorem sqrt64_ok : SqrtOk sqrt64 (3 / 2 ^ 53) := by
  have p2 : (0 : ℚ) < 2 := by norm_num
  have nn : ∀ v, 0 ≤ sqrt64 v := fun v => by
    unfold sqrt64
    split
    · exact le_rfl
    · exact rnd64_machine.nonneg (mul_nonneg (Nat.cast_nonneg _) (zpow_pos p2 _).le)
  refine ⟨fun v _ => nn v, ?_, ?_⟩
  · intro a b ha hab
    rcases ha.eq_or_lt with rfl | ha
    · have : sqrt64 0 = 0 := by simp [sqrt64]
      rw [this]
      exact nn b
    · have hb : 0 < b := ha.trans_le hab
      unfold sqrt64
      rw [if_neg (by linarith), if_neg (by linarith)]
      apply rnd64_machine.mono
      obtain ⟨a1, a2⟩ := halfExpo_spec a ha
      obtain ⟨b1, b2⟩ := halfExpo_spec b hb
      obtain ⟨c1, c2, -, -⟩ := natSqrt_bounds _ a1 a2
      obtain ⟨d1, d2, -, -⟩ := natSqrt_bounds _ b1 b2
      generalize halfExpo a = i at *
      generalize halfExpo b = j at *
      have pi : (0 : ℚ) < 2 ^ i := zpow_pos p2 _
      have pj : (0 : ℚ) < 2 ^ j := zpow_pos p2 _
      have qi : (0 : ℚ) < 4 ^ i := zpow_pos (by norm_num) _
      have qj : (0 : ℚ) < 4 ^ j := zpow_pos (by norm_num) _
      rcases lt_trichotomy i j with h | h | h
      · have : (2 : ℚ) * 2 ^ i ≤ 2 ^ j := by
          rw [← zpow_one_add₀ p2.ne']; exact zpow_le_zpow_right₀ (by norm_num) (by omega)
        calc _ ≤ (2 : ℚ) ^ 127 * 2 ^ i := mul_le_mul_of_nonneg_right c2.le pi.le
          _ = 2 ^ 126 * (2 * 2 ^ i) := by ring
          _ ≤ 2 ^ 126 * 2 ^ j := mul_le_mul_of_nonneg_left this (by norm_num)
          _ ≤ _ := mul_le_mul_of_nonneg_right d1 pj.le
      · rw [h]
        refine mul_le_mul_of_nonneg_right ?_ pj.le
        exact_mod_cast Nat.sqrt_le_sqrt (Nat.floor_le_floor (div_le_div_of_nonneg_right hab qj.le))
      · exfalso
        have : (4 : ℚ) * 4 ^ j ≤ 4 ^ i := by
          rw [← zpow_one_add₀ (by norm_num)]; exact zpow_le_zpow_right₀ (by norm_num) (by omega)
        rw [le_div_iff₀ qi] at a1
        rw [div_lt_iff₀ qj] at b2
        have h3 : (2 : ℚ) ^ 252 * (4 * 4 ^ j) ≤ 2 ^ 252 * 4 ^ i := mul_le_mul_of_nonneg_left this (by norm_num)
        have h4 : (2 : ℚ) ^ 252 * (4 * 4 ^ j) = 2 ^ 254 * 4 ^ j := by ring
        linarith
  · intro v hv
    rcases hv.eq_or_lt with rfl | hv
    · simp [sqrt64]
    · unfold sqrt64
      rw [if_neg (by linarith)]
      obtain ⟨a1, a2⟩ := halfExpo_spec v hv
      obtain ⟨c1, -, c3, c4⟩ := natSqrt_bounds _ a1 a2
      have qi : (0 : ℚ) < 4 ^ halfExpo v := zpow_pos (by norm_num) _
      have e4 : ((2 : ℚ) ^ halfExpo v) ^ 2 = 4 ^ halfExpo v := by
        rw [← zpow_natCast, ← zpow_mul, show (4 : ℚ) = 2 ^ (2 : ℤ) by norm_num, ← zpow_mul]
        congr 1
        push_cast
        ring
      generalize (Nat.sqrt ⌊v / 4 ^ halfExpo v⌋₊ : ℚ) = s at *
      have pi : (0 : ℚ) < 2 ^ halfExpo v := zpow_pos p2 _
      rw [le_div_iff₀ qi] at c3
      rw [div_le_iff₀ qi] at c4
      rw [← e4] at c3 c4
      generalize (2 : ℚ) ^ halfExpo v = q at *
      have s0 : 0 < s := lt_of_lt_of_le (by norm_num) c1
      have t0 : 0 < s * q := mul_pos s0 pi
      have hr := abs_le.mp (rnd64_relErr.err (s * q))
      rw [abs_of_pos t0] at hr
      -- the square before rounding
      have g1 : (s * q) ^ 2 ≤ v := by rw [mul_pow]; exact c3
      have g2 : v - (s * q) ^ 2 ≤ (s * q) ^ 2 / 2 ^ 124 := by
        have k1 : 2 * s + 1 ≤ s ^ 2 / 2 ^ 124 := by
          rw [le_div_iff₀ (by norm_num)]
          nlinarith
        have k2 : (2 * s + 1) * q ^ 2 ≤ s ^ 2 / 2 ^ 124 * q ^ 2 := mul_le_mul_of_nonneg_right k1 (by positivity)
        have k3 : (s + 1) ^ 2 * q ^ 2 = (s * q) ^ 2 + (2 * s + 1) * q ^ 2 := by ring
        have k4 : s ^ 2 / 2 ^ 124 * q ^ 2 = (s * q) ^ 2 / 2 ^ 124 := by ring
        linarith
      generalize s * q = t at *
      generalize rnd64 t = z at *
      obtain ⟨r1, r2⟩ := hr
      have z1 : (1 - 1 / 2 ^ 53) * t ≤ z := by linarith
      have z2 : z ≤ (1 + 1 / 2 ^ 53) * t := by linarith
      have z3 : ((1 - 1 / 2 ^ 53) * t) ^ 2 ≤ z ^ 2 := pow_le_pow_left₀ (mul_nonneg (by norm_num) t0.le) z1 2
      have z0 : 0 ≤ z := le_trans (mul_nonneg (by norm_num) t0.le) z1
      have z4 : z ^ 2 ≤ ((1 + 1 / 2 ^ 53) * t) ^ 2 := pow_le_pow_left₀ z0 z2 2
      rw [mul_pow] at z3 z4
      have tt : 0 < t ^ 2 := by positivity
      rw [abs_le]
      norm_num at *
      constructor <;> linarith

/-! ## The results -/

/-- the roundings of data, `double` and storage, and the square root -/
structure Arithmetic (rm r r32 sq : K → K) (um u v w : K) : Prop where
  data : Machine rm um
  double : Machine r u
  single : Machine r32 v
  root : SqrtOk sq w
  one : r32 1 = 1

/-- components and MSE in `double`: values and what is needed of them -/
theorem parts_spec {rm r r32 sq : K → K} {um u v w : K} (h : Arithmetic rm r r32 sq um u v w) (tq : K → K) (l : List (K × K)) (hl : Stored rm l) :
    ∃ c d e, (fromMoments r sq tq (moments rm l) (l.length : K)).mseCorr = some c ∧ (fromMoments r sq tq (moments rm l) (l.length : K)).mseVar = some d ∧
      (fromMoments r sq tq (moments rm l) (l.length : K)).mse = some e ∧
      (fromMoments r sq tq (moments rm l) (l.length : K)).RSS = some (r (e * l.length)) ∧
      (fromMoments r sq tq (moments rm l) (l.length : K)).RMSD = some (sq e) ∧
      (fromMoments r sq tq (moments rm l) (l.length : K)).urmsd = some (sq (r (e - mseBiasFromMoments r (moments rm l)))) ∧
      e = r (r (c + d) + mseBiasFromMoments r (moments rm l)) ∧ r e = e ∧
      0 ≤ c ∧ 0 ≤ d ∧ 0 ≤ mseBiasFromMoments r (moments rm l) ∧ c ≤ e ∧ d ≤ e ∧ mseBiasFromMoments r (moments rm l) ≤ e := by
  have hd := h.double
  obtain ⟨vx, vy⟩ := variance_nonneg h.data l hl
  generalize moments rm l = m at *
  have hc0 : 0 ≤ mseCorr r sq m := le_max_right _ _
  have hcr : r (mseCorr r sq m) = mseCorr r sq m := by
    unfold mseCorr
    rcases max_choice (r (r (r (2 * sq m.vx) * sq m.vy) - r (2 * m.cov))) 0 with e | e <;> rw [e]
    · exact hd.idem _
    · exact hd.zero
  have hd0 : 0 ≤ mseVar r sq m := hd.nonneg (mul_self_nonneg _)
  have hdr : r (mseVar r sq m) = mseVar r sq m := hd.idem _
  have hb0 : 0 ≤ mseBiasFromMoments r m := hd.nonneg (mul_self_nonneg _)
  have hbr : r (mseBiasFromMoments r m) = mseBiasFromMoments r m := hd.idem _
  have rx : root sq m.vx = some (sq m.vx) := if_neg (not_lt.mpr vx)
  have ry : root sq m.vy = some (sq m.vy) := if_neg (not_lt.mpr vy)
  simp only [fromMoments, rx, ry, Option.bind_some, Option.map_some]
  generalize mseCorr r sq m = c at *
  generalize mseVar r sq m = d at *
  generalize mseBiasFromMoments r m = b at *
  have s0 : 0 ≤ r (c + d) := hd.nonneg (by linarith)
  have e0 : 0 ≤ r (r (c + d) + b) := hd.nonneg (by linarith)
  have he : max (r (r (c + d) + b)) 0 = r (r (c + d) + b) := max_eq_left e0
  have c1 : c ≤ r (c + d) := by have := hd.mono c (c + d) (by linarith); rwa [hcr] at this
  have d1 : d ≤ r (c + d) := by have := hd.mono d (c + d) (by linarith); rwa [hdr] at this
  have c2 : c ≤ r (r (c + d) + b) := by have := hd.mono c (r (c + d) + b) (by linarith); rwa [hcr] at this
  have d2 : d ≤ r (r (c + d) + b) := by have := hd.mono d (r (c + d) + b) (by linarith); rwa [hdr] at this
  have b2 : b ≤ r (r (c + d) + b) := by have := hd.mono b (r (c + d) + b) (by linarith); rwa [hbr] at this
  refine ⟨c, d, _, rfl, rfl, rfl, rfl, ?_, ?_, he, ?_, hc0, hd0, hb0, ?_, ?_, ?_⟩
  · rw [he]; exact if_neg (not_lt.mpr e0)
  · rw [he]; exact if_neg (not_lt.mpr (hd.nonneg (by linarith)))
  · rw [he]; exact hd.idem _
  · rw [he]; exact c2
  · rw [he]; exact d2
  · rw [he]; exact b2

/-- C111: rounding makes none of the results NaN or negative: the components of the MSE, MSE, RSS, RMSD and unbiased RMSD are stored as numbers that are not negative, no component is larger
than the MSE, the unbiased RMSD is not larger than the RMSD, and a correlation is between -1 and 1. -/
theorem stored_consistent {rm r r32 sq : K → K} {um u v w : K} (h : Arithmetic rm r r32 sq um u v w) (tq : K → K) (l : List (K × K)) (hl : Stored rm l) :
    (∃ corr var mse rss rmsd urmsd, (calcMetrics rm r r32 sq tq l).mseCorr = some corr ∧ (calcMetrics rm r r32 sq tq l).mseVar = some var ∧
      (calcMetrics rm r r32 sq tq l).mse = some mse ∧ (calcMetrics rm r r32 sq tq l).RSS = some rss ∧ (calcMetrics rm r r32 sq tq l).RMSD = some rmsd ∧
      (calcMetrics rm r r32 sq tq l).urmsd = some urmsd ∧
      0 ≤ corr ∧ corr ≤ mse ∧ 0 ≤ var ∧ var ≤ mse ∧ 0 ≤ (calcMetrics rm r r32 sq tq l).mseBias ∧ (calcMetrics rm r r32 sq tq l).mseBias ≤ mse ∧
      0 ≤ rss ∧ 0 ≤ urmsd ∧ urmsd ≤ rmsd) ∧
    ∀ R, (calcMetrics rm r r32 sq tq l).R = some R → -1 ≤ R ∧ R ≤ 1 := by
  have hd := h.double
  have hs := h.single
  constructor
  · obtain ⟨c, d, e, h1, h2, h3, h4, h5, h6, -, her, c0, d0, b0, ce, de, be⟩ := parts_spec h tq l hl
    have e0 : 0 ≤ e := c0.trans ce
    refine ⟨r32 c, r32 d, r32 e, r32 (r (e * l.length)), r32 (sq e), r32 (sq (r (e - mseBiasFromMoments r (moments rm l)))), ?_, ?_, ?_, ?_, ?_, ?_, hs.nonneg c0, hs.mono _ _ ce,
      hs.nonneg d0, hs.mono _ _ de, hs.nonneg b0, hs.mono _ _ be, hs.nonneg (hd.nonneg (mul_nonneg e0 (Nat.cast_nonneg _))), hs.nonneg (h.root.nonneg _ (hd.nonneg (by linarith))), ?_⟩
    · simp only [calcMetrics, store, h1, Option.map_some]
    · simp only [calcMetrics, store, h2, Option.map_some]
    · simp only [calcMetrics, store, h3, Option.map_some]
    · simp only [calcMetrics, store, h4, Option.map_some]
    · simp only [calcMetrics, store, h5, Option.map_some]
    · simp only [calcMetrics, store, h6, Option.map_some]
    · refine hs.mono _ _ (h.root.mono _ _ (hd.nonneg (by linarith)) ?_)
      have := hd.mono (e - mseBiasFromMoments r (moments rm l)) e (by linarith)
      rwa [her] at this
  · intro R hR
    simp only [calcMetrics, store, fromMoments, Option.map_eq_some_iff] at hR
    obtain ⟨R', h1, rfl⟩ := hR
    unfold pearson at h1
    split at h1
    · exact absurd h1 (by simp)
    · rw [Option.map_eq_some_iff] at h1
      obtain ⟨d, -, rfl⟩ := h1
      have m1 : r32 (-1) = -1 := by rw [hs.odd, h.one]
      constructor
      · have := hs.mono (-1) (max (-1) (min (r ((moments rm l).cov / d)) 1)) (le_max_left _ _)
        rwa [m1] at this
      · have := hs.mono (max (-1) (min (r ((moments rm l).cov / d)) 1)) 1 (max_le (by norm_num) (min_le_right _ _))
        rwa [h.one] at this

theorem square_store (v q y : K) (v0 : 0 ≤ v) (hv : v ≤ 1 / 100) (hq : 0 ≤ q) (h : |y - q| ≤ v * q) : |y ^ 2 - q ^ 2| ≤ 201 / 100 * (v * q ^ 2) := by
  have e : y ^ 2 - q ^ 2 = (y - q) * (y + q) := by ring
  have h' := abs_le.mp h
  have hvq : v * q ≤ q / 100 := by have := mul_le_mul_of_nonneg_right hv hq; linarith
  have h2 : |y + q| ≤ 201 / 100 * q := by rw [abs_le]; constructor <;> linarith [h'.1, h'.2]
  rw [e, abs_mul]
  calc |y - q| * |y + q| ≤ v * q * (201 / 100 * q) := mul_le_mul h h2 (abs_nonneg _) (mul_nonneg v0 hq)
    _ = _ := by ring

/-- C111: the stored parts add up to the stored MSE, the RSS is the number of observations times the MSE and the RMSD its root, up to a few roundings of single precision; the square of the
unbiased RMSD is the sum of two components up to a few roundings of the MSE (not of itself, see `urmsd_wrong`). -/
theorem stored_sums {rm r r32 sq : K → K} {um u v w : K} (h : Arithmetic rm r r32 sq um u v w) (huv : u ≤ v) (hv : v ≤ 1 / 100) (hw : w ≤ 3 * v) (tq : K → K)
    (l : List (K × K)) (hl : Stored rm l) (corr var mse rss rmsd urmsd : K) (h1 : (calcMetrics rm r r32 sq tq l).mseCorr = some corr)
    (h2 : (calcMetrics rm r r32 sq tq l).mseVar = some var) (h3 : (calcMetrics rm r r32 sq tq l).mse = some mse) (h4 : (calcMetrics rm r r32 sq tq l).RSS = some rss)
    (h5 : (calcMetrics rm r r32 sq tq l).RMSD = some rmsd) (h6 : (calcMetrics rm r r32 sq tq l).urmsd = some urmsd) :
    |mse - (corr + var + (calcMetrics rm r r32 sq tq l).mseBias)| ≤ 6 * v * mse ∧
    |rss - l.length * mse| ≤ 4 * v * (l.length * mse) ∧
    |rmsd ^ 2 - mse| ≤ 8 * v * mse ∧
    |urmsd ^ 2 - (corr + var)| ≤ 12 * v * mse := by
  have hd := h.double
  have hs := h.single
  obtain ⟨c, d, e, g1, g2, g3, g4, g5, g6, hee, her, c0, d0, b0, ce, de, be⟩ := parts_spec h tq l hl
  simp only [calcMetrics, store, g1, g2, g3, g4, g5, g6, Option.map_some, Option.some.injEq] at h1 h2 h3 h4 h5 h6
  have hb : (calcMetrics rm r r32 sq tq l).mseBias = r32 (mseBiasFromMoments r (moments rm l)) := rfl
  rw [hb]
  generalize mseBiasFromMoments r (moments rm l) = b at *
  have v0 := hs.err.nonneg
  have u0 := hd.err.nonneg
  have e0 : 0 ≤ e := c0.trans ce
  have n0 : (0 : K) ≤ l.length := Nat.cast_nonneg _
  generalize (l.length : K) = n at *
  -- storage
  have store : ∀ x : K, 0 ≤ x → |r32 x - x| ≤ v * x := fun x hx => by have := hs.err.err x; rwa [abs_of_nonneg hx] at this
  have kc := abs_le.mp (store c c0)
  have kd := abs_le.mp (store d d0)
  have kb := abs_le.mp (store b b0)
  have ke := abs_le.mp (store e e0)
  rw [h1] at kc; rw [h2] at kd; rw [h3] at ke
  -- sums in double
  have dbl : ∀ x : K, 0 ≤ x → |r x - x| ≤ v * x := fun x hx => by
    have := hd.err.err x
    rw [abs_of_nonneg hx] at this
    exact this.trans (mul_le_mul_of_nonneg_right huv hx)
  have s1 := abs_le.mp (dbl (c + d) (by linarith))
  have s0 : 0 ≤ r (c + d) := hd.nonneg (by linarith)
  have s2 := abs_le.mp (dbl (r (c + d) + b) (by linarith))
  rw [← hee] at s2
  have small : ∀ x : K, 0 ≤ x → v * x ≤ x / 100 := fun x hx => by
    have := mul_le_mul_of_nonneg_right hv hx
    linarith
  have vx : ∀ x y : K, x ≤ y → v * x ≤ v * y := fun x y hxy => mul_le_mul_of_nonneg_left hxy v0
  have v0x : ∀ x : K, 0 ≤ x → 0 ≤ v * x := fun x hx => mul_nonneg v0 hx
  have ve0 := v0x e e0
  -- the exact sum of the parts
  have A : c + d + b ≤ 103 / 100 * e := by
    have := small (c + d) (by linarith)
    have := small (r (c + d) + b) (by linarith)
    linarith [s1.1, s2.1]
  have A' := vx _ _ A
  have B1 : v * (r (c + d) + b) ≤ v * (101 / 100 * (c + d + b)) := vx _ _ (by have := small (c + d) (by linarith); linarith [s1.2])
  have B2 : v * (c + d) ≤ v * (c + d + b) := vx _ _ (by linarith)
  have eS : |e - (c + d + b)| ≤ 208 / 100 * (v * e) := by
    rw [abs_le]
    constructor <;> linarith [s1.1, s1.2, s2.1, s2.2]
  have eS' := abs_le.mp eS
  have me : e ≤ 102 / 100 * mse := by have := small e e0; linarith [ke.1]
  have m0 : 0 ≤ mse := by rw [← h3]; exact hs.nonneg e0
  have vm : v * e ≤ 102 / 100 * (v * mse) := by have := vx _ _ me; linarith
  refine ⟨?_, ?_, ?_, ?_⟩
  · rw [abs_le]
    constructor <;> linarith [kc.1, kc.2, kd.1, kd.2, kb.1, kb.2, ke.1, ke.2]
  · have en : 0 ≤ e * n := mul_nonneg e0 n0
    have k1 := abs_le.mp (dbl (e * n) en)
    have k2 := abs_le.mp (store (r (e * n)) (hd.nonneg en))
    have k3 := small _ en
    have k4 : v * r (e * n) ≤ v * (101 / 100 * (e * n)) := vx _ _ (by linarith [k1.2])
    have k5 : n * (v * e) ≤ n * (102 / 100 * (v * mse)) := mul_le_mul_of_nonneg_left vm n0
    have k6 : n * mse - e * n ≤ n * (v * e) := by
      have := mul_le_mul_of_nonneg_left (show mse - e ≤ v * e by linarith [ke.2]) n0
      linarith
    have k7 : -(n * (v * e)) ≤ n * mse - e * n := by
      have := mul_le_mul_of_nonneg_left (show -(v * e) ≤ mse - e by linarith [ke.1]) n0
      linarith
    have k8 : 0 ≤ v * (n * mse) := v0x _ (mul_nonneg n0 m0)
    rw [h4] at k2
    rw [abs_le]
    constructor <;> linarith [k1.1, k1.2, k2.1, k2.2]
  · have q0 := h.root.nonneg e e0
    have k1 := abs_le.mp (h.root.err e e0)
    have k2 := abs_le.mp (square_store v (sq e) rmsd v0 hv q0 (by rw [← h5]; exact store _ q0))
    have k3 : w * e ≤ 3 * (v * e) := by have := mul_le_mul_of_nonneg_right hw e0; linarith
    have k4 : v * sq e ^ 2 ≤ v * (103 / 100 * e) := vx _ _ (by have := small e e0; linarith [k1.2])
    rw [abs_le]
    constructor <;> linarith [k1.1, k1.2, k2.1, k2.2, ke.1, ke.2]
  · have f0 : 0 ≤ r (e - b) := hd.nonneg (by linarith)
    have q0 := h.root.nonneg _ f0
    have k0 := abs_le.mp (dbl (e - b) (by linarith))
    have k0' : v * (e - b) ≤ v * e := vx _ _ (by linarith)
    have k00 := small (e - b) (by linarith)
    have k1 := abs_le.mp (h.root.err _ f0)
    have k2 := abs_le.mp (square_store v (sq (r (e - b))) urmsd v0 hv q0 (by rw [← h6]; exact store _ q0))
    have fe : r (e - b) ≤ 101 / 100 * e := by linarith [k0.2]
    have k3 : w * r (e - b) ≤ 3 * (v * (101 / 100 * e)) := by
      have := mul_le_mul_of_nonneg_right hw f0
      have := vx _ _ fe
      linarith
    have k4 : v * sq (r (e - b)) ^ 2 ≤ v * (105 / 100 * e) := vx _ _ (by have := small e e0; linarith [k1.2])
    rw [abs_le]
    constructor <;> linarith [k0.1, k0.2, k1.1, k1.2, k2.1, k2.2, kc.1, kc.2, kd.1, kd.2]

/-! ## Constant series -/

theorem SqrtOk.zero {sq : K → K} {w : K} (h : SqrtOk sq w) : sq 0 = 0 := by
  have h1 := h.err 0 le_rfl
  rw [mul_zero, sub_zero] at h1
  exact pow_eq_zero_iff (two_ne_zero) |>.mp (abs_eq_zero.mp (le_antisymm h1 (abs_nonneg _)))

/-- the variance of a constant series and its covariance are exactly 0 -/
theorem constant_moments {r : K → K} {u : K} (h : Machine r u) (l : List (K × K)) (c : K) (hc : r c = c) (hl : ∀ p ∈ l, p.1 = c) :
    (moments r l).vx = 0 ∧ (moments r l).cov = 0 := by
  have key : ∀ l : List (K × K), (∀ p ∈ l, p.1 = c) → ∀ s : Welford K, (s.nobs = 0 ∧ s.mx = 0 ∨ s.mx = c) → s.M2x = 0 → s.C = 0 →
      (l.foldl (Welford.add r) s).M2x = 0 ∧ (l.foldl (Welford.add r) s).C = 0 := by
    intro l
    induction l with
    | nil => intro _ s _ a b; exact ⟨a, b⟩
    | cons p l ih =>
      intro hl s hs a b
      have hp := hl p List.mem_cons_self
      rw [List.foldl_cons]
      have hm : r (s.mx + r (r (p.1 - s.mx) / ((s.nobs + 1 : ℕ) : K))) = c := by
        rw [hp]
        rcases hs with ⟨h1, h2⟩ | h2
        · rw [h1, h2]; simp only [sub_zero, zero_add, Nat.cast_one, div_one, hc]
        · rw [h2, sub_self, h.zero, zero_div, h.zero, add_zero, hc]
      refine ih (fun q hq => hl q (List.mem_cons_of_mem _ hq)) _ (Or.inr hm) ?_ ?_
      · show r (s.M2x + r (r (p.1 - r (s.mx + r (r (p.1 - s.mx) / ((s.nobs + 1 : ℕ) : K)))) * r (p.1 - s.mx))) = 0
        rw [hm, hp, sub_self, h.zero, zero_mul, h.zero, a, add_zero, h.zero]
      · show r (s.C + r (r (p.1 - r (s.mx + r (r (p.1 - s.mx) / ((s.nobs + 1 : ℕ) : K)))) * r (p.2 - s.my))) = 0
        rw [hm, hp, sub_self, h.zero, zero_mul, h.zero, b, add_zero, h.zero]
  obtain ⟨h1, h2⟩ := key l hl ⟨0, 0, 0, 0, 0, 0⟩ (Or.inl ⟨rfl, rfl⟩) rfl rfl
  constructor
  · show r (_ / _) = 0
    rw [h1, zero_div, h.zero]
  · show r (_ / _) = 0
    rw [h2, zero_div, h.zero]

/-- C111: the correlation with a constant series is NaN, also after rounding, and its error is all in the variances and the bias. -/
theorem constant_series {rm r r32 sq : K → K} {um u v w : K} (h : Arithmetic rm r r32 sq um u v w) (tq : K → K) (l : List (K × K)) (c : K) (hc : rm c = c)
    (hl : ∀ p ∈ l, p.1 = c) : (calcMetrics rm r r32 sq tq l).R = none ∧ mseCorr r sq (moments rm l) = 0 := by
  obtain ⟨h1, h2⟩ := constant_moments h.data l c hc hl
  have hz := h.double.zero
  constructor
  · simp only [calcMetrics, store, fromMoments, pearson, h1, true_or, if_true, Option.map_none]
  · unfold mseCorr
    rw [h1, h2, h.root.zero, mul_zero, hz, zero_mul, hz, sub_zero, hz, max_self]

/-- C111, the other direction is violated: for the series 1 + 2^-52, 1 + 2^-51 and 0, 1 the correlation is NaN although neither is constant (it is 1). -/
theorem correlation_nan_wrong : (calcMetrics rnd64 rnd64 rnd32 sqrt64 (fun _ => 4) [(1 + 1 / 2 ^ 52, 0), (1 + 2 / 2 ^ 52, 1)]).R = none ∧
    rnd64 (1 + 1 / 2 ^ 52) = 1 + 1 / 2 ^ 52 ∧ rnd64 (1 + 2 / 2 ^ 52) = 1 + 2 / 2 ^ 52 := by decide +kernel

/-! ## The interval of the bias -/

/-- C111 (partial: the variance of the difference must not be rounded to a negative number, see `bias_ci_wrong`): the stored bias is in its stored confidence interval. -/
theorem bias_ci_partial {rm r r32 sq : K → K} {um u v w : K} (h : Arithmetic rm r r32 sq um u v w) (tq : K → K) (l : List (K × K)) (hn : 2 ≤ l.length)
    (ht : 0 ≤ tq l.length) (hr : 0 ≤ r (r ((moments rm l).vx + (moments rm l).vy) - r (2 * (moments rm l).cov))) :
    ∃ lo hi, (calcMetrics rm r r32 sq tq l).biasCi = some (lo, hi) ∧ lo ≤ (calcMetrics rm r r32 sq tq l).BIAS ∧ (calcMetrics rm r r32 sq tq l).BIAS ≤ hi := by
  have hd := h.double
  have hs := h.single
  have n2 : (2 : K) ≤ l.length := by exact_mod_cast hn
  simp only [calcMetrics, store, fromMoments, biasCi]
  generalize moments rm l = m at *
  generalize (l.length : K) = n at *
  have q0 : 0 ≤ r (r (n / r (n - 1)) * r (r (m.vx + m.vy) - r (2 * m.cov))) :=
    hd.nonneg (mul_nonneg (hd.nonneg (div_nonneg (by linarith) (hd.nonneg (by linarith)))) hr)
  have hroot : root sq (r (r (n / r (n - 1)) * r (r (m.vx + m.vy) - r (2 * m.cov)))) = some _ := if_neg (not_lt.mpr q0)
  rw [hroot]
  simp only [Option.map_some]
  have d0 := hd.nonneg (mul_nonneg (hd.nonneg (div_nonneg (h.root.nonneg _ q0) (h.root.nonneg n (by linarith)))) ht)
  generalize r (r (sq (r (r (n / r (n - 1)) * r (r (m.vx + m.vy) - r (2 * m.cov)))) / sq n) * tq n) = delta at *
  refine ⟨_, _, rfl, hs.mono _ _ ?_, hs.mono _ _ ?_⟩
  · have := hd.mono (r (m.mx - m.my) - delta) (r (m.mx - m.my)) (by linarith)
    rwa [hd.idem] at this
  · have := hd.mono (r (m.mx - m.my)) (r (m.mx - m.my) + delta) (by linarith)
    rwa [hd.idem] at this

/-- C111: for a series and itself the interval is the point 0. -/
theorem bias_ci_self {rm r r32 sq : K → K} {um u v w : K} (h : Arithmetic rm r r32 sq um u v w) (tq : K → K) (l : List (K × K)) (hl : Same l) :
    (calcMetrics rm r r32 sq tq l).biasCi = some (0, 0) := by
  have hz := h.double.zero
  obtain ⟨h1, h2, h3⟩ := moments_same rm l hl
  simp only [calcMetrics, store, fromMoments, biasCi]
  rw [← h1, ← h2, ← h3, ← two_mul, sub_self, sub_self, hz, mul_zero, hz]
  simp only [root, lt_irrefl, if_false, Option.map_some, h.root.zero, zero_div, hz, zero_mul, sub_self, add_zero, h.single.zero]

/-- C111, negation: three observations and the same plus 6. The bias is -6, its confidence interval should be the point -6, but it is NaN. -/
theorem bias_ci_wrong : (calcMetrics rnd64 rnd64 rnd32 sqrt64 (fun _ => 4) [(5, 11), (2, 8), (9, 15)]).BIAS = -6 ∧
    (calcMetrics rnd64 rnd64 rnd32 sqrt64 (fun _ => 4) [(5, 11), (2, 8), (9, 15)]).biasCi = none ∧
    (calcMetrics id id id sqrt64 (fun _ => 4) [(5, 11), (2, 8), (9, 15)]).biasCi = some (-6, -6) := by decide +kernel

/-- C111, negation: with a bias of 10^9 the unbiased RMSD is 0 although it is 1/2, as `mse_var` says. -/
theorem urmsd_wrong : (calcMetrics rnd64 rnd64 rnd32 sqrt64 (fun _ => 4) [(1000000001, 0), (1000000000, 0)]).urmsd = some 0 ∧
    (calcMetrics rnd64 rnd64 rnd32 sqrt64 (fun _ => 4) [(1000000001, 0), (1000000000, 0)]).mseVar = some (1 / 4) ∧
    (calcMetrics id id id sqrt64 (fun _ => 4) [(1000000001, 0), (1000000000, 0)]).urmsd = some (1 / 2) := by decide +kernel

/-- C111, negation: the stored parts do not add up to the stored MSE exactly. -/
theorem parts_wrong : let x := calcMetrics rnd64 rnd64 rnd32 sqrt64 (fun _ => 4) [(5, 12), (2, 8), (9, 15)]
    x.mseCorr = some (14913081 / 67108864) ∧ x.mseVar = some 0 ∧ x.mseBias = 10514887 / 262144 ∧ x.mse = some (10573141 / 262144) ∧
    (14913081 / 67108864 + 0 + 10514887 / 262144 : ℚ) ≠ 10573141 / 262144 := by decide +kernel

/-! ## Concrete cases -/

theorem double_arithmetic : Arithmetic rnd64 rnd64 rnd32 sqrt64 (1 / 2 ^ 53) (1 / 2 ^ 53) (1 / 2 ^ 24) (3 / 2 ^ 53) :=
  ⟨rnd64_machine, rnd64_machine, rnd32_machine, sqrt64_ok, by decide +kernel⟩

/-- data of single precision -/
theorem single_arithmetic : Arithmetic rnd32 rnd64 rnd32 sqrt64 (1 / 2 ^ 24) (1 / 2 ^ 53) (1 / 2 ^ 24) (3 / 2 ^ 53) :=
  ⟨rnd32_machine, rnd64_machine, rnd32_machine, sqrt64_ok, by decide +kernel⟩

example : 0 ≤ (moments rnd64 [(rnd64 (1 / 10), 5), (rnd64 (3 / 10), 2), (rnd64 (7 / 10), 9)]).vx :=
  (variance_nonneg rnd64_machine _ (by intro p hp; fin_cases hp <;> decide +kernel)).1

example : ∀ R, (calcMetrics rnd32 rnd64 rnd32 sqrt64 (fun _ => 4) [(rnd32 (1 / 10), 5), (rnd32 (3 / 10), 2), (rnd32 (7 / 10), 9)]).R = some R → -1 ≤ R ∧ R ≤ 1 :=
  (stored_consistent single_arithmetic _ _ (by intro p hp; fin_cases hp <;> decide +kernel)).2

example : |(10573141 / 262144 : ℚ) - (14913081 / 67108864 + 0 + (calcMetrics rnd64 rnd64 rnd32 sqrt64 (fun _ => 4) [(5, 12), (2, 8), (9, 15)]).mseBias)| ≤ 6 * (1 / 2 ^ 24) * (10573141 / 262144) :=
  (stored_sums double_arithmetic (by norm_num) (by norm_num) (by norm_num) (fun _ => 4) [(5, 12), (2, 8), (9, 15)] (by intro p hp; fin_cases hp <;> decide +kernel)
    _ _ _ 121 (832419 / 131072) (15817711 / 33554432) (by decide +kernel) (by decide +kernel) (by decide +kernel) (by decide +kernel) (by decide +kernel) (by decide +kernel)).1

example : (calcMetrics rnd64 rnd64 rnd32 sqrt64 (fun _ => 4) [(3, 1), (3, 5), (3, 2)]).R = none :=
  (constant_series double_arithmetic _ _ 3 (by decide +kernel) (by intro p hp; fin_cases hp <;> rfl)).1

example : ∃ lo hi, (calcMetrics rnd64 rnd64 rnd32 sqrt64 (fun _ => 4) [(5, 12), (2, 8), (9, 15)]).biasCi = some (lo, hi) ∧
    lo ≤ (calcMetrics rnd64 rnd64 rnd32 sqrt64 (fun _ => 4) [(5, 12), (2, 8), (9, 15)]).BIAS ∧ (calcMetrics rnd64 rnd64 rnd32 sqrt64 (fun _ => 4) [(5, 12), (2, 8), (9, 15)]).BIAS ≤ hi :=
  bias_ci_partial double_arithmetic _ _ (by decide) (by norm_num) (by decide +kernel)

example : (calcMetrics rnd64 rnd64 rnd32 sqrt64 (fun _ => 4) [(5, 5), (2, 2), (rnd64 (1 / 10), rnd64 (1 / 10))]).biasCi = some (0, 0) :=
  bias_ci_self double_arithmetic _ _ (by intro p hp; fin_cases hp <;> rfl)

end Verif.Rounding
