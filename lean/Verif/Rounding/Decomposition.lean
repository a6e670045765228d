import Verif.Rounding.Triple
import Verif.Pairwise.Lemmas

/-! C129: accuracy of the components of the mean squared error and of their sum. The model is `Rounding.Perfect` (`moments`, `mseCorr`, `mseVar`,
`mseBiasFromMoments`, `mseDecomposition`); the textbook quantities are those of `Moments.Spec` and `Pairwise.Spec`. -/

namespace Verif.Rounding

open Moments (mean pvar pcov S)

/-! ### Specification -/

/-- product of the standard deviations less covariance, twice: what correlation costs -/
noncomputable def corrPart (l : List (ℝ × ℝ)) : ℝ :=
  2 * (Real.sqrt (pvar (l.map Prod.fst)) * Real.sqrt (pvar (l.map Prod.snd))) - 2 * pcov l

/-- squared difference of the standard deviations -/
noncomputable def varPart (l : List (ℝ × ℝ)) : ℝ := (Real.sqrt (pvar (l.map Prod.fst)) - Real.sqrt (pvar (l.map Prod.snd))) ^ 2

/-- squared difference of the means -/
noncomputable def biasPart (l : List (ℝ × ℝ)) : ℝ := (mean (l.map Prod.fst) - mean (l.map Prod.snd)) ^ 2

/-! ### Steps -/

section
variable {rnd sq : ℝ → ℝ} {u : ℝ}

theorem root_step (hsq : SqrtErr sq u) (hu0 : 0 ≤ u) (hu : 100 * u ≤ 1) {v : ℝ} (hv : 0 ≤ v) : |sq v ^ 2 - v| ≤ 3 * u * v := by
  obtain ⟨h0, h1⟩ := hsq v hv
  have hr := Real.sqrt_nonneg v
  have e : sq v ^ 2 - v = (sq v - Real.sqrt v) * (sq v + Real.sqrt v) := by
    have := Real.sq_sqrt hv
    linear_combination this
  have b : |sq v + Real.sqrt v| ≤ 3 * Real.sqrt v := by
    rw [abs_of_nonneg (by linarith)]
    have := (abs_le.1 h1).2
    have : u * Real.sqrt v ≤ 1 / 100 * Real.sqrt v := mul_le_mul_of_nonneg_right (by linarith) hr
    linarith
  rw [e, abs_mul]
  refine (mul_le_mul h1 b (abs_nonneg _) (mul_nonneg hu0 hr)).trans (le_of_eq ?_)
  have := Real.mul_self_sqrt hv
  linear_combination 3 * u * this

theorem corr_step (h : RelErr rnd u) (hu : 100 * u ≤ 1) {a b c M : ℝ} (ha : 0 ≤ a) (hb : 0 ≤ b) (ha2 : a ^ 2 ≤ 21 / 10 * M) (hb2 : b ^ 2 ≤ 21 / 10 * M)
    (hc : |c| ≤ 2 * M) :
    |rnd (rnd (rnd (2 * a) * b) - rnd (2 * c)) - (2 * (a * b) - 2 * c)| ≤ 23 * (u * M) := by
  have hu0 := h.nonneg
  have hab0 : 0 ≤ a * b := mul_nonneg ha hb
  have hab : a * b ≤ 21 / 10 * M := by
    have := two_mul_le_add_sq a b
    linarith
  have hM : 0 ≤ M := by linarith
  have uab := mul_le_mul_of_nonneg_left hab hu0
  have uab0 : 0 ≤ u * (a * b) := mul_nonneg hu0 hab0
  have uM : 0 ≤ u * M := mul_nonneg hu0 hM
  have uM100 : 100 * (u * M) ≤ M := by
    have := mul_le_mul_of_nonneg_right hu hM
    linarith
  -- first product
  have p1 := h.err (2 * a)
  rw [abs_of_nonneg (by linarith : 0 ≤ 2 * a)] at p1
  have p2 : |rnd (2 * a) * b - 2 * (a * b)| ≤ 2 * (u * (a * b)) := by
    have e : rnd (2 * a) * b - 2 * (a * b) = (rnd (2 * a) - 2 * a) * b := by ring
    rw [e, abs_mul, abs_of_nonneg hb]
    refine (mul_le_mul_of_nonneg_right p1 hb).trans (le_of_eq (by ring))
  have p3 : |rnd (2 * a) * b| ≤ 5 * M := by
    have := abs_add_le (rnd (2 * a) * b - 2 * (a * b)) (2 * (a * b))
    rw [sub_add_cancel, abs_of_nonneg (by linarith : 0 ≤ 2 * (a * b))] at this
    linarith
  have p4 := (h.err (rnd (2 * a) * b)).trans (mul_le_mul_of_nonneg_left p3 hu0)
  have p5 : |rnd (rnd (2 * a) * b) - 2 * (a * b)| ≤ 10 * (u * M) := (abs_tri _ (rnd (2 * a) * b) _).trans (by linarith)
  have c1 := h.err (2 * c)
  rw [abs_mul, abs_two] at c1
  have c2 := mul_le_mul_of_nonneg_left hc hu0
  have c3 : |rnd (2 * c) - 2 * c| ≤ 4 * (u * M) := c1.trans (by linarith)
  set P := rnd (rnd (2 * a) * b)
  set C := rnd (2 * c)
  have d1 : |P - C - (2 * (a * b) - 2 * c)| ≤ 14 * (u * M) := by
    have e : P - C - (2 * (a * b) - 2 * c) = (P - 2 * (a * b)) - (C - 2 * c) := by ring
    rw [e]
    exact (abs_sub _ _).trans (by linarith)
  have d2 : |2 * (a * b) - 2 * c| ≤ 82 / 10 * M := by
    refine (abs_sub _ _).trans ?_
    rw [abs_of_nonneg (by linarith : 0 ≤ 2 * (a * b)), abs_mul, abs_two]
    linarith
  have d3 := rnd_err h d1
  have d4 := mul_le_mul_of_nonneg_left d2 hu0
  have d5 : u * (u * M) ≤ 1 / 100 * (u * M) := mul_le_mul_of_nonneg_right (by linarith) uM
  refine d3.trans ?_
  have e : 14 * (u * M) * (1 + u) = 14 * (u * M) + 14 * (u * (u * M)) := by ring
  rw [e]
  linarith

theorem sq_sub_le {a b T : ℝ} (ha : 0 ≤ a) (hb : 0 ≤ b) (ha2 : a ^ 2 ≤ T) (hb2 : b ^ 2 ≤ T) : (a - b) ^ 2 ≤ T := by
  have hab := mul_nonneg ha hb
  rcases le_total a b with hle | hle
  · have := mul_le_mul_of_nonneg_left hle ha
    linarith [this, show (a - b) ^ 2 = a * a - 2 * (a * b) + b ^ 2 by ring]
  · have := mul_le_mul_of_nonneg_left hle hb
    linarith [this, show (a - b) ^ 2 = a ^ 2 - 2 * (b * a) + b * b by ring]

/-- a rounded number squared -/
theorem square_step (h : RelErr rnd u) (hu : 100 * u ≤ 1) {x x' e T : ℝ} (hx : |x| ≤ T) (he : |x' - x| ≤ e) (heT : 8 * e ≤ T) :
    |rnd (rnd x' * rnd x') - x ^ 2| ≤ 23 / 10 * e * T + 4 * (u * T ^ 2) := by
  have hu0 := h.nonneg
  have hT : 0 ≤ T := (abs_nonneg _).trans hx
  have he0 : 0 ≤ e := (abs_nonneg _).trans he
  have uT : 0 ≤ u * T := mul_nonneg hu0 hT
  have uT100 : 100 * (u * T) ≤ T := by
    have := mul_le_mul_of_nonneg_right hu hT
    linarith
  have d := rnd_err h he
  have ux := mul_le_mul_of_nonneg_left hx hu0
  have ue : u * e ≤ u * (1 / 8 * T) := mul_le_mul_of_nonneg_left (by linarith) hu0
  have d' : |rnd x' - x| ≤ e + 9 / 8 * (u * T) := d.trans (by linarith [show e * (1 + u) = e + u * e by ring])
  have d1 : |rnd x' + x| ≤ 22 / 10 * T := by
    have e1 : rnd x' + x = (rnd x' - x) + 2 * x := by ring
    rw [e1]
    refine (abs_add_le _ _).trans ?_
    rw [abs_mul, abs_two]
    linarith
  have d2 : |rnd x' * rnd x' - x ^ 2| ≤ 22 / 10 * (e * T) + 25 / 10 * (u * T ^ 2) := by
    have e1 : rnd x' * rnd x' - x ^ 2 = (rnd x' - x) * (rnd x' + x) := by ring
    rw [e1, abs_mul]
    have hTT : 0 ≤ u * T ^ 2 := by positivity
    refine (mul_le_mul d' d1 (abs_nonneg _) (by linarith)).trans ?_
    linarith [show (e + 9 / 8 * (u * T)) * (22 / 10 * T) = 22 / 10 * (e * T) + 99 / 40 * (u * T ^ 2) by ring]
  have d3 := rnd_err h d2
  have x2 : |x ^ 2| ≤ T ^ 2 := by
    rw [abs_pow]
    exact pow_le_pow_left₀ (abs_nonneg _) hx 2
  have ux2 := mul_le_mul_of_nonneg_left x2 hu0
  refine d3.trans ?_
  have q0 : 0 ≤ 22 / 10 * (e * T) + 25 / 10 * (u * T ^ 2) := by positivity
  have q1 : (22 / 10 * (e * T) + 25 / 10 * (u * T ^ 2)) * u ≤ (22 / 10 * (e * T) + 25 / 10 * (u * T ^ 2)) * (1 / 100) :=
    mul_le_mul_of_nonneg_left (by linarith) q0
  have q2 : 0 ≤ e * T := mul_nonneg he0 hT
  have q3 : 0 ≤ u * T ^ 2 := by positivity
  linarith [show (22 / 10 * (e * T) + 25 / 10 * (u * T ^ 2)) * (1 + u) =
    (22 / 10 * (e * T) + 25 / 10 * (u * T ^ 2)) + (22 / 10 * (e * T) + 25 / 10 * (u * T ^ 2)) * u by ring]

theorem var_step (h : RelErr rnd u) (hu : 100 * u ≤ 1) {a b M : ℝ} (ha : 0 ≤ a) (hb : 0 ≤ b) (ha2 : a ^ 2 ≤ 21 / 10 * M) (hb2 : b ^ 2 ≤ 21 / 10 * M) :
    |rnd (rnd (a - b) * rnd (a - b)) - (a - b) ^ 2| ≤ 84 / 10 * (u * M) ∧ (a - b) ^ 2 ≤ 21 / 10 * M := by
  have hs := sq_sub_le ha hb ha2 hb2
  refine ⟨?_, hs⟩
  have := square_step (x := a - b) (x' := a - b) (e := 0) (T := |a - b|) h hu le_rfl (by simp) (by simp)
  rw [sq_abs] at this
  have hus := mul_le_mul_of_nonneg_left hs h.nonneg
  linarith

theorem bias_step (h : RelErr rnd u) (hu : 100 * u ≤ 1) {x x' e B : ℝ} (hx : |x| ≤ 2 * B) (he : |x' - x| ≤ e) (heT : 4 * e ≤ B) :
    |rnd (rnd x' * rnd x') - x ^ 2| ≤ 46 / 10 * (e * B) + 16 * (u * B ^ 2) := by
  have := square_step h hu hx he (by linarith)
  linarith [show 23 / 10 * e * (2 * B) + 4 * (u * (2 * B) ^ 2) = 46 / 10 * (e * B) + 16 * (u * B ^ 2) by ring]

/-- sum of three numbers -/
theorem sum3_step (h : RelErr rnd u) (hu : 100 * u ≤ 1) {a b c : ℝ} :
    |rnd (rnd (a + b) + c) - (a + b + c)| ≤ 2.01 * u * (|a| + |b|) + u * |c| := by
  have hu0 := h.nonneg
  have e1 := h.err (a + b)
  have t := abs_add_le a b
  have ut := mul_le_mul_of_nonneg_left t hu0
  have e2 : |rnd (a + b) + c - (a + b + c)| ≤ u * (|a| + |b|) := by
    rw [show rnd (a + b) + c - (a + b + c) = rnd (a + b) - (a + b) by ring]
    linarith
  have e3 := rnd_err h e2
  have t2 : |a + b + c| ≤ |a| + |b| + |c| := (abs_add_le _ _).trans (by linarith)
  have ut2 := mul_le_mul_of_nonneg_left t2 hu0
  have q0 : 0 ≤ u * (|a| + |b|) := mul_nonneg hu0 (add_nonneg (abs_nonneg _) (abs_nonneg _))
  have q1 : u * (|a| + |b|) * u ≤ u * (|a| + |b|) * (1 / 100) := mul_le_mul_of_nonneg_left (by linarith) q0
  refine e3.trans ?_
  norm_num
  linarith [show u * (|a| + |b|) * (1 + u) = u * (|a| + |b|) + u * (|a| + |b|) * u by ring]

/-- what the computation of the components starts from -/
theorem parts_base (h : RelErr rnd u) (hsq : SqrtErr sq u) {B : ℝ} (l : List (ℝ × ℝ)) (hl : l ≠ []) (hn : 55 * ((l.length : ℝ) + 2) * u ≤ 1)
    (hb : ∀ p ∈ l, |p.1| ≤ B ∧ |p.2| ≤ B) (hv : 0 ≤ (moments rnd l).vx ∧ 0 ≤ (moments rnd l).vy) :
    100 * u ≤ 1 ∧ 55 * ((l.length : ℝ) + 2) * (u * B ^ 2) ≤ B ^ 2 ∧
    |(moments rnd l).vx - pvar (l.map Prod.fst)| ≤ 55 * ((l.length : ℝ) + 2) * (u * B ^ 2) ∧
    |(moments rnd l).vy - pvar (l.map Prod.snd)| ≤ 55 * ((l.length : ℝ) + 2) * (u * B ^ 2) ∧
    |(moments rnd l).cov - pcov l| ≤ 55 * ((l.length : ℝ) + 2) * (u * B ^ 2) ∧
    |sq (moments rnd l).vx ^ 2 - (moments rnd l).vx| ≤ 6 * (u * B ^ 2) ∧ |sq (moments rnd l).vy ^ 2 - (moments rnd l).vy| ≤ 6 * (u * B ^ 2) ∧
    sq (moments rnd l).vx ^ 2 ≤ 21 / 10 * B ^ 2 ∧ sq (moments rnd l).vy ^ 2 ≤ 21 / 10 * B ^ 2 ∧ |(moments rnd l).cov| ≤ 2 * B ^ 2 ∧
    |(moments rnd l).mx - (moments rnd l).my - (mean (l.map Prod.fst) - mean (l.map Prod.snd))| ≤ 10 * ((l.length : ℝ) + 1) * (u * B) ∧
    |mean (l.map Prod.fst) - mean (l.map Prod.snd)| ≤ 2 * B ∧ 4 * (10 * ((l.length : ℝ) + 1) * (u * B)) ≤ B := by
  have hu0 := h.nonneg
  have hlen : (1 : ℝ) ≤ (l.length : ℝ) := by
    have : 1 ≤ l.length := List.length_pos_iff.2 hl
    exact_mod_cast this
  obtain ⟨q, hq⟩ := List.exists_mem_of_ne_nil l hl
  have hB : 0 ≤ B := (abs_nonneg _).trans (hb q hq).1
  have hBB : 0 ≤ B ^ 2 := by positivity
  have hu : 100 * u ≤ 1 := by
    have : 55 * (1 + 2) * u ≤ 55 * ((l.length : ℝ) + 2) * u := mul_le_mul_of_nonneg_right (by linarith) hu0
    linarith
  have hn5 : 5 * ((l.length : ℝ) + 1) * u ≤ 1 := by
    have : 5 * ((l.length : ℝ) + 1) * u ≤ 55 * ((l.length : ℝ) + 2) * u := mul_le_mul_of_nonneg_right (by linarith) hu0
    linarith
  have hE : 55 * ((l.length : ℝ) + 2) * (u * B ^ 2) ≤ B ^ 2 := by
    have := mul_le_mul_of_nonneg_right hn hBB
    linarith
  obtain ⟨m1, m2, m3, m4, m5⟩ := moments_err h l hl hn5 hb
  have pv1 := pvar_le l hl Prod.fst B (fun p hp => (hb p hp).1)
  have pv2 := pvar_le l hl Prod.snd B (fun p hp => (hb p hp).2)
  have pc : |pcov l| ≤ B ^ 2 := by
    refine (Pairwise.abs_pcov_le l).trans ?_
    have s1 : Real.sqrt (pvar (l.map Prod.fst)) ≤ B := Real.sqrt_le_iff.2 ⟨hB, pv1⟩
    have s2 : Real.sqrt (pvar (l.map Prod.snd)) ≤ B := Real.sqrt_le_iff.2 ⟨hB, pv2⟩
    rw [pow_two]
    exact mul_le_mul s1 s2 (Real.sqrt_nonneg _) hB
  have vx2 : (moments rnd l).vx ≤ 2 * B ^ 2 := by
    have := (abs_le.1 m3).2
    linarith
  have vy2 : (moments rnd l).vy ≤ 2 * B ^ 2 := by
    have := (abs_le.1 m4).2
    linarith
  have r1 := root_step hsq hu0 hu hv.1
  have r2 := root_step hsq hu0 hu hv.2
  have g1 := mul_le_mul_of_nonneg_left vx2 hu0
  have g2 := mul_le_mul_of_nonneg_left vy2 hu0
  have r1' : |sq (moments rnd l).vx ^ 2 - (moments rnd l).vx| ≤ 6 * (u * B ^ 2) := r1.trans (by linarith)
  have r2' : |sq (moments rnd l).vy ^ 2 - (moments rnd l).vy| ≤ 6 * (u * B ^ 2) := r2.trans (by linarith)
  have huB : 100 * (u * B ^ 2) ≤ B ^ 2 := by
    have := mul_le_mul_of_nonneg_right hu hBB
    linarith
  have mB : ∀ f : ℝ × ℝ → ℝ, (∀ p ∈ l, |f p| ≤ B) → |mean (l.map f)| ≤ B := by
    intro f hf
    exact mean_abs_le l hl f B hf
  refine ⟨hu, hE, m3, m4, m5, r1', r2', ?_, ?_, ?_, ?_, ?_, ?_⟩
  · have := (abs_le.1 r1').2
    linarith
  · have := (abs_le.1 r2').2
    linarith
  · have := abs_add_le ((moments rnd l).cov - pcov l) (pcov l)
    rw [sub_add_cancel] at this
    linarith
  · have e : (moments rnd l).mx - (moments rnd l).my - (mean (l.map Prod.fst) - mean (l.map Prod.snd)) =
        ((moments rnd l).mx - mean (l.map Prod.fst)) - ((moments rnd l).my - mean (l.map Prod.snd)) := by ring
    rw [e]
    exact (abs_sub _ _).trans (by linarith)
  · have a1 := mB Prod.fst (fun p hp => (hb p hp).1)
    have a2 := mB Prod.snd (fun p hp => (hb p hp).2)
    exact (abs_sub _ _).trans (by linarith)
  · have a1 := mul_le_mul_of_nonneg_right hn hB
    have uB : 0 ≤ u * B := mul_nonneg hu0 hB
    have a2 : 0 ≤ (l.length : ℝ) * (u * B) := by positivity
    linarith

/-! ### The sum -/

/-- **C129.** The sum of the components: for `n` pairs of values of at most `B` it is never more than `287 (n + 2) u B²` below the mean squared
difference, and never more than that above it if the stored correlation component is positive - however small the variances are (`u` = 2^-53 in double
precision). -/
theorem mse_total_accuracy (h : RelErr rnd u) (hsq : SqrtErr sq u) {B : ℝ} (l : List (ℝ × ℝ)) (hl : l ≠ []) (hn : 55 * ((l.length : ℝ) + 2) * u ≤ 1)
    (hb : ∀ p ∈ l, |p.1| ≤ B ∧ |p.2| ≤ B) (hv : 0 ≤ (moments rnd l).vx ∧ 0 ≤ (moments rnd l).vy) :
    Pairwise.meanSqDiff l - 287 * ((l.length : ℝ) + 2) * (u * B ^ 2) ≤ (mseDecomposition rnd sq l).1 ∧
    (0 < (mseDecomposition rnd sq l).2.1 →
      (mseDecomposition rnd sq l).1 ≤ Pairwise.meanSqDiff l + 287 * ((l.length : ℝ) + 2) * (u * B ^ 2)) := by
  obtain ⟨hu, hE, m3, m4, m5, r1, r2, ha2, hb2, hc, hd, hd2, hd4⟩ := parts_base h hsq l hl hn hb hv
  have ha := (hsq _ hv.1).1
  have hb' := (hsq _ hv.2).1
  have hu0 := h.nonneg
  have hlen : (0 : ℝ) ≤ (l.length : ℝ) := Nat.cast_nonneg _
  have hBB : 0 ≤ B ^ 2 := by positivity
  have uBB : 0 ≤ u * B ^ 2 := mul_nonneg hu0 hBB
  have nuBB : 0 ≤ (l.length : ℝ) * (u * B ^ 2) := mul_nonneg hlen uBB
  rw [Pairwise.meanSqDiff_decomp l hl]
  change _ ≤ rnd (rnd (mseCorr rnd sq (moments rnd l) + mseVar rnd sq (moments rnd l)) + mseBiasFromMoments rnd (moments rnd l)) ∧
    (0 < mseCorr rnd sq (moments rnd l) →
      rnd (rnd (mseCorr rnd sq (moments rnd l) + mseVar rnd sq (moments rnd l)) + mseBiasFromMoments rnd (moments rnd l)) ≤ _)
  set m := moments rnd l
  have c1 := corr_step h hu ha hb' ha2 hb2 hc
  obtain ⟨v1, v2⟩ := var_step h hu ha hb' ha2 hb2
  have b1 := bias_step h hu hd2 hd hd4
  have b2 : 46 / 10 * (10 * ((l.length : ℝ) + 1) * (u * B) * B) + 16 * (u * B ^ 2) = 46 * ((l.length : ℝ) * (u * B ^ 2)) + 62 * (u * B ^ 2) := by ring
  rw [b2] at b1
  set z := rnd (rnd (rnd (2 * sq m.vx) * sq m.vy) - rnd (2 * m.cov)) with hz
  have hcorr : mseCorr rnd sq m = max z 0 := rfl
  have hvar : mseVar rnd sq m = rnd (rnd (sq m.vx - sq m.vy) * rnd (sq m.vx - sq m.vy)) := rfl
  have hbias : mseBiasFromMoments rnd m = rnd (rnd (m.mx - m.my) * rnd (m.mx - m.my)) := rfl
  set V := mseVar rnd sq m
  set D := mseBiasFromMoments rnd m
  set δ := mean (l.map Prod.fst) - mean (l.map Prod.snd)
  rw [← hvar] at v1
  rw [← hbias] at b1
  -- sizes
  have hab0 : 0 ≤ sq m.vx * sq m.vy := mul_nonneg ha hb'
  have hab : sq m.vx * sq m.vy ≤ 21 / 10 * B ^ 2 := by
    have := two_mul_le_add_sq (sq m.vx) (sq m.vy)
    linarith
  have huB : 100 * (u * B ^ 2) ≤ B ^ 2 := by
    have := mul_le_mul_of_nonneg_right hu hBB
    linarith
  obtain ⟨c2, c3⟩ := abs_le.1 c1
  obtain ⟨k1, k2⟩ := abs_le.1 hc
  have zB : |max z 0| ≤ 844 / 100 * B ^ 2 := by
    rw [abs_of_nonneg (le_max_right _ _)]
    refine max_le ?_ (by linarith)
    linarith
  obtain ⟨v3, v4⟩ := abs_le.1 v1
  have v0 := sq_nonneg (sq m.vx - sq m.vy)
  have VB : |V| ≤ 22 / 10 * B ^ 2 := by
    rw [abs_le]
    constructor <;> linarith
  obtain ⟨b3, b4⟩ := abs_le.1 b1
  have δ0 := sq_nonneg δ
  have δ4 : δ ^ 2 ≤ 4 * B ^ 2 := by
    rw [← sq_abs δ]
    exact (pow_le_pow_left₀ (abs_nonneg _) hd2 2).trans (le_of_eq (by ring))
  have hE' : 55 * ((l.length : ℝ) * (u * B ^ 2)) + 110 * (u * B ^ 2) ≤ B ^ 2 := by linarith
  have DB : |D| ≤ 5 * B ^ 2 := by
    rw [abs_le]
    constructor <;> linarith
  -- sum
  have s1 := sum3_step h hu (a := max z 0) (b := V) (c := D)
  have s2 := mul_le_mul_of_nonneg_left (add_le_add zB VB) hu0
  have s3 := mul_le_mul_of_nonneg_left DB hu0
  rw [hcorr]
  have s4 : |rnd (rnd (max z 0 + V) + D) - (max z 0 + V + D)| ≤ 27 * (u * B ^ 2) := by
    refine s1.trans ?_
    norm_num
    linarith
  obtain ⟨s5, s6⟩ := abs_le.1 s4
  obtain ⟨r3, r4⟩ := abs_le.1 r1
  obtain ⟨r5, r6⟩ := abs_le.1 r2
  obtain ⟨x1, x2⟩ := abs_le.1 m3
  obtain ⟨y1, y2⟩ := abs_le.1 m4
  obtain ⟨z1, z2⟩ := abs_le.1 m5
  have sqe : (sq m.vx - sq m.vy) ^ 2 = sq m.vx ^ 2 + sq m.vy ^ 2 - 2 * (sq m.vx * sq m.vy) := by ring
  constructor
  · have := le_max_left z 0
    linarith
  · intro hpos
    have : max z 0 = z := by
      rcases le_total z 0 with hz0 | hz0
      · rw [max_eq_right hz0] at hpos
        exact absurd hpos (lt_irrefl _)
      · exact max_eq_left hz0
    rw [this] at s6
    rw [this]
    linarith

/-! ### The components -/

/-- roots of close numbers, one of them at least σ² -/
theorem sqrt_close {v v' E σ : ℝ} (hσ : 0 < σ) (hv : σ ^ 2 ≤ v) (hv' : 0 ≤ v') (h : |v' - v| ≤ E) : |Real.sqrt v' - Real.sqrt v| ≤ E / σ := by
  have hs : σ ≤ Real.sqrt v := Real.le_sqrt_of_sq_le hv
  have hs' := Real.sqrt_nonneg v'
  have hv0 : 0 ≤ v := (sq_nonneg σ).trans hv
  rw [le_div_iff₀ hσ]
  have e : (Real.sqrt v' - Real.sqrt v) * (Real.sqrt v' + Real.sqrt v) = v' - v := by
    have h1 := Real.mul_self_sqrt hv0
    have h2 := Real.mul_self_sqrt hv'
    linear_combination h2 - h1
  have e2 : |Real.sqrt v' - Real.sqrt v| * (Real.sqrt v' + Real.sqrt v) = |v' - v| := by
    rw [← e, abs_mul, abs_of_nonneg (by linarith : 0 ≤ Real.sqrt v' + Real.sqrt v)]
  have := mul_le_mul_of_nonneg_left (by linarith : σ ≤ Real.sqrt v' + Real.sqrt v) (abs_nonneg (Real.sqrt v' - Real.sqrt v))
  linarith

theorem max_zero_err {z c d : ℝ} (hc : 0 ≤ c) (h : |z - c| ≤ d) : |max z 0 - c| ≤ d := by
  refine le_trans ?_ h
  rcases le_total z 0 with hz | hz
  · rw [max_eq_right hz, abs_of_nonpos (by linarith), abs_of_nonpos (by linarith)]
    linarith
  · rw [max_eq_left hz]

/-- **C129.** The components: for values of at most `B` and standard deviations of at least `σ`, the correlation component is off by at most
`420 (n + 2) u B³ / σ`, the variance component by at most `300 (n + 2) u B³ / σ`, the bias component by at most `46 (n + 2) u B²`. -/
theorem mse_parts_accuracy (h : RelErr rnd u) (hsq : SqrtErr sq u) {B σ : ℝ} (l : List (ℝ × ℝ)) (hl : l ≠ []) (hn : 55 * ((l.length : ℝ) + 2) * u ≤ 1)
    (hb : ∀ p ∈ l, |p.1| ≤ B ∧ |p.2| ≤ B) (hv : 0 ≤ (moments rnd l).vx ∧ 0 ≤ (moments rnd l).vy) (hσ : 0 < σ) (hx : σ ^ 2 ≤ pvar (l.map Prod.fst))
    (hy : σ ^ 2 ≤ pvar (l.map Prod.snd)) :
    |(mseDecomposition rnd sq l).2.1 - corrPart l| ≤ 420 * ((l.length : ℝ) + 2) * (u * B ^ 2) * (B / σ) ∧
    |(mseDecomposition rnd sq l).2.2.1 - biasPart l| ≤ 46 * ((l.length : ℝ) + 2) * (u * B ^ 2) ∧
    |(mseDecomposition rnd sq l).2.2.2 - varPart l| ≤ 300 * ((l.length : ℝ) + 2) * (u * B ^ 2) * (B / σ) := by
  obtain ⟨hu, hE, m3, m4, m5, r1, r2, ha2, hb2, hc, hd, hd2, hd4⟩ := parts_base h hsq l hl hn hb hv
  obtain ⟨ha, ra⟩ := hsq _ hv.1
  obtain ⟨hb', rb⟩ := hsq _ hv.2
  have hu0 := h.nonneg
  have hlen : (0 : ℝ) ≤ (l.length : ℝ) := Nat.cast_nonneg _
  obtain ⟨q, hq⟩ := List.exists_mem_of_ne_nil l hl
  have hB : 0 ≤ B := (abs_nonneg _).trans (hb q hq).1
  have hBB : 0 ≤ B ^ 2 := by positivity
  have uBB : 0 ≤ u * B ^ 2 := mul_nonneg hu0 hBB
  have nuBB : 0 ≤ (l.length : ℝ) * (u * B ^ 2) := mul_nonneg hlen uBB
  have pv1 := pvar_le l hl Prod.fst B (fun p hp => (hb p hp).1)
  have pv2 := pvar_le l hl Prod.snd B (fun p hp => (hb p hp).2)
  have hσB : σ ≤ B := (abs_le_of_sq_le_sq' (hx.trans pv1) hB).2
  have hBσ : 1 ≤ B / σ := (one_le_div hσ).2 hσB
  change |mseCorr rnd sq (moments rnd l) - _| ≤ _ ∧ |mseBiasFromMoments rnd (moments rnd l) - _| ≤ _ ∧ |mseVar rnd sq (moments rnd l) - _| ≤ _
  have c1 := corr_step h hu ha hb' ha2 hb2 hc
  obtain ⟨v1, v2⟩ := var_step h hu ha hb' ha2 hb2
  have b1 := bias_step h hu hd2 hd hd4
  have hpc := Pairwise.abs_pcov_le l
  have sx1 : Real.sqrt (pvar (l.map Prod.fst)) ≤ B := Real.sqrt_le_iff.2 ⟨hB, pv1⟩
  have sy1 : Real.sqrt (pvar (l.map Prod.snd)) ≤ B := Real.sqrt_le_iff.2 ⟨hB, pv2⟩
  have qx := sqrt_close hσ hx hv.1 m3
  have qy := sqrt_close hσ hy hv.2 m4
  have vx2 : (moments rnd l).vx ≤ 2 * B ^ 2 := by
    have := (abs_le.1 m3).2
    linarith
  have vy2 : (moments rnd l).vy ≤ 2 * B ^ 2 := by
    have := (abs_le.1 m4).2
    linarith
  unfold corrPart varPart biasPart
  set m := moments rnd l
  set N := (l.length : ℝ) + 2 with hN
  set sx := Real.sqrt (pvar (l.map Prod.fst))
  set sy := Real.sqrt (pvar (l.map Prod.snd))
  have sx0 : 0 ≤ sx := Real.sqrt_nonneg _
  have sy0 : 0 ≤ sy := Real.sqrt_nonneg _
  have hN3 : 2 ≤ N := by linarith
  -- the bound of the standard deviations
  set F := 56 * N * (u * B) * (B / σ) with hF
  have uB : 0 ≤ u * B := mul_nonneg hu0 hB
  have hEF : 55 * N * (u * B ^ 2) / σ = 55 * N * (u * B) * (B / σ) := by
    field_simp
  have hroot : ∀ v s : ℝ, 0 ≤ v → v ≤ 2 * B ^ 2 → |sq v - Real.sqrt v| ≤ u * Real.sqrt v → |Real.sqrt v - s| ≤ 55 * N * (u * B ^ 2) / σ → |sq v - s| ≤ F := by
    intro v s h0 h2 h3 h4
    have t : Real.sqrt v ≤ 2 * B := by
      refine Real.sqrt_le_iff.2 ⟨by linarith, h2.trans ?_⟩
      linarith [show (2 * B) ^ 2 = 4 * B ^ 2 by ring]
    have t2 := mul_le_mul_of_nonneg_left t hu0
    refine (abs_tri _ (Real.sqrt v) _).trans ?_
    rw [hEF] at h4
    have t3 : 2 * (u * B) * 1 ≤ N * (u * B) * (B / σ) :=
      mul_le_mul (mul_le_mul_of_nonneg_right hN3 uB) hBσ zero_le_one (mul_nonneg (by linarith) uB)
    linarith [show F = 55 * N * (u * B) * (B / σ) + N * (u * B) * (B / σ) by rw [hF]; ring]
  have ea := hroot m.vx sx hv.1 vx2 ra qx
  have eb := hroot m.vy sy hv.2 vy2 rb qy
  have hF0 : 0 ≤ F := (abs_nonneg _).trans ea
  have hFB : F * B = 56 * N * (u * B ^ 2) * (B / σ) := by rw [hF]; ring
  have aB : sq m.vx ≤ 3 / 2 * B := by
    refine abs_le_of_sq_le_sq' ?_ (by linarith) |>.2
    linarith [show (3 / 2 * B) ^ 2 = 9 / 4 * B ^ 2 by ring]
  have bB : sq m.vy ≤ 3 / 2 * B := by
    refine abs_le_of_sq_le_sq' ?_ (by linarith) |>.2
    linarith [show (3 / 2 * B) ^ 2 = 9 / 4 * B ^ 2 by ring]
  have big : ∀ k : ℝ, 0 ≤ k → k * (u * B ^ 2) ≤ k / 2 * N * (u * B ^ 2) * (B / σ) := by
    intro k hk
    have t1 : k * (u * B ^ 2) ≤ k / 2 * N * (u * B ^ 2) := by
      refine mul_le_mul_of_nonneg_right ?_ uBB
      have := mul_le_mul_of_nonneg_left hN3 hk
      linarith
    have t2 : k / 2 * N * (u * B ^ 2) * 1 ≤ k / 2 * N * (u * B ^ 2) * (B / σ) :=
      mul_le_mul_of_nonneg_left hBσ (mul_nonneg (mul_nonneg (by linarith) (by linarith)) uBB)
    linarith
  have bigE : 55 * N * (u * B ^ 2) ≤ 55 * N * (u * B ^ 2) * (B / σ) := by
    have : 55 * N * (u * B ^ 2) * 1 ≤ 55 * N * (u * B ^ 2) * (B / σ) :=
      mul_le_mul_of_nonneg_left hBσ (mul_nonneg (by linarith) uBB)
    linarith
  refine ⟨?_, ?_, ?_⟩
  · refine max_zero_err (by linarith [(abs_le.1 hpc).2]) ?_
    have p1 : |sq m.vx * sq m.vy - sx * sy| ≤ 5 / 2 * (F * B) := by
      have e : sq m.vx * sq m.vy - sx * sy = (sq m.vx - sx) * sq m.vy + sx * (sq m.vy - sy) := by ring
      rw [e]
      refine (abs_add_le _ _).trans ?_
      rw [abs_mul, abs_mul, abs_of_nonneg hb', abs_of_nonneg sx0]
      have t1 := mul_le_mul ea bB hb' hF0
      have t2 := mul_le_mul sx1 eb (abs_nonneg _) hB
      linarith
    obtain ⟨p2, p3⟩ := abs_le.1 p1
    obtain ⟨c2, c3⟩ := abs_le.1 c1
    obtain ⟨z1, z2⟩ := abs_le.1 m5
    have := big 23 (by norm_num)
    rw [abs_le]
    constructor <;> linarith
  · refine b1.trans ?_
    have : 46 / 10 * (10 * ((l.length : ℝ) + 1) * (u * B) * B) + 16 * (u * B ^ 2) = 46 * ((l.length : ℝ) * (u * B ^ 2)) + 62 * (u * B ^ 2) := by ring
    rw [this, hN]
    linarith
  · have p1 : |(sq m.vx - sq m.vy) ^ 2 - (sx - sy) ^ 2| ≤ 5 * (F * B) := by
      have e : (sq m.vx - sq m.vy) ^ 2 - (sx - sy) ^ 2 = ((sq m.vx - sx) - (sq m.vy - sy)) * ((sq m.vx - sq m.vy) + (sx - sy)) := by ring
      rw [e, abs_mul]
      have t1 : |(sq m.vx - sx) - (sq m.vy - sy)| ≤ 2 * F := (abs_sub _ _).trans (by linarith)
      have t2 : |(sq m.vx - sq m.vy) + (sx - sy)| ≤ 5 / 2 * B := by
        rw [abs_le]
        constructor <;> linarith
      refine (mul_le_mul t1 t2 (abs_nonneg _) (by linarith)).trans (le_of_eq (by ring))
    have := big (84 / 10) (by norm_num)
    have b0 : 0 ≤ N * (u * B ^ 2) * (B / σ) := mul_nonneg (mul_nonneg (by linarith) uBB) (by linarith)
    refine (abs_tri _ ((sq m.vx - sq m.vy) ^ 2) _).trans ?_
    change |rnd (rnd (sq m.vx - sq m.vy) * rnd (sq m.vx - sq m.vy)) - _| + _ ≤ _
    linarith

/-- **C129.** With standard deviations of at least `σ` the sum is within `360 (n + 2) u B³ / σ` of the mean squared difference, also where the correlation
component was cut off at 0. -/
theorem mse_total_two_sided (h : RelErr rnd u) (hsq : SqrtErr sq u) {B σ : ℝ} (l : List (ℝ × ℝ)) (hl : l ≠ []) (hn : 55 * ((l.length : ℝ) + 2) * u ≤ 1)
    (hb : ∀ p ∈ l, |p.1| ≤ B ∧ |p.2| ≤ B) (hv : 0 ≤ (moments rnd l).vx ∧ 0 ≤ (moments rnd l).vy) (hσ : 0 < σ) (hx : σ ^ 2 ≤ pvar (l.map Prod.fst))
    (hy : σ ^ 2 ≤ pvar (l.map Prod.snd)) :
    |(mseDecomposition rnd sq l).1 - Pairwise.meanSqDiff l| ≤ 360 * ((l.length : ℝ) + 2) * (u * B ^ 2) * (B / σ) := by
  obtain ⟨t1, t2⟩ := mse_total_accuracy h hsq l hl hn hb hv
  obtain ⟨p1, p2, p3⟩ := mse_parts_accuracy h hsq l hl hn hb hv hσ hx hy
  have hu0 := h.nonneg
  obtain ⟨q, hq⟩ := List.exists_mem_of_ne_nil l hl
  have hB : 0 ≤ B := (abs_nonneg _).trans (hb q hq).1
  have hlen : (1 : ℝ) ≤ (l.length : ℝ) := by
    have : 1 ≤ l.length := List.length_pos_iff.2 hl
    exact_mod_cast this
  have hBB : 0 ≤ B ^ 2 := by positivity
  have uBB : 0 ≤ u * B ^ 2 := mul_nonneg hu0 hBB
  have pv1 := pvar_le l hl Prod.fst B (fun p hp => (hb p hp).1)
  have pv2 := pvar_le l hl Prod.snd B (fun p hp => (hb p hp).2)
  have hσB : σ ≤ B := (abs_le_of_sq_le_sq' (hx.trans pv1) hB).2
  have hBσ : 1 ≤ B / σ := (one_le_div hσ).2 hσB
  have hu : 100 * u ≤ 1 := by
    have : 55 * (1 + 2) * u ≤ 55 * ((l.length : ℝ) + 2) * u := mul_le_mul_of_nonneg_right (by linarith) hu0
    linarith
  have hx0 : 0 ≤ ((l.length : ℝ) + 2) * (u * B ^ 2) := mul_nonneg (by linarith) uBB
  have hx1 : ((l.length : ℝ) + 2) * (u * B ^ 2) ≤ ((l.length : ℝ) + 2) * (u * B ^ 2) * (B / σ) := le_mul_of_one_le_right hx0 hBσ
  have hN3 : 3 * (u * B ^ 2) ≤ ((l.length : ℝ) + 2) * (u * B ^ 2) := mul_le_mul_of_nonneg_right (by linarith) uBB
  have huB : 100 * (u * B ^ 2) ≤ B ^ 2 := by
    have := mul_le_mul_of_nonneg_right hu hBB
    linarith
  by_cases hpos : 0 < (mseDecomposition rnd sq l).2.1
  · have := t2 hpos
    rw [abs_le]
    constructor <;> linarith
  · -- cut off
    have e0 : (mseDecomposition rnd sq l).2.1 = 0 := le_antisymm (not_lt.1 hpos) (le_max_right _ _)
    have e1 : (mseDecomposition rnd sq l).1 =
        rnd (rnd ((mseDecomposition rnd sq l).2.1 + (mseDecomposition rnd sq l).2.2.2) + (mseDecomposition rnd sq l).2.2.1) := rfl
    have s1 := sum3_step h hu (a := (mseDecomposition rnd sq l).2.1) (b := (mseDecomposition rnd sq l).2.2.2) (c := (mseDecomposition rnd sq l).2.2.1)
    rw [← e1, e0] at s1
    obtain ⟨-, -, -, -, -, -, -, -, -, -, -, hd2, -⟩ := parts_base h hsq l hl hn hb hv
    have hdec := Pairwise.meanSqDiff_decomp l hl
    have hpc := (abs_le.1 (Pairwise.abs_pcov_le l)).2
    have sx0 := Real.sqrt_nonneg (pvar (l.map Prod.fst))
    have sy0 := Real.sqrt_nonneg (pvar (l.map Prod.snd))
    have vx0 : 0 ≤ pvar (l.map Prod.fst) := (sq_nonneg σ).trans hx
    have vy0 : 0 ≤ pvar (l.map Prod.snd) := (sq_nonneg σ).trans hy
    have hvp : varPart l ≤ B ^ 2 := sq_sub_le sx0 sy0 ((Real.sq_sqrt vx0).trans_le pv1) ((Real.sq_sqrt vy0).trans_le pv2)
    have hvp0 : 0 ≤ varPart l := sq_nonneg _
    have hbp0 : 0 ≤ biasPart l := sq_nonneg _
    have hbp : biasPart l ≤ 4 * B ^ 2 := by
      unfold biasPart
      rw [← sq_abs]
      exact (pow_le_pow_left₀ (abs_nonneg _) hd2 2).trans (le_of_eq (by ring))
    have hcp : 0 ≤ corrPart l := by
      unfold corrPart
      linarith
    have hsum : Pairwise.meanSqDiff l = corrPart l + varPart l + biasPart l := by
      rw [hdec]
      unfold corrPart varPart biasPart
      have h1 := Real.sq_sqrt vx0
      have h2 := Real.sq_sqrt vy0
      linear_combination -h1 - h2
    have V0 : 0 ≤ |(mseDecomposition rnd sq l).2.2.2| := abs_nonneg _
    set V := (mseDecomposition rnd sq l).2.2.2
    set D := (mseDecomposition rnd sq l).2.2.1
    set X := ((l.length : ℝ) + 2) * (u * B ^ 2)
    set Y := X * (B / σ)
    have hXB : 55 * X ≤ B ^ 2 := by
      have := mul_le_mul_of_nonneg_right hn hBB
      linarith [show 55 * ((l.length : ℝ) + 2) * u * B ^ 2 = 55 * X by ring]
    have p2' : |D - biasPart l| ≤ 46 * X := p2.trans (le_of_eq (by ring))
    have p3' : |V - varPart l| ≤ 300 * Y := p3.trans (le_of_eq (by ring))
    obtain ⟨d1, d2⟩ := abs_le.1 p2'
    obtain ⟨v1, v2⟩ := abs_le.1 p3'
    have hY0 : 0 ≤ Y := hx0.trans hx1
    have aV : |V| ≤ B ^ 2 + 300 * Y := by
      rw [abs_le]
      constructor <;> linarith
    have aD : |D| ≤ 5 * B ^ 2 := by
      rw [abs_le]
      constructor <;> linarith
    have uV := mul_le_mul_of_nonneg_left aV hu0
    have uD := mul_le_mul_of_nonneg_left aD hu0
    have uY : u * Y ≤ 1 / 165 * Y := mul_le_mul_of_nonneg_right (by
      have : 55 * (1 + 2) * u ≤ 55 * ((l.length : ℝ) + 2) * u := mul_le_mul_of_nonneg_right (by linarith) hu0
      linarith) hY0
    rw [abs_zero, zero_add, zero_add] at s1
    norm_num at s1
    obtain ⟨s2, s3⟩ := abs_le.1 s1
    have g : 360 * ((l.length : ℝ) + 2) * (u * B ^ 2) * (B / σ) = 360 * Y := by ring
    rw [g]
    have g2 : 287 * ((l.length : ℝ) + 2) * (u * B ^ 2) = 287 * X := by ring
    rw [g2] at t1
    rw [abs_le]
    constructor
    · linarith
    · linarith

/-- **C129.** On a machine that keeps the order and its own numbers, variances are never negative, so that the bounds hold for all stored data. -/
theorem mse_total_machine (h : Machine rnd u) (hsq : SqrtErr sq u) {B : ℝ} (l : List (ℝ × ℝ)) (hl : l ≠ []) (hs : Stored rnd l)
    (hn : 55 * ((l.length : ℝ) + 2) * u ≤ 1) (hb : ∀ p ∈ l, |p.1| ≤ B ∧ |p.2| ≤ B) :
    Pairwise.meanSqDiff l - 287 * ((l.length : ℝ) + 2) * (u * B ^ 2) ≤ (mseDecomposition rnd sq l).1 ∧
    (0 < (mseDecomposition rnd sq l).2.1 →
      (mseDecomposition rnd sq l).1 ≤ Pairwise.meanSqDiff l + 287 * ((l.length : ℝ) + 2) * (u * B ^ 2)) :=
  mse_total_accuracy h.err hsq l hl hn hb (variance_nonneg h l hs)

end

/-! ### Cases -/

theorem long_root : SqrtErr (fun v => Real.sqrt v * (1 + 1 / 1000)) (1 / 1000) := by
  intro v _
  refine ⟨by positivity, ?_⟩
  rw [show Real.sqrt v * (1 + 1 / 1000) - Real.sqrt v = 1 / 1000 * Real.sqrt v by ring, abs_of_nonneg (by positivity)]

theorem exact_machine : Machine (fun x : ℝ => x) (1 / 1000) :=
  ⟨⟨by norm_num, fun x => by simp⟩, by norm_num, fun _ _ hxy => hxy, fun _ => rfl, fun _ => rfl⟩

/-- roots that are 0.1% too long -/
example := mse_total_machine exact_machine long_root (B := 4) [(0, 4), (2, 2), (4, -1)] (by simp) (by intro p _; exact ⟨rfl, rfl⟩) (by norm_num)
  (by intro p hp; simp only [List.mem_cons, List.not_mem_nil, or_false] at hp; rcases hp with rfl | rfl | rfl <;> norm_num)

example := mse_total_two_sided exact_machine.err long_root (B := 4) (σ := 1) [(0, 4), (2, 2), (4, -1)] (by simp) (by norm_num)
  (by intro p hp; simp only [List.mem_cons, List.not_mem_nil, or_false] at hp; rcases hp with rfl | rfl | rfl <;> norm_num)
  (variance_nonneg exact_machine _ (by intro p _; exact ⟨rfl, rfl⟩)) one_pos (by norm_num [pvar, mean]) (by norm_num [pvar, mean])

example := mse_parts_accuracy exact_machine.err long_root (B := 4) (σ := 1) [(0, 4), (2, 2), (4, -1)] (by simp) (by norm_num)
  (by intro p hp; simp only [List.mem_cons, List.not_mem_nil, or_false] at hp; rcases hp with rfl | rfl | rfl <;> norm_num)
  (variance_nonneg exact_machine _ (by intro p _; exact ⟨rfl, rfl⟩)) one_pos (by norm_num [pvar, mean]) (by norm_num [pvar, mean])

end Verif.Rounding
