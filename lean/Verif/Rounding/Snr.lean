import Verif.Rounding.ScalingAccuracy
import Mathlib.Analysis.SpecialFunctions.Log.Base
import Mathlib.Analysis.Complex.ExponentialBounds

/-!
C128: the signal-to-noise ratio of `tcol_metrics` with a rounding after every operation (`src/pytesmo/metrics/tcol.py:112-126`), against the exact one.
-/

namespace Verif.Rounding

open Moments (mean S)

section Field

variable {K : Type} [Field K] [LinearOrder K] [IsStrictOrderedRing K]

/-- tcol.py:116-123: the distance of the ratio of covariances from 1 -/
def Arith.snrDist (A : Arith K) (c : Fin 3 → Fin 3 → K) (i : Fin 3) : K :=
  |A.rnd (|A.rnd (A.rnd (c i i * c (i + 1) (i + 2)) / A.rnd (c i (i + 1) * c i (i + 2)))| - 1)|

/-- tcol.py:112-126 `snr`; `lg` is `np.log10`. A zero denominator or distance gives NaN or infinity, here `none`. -/
def Arith.snr (A : Arith K) (lg : K → K) (c : Fin 3 → Fin 3 → K) (i : Fin 3) : Option K :=
  if A.rnd (c i (i + 1) * c i (i + 2)) = 0 ∨ A.snrDist c i = 0 then none else some (A.rnd (10 * lg (A.rnd (1 / A.snrDist c i))))

/-! ### Specification -/

/-- the ratio of covariances: 1 + noise / signal -/
def covRatio (c : Fin 3 → Fin 3 → K) (i : Fin 3) : K := c i i * c (i + 1) (i + 2) / (c i (i + 1) * c i (i + 2))

/-- its distance from 1: noise / signal -/
def ratioDist (c : Fin 3 → Fin 3 → K) (i : Fin 3) : K := |(|covRatio c i|) - 1|

/-- `np.log10` has a relative error of at most `u` -/
def LogErr (lg : ℝ → ℝ) (u : ℝ) : Prop := ∀ x, 0 < x → |lg x - Real.logb 10 x| ≤ u * |Real.logb 10 x|

/-- the signal-to-noise ratio in dB -/
noncomputable def snrOf (c : Fin 3 → Fin 3 → ℝ) (i : Fin 3) : ℝ := 10 * Real.logb 10 (1 / ratioDist c i)

/-! ### Proofs -/

/-- a rounded product of two covariances -/
theorem two_prod_err {rnd : K → K} {u E G H a b a' b' : K} (h : RelErr rnd u) (hu : 15 * u ≤ 1) (hE : 4 * E ≤ G) (hH : E + u * G ≤ H) (ha : |a| ≤ G)
    (hb : |b| ≤ G) (ha' : |a' - a| ≤ E) (hb' : |b' - b| ≤ E) : |rnd (a' * b') - a * b| ≤ 12 / 5 * (G * H) := by
  have hu0 := h.nonneg
  have hE0 : 0 ≤ E := (abs_nonneg _).trans ha'
  have hG0 : 0 ≤ G := (abs_nonneg _).trans ha
  have a1 : |a' * b' - a * b| ≤ 9 / 4 * (G * E) := by
    have e : a' * b' - a * b = (a' - a) * (b' - b) + (a' - a) * b + a * (b' - b) := by ring
    rw [e]
    refine (abs_add_le _ _).trans ((add_le_add_left (abs_add_le _ _) _).trans ?_)
    rw [abs_mul, abs_mul, abs_mul]
    have m1 := mul_le_mul ha' hb' (abs_nonneg _) hE0
    have m2 := mul_le_mul ha' hb (abs_nonneg _) hE0
    have m3 := mul_le_mul ha hb' (abs_nonneg _) hG0
    have m4 : E * E ≤ 1 / 4 * G * E := mul_le_mul_of_nonneg_right (by linarith) hE0
    linarith
  have b1 : |a * b| ≤ G * G := by
    rw [abs_mul]
    exact mul_le_mul ha hb (abs_nonneg _) hG0
  have hGE : 0 ≤ G * E := by positivity
  refine (rnd_err h a1).trans ?_
  have m1 := mul_le_mul_of_nonneg_left b1 hu0
  have m2 : u * (G * E) ≤ 1 / 15 * (G * E) := mul_le_mul_of_nonneg_right (by linarith) hGE
  have m3 : 0 ≤ u * (G * G) := by positivity
  have m4 := mul_le_mul_of_nonneg_left hH hG0
  linarith

/-- **C128.** The distance of the covariance ratio from 1, from covariances with an error of at most `E`: `G` bounds the covariances, `τ` is a lower bound of
those between different data sets, `H ≥ E + u G`. -/
theorem snrDist_err {A : Arith K} {u E τ G H : K} (h : A.Ok u) (hu : 15 * u ≤ 1) (c c' : Fin 3 → Fin 3 → K) (hc : ∀ i j, |c' i j - c i j| ≤ E) (hτ : 0 < τ)
    (hE : 4 * E ≤ τ) (hd : ∀ i j, i ≠ j → τ ≤ |c i j|) (hG : ∀ i j, |c i j| ≤ G) (hH : E + u * G ≤ H) (hH' : 10 * (G / τ * H) ≤ τ) (i : Fin 3) :
    A.rnd (c' i (i + 1) * c' i (i + 2)) ≠ 0 ∧
      |A.snrDist c' i - ratioDist c i| ≤ 9 * ((G / τ) ^ 3 * (H / τ)) + u * ratioDist c i := by
  have hu0 := h.rel.nonneg
  have hE0 : 0 ≤ E := (abs_nonneg _).trans (hc 0 0)
  have n1 : ∀ i : Fin 3, i ≠ i + 1 := by decide
  have n2 : ∀ i : Fin 3, i ≠ i + 2 := by decide
  have hτG : τ ≤ G := (hd i (i + 1) (n1 i)).trans (hG _ _)
  have hG0 : 0 < G := by linarith
  have hH0 : 0 ≤ H := by
    have := mul_nonneg hu0 hG0.le
    linarith
  have p1 := two_prod_err h.rel hu (by linarith) hH (hG i i) (hG (i + 1) (i + 2)) (hc i i) (hc (i + 1) (i + 2))
  have p2 := two_prod_err h.rel hu (by linarith) hH (hG i (i + 1)) (hG i (i + 2)) (hc i (i + 1)) (hc i (i + 2))
  have hM : τ * τ ≤ |c i (i + 1) * c i (i + 2)| := by
    rw [abs_mul]
    exact mul_le_mul (hd i (i + 1) (n1 i)) (hd i (i + 2) (n2 i)) hτ.le (abs_nonneg _)
  have hGH : 10 * (G * H) ≤ τ * τ := by
    have := mul_le_mul_of_nonneg_right hH' hτ.le
    have e : 10 * (G / τ * H) * τ = 10 * (G * H) := by field_simp
    linarith
  have hττ : 0 < τ * τ := by positivity
  have hN : |c i i * c (i + 1) (i + 2)| ≤ G * G := by
    rw [abs_mul]
    exact mul_le_mul (hG _ _) (hG _ _) (abs_nonneg _) hG0.le
  have hGH0 : 0 ≤ G * H := by positivity
  refine ⟨?_, ?_⟩
  · intro h0
    rw [h0, zero_sub, abs_neg] at p2
    linarith
  have q := quot_err hττ hM (by linarith) p1 p2
  unfold Arith.snrDist ratioDist
  have hR : covRatio c i = c i i * c (i + 1) (i + 2) / (c i (i + 1) * c i (i + 2)) := rfl
  rw [← hR] at q
  set R := covRatio c i
  set r := G / τ with hr
  have hr1 : 1 ≤ r := by rw [hr, le_div_iff₀ hτ]; linarith
  have bR : |R| ≤ r ^ 2 := by
    rw [hR, abs_div, div_le_iff₀ (by linarith)]
    have e : r ^ 2 * (τ * τ) = G * G := by rw [hr]; field_simp
    have := mul_le_mul_of_nonneg_left hM (by positivity : 0 ≤ r ^ 2)
    linarith
  set κ := r ^ 3 * (H / τ) with hκ
  have hHτ : 0 ≤ H / τ := by positivity
  have hκ0 : 0 ≤ κ := by positivity
  have r1 : 1 ≤ r ^ 2 := by nlinarith
  have k1 : G * H / (τ * τ) = r * (H / τ) := by rw [hr]; field_simp
  have k2 : 12 / 5 * (G * H) + 12 / 5 * (G * H) * |R| ≤ 24 / 5 * (G * H * r ^ 2) := by
    have m1 := mul_le_mul_of_nonneg_left bR hGH0
    have m2 := mul_le_mul_of_nonneg_left r1 hGH0
    linarith
  have q2 : |A.rnd (c' i i * c' (i + 1) (i + 2)) / A.rnd (c' i (i + 1) * c' i (i + 2)) - R| ≤ 32 / 5 * κ := by
    refine q.trans ?_
    have m := div_le_div_of_nonneg_right k2 hττ.le
    have e : 24 / 5 * (G * H * r ^ 2) / (τ * τ) = 24 / 5 * κ := by
      have : 24 / 5 * (G * H * r ^ 2) / (τ * τ) = 24 / 5 * (G * H / (τ * τ) * r ^ 2) := by ring
      rw [this, k1, hκ]
      ring
    linarith
  have huκ : u * κ ≤ 1 / 15 * κ := mul_le_mul_of_nonneg_right (by linarith) hκ0
  have huR : u * |R| ≤ κ := by
    have m1 := mul_le_mul_of_nonneg_left bR hu0
    have m2 : u * r ≤ H / τ := by
      rw [hr, le_div_iff₀ hτ]
      have : u * (G / τ) * τ = u * G := by field_simp
      linarith
    have m3 : u * r ^ 2 ≤ r * (H / τ) := by
      have := mul_le_mul_of_nonneg_left m2 (by linarith : 0 ≤ r)
      linarith
    have m4 : 1 * (r * (H / τ)) ≤ r ^ 2 * (r * (H / τ)) := mul_le_mul_of_nonneg_right r1 (by positivity)
    have e : r ^ 2 * (r * (H / τ)) = κ := by rw [hκ]; ring
    linarith
  have q3 : |A.rnd (A.rnd (c' i i * c' (i + 1) (i + 2)) / A.rnd (c' i (i + 1) * c' i (i + 2))) - R| ≤ 8 * κ := by
    have := rnd_err h.rel q2
    linarith
  generalize A.rnd (A.rnd (c' i i * c' (i + 1) (i + 2)) / A.rnd (c' i (i + 1) * c' i (i + 2))) = z at *
  have q4 : |(|z| - 1) - (|R| - 1)| ≤ 8 * κ := by
    rw [sub_sub_sub_cancel_right]
    exact (abs_abs_sub_abs_le z R).trans q3
  have q5 := rnd_err h.rel q4
  refine (abs_abs_sub_abs_le _ _).trans (q5.trans ?_)
  linarith

/-- a bound of the sample covariances -/
theorem sampleCov_le {B : K} (rows : List (Fin 3 → K)) (hl : 2 ≤ rows.length) (i j : Fin 3) (hi : ∀ r ∈ rows, |r i| ≤ B) (hj : ∀ r ∈ rows, |r j| ≤ B) :
    |sampleCov rows i j| ≤ 8 * B ^ 2 := by
  have hlen : (2 : K) ≤ (rows.length : K) := by exact_mod_cast hl
  have hne : rows ≠ [] := by rintro rfl; simp at hl
  have h1 := S_abs_le rows (fun r => (r i - mean (rows.map (fun r => r i))) * (r j - mean (rows.map (fun r => r j)))) (4 * B ^ 2) (by
    intro r hr
    have a1 := mean_abs_le rows hne (fun r => r i) B hi
    have a2 := mean_abs_le rows hne (fun r => r j) B hj
    have a3 : |r i - mean (rows.map (fun r => r i))| ≤ 2 * B := (abs_sub _ _).trans (by linarith [hi r hr])
    have a4 : |r j - mean (rows.map (fun r => r j))| ≤ 2 * B := (abs_sub _ _).trans (by linarith [hj r hr])
    rw [abs_mul]
    refine (mul_le_mul a3 a4 (abs_nonneg _) ((abs_nonneg _).trans a3)).trans (le_of_eq (by ring)))
  unfold sampleCov
  have hn1 : 0 < (rows.length : K) - 1 := by linarith
  rw [abs_div, abs_of_pos hn1, div_le_iff₀ hn1]
  have : 0 ≤ ((rows.length : K) - 2) * B ^ 2 := mul_nonneg (by linarith) (by positivity)
  linarith [h1.1]

end Field

/-- the logarithms of two close numbers -/
theorem log_close {a b e : ℝ} (hb : 0 < b) (he : e ≤ 1 / 2) (h : |a - b| ≤ e * b) : 0 < a ∧ |Real.log a - Real.log b| ≤ 2 * e := by
  obtain ⟨h1, h2⟩ := abs_le.1 h
  have he0 : 0 ≤ e := by
    by_contra hc
    have := mul_neg_of_neg_of_pos (not_le.1 hc) hb
    linarith [abs_nonneg (a - b)]
  have ha : 0 < a := by nlinarith
  refine ⟨ha, ?_⟩
  rw [← Real.log_div ha.ne' hb.ne']
  have u1 : a / b ≤ 1 + e := by rw [div_le_iff₀ hb]; linarith
  have u2 : 1 - e ≤ a / b := by rw [le_div_iff₀ hb]; linarith
  have hq : 0 < a / b := by positivity
  refine abs_le.2 ⟨?_, ?_⟩
  · have := Real.one_sub_inv_le_log_of_pos hq
    have h3 : (a / b)⁻¹ ≤ 1 + 2 * e := by
      rw [inv_le_iff_one_le_mul₀ hq]
      nlinarith
    linarith
  · have := Real.log_le_sub_one_of_pos hq
    linarith

theorem two_le_log_ten : 2 ≤ Real.log 10 := by
  rw [Real.le_log_iff_exp_le (by norm_num)]
  have h1 := Real.exp_one_lt_d9
  have e : Real.exp 2 = Real.exp 1 * Real.exp 1 := by rw [← Real.exp_add]; norm_num
  rw [e]
  have h0 := Real.exp_pos 1
  nlinarith

/-- **C128.** The signal-to-noise ratio from a distance `δ > 0` with an error of at most `k + u δ`. -/
theorem snr_err {A : Arith ℝ} {lg : ℝ → ℝ} {u k δ : ℝ} (h : A.Ok u) (hlg : LogErr lg u) (hu : 15 * u ≤ 1) (c' : Fin 3 → Fin 3 → ℝ) (i : Fin 3)
    (h0 : A.rnd (c' i (i + 1) * c' i (i + 2)) ≠ 0) (hδ : 0 < δ) (hk : 4 * k ≤ δ) (hd : |A.snrDist c' i - δ| ≤ k + u * δ) :
    ∃ s, A.snr lg c' i = some s ∧ |s - 10 * Real.logb 10 (1 / δ)| ≤ 12 * (k / δ) + 25 * u + 3 * u * |10 * Real.logb 10 (1 / δ)| := by
  have hu0 := h.rel.nonneg
  have huδ : u * δ ≤ 1 / 15 * δ := mul_le_mul_of_nonneg_right (by linarith) hδ.le
  have e1 : k + u * δ = (k / δ + u) * δ := by field_simp
  rw [e1] at hd
  have hkd : k / δ ≤ 1 / 4 := by rw [div_le_iff₀ hδ]; linarith
  obtain ⟨d0, d1⟩ := log_close hδ (by linarith) hd
  have hinv : 0 < 1 / A.snrDist c' i := by positivity
  have r1 := h.rel.err (1 / A.snrDist c' i)
  rw [abs_of_pos hinv] at r1
  obtain ⟨v0, v1⟩ := log_close hinv (by linarith) r1
  refine ⟨_, by unfold Arith.snr; rw [if_neg (by simp [h0, d0.ne'])], ?_⟩
  generalize A.rnd (1 / A.snrDist c' i) = v at *
  have l1 : |Real.log v - Real.log (1 / δ)| ≤ 2 * (k / δ + 2 * u) := by
    rw [one_div, Real.log_inv] at v1 ⊢
    have e : Real.log v - -Real.log δ = (Real.log v - -Real.log (A.snrDist c' i)) - (Real.log (A.snrDist c' i) - Real.log δ) := by ring
    rw [e]
    refine (abs_sub _ _).trans ?_
    linarith
  have hlog := two_le_log_ten
  have l2 : |Real.logb 10 v - Real.logb 10 (1 / δ)| ≤ k / δ + 2 * u := by
    unfold Real.logb
    rw [← sub_div, abs_div, abs_of_pos (by linarith : 0 < Real.log 10), div_le_iff₀ (by linarith)]
    have hpos : 0 ≤ k / δ + 2 * u := by linarith [abs_nonneg (Real.log v - Real.log (1 / δ))]
    have := mul_le_mul_of_nonneg_left hlog hpos
    linarith
  have l3 := hlg v v0
  generalize Real.logb 10 (1 / δ) = L at *
  have hL := abs_nonneg L
  have l4 : |Real.logb 10 v| ≤ k / δ + 2 * u + |L| := by
    have := abs_add_le (Real.logb 10 v - L) L
    rw [sub_add_cancel] at this
    linarith
  set g := k / δ + 2 * u with hg
  have hg0 : 0 ≤ g := (abs_nonneg _).trans l2
  have hug : u * g ≤ 1 / 15 * g := mul_le_mul_of_nonneg_right (by linarith) hg0
  have huL : u * (u * |L|) ≤ 1 / 15 * (u * |L|) := mul_le_mul_of_nonneg_right (by linarith) (by positivity)
  have l5 : |lg v - L| ≤ 16 / 15 * g + u * |L| := by
    have m := mul_le_mul_of_nonneg_left l4 hu0
    refine (abs_tri _ (Real.logb 10 v) _).trans ?_
    linarith
  have l6 : |10 * lg v - 10 * L| ≤ 32 / 3 * g + 10 * (u * |L|) := by
    rw [← mul_sub, abs_mul, abs_of_pos (by norm_num : (0 : ℝ) < 10)]
    linarith
  have l7 := rnd_err h.rel l6
  rw [abs_mul, abs_of_pos (by norm_num : (0 : ℝ) < 10)] at l7 ⊢
  have e2 : (32 / 3 * g + 10 * (u * |L|)) * (1 + u) + u * (10 * |L|) = 32 / 3 * g + 32 / 3 * (u * g) + 20 * (u * |L|) + 10 * (u * (u * |L|)) := by ring
  rw [e2] at l7
  have p := mul_nonneg hu0 hL
  have hkk : 0 ≤ k / δ + u := by
    by_contra hc
    have := mul_neg_of_neg_of_pos (not_le.1 hc) hδ
    linarith [abs_nonneg (A.snrDist c' i - δ)]
  linarith

/-- **C128.** The signal-to-noise ratio of `tcol_metrics`: `n` observations, at least two, all values at most `B`, all covariances between different data
sets at least `τ`, `ρ = 8 B² / τ`. If the ratio of noise and signal is at least `540 (n + 2) u ρ⁴`, the error is at most
`1620 (n + 2) u ρ⁴` divided by this ratio, plus a few rounding units (in dB). -/
theorem snr_accuracy_partial {A : Arith ℝ} {lg : ℝ → ℝ} {u B τ ρ : ℝ} (h : A.Ok u) (hlg : LogErr lg u) (rows : List (Fin 3 → ℝ)) (hl : 2 ≤ rows.length)
    (hn : 5 * ((rows.length : ℝ) + 1) * u ≤ 1) (hB : ∀ r ∈ rows, ∀ i, |r i| ≤ B) (hτ : 0 < τ) (hd : ∀ i j, i ≠ j → τ ≤ |sampleCov rows i j|)
    (hρ : ρ = 8 * B ^ 2 / τ) (hE : 150 * ((rows.length : ℝ) + 2) * u * ρ ^ 2 ≤ 1) (i : Fin 3)
    (hδ0 : |covRatio (sampleCov rows) i| ≠ 1) (hδ : 540 * ((rows.length : ℝ) + 2) * u * ρ ^ 4 ≤ ratioDist (sampleCov rows) i) :
    ∃ s, A.snr lg (A.cov rows) i = some s ∧ |s - snrOf (sampleCov rows) i| ≤
      1620 * ((rows.length : ℝ) + 2) * u * ρ ^ 4 / ratioDist (sampleCov rows) i + 25 * u + 3 * u * |snrOf (sampleCov rows) i| := by
  have hu0 := h.rel.nonneg
  have hlen : (2 : ℝ) ≤ (rows.length : ℝ) := by exact_mod_cast hl
  have hu15 : 15 * u ≤ 1 := by nlinarith
  have hne : rows ≠ [] := by rintro rfl; simp at hl
  have hc : ∀ i j, |A.cov rows i j - sampleCov rows i j| ≤ 112 * ((rows.length : ℝ) + 2) * (u * B ^ 2) := fun i j =>
    cov_err h rows hl hn i j (fun r hr => hB r hr i) (fun r hr => hB r hr j)
  have hG : ∀ i j, |sampleCov rows i j| ≤ 8 * B ^ 2 := fun i j => sampleCov_le rows hl i j (fun r hr => hB r hr i) (fun r hr => hB r hr j)
  have hnext : ∀ i : Fin 3, i ≠ i + 1 := by decide
  have hδp : 0 < ratioDist (sampleCov rows) i := abs_pos.2 (sub_ne_zero.2 hδ0)
  have hτB : τ ≤ 8 * B ^ 2 := (hd _ _ (hnext i)).trans (hG _ _)
  have hρ1 : 1 ≤ ρ := by rw [hρ, le_div_iff₀ hτ]; linarith
  have hBρ : 8 * B ^ 2 = ρ * τ := by rw [hρ]; field_simp
  generalize hN : (rows.length : ℝ) = n at *
  set m := (n + 2) * u with hm
  have hm0 : 0 ≤ m := by rw [hm]; exact mul_nonneg (by linarith) hu0
  have e1 : 112 * (n + 2) * (u * B ^ 2) = 14 * (m * ρ) * τ := by
    have : 112 * (n + 2) * (u * B ^ 2) = 14 * m * (8 * B ^ 2) := by rw [hm]; ring
    rw [this, hBρ]; ring
  have hρ2 : m * ρ ≤ m * ρ ^ 2 := mul_le_mul_of_nonneg_left (by nlinarith) hm0
  have hmρ : 150 * (m * ρ ^ 2) ≤ 1 := by rw [hm]; linarith
  have hE4 : 4 * (112 * (n + 2) * (u * B ^ 2)) ≤ τ := by
    rw [e1]
    have : 56 * (m * ρ) * τ ≤ 1 * τ := mul_le_mul_of_nonneg_right (by linarith) hτ.le
    linarith
  have hH : 112 * (n + 2) * (u * B ^ 2) + u * (8 * B ^ 2) ≤ 15 * (m * ρ) * τ := by
    rw [e1, hBρ]
    have : u ≤ m := by rw [hm]; nlinarith
    have := mul_le_mul_of_nonneg_right this (by positivity : 0 ≤ ρ * τ)
    linarith
  have hH' : 10 * (8 * B ^ 2 / τ * (15 * (m * ρ) * τ)) ≤ τ := by
    rw [← hρ]
    have e : 10 * (ρ * (15 * (m * ρ) * τ)) = 150 * (m * ρ ^ 2) * τ := by ring
    rw [e]
    exact (mul_le_mul_of_nonneg_right hmρ hτ.le).trans (le_of_eq (one_mul τ))
  obtain ⟨k1, k2⟩ := snrDist_err h hu15 (sampleCov rows) (A.cov rows) hc hτ hE4 hd hG hH hH' i
  rw [← hρ] at k2
  have e3 : 9 * (ρ ^ 3 * (15 * (m * ρ) * τ / τ)) = 135 * (m * ρ ^ 4) := by field_simp; ring
  rw [e3] at k2
  obtain ⟨s, s1, s2⟩ := snr_err h hlg hu15 (A.cov rows) i k1 hδp (by rw [hm]; linarith) k2
  refine ⟨s, s1, s2.trans (le_of_eq ?_)⟩
  unfold snrOf
  rw [hm]
  ring

/-! ### Series without errors -/

/-- three series that are multiples of each other -/
def multiples : List (Fin 3 → ℚ) := [![0, 0, 0], ![1, 3, 5], ![3, 9, 15], ![1, 3, 5]]

/-- **C128, negation.** Three series without errors have an infinite signal-to-noise ratio. In double precision the second of three multiples of one series
gets a finite one, `10 log10(2^53)`, the first and the third get infinity. -/
theorem errorfree_snr (lg : ℚ → ℚ) : (∀ i, ratioDist (sampleCov multiples) i = 0) ∧ double.snr lg (double.cov multiples) 0 = none ∧
    double.snr lg (double.cov multiples) 1 = some (Rolling.Fl.rnd64 (10 * lg (2 ^ 53))) ∧ double.snr lg (double.cov multiples) 2 = none := by
  have h1 : ∀ i, ratioDist (sampleCov multiples) i = 0 := by decide +kernel
  have h2 : double.snrDist (double.cov multiples) 0 = 0 ∧ double.snrDist (double.cov multiples) 2 = 0 := by decide +kernel
  have h3 : ¬ (double.rnd (double.cov multiples 1 (1 + 1) * double.cov multiples 1 (1 + 2)) = 0 ∨ double.snrDist (double.cov multiples) 1 = 0) := by decide +kernel
  have h4 : double.rnd (1 / double.snrDist (double.cov multiples) 1) = 2 ^ 53 := by decide +kernel
  refine ⟨h1, ?_, ?_, ?_⟩
  · unfold Arith.snr
    rw [if_pos (.inr h2.1)]
  · unfold Arith.snr
    rw [if_neg h3, h4]
    rfl
  · unfold Arith.snr
    rw [if_pos (.inr h2.2)]

/-! ### Examples -/

/-- three series with errors -/
def snrRows : List (Fin 3 → ℝ) := [![0, 0, 1], ![1, 2, 0], ![2, 3, 3], ![3, 5, 4], ![4, 9, 3]]

theorem snrRows_cov (i j : Fin 3) :
    sampleCov snrRows i j = ![![5 / 2, 21 / 4, 2], ![21 / 4, 117 / 10, 71 / 20], ![2, 71 / 20, 27 / 10]] i j := by
  fin_cases i <;> fin_cases j <;> norm_num [sampleCov, snrRows, S, mean]

/-- arithmetic in which every operation makes the result larger -/
noncomputable def larger (u : ℝ) : Arith ℝ :=
  ⟨fun x => x * (1 + u), seqSum (fun x => x * (1 + u)), fun _ _ => seqSum (fun x => x * (1 + u)), fun a b => a * b⟩

theorem larger_ok (u : ℝ) (hu : 0 ≤ u) : (larger u).Ok u where
  rel := larger_relErr u hu
  add := fun l hl => seqSum_tree (fun x => x * (1 + u)) l hl
  dot := fun _ _ l hl => seqSum_tree (fun x => x * (1 + u)) l hl
  mul := fun _ _ => .inr rfl

theorem larger_log (u : ℝ) (hu : 0 ≤ u) : LogErr (fun x => Real.logb 10 x * (1 + u)) u := fun x _ =>
  le_of_eq (by rw [show Real.logb 10 x * (1 + u) - Real.logb 10 x = u * Real.logb 10 x by ring, abs_mul, abs_of_nonneg hu])

theorem snrRows_ratio : covRatio (sampleCov snrRows) 1 = 624 / 497 := by
  unfold covRatio
  simp only [snrRows_cov, Fin.reduceAdd, Matrix.cons_val]
  norm_num

/-- the conditions are met by an arithmetic in which every operation has the largest error allowed -/
example : ∃ s, (larger (1 / 2 ^ 53)).snr (fun x => Real.logb 10 x * (1 + 1 / 2 ^ 53)) ((larger (1 / 2 ^ 53)).cov snrRows) 1 = some s ∧
    |s - 10 * Real.logb 10 (497 / 127)| ≤ 1620 * (5 + 2) * (1 / 2 ^ 53) * 324 ^ 4 / (127 / 497) + 25 * (1 / 2 ^ 53) +
      3 * (1 / 2 ^ 53) * |10 * Real.logb 10 (497 / 127)| := by
  have hdist : ratioDist (sampleCov snrRows) 1 = 127 / 497 := by
    unfold ratioDist
    rw [snrRows_ratio, abs_of_pos (by norm_num), abs_of_pos (by norm_num)]
    norm_num
  have hlen : (snrRows.length : ℝ) = 5 := by norm_num [snrRows]
  have := snr_accuracy_partial (larger_ok (1 / 2 ^ 53) (by norm_num)) (larger_log (1 / 2 ^ 53) (by norm_num)) snrRows (by decide) (by rw [hlen]; norm_num)
    (B := 9) (τ := 2) (ρ := 324)
    (by
      intro r hr i
      simp only [snrRows, List.mem_cons, List.not_mem_nil, or_false] at hr
      rcases hr with rfl | rfl | rfl | rfl | rfl <;> fin_cases i <;> norm_num [abs_of_pos])
    (by norm_num)
    (by
      intro i j hij
      rw [snrRows_cov]
      fin_cases i <;> fin_cases j <;> first | exact absurd rfl hij | (norm_num [abs_of_pos]))
    (by norm_num) (by rw [hlen]; norm_num) 1 (by rw [snrRows_ratio, abs_of_pos (by norm_num)]; norm_num) (by rw [hlen, hdist]; norm_num)
  rw [hlen] at this
  unfold snrOf at this
  rw [hdist] at this
  norm_num at this ⊢
  exact this

end Verif.Rounding
