import Verif.Rounding.Exact
import Verif.Moments.Props
import Verif.Moments.Ineq
import Verif.Rounding.StoredProps

/-! C118: accuracy of means, variances, covariance, correlation and ubRMSD. The model is `Rounding.Perfect` and `Rounding.Stored`; the textbook
quantities are those of `Moments.Spec`. -/

namespace Verif.Rounding

open Moments (mean pvar pcov S)
open Rolling.Fl (rnd64)

section
variable {K : Type} [Field K] [LinearOrder K] [IsStrictOrderedRing K]

/-! ### One round of the loop -/

theorem abs_tri (a b c : K) : |a - c| ≤ |a - b| + |b - c| := by
  have := abs_add_le (a - b) (b - c)
  rwa [sub_add_sub_cancel] at this

/-- the new mean -/
theorem mean_step {rnd : K → K} {u : K} (h : RelErr rnd u) (hu : 10 * u ≤ 1) {B x m m' e k : K} (hk : 1 ≤ k) (hx : |x| ≤ B) (hm : |m| ≤ B)
    (he : |m' - m| ≤ e) (heB : e ≤ B) :
    |rnd (m' + rnd (rnd (x - m') / k)) - (m + (x - m) / k)| ≤ (1 - 1 / k) * e + 10 * (u * B) ∧ |m + (x - m) / k| ≤ B := by
  have hu0 := h.nonneg
  have hB : 0 ≤ B := (abs_nonneg x).trans hx
  have he0 : 0 ≤ e := (abs_nonneg _).trans he
  have hk0 : 0 < k := lt_of_lt_of_le one_pos hk
  have hk1 : 0 ≤ 1 / k := by positivity
  have hk2 : 1 / k ≤ 1 := by rw [div_le_one hk0]; exact hk
  have hm' : |m'| ≤ 2 * B := by
    have := abs_add_le (m' - m) m
    rw [sub_add_cancel] at this
    linarith
  have convex : ∀ w v V : K, |w| ≤ V → |v| ≤ V → |w + (v - w) / k| ≤ V := by
    intro w v V hw hv
    have e1 : w + (v - w) / k = (1 - 1 / k) * w + (1 / k) * v := by field_simp; ring
    rw [e1]
    refine (abs_add_le _ _).trans ?_
    rw [abs_mul, abs_mul, abs_of_nonneg hk1, abs_of_nonneg (by linarith : 0 ≤ 1 - 1 / k)]
    have a1 : (1 - 1 / k) * |w| ≤ (1 - 1 / k) * V := mul_le_mul_of_nonneg_left hw (by linarith)
    have a2 : (1 / k) * |v| ≤ (1 / k) * V := mul_le_mul_of_nonneg_left hv hk1
    linarith
  refine ⟨?_, convex m x B hm hx⟩
  have uB : 0 ≤ u * B := mul_nonneg hu0 hB
  have uuB : u * (u * B) ≤ u * B := by
    have : u * (u * B) ≤ 1 * (u * B) := mul_le_mul_of_nonneg_right (by linarith) uB
    linarith
  have b1 : |x - m'| ≤ 3 * B := (abs_sub _ _).trans (by linarith)
  have b2 := h.err (x - m')
  have b2' : |rnd (x - m') - (x - m')| ≤ 3 * (u * B) := b2.trans (by
    have := mul_le_mul_of_nonneg_left b1 hu0
    linarith)
  have b3 : |rnd (x - m')| ≤ 4 * B := by
    have := abs_add_le (rnd (x - m') - (x - m')) (x - m')
    rw [sub_add_cancel] at this
    have : 3 * (u * B) ≤ B := by
      have := mul_le_mul_of_nonneg_right hu hB
      linarith
    linarith
  have b4 : |rnd (x - m') / k| ≤ 4 * B := by
    rw [abs_div, abs_of_pos hk0, div_le_iff₀ hk0]
    have : 4 * B * 1 ≤ 4 * B * k := mul_le_mul_of_nonneg_left hk (by linarith)
    linarith
  have b5 : |rnd (rnd (x - m') / k) - rnd (x - m') / k| ≤ 4 * (u * B) := (h.err _).trans (by
    have := mul_le_mul_of_nonneg_left b4 hu0
    linarith)
  have b6 : |rnd (x - m') / k - (x - m') / k| ≤ 3 * (u * B) := by
    rw [← sub_div, abs_div, abs_of_pos hk0, div_le_iff₀ hk0]
    have : 3 * (u * B) * 1 ≤ 3 * (u * B) * k := mul_le_mul_of_nonneg_left hk (by linarith)
    linarith
  have b7 : |rnd (rnd (x - m') / k) - (x - m') / k| ≤ 7 * (u * B) := (abs_tri _ (rnd (x - m') / k) _).trans (by linarith)
  have b8 : |m' + (x - m') / k| ≤ 2 * B := convex m' x (2 * B) hm' (by linarith)
  have b9 : |m' + rnd (rnd (x - m') / k)| ≤ 3 * B := by
    have e1 : m' + rnd (rnd (x - m') / k) = (m' + (x - m') / k) + (rnd (rnd (x - m') / k) - (x - m') / k) := by ring
    rw [e1]
    refine (abs_add_le _ _).trans ?_
    have : 10 * (u * B) ≤ B := by
      have := mul_le_mul_of_nonneg_right hu hB
      linarith
    linarith
  have b10 := (h.err (m' + rnd (rnd (x - m') / k))).trans (mul_le_mul_of_nonneg_left b9 hu0)
  have e1 : rnd (m' + rnd (rnd (x - m') / k)) - (m + (x - m) / k) =
      (rnd (m' + rnd (rnd (x - m') / k)) - (m' + rnd (rnd (x - m') / k))) + ((rnd (rnd (x - m') / k) - (x - m') / k) + (1 - 1 / k) * (m' - m)) := by
    field_simp; ring
  rw [e1]
  refine (abs_add_le _ _).trans ?_
  have b11 := abs_add_le (rnd (rnd (x - m') / k) - (x - m') / k) ((1 - 1 / k) * (m' - m))
  rw [abs_mul, abs_of_nonneg (by linarith : 0 ≤ 1 - 1 / k)] at b11
  have b12 : (1 - 1 / k) * |m' - m| ≤ (1 - 1 / k) * e := mul_le_mul_of_nonneg_left he (by linarith)
  linarith

/-- a deviation from a mean -/
theorem dev_step {rnd : K → K} {u : K} (h : RelErr rnd u) {B x m m' e : K} (hx : |x| ≤ B) (hm : |m| ≤ B) (he : |m' - m| ≤ e) (heB : e ≤ B) :
    |rnd (x - m') - (x - m)| ≤ e + 3 * (u * B) ∧ |x - m| ≤ 2 * B := by
  have hu0 := h.nonneg
  have hm' : |m'| ≤ 2 * B := by
    have := abs_add_le (m' - m) m
    rw [sub_add_cancel] at this
    linarith
  have b1 : |x - m'| ≤ 3 * B := (abs_sub _ _).trans (by linarith)
  refine ⟨?_, (abs_sub _ _).trans (by linarith)⟩
  refine (abs_tri _ (x - m') _).trans ?_
  have b2 := (h.err (x - m')).trans (mul_le_mul_of_nonneg_left b1 hu0)
  have e1 : x - m' - (x - m) = -(m' - m) := by ring
  rw [e1, abs_neg]
  linarith

/-- a product of deviations -/
theorem prod_step {rnd : K → K} {u : K} (h : RelErr rnd u) {B a a' b b' f : K} (hB : 0 ≤ B) (ha : |a| ≤ 2 * B) (hb : |b| ≤ 2 * B) (ha' : |a' - a| ≤ f)
    (hb' : |b' - b| ≤ f) (hf : f ≤ 2 * B) : |rnd (a' * b') - a * b| ≤ 6 * (B * f) + 16 * (u * B ^ 2) ∧ |a * b| ≤ 4 * B ^ 2 := by
  have hu0 := h.nonneg
  have hf0 : 0 ≤ f := (abs_nonneg _).trans ha'
  have la : |a'| ≤ 4 * B := by
    have := abs_add_le (a' - a) a
    rw [sub_add_cancel] at this
    linarith
  have lb : |b'| ≤ 4 * B := by
    have := abs_add_le (b' - b) b
    rw [sub_add_cancel] at this
    linarith
  constructor
  · refine (abs_tri _ (a' * b') _).trans ?_
    have l1 : |a' * b'| ≤ 16 * B ^ 2 := by
      rw [abs_mul]
      have := mul_le_mul la lb (abs_nonneg _) (by linarith)
      linarith [show 4 * B * (4 * B) = 16 * B ^ 2 by ring]
    have l2 := (h.err (a' * b')).trans (mul_le_mul_of_nonneg_left l1 hu0)
    have l3 : |a' * b' - a * b| ≤ 6 * (B * f) := by
      have e1 : a' * b' - a * b = (a' - a) * b' + a * (b' - b) := by ring
      rw [e1]
      refine (abs_add_le _ _).trans ?_
      rw [abs_mul, abs_mul]
      have k1 := mul_le_mul ha' lb (abs_nonneg _) hf0
      have k2 := mul_le_mul ha hb' (abs_nonneg _) (by linarith)
      linarith
    linarith
  · rw [abs_mul]
    have := mul_le_mul ha hb (abs_nonneg _) (by linarith)
    linarith [show 2 * B * (2 * B) = 4 * B ^ 2 by ring]

/-- one more term: `k` terms so far, errors of at most `t` in every term and `T` on average -/
theorem acc_step {rnd : K → K} {u : K} (h : RelErr rnd u) {C C' g g' G t T k n : K} (hk : k + 1 ≤ n) (hC : |C' - C| ≤ k * T)
    (hCG : |C| ≤ k * G) (hg : |g' - g| ≤ t) (hgG : |g| ≤ G) (hT : t + u * (n * G + n * T + t) ≤ T) (hT0 : 0 ≤ T) :
    |rnd (C' + g') - (C + g)| ≤ (k + 1) * T ∧ |C + g| ≤ (k + 1) * G := by
  have hu0 := h.nonneg
  have hG0 : 0 ≤ G := (abs_nonneg _).trans hgG
  have l1 : |C + g| ≤ (k + 1) * G := (abs_add_le _ _).trans (by linarith)
  refine ⟨?_, l1⟩
  have l2 : |C' + g' - (C + g)| ≤ k * T + t := by
    have e1 : C' + g' - (C + g) = (C' - C) + (g' - g) := by ring
    rw [e1]
    exact (abs_add_le _ _).trans (by linarith)
  have l3 : |C' + g'| ≤ n * G + n * T + t := by
    have := abs_add_le (C' + g' - (C + g)) (C + g)
    rw [sub_add_cancel] at this
    have k1 : (k + 1) * G ≤ n * G := mul_le_mul_of_nonneg_right hk hG0
    have k2 : k * T ≤ n * T := mul_le_mul_of_nonneg_right (by linarith) hT0
    linarith
  have l4 := (h.err (C' + g')).trans (mul_le_mul_of_nonneg_left l3 hu0)
  refine (abs_tri _ (C' + g') _).trans ?_
  linarith

/-- the division by the number of terms -/
theorem div_step {rnd : K → K} {u : K} (h : RelErr rnd u) {C C' G T n : K} (hn : 0 < n) (hC : |C' - C| ≤ n * T) (hG : |C| ≤ n * G) :
    |rnd (C' / n) - C / n| ≤ T + u * (G + T) := by
  have hu0 := h.nonneg
  have q1 : |C' / n - C / n| ≤ T := by
    rw [← sub_div, abs_div, abs_of_pos hn, div_le_iff₀ hn]
    linarith
  have q2 : |C / n| ≤ G := by
    rw [abs_div, abs_of_pos hn, div_le_iff₀ hn]
    linarith
  have q3 : |C' / n| ≤ G + T := by
    have := abs_add_le (C' / n - C / n) (C / n)
    rw [sub_add_cancel] at this
    linarith
  have q4 := (h.err (C' / n)).trans (mul_le_mul_of_nonneg_left q3 hu0)
  exact (abs_tri _ (C' / n) _).trans (by linarith)

/-! ### The loop -/

/-- the state with rounding is close to the exact one -/
structure Close (u B n : K) (s : Welford K) (e : Moments.State K) : Prop where
  nobs : e.nobs = (s.nobs : K)
  mx : |s.mx - e.mx| ≤ 5 * ((s.nobs : K) + 1) * (u * B)
  my : |s.my - e.my| ≤ 5 * ((s.nobs : K) + 1) * (u * B)
  bx : |e.mx| ≤ B
  bY : |e.my| ≤ B
  M2x : |s.M2x - e.M2x| ≤ (s.nobs : K) * ((48 * n + 90) * (u * B ^ 2))
  M2y : |s.M2y - e.M2y| ≤ (s.nobs : K) * ((48 * n + 90) * (u * B ^ 2))
  C : |s.C - e.C| ≤ (s.nobs : K) * ((48 * n + 90) * (u * B ^ 2))
  M2xB : |e.M2x| ≤ (s.nobs : K) * (4 * B ^ 2)
  M2yB : |e.M2y| ≤ (s.nobs : K) * (4 * B ^ 2)
  CB : |e.C| ≤ (s.nobs : K) * (4 * B ^ 2)

theorem close_step {rnd : K → K} {u B n : K} (h : RelErr rnd u) (hn : 5 * (n + 1) * u ≤ 1) (s : Welford K) (e : Moments.State K) (hc : Close u B n s e)
    (hk : (s.nobs : K) + 1 ≤ n) (p : K × K) (h1 : |p.1| ≤ B) (h2 : |p.2| ≤ B) : Close u B n (s.add rnd p) (Moments.step e p) := by
  have hu0 := h.nonneg
  have hB : 0 ≤ B := (abs_nonneg _).trans h1
  have hk0 : (0 : K) ≤ (s.nobs : K) := Nat.cast_nonneg _
  have hu10 : 10 * u ≤ 1 := by
    have : 5 * (1 + 1) * u ≤ 5 * (n + 1) * u := mul_le_mul_of_nonneg_right (by linarith) hu0
    linarith
  have uB : 0 ≤ u * B := mul_nonneg hu0 hB
  have uBB : 0 ≤ u * B ^ 2 := by positivity
  have eB : 5 * ((s.nobs : K) + 1) * (u * B) ≤ B := by
    have a1 : 5 * ((s.nobs : K) + 1) * u ≤ 5 * (n + 1) * u := mul_le_mul_of_nonneg_right (by linarith) hu0
    have := mul_le_mul_of_nonneg_right (a1.trans hn) hB
    linarith
  have kpos : (1 : K) ≤ (s.nobs : K) + 1 := by linarith
  have nobs' : ((s.add rnd p).nobs : K) = (s.nobs : K) + 1 := by simp [Welford.add]
  -- the means
  have next : ∀ x m m' : K, |x| ≤ B → |m| ≤ B → |m' - m| ≤ 5 * ((s.nobs : K) + 1) * (u * B) →
      |rnd (m' + rnd (rnd (x - m') / ((s.nobs : K) + 1))) - (m + (x - m) / ((s.nobs : K) + 1))| ≤ 5 * ((s.nobs : K) + 1 + 1) * (u * B) ∧
        |m + (x - m) / ((s.nobs : K) + 1)| ≤ B := by
    intro x m m' hx hm he
    obtain ⟨r1, r2⟩ := mean_step h hu10 kpos hx hm he eB
    refine ⟨r1.trans (le_of_eq ?_), r2⟩
    have : (s.nobs : K) + 1 ≠ 0 := by linarith
    field_simp
    ring
  obtain ⟨x1, x2⟩ := next p.1 e.mx s.mx h1 hc.bx hc.mx
  obtain ⟨y1, y2⟩ := next p.2 e.my s.my h2 hc.bY hc.my
  -- the deviations
  have eB' : 5 * ((s.nobs : K) + 1 + 1) * (u * B) ≤ 5 * (n + 1) * (u * B) := mul_le_mul_of_nonneg_right (by linarith) uB
  have eB1 : 5 * ((s.nobs : K) + 1) * (u * B) ≤ 5 * (n + 1) * (u * B) := mul_le_mul_of_nonneg_right (by linarith) uB
  have nB : 5 * (n + 1) * (u * B) ≤ B := by
    have := mul_le_mul_of_nonneg_right hn hB
    linarith
  have dx' := dev_step h h1 x2 (x1.trans eB') nB
  have dy' := dev_step h h2 y2 (y1.trans eB') nB
  have dx := dev_step h h1 hc.bx (hc.mx.trans eB1) nB
  have dy := dev_step h h2 hc.bY (hc.my.trans eB1) nB
  have fB : 5 * (n + 1) * (u * B) + 3 * (u * B) ≤ 2 * B := by
    have := mul_le_mul_of_nonneg_right hu10 hB
    linarith
  -- the sums
  have hn1 : 1 ≤ n := by linarith
  have t1 : (30 * n + 64) * (u * B ^ 2) + u * (n * (4 * B ^ 2) + n * ((48 * n + 90) * (u * B ^ 2)) + (30 * n + 64) * (u * B ^ 2)) ≤
      (48 * n + 90) * (u * B ^ 2) := by
    have a1 : u * (n * ((48 * n + 90) * (u * B ^ 2))) ≤ 1 / 5 * ((48 * n + 90) * (u * B ^ 2)) := by
      have : n * u ≤ 1 / 5 := by linarith
      have := mul_le_mul_of_nonneg_right this (show 0 ≤ (48 * n + 90) * (u * B ^ 2) from mul_nonneg (by linarith) uBB)
      linarith
    have a2 : u * ((30 * n + 64) * (u * B ^ 2)) ≤ 1 / 10 * ((30 * n + 64) * (u * B ^ 2)) :=
      mul_le_mul_of_nonneg_right (by linarith) (mul_nonneg (by linarith) uBB)
    have a3 : 1 * (u * B ^ 2) ≤ n * (u * B ^ 2) := mul_le_mul_of_nonneg_right hn1 uBB
    have e1 : u * (n * (4 * B ^ 2) + n * ((48 * n + 90) * (u * B ^ 2)) + (30 * n + 64) * (u * B ^ 2)) =
        4 * (n * (u * B ^ 2)) + u * (n * ((48 * n + 90) * (u * B ^ 2))) + u * ((30 * n + 64) * (u * B ^ 2)) := by ring
    rw [e1]
    linarith
  have tf : 6 * (B * (5 * (n + 1) * (u * B) + 3 * (u * B))) + 16 * (u * B ^ 2) = (30 * n + 64) * (u * B ^ 2) := by ring
  have T0 : 0 ≤ (48 * n + 90) * (u * B ^ 2) := mul_nonneg (by linarith) uBB
  have pxx := prod_step h hB dx'.2 dx.2 dx'.1 dx.1 fB
  have pyy := prod_step h hB dy'.2 dy.2 dy'.1 dy.1 fB
  have pxy := prod_step h hB dx'.2 dy.2 dx'.1 dy.1 fB
  rw [tf] at pxx pyy pxy
  have sxx := acc_step h hk hc.M2x hc.M2xB pxx.1 pxx.2 t1 T0
  have syy := acc_step h hk hc.M2y hc.M2yB pyy.1 pyy.2 t1 T0
  have sxy := acc_step h hk hc.C hc.CB pxy.1 pxy.2 t1 T0
  constructor <;> (try rw [nobs']) <;> simp only [Welford.add, Moments.step, hc.nobs, Nat.cast_add, Nat.cast_one]
  · exact x1
  · exact y1
  · exact x2
  · exact y2
  · exact sxx.1
  · exact syy.1
  · exact sxy.1
  · exact sxx.2
  · exact syy.2
  · exact sxy.2

theorem close_fold {rnd : K → K} {u B n : K} (h : RelErr rnd u) (hn : 5 * (n + 1) * u ≤ 1) (l : List (K × K)) :
    ∀ (s : Welford K) (e : Moments.State K), Close u B n s e → (s.nobs : K) + l.length ≤ n → (∀ p ∈ l, |p.1| ≤ B ∧ |p.2| ≤ B) →
      Close u B n (l.foldl (Welford.add rnd) s) (l.foldl Moments.step e) ∧ (l.foldl (Welford.add rnd) s).nobs = s.nobs + l.length := by
  induction l with
  | nil => intro s e hc _ _; exact ⟨hc, by simp⟩
  | cons p l ih =>
    intro s e hc hk hb
    obtain ⟨b1, b2⟩ := hb p List.mem_cons_self
    rw [List.length_cons] at hk
    push_cast at hk
    have hl : (0 : K) ≤ (l.length : K) := Nat.cast_nonneg _
    have := close_step h hn s e hc (by linarith) p b1 b2
    have r := ih _ _ this (by simp only [Welford.add]; push_cast; linarith) (fun q hq => hb q (List.mem_cons_of_mem _ hq))
    refine ⟨r.1, ?_⟩
    rw [List.foldl_cons, r.2, List.length_cons]
    simp only [Welford.add]
    omega

/-- **C118.** Means, variances and covariance: with `n` values of at most `B` the means are off by at most `5 (n + 1) u B`, variances and covariance by at
most `55 (n + 2) u B²` (`u` = 2^-53 in double precision), whatever the values and however close they are to each other. -/
theorem moments_err {rnd : K → K} {u B : K} (h : RelErr rnd u) (l : List (K × K)) (hl : l ≠ []) (hn : 5 * ((l.length : K) + 1) * u ≤ 1)
    (hb : ∀ p ∈ l, |p.1| ≤ B ∧ |p.2| ≤ B) :
    |(moments rnd l).mx - mean (l.map Prod.fst)| ≤ 5 * ((l.length : K) + 1) * (u * B) ∧
    |(moments rnd l).my - mean (l.map Prod.snd)| ≤ 5 * ((l.length : K) + 1) * (u * B) ∧
    |(moments rnd l).vx - pvar (l.map Prod.fst)| ≤ 55 * ((l.length : K) + 2) * (u * B ^ 2) ∧
    |(moments rnd l).vy - pvar (l.map Prod.snd)| ≤ 55 * ((l.length : K) + 2) * (u * B ^ 2) ∧
    |(moments rnd l).cov - pcov l| ≤ 55 * ((l.length : K) + 2) * (u * B ^ 2) := by
  have hu0 := h.nonneg
  obtain ⟨p, hp⟩ := List.exists_mem_of_ne_nil l hl
  have hB : 0 ≤ B := (abs_nonneg _).trans (hb p hp).1
  have hlen : (1 : K) ≤ (l.length : K) := by
    have : 1 ≤ l.length := List.length_pos_iff.2 hl
    exact_mod_cast this
  have uB : 0 ≤ u * B := mul_nonneg hu0 hB
  have uBB : 0 ≤ u * B ^ 2 := by positivity
  have c0 : Close u B (l.length : K) (⟨0, 0, 0, 0, 0, 0⟩ : Welford K) Moments.init := by
    constructor <;> simp [Moments.init] <;> linarith
  obtain ⟨hc, hnobs⟩ := close_fold h hn l _ _ c0 (by simp) hb
  have hw := Moments.moments_welford_correct l hl
  unfold Moments.momentsWelford at hw
  simp only [Moments.Moments.mk.injEq] at hw
  obtain ⟨w1, w2, w3, w4, w5⟩ := hw
  have hnn : ((l.foldl (Welford.add rnd) (⟨0, 0, 0, 0, 0, 0⟩ : Welford K)).nobs : K) = (l.length : K) := by rw [hnobs]; simp
  have final : ∀ C' C : K, |C' - C| ≤ (l.length : K) * ((48 * (l.length : K) + 90) * (u * B ^ 2)) → |C| ≤ (l.length : K) * (4 * B ^ 2) →
      |rnd (C' / (l.length : K)) - C / (l.length : K)| ≤ 55 * ((l.length : K) + 2) * (u * B ^ 2) := by
    intro C' C g1 g2
    refine (div_step h (by linarith) g1 g2).trans ?_
    have q5 : u * ((48 * (l.length : K) + 90) * (u * B ^ 2)) ≤ 1 / 10 * ((48 * (l.length : K) + 90) * (u * B ^ 2)) := by
      refine mul_le_mul_of_nonneg_right ?_ (mul_nonneg (by linarith) uBB)
      have : 5 * (1 + 1) * u ≤ 5 * ((l.length : K) + 1) * u := mul_le_mul_of_nonneg_right (by linarith) hu0
      linarith
    have q6 : 0 ≤ (l.length : K) * (u * B ^ 2) := by positivity
    linarith
  refine ⟨?_, ?_, ?_, ?_, ?_⟩
  · rw [← w1]; have := hc.mx; rw [hnn] at this; exact this
  · rw [← w2]; have := hc.my; rw [hnn] at this; exact this
  · rw [← w3]; have a := hc.M2x; have b := hc.M2xB; rw [hnn] at a b; exact final _ _ a b
  · rw [← w4]; have a := hc.M2y; have b := hc.M2yB; rw [hnn] at a b; exact final _ _ a b
  · rw [← w5]; have a := hc.C; have b := hc.CB; rw [hnn] at a b; exact final _ _ a b

/-! ### ubRMSD -/

theorem acc_fold {α : Type} {rnd : K → K} {u G t T n : K} (h : RelErr rnd u) (f g : α → K) (hT : t + u * (n * G + n * T + t) ≤ T) (hT0 : 0 ≤ T)
    (l : List α) (hg : ∀ p ∈ l, |g p - f p| ≤ t) (hG : ∀ p ∈ l, |f p| ≤ G) : ∀ (k C C' : K), k + l.length ≤ n → |C' - C| ≤ k * T → |C| ≤ k * G →
      |l.foldl (fun s p => rnd (s + g p)) C' - (C + S l f)| ≤ (k + l.length) * T ∧ |C + S l f| ≤ (k + l.length) * G := by
  induction l with
  | nil => intro k C C' _ h1 h2; simpa [S] using ⟨h1, h2⟩
  | cons p l ih =>
    intro k C C' hk h1 h2
    rw [List.length_cons] at hk ⊢
    push_cast at hk ⊢
    have hl : (0 : K) ≤ (l.length : K) := Nat.cast_nonneg _
    obtain ⟨s1, s2⟩ := acc_step h (by linarith) h1 h2 (hg p List.mem_cons_self) (hG p List.mem_cons_self) hT hT0
    have r := ih (fun q hq => hg q (List.mem_cons_of_mem _ hq)) (fun q hq => hG q (List.mem_cons_of_mem _ hq)) (k + 1) _ _ (by linarith) s1 s2
    have e1 : C + S (p :: l) f = C + f p + S l f := by rw [Moments.S_cons]; ring
    have e2 : k + ((l.length : K) + 1) = k + 1 + (l.length : K) := by ring
    rw [e1, e2, List.foldl_cons]
    exact r

theorem S_abs_le {α : Type} (l : List α) (f : α → K) (B : K) (hf : ∀ p ∈ l, |f p| ≤ B) : |S l f| ≤ (l.length : K) * B ∧ absSum (l.map f) ≤ (l.length : K) * B := by
  induction l with
  | nil => simp [S, absSum]
  | cons p l ih =>
    obtain ⟨i1, i2⟩ := ih (fun q hq => hf q (List.mem_cons_of_mem _ hq))
    have hp := hf p List.mem_cons_self
    rw [Moments.S_cons, List.length_cons]
    push_cast
    constructor
    · exact (abs_add_le _ _).trans (by linarith)
    · simp only [absSum, List.map_cons, List.sum_cons] at i2 ⊢
      linarith

theorem mean_abs_le {α : Type} (l : List α) (hl : l ≠ []) (f : α → K) (B : K) (hf : ∀ p ∈ l, |f p| ≤ B) : |mean (l.map f)| ≤ B := by
  have hpos := Moments.len_pos (K := K) l hl
  rw [Moments.mean_map, abs_div, abs_of_pos hpos, div_le_iff₀ hpos]
  linarith [(S_abs_le l f B hf).1]

/-- the mean of a column by adding up -/
theorem sum_mean_err {rnd : K → K} {u B : K} (h : RelErr rnd u) (l : List (K × K)) (hl : l ≠ []) (hn : 5 * ((l.length : K) + 1) * u ≤ 1) (f : K × K → K)
    (hb : ∀ p ∈ l, |f p| ≤ B) :
    |rnd (l.foldl (fun s p => rnd (s + f p)) 0 / (l.length : K)) - mean (l.map f)| ≤ 5 * ((l.length : K) + 1) * (u * B) := by
  have hu0 := h.nonneg
  have hpos := Moments.len_pos (K := K) l hl
  obtain ⟨q, hq⟩ := List.exists_mem_of_ne_nil l hl
  have hB : 0 ≤ B := (abs_nonneg _).trans (hb q hq)
  obtain ⟨b1, b2⟩ := S_abs_le l f B hb
  have f1 := fold_err h (l.map f) 0
  rw [List.length_map, abs_zero, zero_add, zero_add] at f1
  have m1 := mean_err h l.length l.length (List.length_pos_of_ne_nil hl) _ _ _ (abs_sum_le _) f1
  rw [← fold_map rnd f l 0] at m1
  have m2 : mean (l.map f) = (l.map f).sum / (l.length : K) := by rw [mean, List.length_map]
  rw [m2]
  refine m1.trans ?_
  have p1 := pow_small hu0 (l.length + 1) (by push_cast; linarith)
  have p0 := one_le_pow hu0 (l.length + 1)
  push_cast at p1
  have p2 : absSum (l.map f) / (l.length : K) ≤ B := by
    rw [div_le_iff₀ hpos]
    linarith
  have p3 := mul_le_mul p1 p2 (div_nonneg (absSum_nonneg _) hpos.le) (by positivity)
  have p4 : 0 ≤ ((l.length : K) + 1) * (u * B) := by positivity
  linarith

/-- **C118.** ubRMSD: the root is taken of a number that is off by at most `210 (n + 3) u B²`. -/
theorem ubrmsd_err {rnd : K → K} {u B : K} (h : RelErr rnd u) (sq : K → K) (l : List (K × K)) (hl : l ≠ []) (hn : 5 * ((l.length : K) + 1) * u ≤ 1)
    (hb : ∀ p ∈ l, |p.1| ≤ B ∧ |p.2| ≤ B) :
    ∃ v, ubrmsd rnd sq l = sq v ∧
      |v - mean (l.map (fun p => ((p.1 - mean (l.map Prod.fst)) - (p.2 - mean (l.map Prod.snd))) ^ 2))| ≤ 210 * ((l.length : K) + 3) * (u * B ^ 2) := by
  have hu0 := h.nonneg
  have hpos := Moments.len_pos (K := K) l hl
  obtain ⟨q, hq⟩ := List.exists_mem_of_ne_nil l hl
  have hB : 0 ≤ B := (abs_nonneg _).trans (hb q hq).1
  have hlen : (1 : K) ≤ (l.length : K) := by
    have : 1 ≤ l.length := List.length_pos_iff.2 hl
    exact_mod_cast this
  have uB : 0 ≤ u * B := mul_nonneg hu0 hB
  have uBB : 0 ≤ u * B ^ 2 := by positivity
  have hu10 : 10 * u ≤ 1 := by
    have : 5 * (1 + 1) * u ≤ 5 * ((l.length : K) + 1) * u := mul_le_mul_of_nonneg_right (by linarith) hu0
    linarith
  have uB10 := mul_le_mul_of_nonneg_right hu10 hB
  have eB : 5 * ((l.length : K) + 1) * (u * B) ≤ B := by
    have := mul_le_mul_of_nonneg_right hn hB
    linarith
  have mx := sum_mean_err h l hl hn Prod.fst (fun p hp => (hb p hp).1)
  have my := sum_mean_err h l hl hn Prod.snd (fun p hp => (hb p hp).2)
  have bx := mean_abs_le l hl Prod.fst B (fun p hp => (hb p hp).1)
  have bY := mean_abs_le l hl Prod.snd B (fun p hp => (hb p hp).2)
  refine ⟨_, rfl, ?_⟩
  set n : K := (l.length : K)
  set mX := rnd (l.foldl (fun s p => rnd (s + p.1)) 0 / n)
  set mY := rnd (l.foldl (fun s p => rnd (s + p.2)) 0 / n)
  have term : ∀ p ∈ l,
      |rnd (rnd (rnd (p.1 - mX) - rnd (p.2 - mY)) * rnd (rnd (p.1 - mX) - rnd (p.2 - mY))) -
        ((p.1 - mean (l.map Prod.fst)) - (p.2 - mean (l.map Prod.snd))) ^ 2| ≤ (120 * n + 352) * (u * B ^ 2) ∧
      |((p.1 - mean (l.map Prod.fst)) - (p.2 - mean (l.map Prod.snd))) ^ 2| ≤ 16 * B ^ 2 := by
    intro p hp
    obtain ⟨d1, d2⟩ := dev_step h (hb p hp).1 bx mx eB
    obtain ⟨d3, d4⟩ := dev_step h (hb p hp).2 bY my eB
    have a1 : |(p.1 - mean (l.map Prod.fst)) - (p.2 - mean (l.map Prod.snd))| ≤ 2 * (2 * B) := (abs_sub _ _).trans (by linarith)
    have a2 : |rnd (p.1 - mX) - rnd (p.2 - mY) - ((p.1 - mean (l.map Prod.fst)) - (p.2 - mean (l.map Prod.snd)))| ≤ 10 * (n + 1) * (u * B) + 6 * (u * B) := by
      have e1 : rnd (p.1 - mX) - rnd (p.2 - mY) - ((p.1 - mean (l.map Prod.fst)) - (p.2 - mean (l.map Prod.snd))) =
          (rnd (p.1 - mX) - (p.1 - mean (l.map Prod.fst))) - (rnd (p.2 - mY) - (p.2 - mean (l.map Prod.snd))) := by ring
      rw [e1]
      exact (abs_sub _ _).trans (by linarith)
    have a3 : |rnd (p.1 - mX) - rnd (p.2 - mY)| ≤ 8 * B := by
      have := abs_add_le (rnd (p.1 - mX) - rnd (p.2 - mY) - ((p.1 - mean (l.map Prod.fst)) - (p.2 - mean (l.map Prod.snd))))
        ((p.1 - mean (l.map Prod.fst)) - (p.2 - mean (l.map Prod.snd)))
      rw [sub_add_cancel] at this
      linarith
    have a4 := (h.err (rnd (p.1 - mX) - rnd (p.2 - mY))).trans (mul_le_mul_of_nonneg_left a3 hu0)
    have a5 : |rnd (rnd (p.1 - mX) - rnd (p.2 - mY)) - ((p.1 - mean (l.map Prod.fst)) - (p.2 - mean (l.map Prod.snd)))| ≤
        10 * (n + 1) * (u * B) + 14 * (u * B) := (abs_tri _ (rnd (p.1 - mX) - rnd (p.2 - mY)) _).trans (by linarith)
    obtain ⟨r1, r2⟩ := prod_step h (by linarith : 0 ≤ 2 * B) a1 a1 a5 a5 (by linarith)
    rw [← pow_two (p.1 - mean (l.map Prod.fst) - (p.2 - mean (l.map Prod.snd)))] at r1 r2
    constructor
    · refine r1.trans (le_of_eq ?_)
      ring
    · refine r2.trans (le_of_eq ?_)
      ring
  have hT : (120 * n + 352) * (u * B ^ 2) + u * (n * (16 * B ^ 2) + n * ((186 * n + 486) * (u * B ^ 2)) + (120 * n + 352) * (u * B ^ 2)) ≤
      (186 * n + 486) * (u * B ^ 2) := by
    have a1 : u * (n * ((186 * n + 486) * (u * B ^ 2))) ≤ 1 / 5 * ((186 * n + 486) * (u * B ^ 2)) := by
      have : n * u ≤ 1 / 5 := by linarith
      have := mul_le_mul_of_nonneg_right this (show 0 ≤ (186 * n + 486) * (u * B ^ 2) from mul_nonneg (by linarith) uBB)
      linarith
    have a2 : u * ((120 * n + 352) * (u * B ^ 2)) ≤ 1 / 10 * ((120 * n + 352) * (u * B ^ 2)) :=
      mul_le_mul_of_nonneg_right (by linarith) (mul_nonneg (by linarith) uBB)
    have a3 : 1 * (u * B ^ 2) ≤ n * (u * B ^ 2) := mul_le_mul_of_nonneg_right hlen uBB
    have e1 : u * (n * (16 * B ^ 2) + n * ((186 * n + 486) * (u * B ^ 2)) + (120 * n + 352) * (u * B ^ 2)) =
        16 * (n * (u * B ^ 2)) + u * (n * ((186 * n + 486) * (u * B ^ 2))) + u * ((120 * n + 352) * (u * B ^ 2)) := by ring
    rw [e1]
    linarith
  obtain ⟨s1, s2⟩ := acc_fold h (fun p : K × K => ((p.1 - mean (l.map Prod.fst)) - (p.2 - mean (l.map Prod.snd))) ^ 2)
    (fun p => rnd (rnd (rnd (p.1 - mX) - rnd (p.2 - mY)) * rnd (rnd (p.1 - mX) - rnd (p.2 - mY)))) hT (mul_nonneg (by linarith) uBB) l
    (fun p hp => (term p hp).1) (fun p hp => (term p hp).2) 0 0 0 (by simp [n]) (by simp) (by simp)
  rw [zero_add, zero_add] at s1 s2
  rw [Moments.mean_map]
  have d := div_step h hpos s1 s2
  refine d.trans ?_
  have q5 : u * ((186 * n + 486) * (u * B ^ 2)) ≤ 1 / 10 * ((186 * n + 486) * (u * B ^ 2)) :=
    mul_le_mul_of_nonneg_right (by linarith) (mul_nonneg (by linarith) uBB)
  have q6 : 0 ≤ n * (u * B ^ 2) := by positivity
  linarith

end

/-! ### Correlation -/

/-- textbook correlation -/
noncomputable def corrcoef (l : List (ℝ × ℝ)) : ℝ := pcov l / (Real.sqrt (pvar (l.map Prod.fst)) * Real.sqrt (pvar (l.map Prod.snd)))

theorem clip_err (z R : ℝ) (h : |R| ≤ 1) : |max (-1) (min z 1) - R| ≤ |z - R| := by
  obtain ⟨h1, h2⟩ := abs_le.1 h
  rcases le_total z 1 with hz | hz
  · rw [min_eq_left hz]
    rcases le_total (-1) z with hz' | hz'
    · rw [max_eq_right hz']
    · rw [max_eq_left hz', abs_of_nonpos (by linarith), abs_of_nonpos (by linarith)]
      linarith
  · rw [min_eq_right hz, max_eq_right (by norm_num), abs_of_nonneg (by linarith), abs_of_nonneg (by linarith)]
    linarith

theorem pvar_le {α : Type} (l : List α) (hl : l ≠ []) (f : α → ℝ) (B : ℝ) (hf : ∀ p ∈ l, |f p| ≤ B) : pvar (l.map f) ≤ B ^ 2 := by
  have hpos := Moments.len_pos (K := ℝ) l hl
  have e := Moments.pvar_eq l f
  have b : S l (fun p => f p * f p) ≤ (l.length : ℝ) * B ^ 2 := by
    rw [← Moments.S_const]
    refine Moments.S_le l _ _ (fun p hp => ?_)
    have := hf p hp
    have h0 := abs_nonneg (f p)
    rw [← abs_mul_abs_self, pow_two]
    exact mul_le_mul this this h0 (h0.trans this)
  have c : 0 ≤ (l.length : ℝ) * (mean (l.map f) * mean (l.map f)) := mul_nonneg hpos.le (mul_self_nonneg _)
  have : (l.length : ℝ) * pvar (l.map f) ≤ (l.length : ℝ) * B ^ 2 := by linarith
  exact le_of_mul_le_mul_left this hpos

/-- **C118.** Correlation: for values of at most `B` and standard deviations of at least `σ`, R is a number and off by at most three times
`κ = 55 (n + 2) u (B / σ)²`, provided that this is at most 1/8. -/
theorem pearson_err {rnd sq : ℝ → ℝ} {u B σ : ℝ} (h : RelErr rnd u) (hsq : SqrtErr sq u) (l : List (ℝ × ℝ)) (hl : l ≠ [])
    (hb : ∀ p ∈ l, |p.1| ≤ B ∧ |p.2| ≤ B) (hσ : 0 < σ) (hx : σ ^ 2 ≤ pvar (l.map Prod.fst)) (hy : σ ^ 2 ≤ pvar (l.map Prod.snd))
    (hκ : 55 * ((l.length : ℝ) + 2) * u * (B / σ) ^ 2 ≤ 1 / 8) :
    ∃ R, pearson rnd sq (moments rnd l) = some R ∧ |R - corrcoef l| ≤ 3 * (55 * ((l.length : ℝ) + 2) * u * (B / σ) ^ 2) := by
  have hu0 := h.nonneg
  have hlen : (1 : ℝ) ≤ (l.length : ℝ) := by
    have : 1 ≤ l.length := List.length_pos_iff.2 hl
    exact_mod_cast this
  have hσB : σ ^ 2 ≤ B ^ 2 := hx.trans (pvar_le l hl Prod.fst B (fun p hp => (hb p hp).1))
  have hσ2 : 0 < σ ^ 2 := by positivity
  set κ := 55 * ((l.length : ℝ) + 2) * u * (B / σ) ^ 2 with hκd
  have hBσ : 1 ≤ (B / σ) ^ 2 := by
    rw [div_pow, le_div_iff₀ hσ2]
    linarith
  have hκ1 : 55 * ((l.length : ℝ) + 2) * u ≤ κ := by
    have : 55 * ((l.length : ℝ) + 2) * u * 1 ≤ 55 * ((l.length : ℝ) + 2) * u * (B / σ) ^ 2 := mul_le_mul_of_nonneg_left hBσ (by positivity)
    linarith
  have hκu : 165 * u ≤ κ := by
    have : 55 * (1 + 2) * u ≤ 55 * ((l.length : ℝ) + 2) * u := mul_le_mul_of_nonneg_right (by linarith) hu0
    linarith
  have hlu : 0 ≤ (l.length : ℝ) * u := by positivity
  have hn : 5 * ((l.length : ℝ) + 1) * u ≤ 1 := by linarith
  obtain ⟨-, -, ex, ey, ec⟩ := moments_err h l hl hn hb
  have hκσ : 55 * ((l.length : ℝ) + 2) * (u * B ^ 2) = κ * σ ^ 2 := by
    rw [hκd]
    field_simp
  rw [hκσ] at ex ey ec
  set X := pvar (l.map Prod.fst)
  set Y := pvar (l.map Prod.snd)
  set c := pcov l
  set a := (moments rnd l).vx
  set b := (moments rnd l).vy
  set c' := (moments rnd l).cov
  have hκ0 : 0 ≤ κ := by linarith
  have hX : 0 < X := lt_of_lt_of_le hσ2 hx
  have hY : 0 < Y := lt_of_lt_of_le hσ2 hy
  have kX : κ * σ ^ 2 ≤ κ * X := mul_le_mul_of_nonneg_left hx hκ0
  have kY : κ * σ ^ 2 ≤ κ * Y := mul_le_mul_of_nonneg_left hy hκ0
  obtain ⟨ax1, ax2⟩ := abs_le.1 ex
  obtain ⟨ay1, ay2⟩ := abs_le.1 ey
  have a1 : (1 - κ) * X ≤ a := by linarith
  have a2 : a ≤ (1 + κ) * X := by linarith
  have b1 : (1 - κ) * Y ≤ b := by linarith
  have b2 : b ≤ (1 + κ) * Y := by linarith
  have a0 : 0 < a := lt_of_lt_of_le (mul_pos (by linarith) hX) a1
  have b0 : 0 < b := lt_of_lt_of_le (mul_pos (by linarith) hY) b1
  have ab0 : 0 < a * b := mul_pos a0 b0
  have ew := h.err (a * b)
  rw [abs_of_pos ab0] at ew
  obtain ⟨w1, w2⟩ := abs_le.1 ew
  set w := rnd (a * b)
  set s := Real.sqrt X * Real.sqrt Y with hs
  have s0 : 0 < s := mul_pos (Real.sqrt_pos.2 hX) (Real.sqrt_pos.2 hY)
  have ss : s ^ 2 = X * Y := by rw [hs, mul_pow, Real.sq_sqrt hX.le, Real.sq_sqrt hY.le]
  have sσ : σ ^ 2 ≤ s := by
    have : (σ ^ 2) ^ 2 ≤ s ^ 2 := by
      rw [ss, pow_two]
      exact mul_le_mul hx hy hσ2.le hX.le
    exact (pow_le_pow_iff_left₀ hσ2.le s0.le two_ne_zero).1 this
  have lo : ((1 - κ) * (1 - u) * s) ^ 2 ≤ w := by
    have k1 : ((1 - κ) * X) * ((1 - κ) * Y) ≤ a * b := mul_le_mul a1 b1 (mul_nonneg (by linarith) hY.le) a0.le
    have k2 : (1 - u) * (((1 - κ) * X) * ((1 - κ) * Y)) ≤ (1 - u) * (a * b) := mul_le_mul_of_nonneg_left k1 (by linarith)
    have k3 : ((1 - κ) * (1 - u) * s) ^ 2 = (1 - u) * ((1 - u) * (((1 - κ) * X) * ((1 - κ) * Y))) := by
      rw [mul_pow, mul_pow, ss]; ring
    have k4 : 0 ≤ (1 - u) * (((1 - κ) * X) * ((1 - κ) * Y)) :=
      mul_nonneg (by linarith) (mul_nonneg (mul_nonneg (by linarith) hX.le) (mul_nonneg (by linarith) hY.le))
    have k5 : (1 - u) * ((1 - u) * (((1 - κ) * X) * ((1 - κ) * Y))) ≤ 1 * ((1 - u) * (((1 - κ) * X) * ((1 - κ) * Y))) :=
      mul_le_mul_of_nonneg_right (by linarith) k4
    rw [k3]
    linarith
  have hi : w ≤ ((1 + κ) * (1 + u) * s) ^ 2 := by
    have k1 : a * b ≤ ((1 + κ) * X) * ((1 + κ) * Y) := mul_le_mul a2 b2 b0.le (mul_nonneg (by linarith) hX.le)
    have k2 : (1 + u) * (a * b) ≤ (1 + u) * (((1 + κ) * X) * ((1 + κ) * Y)) := mul_le_mul_of_nonneg_left k1 (by linarith)
    have k3 : ((1 + κ) * (1 + u) * s) ^ 2 = (1 + u) * ((1 + u) * (((1 + κ) * X) * ((1 + κ) * Y))) := by
      rw [mul_pow, mul_pow, ss]; ring
    have k4 : 0 ≤ (1 + u) * (((1 + κ) * X) * ((1 + κ) * Y)) := by positivity
    have k5 : 1 * ((1 + u) * (((1 + κ) * X) * ((1 + κ) * Y))) ≤ (1 + u) * ((1 + u) * (((1 + κ) * X) * ((1 + κ) * Y))) :=
      mul_le_mul_of_nonneg_right (by linarith) k4
    rw [k3]
    linarith
  have w0 : 0 ≤ w := (sq_nonneg _).trans lo
  have r1 : (1 - κ) * (1 - u) * s ≤ Real.sqrt w := Real.le_sqrt_of_sq_le lo
  have r2 : Real.sqrt w ≤ (1 + κ) * (1 + u) * s := by
    rw [Real.sqrt_le_left (by positivity)]
    exact hi
  obtain ⟨d0, dE⟩ := hsq w w0
  obtain ⟨d1, d2⟩ := abs_le.1 dE
  set d := sq w
  have small : κ * u ≤ 1 / 8 * u := mul_le_mul_of_nonneg_right hκ hu0
  have uu : u * u ≤ 1 / 8 * u := mul_le_mul_of_nonneg_right (by linarith) hu0
  have κuu : κ * u * u ≤ 1 / 8 * u := by
    have : κ * u * u ≤ 1 / 8 * u * 1 := mul_le_mul small (by linarith) hu0 (by positivity)
    linarith
  have dlo : (1 - κ - 3 * u) * s ≤ d := by
    have k1 : (1 - u) * ((1 - κ) * (1 - u) * s) ≤ (1 - u) * Real.sqrt w := mul_le_mul_of_nonneg_left r1 (by linarith)
    have k2 : (1 - κ - 3 * u) * s ≤ (1 - u) * ((1 - κ) * (1 - u)) * s := by
      refine mul_le_mul_of_nonneg_right ?_ s0.le
      have : (1 - u) * ((1 - κ) * (1 - u)) = 1 - κ - 2 * u + 2 * (κ * u) + u * u - κ * u * u := by ring
      rw [this]
      have : 0 ≤ κ * u := by positivity
      have : 0 ≤ u * u := by positivity
      linarith
    linarith
  have dhi : d ≤ (1 + κ + 3 * u) * s := by
    have k1 : (1 + u) * Real.sqrt w ≤ (1 + u) * ((1 + κ) * (1 + u) * s) := mul_le_mul_of_nonneg_left r2 (by linarith)
    have k2 : (1 + u) * ((1 + κ) * (1 + u)) * s ≤ (1 + κ + 3 * u) * s := by
      refine mul_le_mul_of_nonneg_right ?_ s0.le
      have : (1 + u) * ((1 + κ) * (1 + u)) = 1 + κ + 2 * u + 2 * (κ * u) + u * u + κ * u * u := by ring
      rw [this]
      linarith
    linarith
  have hdpos : 4 / 5 * s ≤ d := by
    have : 4 / 5 * s ≤ (1 - κ - 3 * u) * s := mul_le_mul_of_nonneg_right (by linarith) s0.le
    linarith
  have dpos : 0 < d := by linarith
  have hc : |c| ≤ s := by
    have := Moments.pcov_sq_le l
    refine abs_le_of_sq_le_sq ?_ s0.le
    rw [ss, pow_two]
    exact this
  have R1 : |c / s| ≤ 1 := by
    rw [abs_div, abs_of_pos s0, div_le_one s0]
    exact hc
  have key : |c' / d - c / s| ≤ 2.6 * κ := by
    have e1 : c' / d - c / s = ((c' - c) * s + c * (s - d)) / (d * s) := by field_simp; ring
    rw [e1, abs_div, abs_of_pos (mul_pos dpos s0), div_le_iff₀ (mul_pos dpos s0)]
    refine (abs_add_le _ _).trans ?_
    rw [abs_mul (c' - c) s, abs_mul c (s - d), abs_of_pos s0]
    have k1 : |c' - c| ≤ κ * s := ec.trans (mul_le_mul_of_nonneg_left sσ hκ0)
    have k2 : |s - d| ≤ (κ + 3 * u) * s := by
      rw [abs_le]
      constructor <;> linarith
    have k3 : |c' - c| * s ≤ κ * s * s := mul_le_mul_of_nonneg_right k1 s0.le
    have k4 : |c| * |s - d| ≤ s * ((κ + 3 * u) * s) := mul_le_mul hc k2 (abs_nonneg _) s0.le
    have k5 : 2.6 * κ * (4 / 5 * s * s) ≤ 2.6 * κ * (d * s) :=
      mul_le_mul_of_nonneg_left (mul_le_mul_of_nonneg_right hdpos s0.le) (by positivity)
    have k6 : (2 * κ + 3 * u) * (s * s) ≤ (2.6 * κ * (4 / 5)) * (s * s) := mul_le_mul_of_nonneg_right (by linarith) (mul_pos s0 s0).le
    linarith
  refine ⟨max (-1) (min (rnd (c' / d)) 1), ?_, ?_⟩
  · unfold pearson root
    rw [if_neg (by rintro (k | k) <;> [exact a0.ne' k; exact b0.ne' k]), if_neg (not_lt.2 w0)]
    rfl
  · refine (clip_err _ _ R1).trans ?_
    refine (abs_tri _ (c' / d) _).trans ?_
    have k1 : |c' / d| ≤ 2 := by
      have := abs_add_le (c' / d - c / s) (c / s)
      rw [sub_add_cancel] at this
      linarith
    have k2 := (h.err (c' / d)).trans (mul_le_mul_of_nonneg_left k1 hu0)
    linarith

/-! ### Double precision -/

/-- **C118.** In double precision, for up to 2^40 values. -/
theorem moments_double (l : List (ℚ × ℚ)) (hl : l ≠ []) (hn : l.length ≤ 2 ^ 40) (B : ℚ) (hb : ∀ p ∈ l, |p.1| ≤ B ∧ |p.2| ≤ B) :
    |(moments rnd64 l).mx - mean (l.map Prod.fst)| ≤ 5 * ((l.length : ℚ) + 1) * (1 / 2 ^ 53 * B) ∧
    |(moments rnd64 l).vx - pvar (l.map Prod.fst)| ≤ 55 * ((l.length : ℚ) + 2) * (1 / 2 ^ 53 * B ^ 2) ∧
    |(moments rnd64 l).cov - pcov l| ≤ 55 * ((l.length : ℚ) + 2) * (1 / 2 ^ 53 * B ^ 2) := by
  have hn' : (l.length : ℚ) ≤ 2 ^ 40 := by exact_mod_cast hn
  have := moments_err rnd64_relErr l hl (by linarith) hb
  exact ⟨this.1, this.2.2.1, this.2.2.2.2⟩

/-- **C118, negation.** No such bound relative to the variance: the variance of 2^53 and 2^53 + 2 is 1, the result 2. -/
theorem variance_wrong :
    (moments rnd64 [((2 ^ 53 : ℚ), (0 : ℚ)), (2 ^ 53 + 2, 1)]).vx = 2 ∧ pvar ([((2 ^ 53 : ℚ), (0 : ℚ)), (2 ^ 53 + 2, 1)].map Prod.fst) = 1 := by
  decide +kernel

/-- **C118, negation.** The same for the covariance with 0 and 1: 1 instead of 1/2. -/
theorem covariance_wrong :
    (moments rnd64 [((2 ^ 53 : ℚ), (0 : ℚ)), (2 ^ 53 + 2, 1)]).cov = 1 ∧ pcov [((2 ^ 53 : ℚ), (0 : ℚ)), (2 ^ 53 + 2, 1)] = 1 / 2 := by
  decide +kernel

/-! ### Examples -/

example := moments_double [(1, 2), (3, 5), (8, 2)] (by simp) (by decide) 8 (by decide +kernel)
example := ubrmsd_err rnd64_relErr id [(1, 2), (3, 5), (8, 2)] (by simp) (by norm_num) (B := 8) (by decide +kernel)

/-- without rounding -/
theorem id_relErr : RelErr (fun x : ℝ => x) 0 := ⟨le_refl _, fun x => by simp⟩

example : ∃ R, pearson (fun x => x) Real.sqrt (moments (fun x => x) [((0 : ℝ), (0 : ℝ)), (2, 2)]) = some R ∧
    |R - corrcoef [((0 : ℝ), (0 : ℝ)), (2, 2)]| ≤ 3 * (55 * ((([((0 : ℝ), (0 : ℝ)), (2, 2)] : List (ℝ × ℝ)).length : ℝ) + 2) * 0 * (2 / 1) ^ 2) :=
  pearson_err (σ := 1) (B := 2) id_relErr (fun v hv => ⟨Real.sqrt_nonneg v, by simp⟩) [((0 : ℝ), (0 : ℝ)), (2, 2)] (by simp)
    (by intro p hp; rcases List.mem_cons.1 hp with rfl | hp <;> [simp; (rcases List.mem_cons.1 hp with rfl | hp <;> [norm_num; simp at hp])])
    one_pos (by norm_num [pvar, mean]) (by norm_num [pvar, mean]) (by norm_num)

end Verif.Rounding
