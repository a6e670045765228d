import Mathlib.Analysis.Complex.Exponential
import Mathlib.Analysis.Complex.ExponentialBounds
import Verif.Rounding.Accuracy
import Verif.Filters.Props

/-! C119: accuracy of `exp_filter`. The model with rounding is `Rounding.Filters`, the exact one `Filters.Model` (whose closed form is C05). -/

namespace Verif.Rounding

open Verif.Filters (usable)

/-- both missing, or both numbers with a difference of at most `Z` -/
def CloseOpt (Z : ℝ) : Option ℝ → Option ℝ → Prop
  | none, none => True
  | some a, some b => |a - b| ≤ Z
  | _, _ => False

theorem close_mono {Y Z : ℝ} (h : Y ≤ Z) {a b : Option ℝ} (k : CloseOpt Y a b) : CloseOpt Z a b := by
  cases a <;> cases b <;> simp only [CloseOpt] at k ⊢
  exact k.trans h

/-! ### One step -/

/-- the reciprocal of the gain -/
theorem recip_step {v η q ω w w' e e' d1 d2 : ℝ} (hv0 : 0 ≤ v) (hv : v ≤ 1 / 8) (hη0 : 0 ≤ η) (hη : η ≤ 1 / 8) (hω0 : 0 ≤ ω) (hω : ω ≤ 1 / 2) (hq : 0 ≤ q)
    (hq1 : q ≤ 1) (hw : 0 < w) (he : 0 < e) (hqe : e * w ≤ q * (1 + e * w)) (h1 : |w' - w| ≤ ω * w) (h2 : |e' - e| ≤ η * e) (hd1 : |d1 - 1| ≤ v)
    (hd2 : |d2 - 1| ≤ v) :
    |d1 / d2 * (1 + e' * w') - (1 + e * w)| ≤ (q * ω + 2 * η + 9 * v) * (1 + e * w) := by
  have ew : 0 < e * w := mul_pos he hw
  have W : 0 < 1 + e * w := by linarith
  have k0 : |e' * w' - e * w| ≤ (η + ω + η * ω) * (e * w) := by
    have e1 : e' * w' - e * w = (e' - e) * w + e * (w' - w) + (e' - e) * (w' - w) := by ring
    rw [e1]
    refine (abs_add_le _ _).trans ?_
    have a1 := abs_add_le ((e' - e) * w) (e * (w' - w))
    rw [abs_mul, abs_mul, abs_of_pos hw, abs_of_pos he] at a1
    have a2 : |e' - e| * w ≤ η * e * w := mul_le_mul_of_nonneg_right h2 hw.le
    have a3 : e * |w' - w| ≤ e * (ω * w) := mul_le_mul_of_nonneg_left h1 he.le
    have a4 : |(e' - e) * (w' - w)| ≤ η * e * (ω * w) := by
      rw [abs_mul]
      exact mul_le_mul h2 h1 (abs_nonneg _) (by positivity)
    linarith
  have hηω : η * ω ≤ 1 / 2 * η := by
    have := mul_le_mul_of_nonneg_left hω hη0
    linarith
  have k1 : |1 + e' * w' - (1 + e * w)| ≤ (q * ω + 3 / 2 * η) * (1 + e * w) := by
    rw [show 1 + e' * w' - (1 + e * w) = e' * w' - e * w by ring]
    refine k0.trans ?_
    have a1 : (η + ω + η * ω) * (e * w) ≤ (ω + 3 / 2 * η) * (q * (1 + e * w)) :=
      mul_le_mul (by linarith) hqe ew.le (by positivity)
    have a2 : 3 / 2 * η * (q * (1 + e * w)) ≤ 3 / 2 * η * (1 * (1 + e * w)) :=
      mul_le_mul_of_nonneg_left (mul_le_mul_of_nonneg_right hq1 W.le) (by positivity)
    linarith
  have hqω : q * ω ≤ 1 / 2 := by
    have := mul_le_mul hq1 hω hω0 (by norm_num)
    linarith
  have k2 : |1 + e' * w'| ≤ 2 * (1 + e * w) := by
    have := abs_add_le (1 + e' * w' - (1 + e * w)) (1 + e * w)
    rw [sub_add_cancel, abs_of_pos W] at this
    have : (q * ω + 3 / 2 * η) * (1 + e * w) ≤ 1 * (1 + e * w) := mul_le_mul_of_nonneg_right (by linarith) W.le
    linarith
  obtain ⟨l1, l2⟩ := abs_le.1 hd1
  obtain ⟨m1, m2⟩ := abs_le.1 hd2
  have d20 : 0 < d2 := by linarith
  have k3 : |d1 / d2 - 1| ≤ 3 * v := by
    rw [show d1 / d2 - 1 = (d1 - d2) / d2 by field_simp, abs_div, abs_of_pos d20, div_le_iff₀ d20]
    have : |d1 - d2| ≤ 2 * v := by
      rw [abs_le]
      constructor <;> linarith
    have a1 : 3 * v * (7 / 8) ≤ 3 * v * d2 := mul_le_mul_of_nonneg_left (by linarith) (by linarith)
    linarith
  have e1 : d1 / d2 * (1 + e' * w') - (1 + e * w) = (d1 / d2 - 1) * (1 + e' * w') + (1 + e' * w' - (1 + e * w)) := by ring
  rw [e1]
  refine (abs_add_le _ _).trans ?_
  rw [abs_mul]
  have k4 : |d1 / d2 - 1| * |1 + e' * w'| ≤ 3 * v * (2 * (1 + e * w)) := mul_le_mul k3 k2 (abs_nonneg _) (by linarith)
  have k5 : 0 ≤ v * (1 + e * w) := by positivity
  have k6 : 0 ≤ η * (1 + e * w) := by positivity
  linarith

/-- rounding a nonzero number is multiplying by a factor close to 1 -/
theorem factor {rnd : ℝ → ℝ} {u : ℝ} (h : RelErr rnd u) (x : ℝ) (hx : x ≠ 0) : ∃ d, rnd x = d * x ∧ |d - 1| ≤ u := by
  refine ⟨rnd x / x, by field_simp, ?_⟩
  have := h.err x
  rw [show rnd x / x - 1 = (rnd x - x) / x by field_simp, abs_div, div_le_iff₀ (abs_pos.2 hx)]
  exact this

/-- the gain: relative error of its reciprocal, and its size -/
theorem gain_step {rnd32 : ℝ → ℝ} {v η q ω g g' e e' : ℝ} (h32 : RelErr rnd32 v) (hv : v ≤ 1 / 8) (hη0 : 0 ≤ η) (hη : η ≤ 1 / 8) (hω0 : 0 ≤ ω) (hω : ω ≤ 1 / 2)
    (hq1 : q < 1) (hg : 1 - q ≤ g) (hg0 : g ≤ 1) (hg' : 0 < g') (he : 0 < e) (heq : e ≤ q) (h1 : |1 / g' - 1 / g| ≤ ω * (1 / g)) (h2 : |e' - e| ≤ η * e) :
    1 - q ≤ g / (g + e) ∧ g / (g + e) ≤ 1 ∧ 0 < rnd32 (g' / rnd32 (g' + e')) ∧
      |1 / rnd32 (g' / rnd32 (g' + e')) - 1 / (g / (g + e))| ≤ (q * ω + 2 * η + 9 * v) * (1 / (g / (g + e))) := by
  have hq0 : 0 < q := lt_of_lt_of_le he heq
  have gpos : 0 < g := by linarith
  have e'pos : 0 < e' := by
    obtain ⟨a, _⟩ := abs_le.1 h2
    have : η * e ≤ 1 / 8 * e := mul_le_mul_of_nonneg_right hη he.le
    linarith
  have lower : 1 - q ≤ g / (g + e) := by
    rw [le_div_iff₀ (by linarith)]
    have a1 : (1 - q) * e ≤ (1 - q) * q := mul_le_mul_of_nonneg_left heq (by linarith)
    have a2 : q * (1 - q) ≤ q * g := mul_le_mul_of_nonneg_left hg hq0.le
    linarith
  obtain ⟨d1, r1, f1⟩ := factor h32 (g' + e') (by linarith)
  have d10 : 0 < d1 := by
    obtain ⟨a, _⟩ := abs_le.1 f1
    linarith
  have D : 0 < rnd32 (g' + e') := by
    rw [r1]
    exact mul_pos d10 (by linarith)
  obtain ⟨d2, r2, f2⟩ := factor h32 (g' / rnd32 (g' + e')) (div_pos hg' D).ne'
  have d20 : 0 < d2 := by
    obtain ⟨a, _⟩ := abs_le.1 f2
    linarith
  refine ⟨lower, ?_, ?_, ?_⟩
  · rw [div_le_one (by linarith)]
    linarith
  · rw [r2]
    exact mul_pos d20 (div_pos hg' D)
  · have w1 : 1 / rnd32 (g' / rnd32 (g' + e')) = d1 / d2 * (1 + e' * (1 / g')) := by
      rw [r2, r1]
      field_simp
    have w2 : 1 / (g / (g + e)) = 1 + e * (1 / g) := by field_simp
    rw [w1, w2]
    refine recip_step h32.nonneg hv hη0 hη hω0 hω hq0.le hq1.le (by positivity) he ?_ h1 h2 f1 f2
    rw [← w2]
    have : e * (1 / g) = 1 / (g / (g + e)) - 1 := by rw [w2]; ring
    rw [this]
    have p : 0 < g / (g + e) := by linarith
    have k : 1 / (g / (g + e)) * (1 - q) ≤ 1 := by
      rw [one_div, inv_mul_le_iff₀ p]
      linarith
    linarith

/-- the filtered value -/
theorem value_step {rnd : ℝ → ℝ} {u q lam B g g' f f' x Z : ℝ} (h : RelErr rnd u) (hu : 40 * u ≤ 1) (hlam : lam ≤ 1) (hq1 : q < 1)
    (hg : 1 - q ≤ g) (hg0 : g ≤ 1) (hgg : |g' - g| ≤ lam * g) (hx : |x| ≤ B) (hf : |f| ≤ B) (hZ : |f' - f| ≤ Z) (hZB : Z ≤ B)
    (hZd : 3 * lam * B + 25 * u * B / (1 - q) = Z) :
    |rnd (f' + rnd (g' * rnd (x - f'))) - (f + g * (x - f))| ≤ Z ∧ |f + g * (x - f)| ≤ B := by
  have hu0 := h.nonneg
  have hB : 0 ≤ B := (abs_nonneg _).trans hx
  have gpos : 0 < g := by linarith
  have uB : 0 ≤ u * B := mul_nonneg hu0 hB
  have uB40 := mul_le_mul_of_nonneg_right hu hB
  have lamg : lam * g ≤ 1 := by
    have := mul_le_mul hlam hg0 gpos.le (by norm_num)
    linarith
  have convex : |f + g * (x - f)| ≤ B := by
    rw [show f + g * (x - f) = (1 - g) * f + g * x by ring]
    refine (abs_add_le _ _).trans ?_
    rw [abs_mul, abs_mul, abs_of_pos gpos, abs_of_nonneg (by linarith : 0 ≤ 1 - g)]
    have a1 : (1 - g) * |f| ≤ (1 - g) * B := mul_le_mul_of_nonneg_left hf (by linarith)
    have a2 : g * |x| ≤ g * B := mul_le_mul_of_nonneg_left hx gpos.le
    linarith
  refine ⟨?_, convex⟩
  have f'B : |f'| ≤ 2 * B := by
    have := abs_add_le (f' - f) f
    rw [sub_add_cancel] at this
    linarith
  have b1 : |x - f'| ≤ 3 * B := (abs_sub _ _).trans (by linarith)
  have b2 := (h.err (x - f')).trans (mul_le_mul_of_nonneg_left b1 hu0)
  have b3 : |rnd (x - f')| ≤ 4 * B := by
    have := abs_add_le (rnd (x - f') - (x - f')) (x - f')
    rw [sub_add_cancel] at this
    linarith
  have g'B : |g'| ≤ 2 := by
    have := abs_add_le (g' - g) g
    rw [sub_add_cancel, abs_of_pos gpos] at this
    linarith
  have b4 : |g' * rnd (x - f')| ≤ 8 * B := by
    rw [abs_mul]
    have := mul_le_mul g'B b3 (abs_nonneg _) (by norm_num)
    linarith
  have b5 := (h.err (g' * rnd (x - f'))).trans (mul_le_mul_of_nonneg_left b4 hu0)
  have b6 : |g' * rnd (x - f') - g' * (x - f')| ≤ 6 * (u * B) := by
    rw [← mul_sub, abs_mul]
    have := mul_le_mul g'B b2 (abs_nonneg _) (by norm_num)
    linarith
  have b7 : |rnd (g' * rnd (x - f'))| ≤ 9 * B := by
    have := abs_add_le (rnd (g' * rnd (x - f')) - g' * rnd (x - f')) (g' * rnd (x - f'))
    rw [sub_add_cancel] at this
    linarith
  have b8 : |f' + rnd (g' * rnd (x - f'))| ≤ 11 * B := (abs_add_le _ _).trans (by linarith)
  have b9 := (h.err (f' + rnd (g' * rnd (x - f')))).trans (mul_le_mul_of_nonneg_left b8 hu0)
  have b10 : |(g' - g) * (x - f')| ≤ 3 * (lam * g * B) := by
    rw [abs_mul]
    have := mul_le_mul hgg b1 (abs_nonneg _) ((abs_nonneg _).trans hgg)
    linarith
  have b11 : |(1 - g) * (f' - f)| ≤ (1 - g) * Z := by
    rw [abs_mul, abs_of_nonneg (by linarith : 0 ≤ 1 - g)]
    exact mul_le_mul_of_nonneg_left hZ (by linarith)
  have e1 : rnd (f' + rnd (g' * rnd (x - f'))) - (f + g * (x - f)) =
      (rnd (f' + rnd (g' * rnd (x - f'))) - (f' + rnd (g' * rnd (x - f')))) + ((rnd (g' * rnd (x - f')) - g' * rnd (x - f')) +
        ((g' * rnd (x - f') - g' * (x - f')) + ((g' - g) * (x - f') + (1 - g) * (f' - f)))) := by ring
  rw [e1]
  refine (abs_add_le _ _).trans ?_
  have c1 := abs_add_le (rnd (g' * rnd (x - f')) - g' * rnd (x - f')) ((g' * rnd (x - f') - g' * (x - f')) + ((g' - g) * (x - f') + (1 - g) * (f' - f)))
  have c2 := abs_add_le (g' * rnd (x - f') - g' * (x - f')) ((g' - g) * (x - f') + (1 - g) * (f' - f))
  have c3 := abs_add_le ((g' - g) * (x - f')) ((1 - g) * (f' - f))
  have c4 : 25 * u * B ≤ g * (25 * u * B / (1 - q)) := by
    have : (1 - q) * (25 * u * B / (1 - q)) ≤ g * (25 * u * B / (1 - q)) :=
      mul_le_mul_of_nonneg_right hg (div_nonneg (by positivity) (by linarith))
    have e2 : (1 - q) * (25 * u * B / (1 - q)) = 25 * u * B := by
      have : 1 - q ≠ 0 := by linarith
      field_simp
    linarith
  have c5 : g * Z = 3 * (lam * g * B) + g * (25 * u * B / (1 - q)) := by rw [← hZd]; ring
  linarith

/-- from the reciprocals back to the gains -/
theorem gain_of_recip {g g' Om : ℝ} (hg : 0 < g) (hg' : 0 < g') (hO0 : 0 ≤ Om) (hO : Om ≤ 1 / 2) (h : |1 / g' - 1 / g| ≤ Om * (1 / g)) : |g' - g| ≤ 2 * Om * g := by
  have k1 : |g' - g| ≤ Om * g' := by
    have e1 : |g' - g| = g * g' * |1 / g' - 1 / g| := by
      have e0 : g' - g = g * g' * (1 / g - 1 / g') := by field_simp
      rw [e0, abs_mul, abs_of_pos (mul_pos hg hg'), abs_sub_comm]
    have e2 : Om * g' = g * g' * (Om * (1 / g)) := by field_simp
    rw [e1, e2]
    exact mul_le_mul_of_nonneg_left h (mul_pos hg hg').le
  have k2 : g' ≤ 2 * g := by
    obtain ⟨_, a⟩ := abs_le.1 k1
    have : Om * g' ≤ 1 / 2 * g' := mul_le_mul_of_nonneg_right hO hg'.le
    linarith
  have k3 : Om * g' ≤ Om * (2 * g) := mul_le_mul_of_nonneg_left k2 hO0
  linarith

/-! ### The loop -/

/-- the times of the usable observations -/
noncomputable def usableTimes (nan : ℝ) (obs : List (ℝ × Option ℝ)) : List ℝ :=
  obs.filterMap fun o => (usable nan o.2).map fun _ => o.1

/-- two successive usable observations at `a` and `b`: the true weight is at most `q`, the computed one has a relative error of at most `η` -/
def WeightOk (rnd rnd32 ex : ℝ → ℝ) (ctime : ℤ) (q η a b : ℝ) : Prop :=
  Real.exp (-(b - a) / (ctime : ℝ)) ≤ q ∧
    |rnd32 (ex (rnd (-(rnd (b - a)) / (ctime : ℝ)))) - Real.exp (-(b - a) / (ctime : ℝ))| ≤ η * Real.exp (-(b - a) / (ctime : ℝ))

section loop
variable {rnd rnd32 ex : ℝ → ℝ} {u v q η B nan : ℝ} {ctime : ℤ}

theorem exp_loop_err (h : RelErr rnd u) (h32 : RelErr rnd32 v) (hu : 40 * u ≤ 1) (hv : v ≤ 1 / 8) (hη0 : 0 ≤ η) (hη : η ≤ 1 / 8) (hq1 : q < 1)
    (hO : (2 * η + 9 * v) / (1 - q) ≤ 1 / 2) (hZB : 3 * (2 * ((2 * η + 9 * v) / (1 - q))) * B + 25 * u * B / (1 - q) ≤ B) (obs : List (ℝ × Option ℝ))
    (hB : ∀ o ∈ obs, ∀ x, usable nan o.2 = some x → |x| ≤ B) (s : ExpState ℝ) (s' : Filters.ExpState) (ht : s.lastJd = s'.lastJd)
    (hch : (s'.lastJd :: usableTimes nan obs).IsChain (WeightOk rnd rnd32 ex ctime q η)) (g1 : 1 - q ≤ s'.gain) (g2 : s'.gain ≤ 1) (g3 : 0 < s.gain)
    (g4 : |1 / s.gain - 1 / s'.gain| ≤ (2 * η + 9 * v) / (1 - q) * (1 / s'.gain)) (f1 : |s'.lastFiltered| ≤ B)
    (f2 : |s.lastFiltered - s'.lastFiltered| ≤ 3 * (2 * ((2 * η + 9 * v) / (1 - q))) * B + 25 * u * B / (1 - q)) :
    List.Forall₂ (CloseOpt (3 * (2 * ((2 * η + 9 * v) / (1 - q))) * B + 25 * u * B / (1 - q))) (expLoop rnd rnd32 ex ctime nan (some s) obs)
      (Filters.expLoop ctime nan (some s') obs) := by
  have hv0 := h32.nonneg
  have q1 : 0 < 1 - q := by linarith
  have O0 : 0 ≤ (2 * η + 9 * v) / (1 - q) := div_nonneg (by linarith) q1.le
  have Oq : q * ((2 * η + 9 * v) / (1 - q)) + 2 * η + 9 * v = (2 * η + 9 * v) / (1 - q) := by
    field_simp
    ring
  induction obs generalizing s s' with
  | nil => exact .nil
  | cons o obs ih =>
    have hB' : ∀ o ∈ obs, ∀ x, usable nan o.2 = some x → |x| ≤ B := fun o ho => hB o (List.mem_cons_of_mem _ ho)
    unfold expLoop Filters.expLoop
    cases hx : usable nan o.2 with
    | none =>
      have t1 : usableTimes nan (o :: obs) = usableTimes nan obs := by simp [usableTimes, hx]
      rw [t1] at hch
      have e1 : expStep rnd rnd32 ex ctime nan (some s) o = (some s, none) := by simp [expStep, hx]
      have e2 : Filters.expStep ctime nan (some s') o = (some s', none) := by simp [Filters.expStep, hx]
      simp only [e1, e2]
      exact .cons trivial (ih hB' s s' ht hch g1 g2 g3 g4 f1 f2)
    | some x =>
      have t1 : usableTimes nan (o :: obs) = o.1 :: usableTimes nan obs := by simp [usableTimes, hx]
      rw [t1, List.isChain_cons_cons] at hch
      obtain ⟨⟨w1, w2⟩, hch⟩ := hch
      have e1 : expStep rnd rnd32 ex ctime nan (some s) o =
          (some ⟨rnd32 (s.gain / rnd32 (s.gain + rnd32 (ex (rnd (-(rnd (o.1 - s.lastJd)) / (ctime : ℝ)))))), o.1,
            rnd (s.lastFiltered + rnd (rnd32 (s.gain / rnd32 (s.gain + rnd32 (ex (rnd (-(rnd (o.1 - s.lastJd)) / (ctime : ℝ)))))) * rnd (x - s.lastFiltered)))⟩,
            some (rnd (s.lastFiltered + rnd (rnd32 (s.gain / rnd32 (s.gain + rnd32 (ex (rnd (-(rnd (o.1 - s.lastJd)) / (ctime : ℝ)))))) * rnd (x - s.lastFiltered))))) := by
        simp [expStep, hx]
      have e2 : Filters.expStep ctime nan (some s') o =
          (some ⟨s'.gain / (s'.gain + Real.exp (-(o.1 - s'.lastJd) / (ctime : ℝ))), o.1,
            s'.lastFiltered + s'.gain / (s'.gain + Real.exp (-(o.1 - s'.lastJd) / (ctime : ℝ))) * (x - s'.lastFiltered)⟩,
            some (s'.lastFiltered + s'.gain / (s'.gain + Real.exp (-(o.1 - s'.lastJd) / (ctime : ℝ))) * (x - s'.lastFiltered))) := by
        simp [Filters.expStep, hx]
      simp only [e1, e2]
      rw [ht]
      obtain ⟨k1, k2, k3, k4⟩ := gain_step h32 hv hη0 hη O0 hO hq1 g1 g2 g3 (Real.exp_pos _) w1 g4 w2
      rw [Oq] at k4
      have k5 := gain_of_recip (by linarith) k3 O0 hO k4
      obtain ⟨v1, v2⟩ := value_step h hu (by linarith) hq1 k1 k2 k5 (hB o (by simp) x hx) f1 f2 hZB rfl
      exact .cons v1 (ih hB' _ _ rfl hch k1 k2 k3 k4 v2 v1)

/-- C119. `exp_filter` in machine arithmetic against the exact filter (C07): if the true weight between successive usable observations is at most `q < 1`
and each computed weight has a relative error of at most `η`, each result is missing in both or differs by at most
`(12 η + 54 v + 25 u)/(1 - q)` times the largest usable value, however long the series is. `u` and `v` are the unit roundoffs of
double and single precision. -/
theorem exp_filter_err (h : RelErr rnd u) (h32 : RelErr rnd32 v) (hu : 40 * u ≤ 1) (hv : v ≤ 1 / 8) (hη0 : 0 ≤ η) (hη : η ≤ 1 / 8) (hq0 : 0 ≤ q) (hq1 : q < 1)
    (hsmall : 12 * η + 54 * v + 25 * u ≤ 1 - q) (obs : List (ℝ × Option ℝ)) (hB : ∀ o ∈ obs, ∀ x, usable nan o.2 = some x → |x| ≤ B)
    (hch : (usableTimes nan obs).IsChain (WeightOk rnd rnd32 ex ctime q η)) :
    List.Forall₂ (CloseOpt ((12 * η + 54 * v + 25 * u) / (1 - q) * B)) (expFilter rnd rnd32 ex obs ctime nan) (Filters.expFilter obs ctime nan) := by
  have hv0 := h32.nonneg
  have hu0 := h.nonneg
  have q1 : 0 < 1 - q := by linarith
  have O0 : 0 ≤ (2 * η + 9 * v) / (1 - q) := div_nonneg (by linarith) q1.le
  have hO : (2 * η + 9 * v) / (1 - q) ≤ 1 / 2 := by
    rw [div_le_iff₀ q1]
    linarith
  have hZ : 3 * (2 * ((2 * η + 9 * v) / (1 - q))) * B + 25 * u * B / (1 - q) = (12 * η + 54 * v + 25 * u) / (1 - q) * B := by
    field_simp
    ring
  have hF : (12 * η + 54 * v + 25 * u) / (1 - q) ≤ 1 := by
    rw [div_le_one q1]
    exact hsmall
  have hF0 : 0 ≤ (12 * η + 54 * v + 25 * u) / (1 - q) := div_nonneg (by linarith) q1.le
  unfold expFilter Filters.expFilter
  induction obs with
  | nil => exact .nil
  | cons o obs ih =>
    have hB' : ∀ o ∈ obs, ∀ x, usable nan o.2 = some x → |x| ≤ B := fun o ho => hB o (List.mem_cons_of_mem _ ho)
    unfold expLoop Filters.expLoop
    cases hx : usable nan o.2 with
    | none =>
      have t1 : usableTimes nan (o :: obs) = usableTimes nan obs := by simp [usableTimes, hx]
      rw [t1] at hch
      have e1 : expStep rnd rnd32 ex ctime nan none o = (none, none) := by simp [expStep, hx]
      have e2 : Filters.expStep ctime nan none o = (none, none) := by simp [Filters.expStep, hx]
      simp only [e1, e2]
      exact .cons trivial (ih hB' hch)
    | some x =>
      have t1 : usableTimes nan (o :: obs) = o.1 :: usableTimes nan obs := by simp [usableTimes, hx]
      rw [t1] at hch
      have e1 : expStep rnd rnd32 ex ctime nan none o = (some ⟨1, o.1, x⟩, some x) := by simp [expStep, hx]
      have e2 : Filters.expStep ctime nan none o = (some ⟨1, o.1, x⟩, some x) := by simp [Filters.expStep, hx]
      simp only [e1, e2]
      have xB := hB o (by simp) x hx
      have B0 : 0 ≤ B := (abs_nonneg _).trans xB
      have Z0 : 0 ≤ (12 * η + 54 * v + 25 * u) / (1 - q) * B := mul_nonneg hF0 B0
      refine .cons ?_ ?_
      · simpa [CloseOpt] using Z0
      · have := exp_loop_err h h32 hu hv hη0 hη hq1 hO (by rw [hZ]; have := mul_le_mul_of_nonneg_right hF B0; linarith) obs hB' ⟨1, o.1, x⟩ ⟨1, o.1, x⟩ rfl hch
          (by simpa using hq0) le_rfl one_pos (by simpa using O0) xB (by rw [hZ]; simpa using Z0)
        rwa [hZ] at this

end loop

/-! ### The weights -/

/-- the relative error of one weight: argument and exponential in double precision, weight stored in single precision. `ue` is the relative error of the
library's exponential, `M` bounds the distance of the two observations in units of `ctime`. -/
theorem weight_err {rnd rnd32 ex : ℝ → ℝ} {u v ue M y td T : ℝ} (h : RelErr rnd u) (h32 : RelErr rnd32 v) (hT : 0 < T) (hue : ue ≤ 1 / 8)
    (hex : ∀ a, |ex a - Real.exp a| ≤ ue * Real.exp a) (hy : y = -td / T) (hM : |y| ≤ M) (huM : 24 * u * M ≤ 1) (hu : u ≤ 1) :
    |rnd32 (ex (rnd (-(rnd td) / T))) - Real.exp y| ≤ (6 * u * M + 2 * ue + 2 * v) * Real.exp y := by
  have hu0 := h.nonneg
  have hv0 := h32.nonneg
  have M0 : 0 ≤ M := (abs_nonneg _).trans hM
  have ue0 : 0 ≤ ue := by
    have := (abs_nonneg _).trans (hex 0)
    simpa using this
  have E := Real.exp_pos y
  have uM0 : 0 ≤ u * M := mul_nonneg hu0 M0
  -- the argument
  have p1 : |-(rnd td) / T - y| ≤ u * M := by
    rw [hy, ← sub_div, show -(rnd td) - -td = -(rnd td - td) by ring, abs_div, abs_neg, abs_of_pos hT, div_le_iff₀ hT]
    have e1 : |td| = |y| * T := by
      rw [hy, abs_div, abs_neg, abs_of_pos hT]
      field_simp
    have := h.err td
    rw [e1] at this
    refine this.trans ?_
    rw [← mul_assoc]
    exact mul_le_mul_of_nonneg_right (mul_le_mul_of_nonneg_left hM hu0) hT.le
  have p2 : |-(rnd td) / T| ≤ 2 * M := by
    have := abs_add_le (-(rnd td) / T - y) y
    rw [sub_add_cancel] at this
    have : u * M ≤ 1 * M := mul_le_mul_of_nonneg_right hu M0
    linarith
  have p3 : |rnd (-(rnd td) / T) - y| ≤ 3 * (u * M) := by
    have a1 := (h.err (-(rnd td) / T)).trans (mul_le_mul_of_nonneg_left p2 hu0)
    have := abs_add_le (rnd (-(rnd td) / T) - -(rnd td) / T) (-(rnd td) / T - y)
    rw [sub_add_sub_cancel] at this
    linarith
  -- the exponential
  generalize rnd (-(rnd td) / T) = a at p3 ⊢
  have p4 : |Real.exp a - Real.exp y| ≤ 6 * (u * M) * Real.exp y := by
    have e1 : Real.exp a - Real.exp y = (Real.exp (a - y) - 1) * Real.exp y := by
      rw [sub_mul, ← Real.exp_add, sub_add_cancel, one_mul]
    rw [e1, abs_mul, abs_of_pos E]
    have := Real.abs_exp_sub_one_le (x := a - y) (by linarith)
    exact mul_le_mul_of_nonneg_right (by linarith) E.le
  have uME : 24 * u * M * Real.exp y ≤ 1 * Real.exp y := mul_le_mul_of_nonneg_right huM E.le
  have ueE : ue * Real.exp y ≤ 1 / 8 * Real.exp y := mul_le_mul_of_nonneg_right hue E.le
  have ueE0 : 0 ≤ ue * Real.exp y := by positivity
  have p5 : Real.exp a ≤ 5 / 4 * Real.exp y := by
    have := (abs_le.1 p4).2
    linarith
  have p6 : |ex a - Real.exp y| ≤ 5 / 4 * (ue * Real.exp y) + 6 * (u * M) * Real.exp y := by
    have := abs_add_le (ex a - Real.exp a) (Real.exp a - Real.exp y)
    rw [sub_add_sub_cancel] at this
    have a1 := (hex a).trans (mul_le_mul_of_nonneg_left p5 ue0)
    linarith
  have p7 : |ex a| ≤ 2 * Real.exp y := by
    have := abs_add_le (ex a - Real.exp y) (Real.exp y)
    rw [sub_add_cancel, abs_of_pos E] at this
    linarith
  have p8 := (h32.err (ex a)).trans (mul_le_mul_of_nonneg_left p7 hv0)
  have := abs_add_le (rnd32 (ex a) - ex a) (ex a - Real.exp y)
  rw [sub_add_sub_cancel] at this
  linarith

/-- C119, all together: successive usable observations at least `d` and at most `M * ctime` apart -/
theorem exp_filter_accuracy {rnd rnd32 ex : ℝ → ℝ} {u v ue d M B nan : ℝ} {ctime : ℤ} (h : RelErr rnd u) (h32 : RelErr rnd32 v)
    (hex : ∀ a, |ex a - Real.exp a| ≤ ue * Real.exp a) (hT : 0 < ctime) (hd : 0 < d) (hM : 0 ≤ M)
    (hsmall : 97 * u + 72 * u * M + 24 * ue + 78 * v ≤ 1 - Real.exp (-d / ctime)) (obs : List (ℝ × Option ℝ))
    (hB : ∀ o ∈ obs, ∀ x, usable nan o.2 = some x → |x| ≤ B)
    (hch : (usableTimes nan obs).IsChain (fun a b => d ≤ b - a ∧ b - a ≤ M * ctime)) :
    List.Forall₂ (CloseOpt ((25 * u + 72 * u * M + 24 * ue + 78 * v) / (1 - Real.exp (-d / ctime)) * B)) (expFilter rnd rnd32 ex obs ctime nan)
      (Filters.expFilter obs ctime nan) := by
  have hu0 := h.nonneg
  have hv0 := h32.nonneg
  have ue0 : 0 ≤ ue := by
    have := (abs_nonneg _).trans (hex 0)
    simpa using this
  have uM : 0 ≤ u * M := mul_nonneg hu0 hM
  have T : (0 : ℝ) < ctime := by exact_mod_cast hT
  have E := Real.exp_pos (-d / (ctime : ℝ))
  have q1 : Real.exp (-d / (ctime : ℝ)) < 1 := by
    rw [Real.exp_lt_one_iff] 
    exact div_neg_of_neg_of_pos (by linarith) T
  have hch' : (usableTimes nan obs).IsChain (WeightOk rnd rnd32 ex ctime (Real.exp (-d / (ctime : ℝ))) (6 * u * M + 2 * ue + 2 * v)) := by
    refine hch.imp fun a b w => ⟨?_, weight_err (M := M) h h32 T (by linarith) hex rfl ?_ (by linarith) (by linarith)⟩
    · exact Real.exp_le_exp.2 (div_le_div_of_nonneg_right (by linarith [w.1]) T.le)
    · rw [abs_div, abs_neg, abs_of_pos T, div_le_iff₀ T, abs_of_nonneg (by linarith [w.1])]
      exact w.2
  have := exp_filter_err h h32 (by linarith) (by linarith) (by linarith) (by linarith) E.le q1 (by linarith) obs hB hch'
  convert this using 3
  ring

/-- C119 for IEEE double and single precision and an exponential accurate to one unit in the last place, against the exponentially weighted mean (the
specification of C07): five millionths of the largest usable value, divided by `1 - exp (-d / ctime)`. -/
theorem exp_filter_double {rnd rnd32 ex : ℝ → ℝ} {d B nan : ℝ} {ctime : ℤ} (h : RelErr rnd (1 / 2 ^ 53)) (h32 : RelErr rnd32 (1 / 2 ^ 24))
    (hex : ∀ a, |ex a - Real.exp a| ≤ 1 / 2 ^ 52 * Real.exp a) (hT : 0 < ctime) (hd : 0 < d)
    (hsmall : 5 / 10 ^ 6 ≤ 1 - Real.exp (-d / ctime)) (hB0 : 0 ≤ B) (obs : List (ℝ × Option ℝ))
    (hB : ∀ o ∈ obs, ∀ x, usable nan o.2 = some x → |x| ≤ B)
    (hch : (usableTimes nan obs).IsChain (fun a b => d ≤ b - a ∧ b - a ≤ 2 ^ 20 * ctime)) :
    (expFilter rnd rnd32 ex obs ctime nan).length = obs.length ∧ ∀ (i : ℕ) (o : ℝ × Option ℝ), obs[i]? = some o →
      ∃ r, (expFilter rnd rnd32 ex obs ctime nan)[i]? = some r ∧
        CloseOpt (5 / 10 ^ 6 / (1 - Real.exp (-d / ctime)) * B) r (Filters.expSpec ctime nan (obs.take (i + 1)) o) := by
  have T : (0 : ℝ) < ctime := by exact_mod_cast hT
  have q1 : Real.exp (-d / (ctime : ℝ)) < 1 := by
    rw [Real.exp_lt_one_iff]
    exact div_neg_of_neg_of_pos (by linarith) T
  obtain ⟨c1, c2⟩ := Filters.exp_filter_correct obs ctime (by omega) nan
  have key := exp_filter_accuracy h h32 hex hT hd (M := 2 ^ 20) (by norm_num) (by norm_num at hsmall ⊢; linarith) obs hB hch
  have len := key.length_eq
  refine ⟨by rw [len, c1], fun i o ho => ?_⟩
  have hi : i < obs.length := by
    rw [List.getElem?_eq_some_iff] at ho
    exact ho.1
  have i1 : i < (expFilter rnd rnd32 ex obs ctime nan).length := by rw [len, c1]; exact hi
  have i2 : i < (Filters.expFilter obs ctime nan).length := by rw [c1]; exact hi
  have k := (List.forall₂_iff_get.1 key).2 i i1 i2
  refine ⟨_, List.getElem?_eq_getElem i1, ?_⟩
  have s1 := c2 i o ho
  rw [List.getElem?_eq_getElem i2, Option.some.injEq] at s1
  simp only [List.get_eq_getElem] at k
  rw [s1] at k
  refine close_mono ?_ k
  refine mul_le_mul_of_nonneg_right (div_le_div_of_nonneg_right (by norm_num) (by linarith)) hB0

/-! A concrete case: every operation off by its full unit roundoff. -/

theorem scaled_relErr (u : ℝ) (hu : 0 ≤ u) : RelErr (fun x => x * (1 + u)) u :=
  ⟨hu, fun x => by rw [show x * (1 + u) - x = u * x by ring, abs_mul, abs_of_nonneg hu]⟩

example := exp_filter_double (rnd := fun x => x * (1 + 1 / 2 ^ 53)) (rnd32 := fun x => x * (1 + 1 / 2 ^ 24)) (ex := fun x => Real.exp x * (1 + 1 / 2 ^ 52))
  (d := 1) (B := 7) (nan := -1) (ctime := 1) (scaled_relErr _ (by norm_num)) (scaled_relErr _ (by norm_num))
  (fun a => by rw [show Real.exp a * (1 + 1 / 2 ^ 52) - Real.exp a = 1 / 2 ^ 52 * Real.exp a by ring, abs_of_pos (by positivity)]) one_pos one_pos
  (by have := Real.exp_neg_one_lt_d9; norm_num at this ⊢; linarith) (by norm_num) [(0, some 3), (1, none), (2, some (-1)), (3, some 7), (5, some 4)]
  (by simp [usable]; norm_num) (by
    have e : usableTimes (-1) [(0, some 3), (1, none), (2, some (-1)), (3, some 7), (5, some 4)] = [0, 3, 5] := by
      norm_num [usableTimes, usable, List.filterMap_cons]
    rw [e]
    norm_num)

end Verif.Rounding
