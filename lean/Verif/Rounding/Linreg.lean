import Verif.Rounding.ScalingAccuracy

/-!
C127: accuracy of the scaling method `linreg` (`src/pytesmo/scaling.py:187-230`) with a rounding after every operation. The slope and the intercept come
from `scipy.stats.linregress`, which divides the covariances of `np.cov(x, y, bias=1)`; the order of the additions is arbitrary, and the matrix product may
keep a product exact.
-/

namespace Verif.Rounding

open Rolling.Fl (rnd64)
open Moments (mean pvar pcov S)

section Model

variable {K : Type} [Field K] [LinearOrder K]

/-- the arithmetic of `linregress`: sums in some order, products of the matrix product rounded or exact. Used for scaling.py:207. -/
structure RegArith (K : Type) where
  rnd : K → K
  /-- `np.mean` -/
  add : List K → K
  /-- the mean inside `np.cov` -/
  avg : List K → K
  /-- the sums of the matrix product inside `np.cov`: of x with x and of x with y -/
  dotXX : List K → K
  dotXY : List K → K
  mul : K → K → K

/-- a covariance of `np.cov(…, bias=1)` (scaling.py:207): deviations from computed means, the matrix product and the factor `1 / n` -/
def covF (A : RegArith K) (dot : List K → K) (l : List (K × K)) : K :=
  let mx := npMeanF A.rnd A.avg (l.map Prod.fst)
  let my := npMeanF A.rnd A.avg (l.map Prod.snd)
  A.rnd (dot (l.map (fun p => A.mul (A.rnd (p.1 - mx)) (A.rnd (p.2 - my)))) * A.rnd (1 / (l.length : K)))

/-- the slope of `linregress` (scaling.py:207) -/
def slopeF (A : RegArith K) (l : List (K × K)) : K :=
  A.rnd (covF A A.dotXY l / covF A A.dotXX (l.map (fun p => (p.1, p.1))))

/-- the intercept of `linregress` (scaling.py:207) -/
def interceptF (A : RegArith K) (l : List (K × K)) : K :=
  A.rnd (npMeanF A.rnd A.add (l.map Prod.snd) - A.rnd (slopeF A l * npMeanF A.rnd A.add (l.map Prod.fst)))

/-- scaling.py:212-230 `linreg(src, ref)` for pairs of values, not all equal in the source (`linregress` raises an exception otherwise) -/
def linregF (A : RegArith K) (l : List (K × K)) : List K := linregStored A.rnd (slopeF A l) (interceptF A l) (l.map Prod.fst)

end Model

/-! ### Specification -/

section Spec

variable {K : Type} [Field K] [LinearOrder K]

/-- the operations have a relative error of at most `u`, sums are rounded additions in some order -/
structure RegArith.Ok (A : RegArith K) (u : K) : Prop where
  rel : RelErr A.rnd u
  add : Adds A.rnd A.add
  avg : Adds A.rnd A.avg
  xx : Adds A.rnd A.dotXX
  xy : Adds A.rnd A.dotXY
  mul : ∀ a b, A.mul a b = A.rnd (a * b) ∨ A.mul a b = a * b

/-- the slope of the least squares line -/
def regSlope (l : List (K × K)) : K := pcov l / pvar (l.map Prod.fst)

/-- its intercept -/
def regIntercept (l : List (K × K)) : K := mean (l.map Prod.snd) - regSlope l * mean (l.map Prod.fst)

end Spec

/-! ### Proofs -/

section Field

variable {K : Type} [Field K] [LinearOrder K] [IsStrictOrderedRing K]

/-- a product of deviations with bounds of their own -/
theorem prod2_err {rnd : K → K} {u : K} (h : RelErr rnd u) {B C a a' b b' f : K} (hB : 0 ≤ B) (hC : 0 ≤ C) (hf0 : 0 ≤ f) (ha : |a| ≤ 2 * B)
    (hb : |b| ≤ 2 * C) (ha' : |a' - a| ≤ f * B) (hb' : |b' - b| ≤ f * C) (hf : f ≤ 2) (z : K) (hz : z = rnd (a' * b') ∨ z = a' * b') :
    |z - a * b| ≤ (6 * f + 16 * u) * (B * C) ∧ |a * b| ≤ 4 * (B * C) := by
  have hu0 := h.nonneg
  have hP : 0 ≤ B * C := mul_nonneg hB hC
  have hb4 : |b'| ≤ 4 * C := by
    have := abs_add_le (b' - b) b
    rw [sub_add_cancel] at this
    have := mul_le_mul_of_nonneg_right hf hC
    linarith
  have ha4 : |a'| ≤ 4 * B := by
    have := abs_add_le (a' - a) a
    rw [sub_add_cancel] at this
    have := mul_le_mul_of_nonneg_right hf hB
    linarith
  have h1 : |a' * b' - a * b| ≤ 6 * f * (B * C) := by
    have e : a' * b' - a * b = (a' - a) * b' + a * (b' - b) := by ring
    rw [e]
    refine (abs_add_le _ _).trans ?_
    rw [abs_mul, abs_mul]
    have m1 := mul_le_mul ha' hb4 (abs_nonneg _) (by positivity)
    have m2 := mul_le_mul ha hb' (abs_nonneg _) (by positivity)
    have e2 : f * B * (4 * C) + 2 * B * (f * C) = 6 * f * (B * C) := by ring
    linarith
  have h2 : |a' * b'| ≤ 16 * (B * C) := by
    rw [abs_mul]
    refine (mul_le_mul ha4 hb4 (abs_nonneg _) (by positivity)).trans (le_of_eq (by ring))
  refine ⟨?_, ?_⟩
  · have h3 : |z - a' * b'| ≤ 16 * u * (B * C) := by
      rcases hz with rfl | rfl
      · refine (h.err _).trans ((mul_le_mul_of_nonneg_left h2 hu0).trans (le_of_eq (by ring)))
      · rw [sub_self, abs_zero]; positivity
    refine (abs_tri _ (a' * b') _).trans ?_
    linarith
  · rw [abs_mul]
    refine (mul_le_mul ha hb (abs_nonneg _) (by positivity)).trans (le_of_eq (by ring))

/-- multiplication by the rounded `1 / n` -/
theorem scale1_err {rnd : K → K} {u P n T D F : K} (h : RelErr rnd u) (hn : 1 ≤ n) (hu10 : 10 * u ≤ 1) (hP : 0 ≤ P) (hT0 : 0 ≤ T) (hT12 : T ≤ 13 * P)
    (d : |D - F| ≤ n * T) (s : |F| ≤ n * (4 * P)) : |rnd (D * rnd (1 / n)) - F / n| ≤ T + 40 * (u * P) := by
  have hu0 := h.nonneg
  have hn0 : 0 < n := by linarith
  have k1 := h.err (1 / n)
  have k2 := h.le (1 / n)
  rw [abs_of_pos (by positivity : 0 < 1 / n)] at k1 k2
  have huP : 0 ≤ u * P := by positivity
  have k3 : |D * rnd (1 / n) - F / n| ≤ T * (1 + u) + 4 * (u * P) := by
    have e2 : D * rnd (1 / n) - F / n = (D - F) * rnd (1 / n) + F * (rnd (1 / n) - 1 / n) := by ring
    rw [e2]
    refine (abs_add_le _ _).trans ?_
    rw [abs_mul, abs_mul]
    have m1 := mul_le_mul d k2 (abs_nonneg _) (by positivity)
    have m2 := mul_le_mul s k1 (abs_nonneg _) (by positivity)
    have m3 : n * T * ((1 + u) * (1 / n)) = T * (1 + u) := by field_simp
    have m4 : n * (4 * P) * (u * (1 / n)) = 4 * (u * P) := by field_simp
    linarith
  have c1 : |F / n| ≤ 4 * P := by
    rw [abs_div, abs_of_pos hn0, div_le_iff₀ hn0]
    linarith
  have fin := rnd_err h k3
  have huT : u * T ≤ 13 * (u * P) := by
    have := mul_le_mul_of_nonneg_left hT12 hu0
    linarith
  have huu : u * (u * P) ≤ 1 / 10 * (u * P) := mul_le_mul_of_nonneg_right (by linarith) huP
  have huuT : u * (u * T) ≤ 1 / 10 * (13 * (u * P)) := mul_le_mul (by linarith) huT (by positivity) (by norm_num)
  have h4 := mul_le_mul_of_nonneg_left c1 hu0
  refine fin.trans ?_
  have e3 : (T * (1 + u) + 4 * (u * P)) * (1 + u) = T + 2 * (u * T) + u * (u * T) + 4 * (u * P) + 4 * (u * (u * P)) := by ring
  rw [e3]
  linarith

/-- **C127.** A covariance of `np.cov(x, y, bias=1)`: the error is relative to the product of the largest values. -/
theorem covF_err {A : RegArith K} {u B C : K} (h : A.Ok u) (dot : List K → K) (hd : Adds A.rnd dot) (l : List (K × K)) (hl : l ≠ [])
    (hn : 5 * ((l.length : K) + 1) * u ≤ 1) (hx : ∀ p ∈ l, |p.1| ≤ B) (hy : ∀ p ∈ l, |p.2| ≤ C) :
    |covF A dot l - pcov l| ≤ 58 * ((l.length : K) + 2) * (u * (B * C)) := by
  have hu0 := h.rel.nonneg
  obtain ⟨q, hq⟩ := List.exists_mem_of_ne_nil l hl
  have hB : 0 ≤ B := (abs_nonneg _).trans (hx q hq)
  have hC : 0 ≤ C := (abs_nonneg _).trans (hy q hq)
  have mi := npMeanF_err h.rel h.avg (l.map Prod.fst) (by simpa using hl) (by simpa using hn) (B := B) (by
    intro x hx'
    obtain ⟨p, hp, rfl⟩ := List.mem_map.1 hx'
    exact hx p hp)
  have mj := npMeanF_err h.rel h.avg (l.map Prod.snd) (by simpa using hl) (by simpa using hn) (B := C) (by
    intro x hx'
    obtain ⟨p, hp, rfl⟩ := List.mem_map.1 hx'
    exact hy p hp)
  have bi := mean_abs_le l hl Prod.fst B hx
  have bj := mean_abs_le l hl Prod.snd C hy
  rw [List.length_map] at mi mj
  have hlen : (1 : K) ≤ (l.length : K) := by
    have : 1 ≤ l.length := List.length_pos_iff.mpr hl
    exact_mod_cast this
  unfold covF
  generalize hmx : npMeanF A.rnd A.avg (l.map Prod.fst) = mx at *
  generalize hmy : npMeanF A.rnd A.avg (l.map Prod.snd) = my at *
  generalize hN : (l.length : K) = n at *
  have hnu : 5 * (n * u) + 5 * u ≤ 1 := by linarith
  have hu10 : 10 * u ≤ 1 := by nlinarith
  have hP : 0 ≤ B * C := mul_nonneg hB hC
  have huP : 0 ≤ u * (B * C) := by positivity
  have heB : ∀ B : K, 0 ≤ B → 5 * (n + 1) * (u * B) ≤ B := fun B hB => by
    calc 5 * (n + 1) * (u * B) = (5 * (n + 1) * u) * B := by ring
      _ ≤ 1 * B := mul_le_mul_of_nonneg_right hn hB
      _ = B := one_mul B
  set f := 5 * (n + 1) * u + 3 * u with hf
  have hf2 : f ≤ 2 := by rw [hf]; linarith
  have hn0 : 0 ≤ n := by linarith
  have hf0 : 0 ≤ f := by rw [hf]; positivity
  set t := (6 * f + 16 * u) * (B * C) with ht
  have ht' : t = (30 * n + 64) * (u * (B * C)) := by rw [ht, hf]; ring
  have ht9 : t ≤ 10 * (B * C) := by
    have : (30 * n + 64) * u ≤ 10 := by nlinarith
    calc t = ((30 * n + 64) * u) * (B * C) := by rw [ht']; ring
      _ ≤ 10 * (B * C) := mul_le_mul_of_nonneg_right this hP
  have ht0 : 0 ≤ t := by rw [ht']; positivity
  set F : K × K → K := fun p => (p.1 - mean (l.map Prod.fst)) * (p.2 - mean (l.map Prod.snd)) with hF
  set G : K × K → K := fun p => A.mul (A.rnd (p.1 - mx)) (A.rnd (p.2 - my)) with hG
  have hp : ∀ p ∈ l, |G p - F p| ≤ t ∧ |F p| ≤ 4 * (B * C) := by
    intro p hp
    obtain ⟨d1, d2⟩ := dev_step h.rel (hx p hp) bi mi (heB B hB)
    obtain ⟨d3, d4⟩ := dev_step h.rel (hy p hp) bj mj (heB C hC)
    exact prod2_err h.rel hB hC hf0 d2 d4 (d1.trans (le_of_eq (by rw [hf]; ring))) (d3.trans (le_of_eq (by rw [hf]; ring))) hf2 _ (h.mul _ _)
  have hGb : ∀ p ∈ l, |G p| ≤ 4 * (B * C) + t := by
    intro p hp'
    have := abs_add_le (G p - F p) (F p)
    rw [sub_add_cancel] at this
    linarith [(hp p hp').1, (hp p hp').2]
  have s1 : |S l G - S l F| ≤ n * t := by
    have e : S l G - S l F = S l (fun r => G r - F r) := by
      have := Moments.S_add l (fun r => G r - F r) F
      simp only [sub_add_cancel] at this
      rw [this]; ring
    rw [e, ← hN]
    exact (S_abs_le l _ t (fun r hr => (hp r hr).1)).1
  have s2 : |S l F| ≤ n * (4 * (B * C)) := by
    rw [← hN]
    exact (S_abs_le l F _ (fun r hr => (hp r hr).2)).1
  have s3 : absSum (l.map G) ≤ n * (4 * (B * C) + t) := by
    rw [← hN]
    exact (S_abs_le l G _ hGb).2
  have d1 := sum_err h.rel dot (l.map G) (by simpa using hl) (hd _ (by simpa using hl))
  rw [List.length_map] at d1
  have d2 := pow_le hu0 l.length (by rw [hN]; exact hn)
  rw [hN] at d2
  have d3 : |dot (l.map G) - S l G| ≤ 2 * n * u * (n * (14 * (B * C))) := by
    refine d1.trans (mul_le_mul d2 (s3.trans ?_) (absSum_nonneg _) (by positivity))
    exact mul_le_mul_of_nonneg_left (by linarith) hn0
  set T := (58 * n + 64) * (u * (B * C)) with hT
  have d4 : |dot (l.map G) - S l F| ≤ n * T := by
    refine (abs_tri _ (S l G) _).trans ((add_le_add d3 s1).trans (le_of_eq ?_))
    rw [ht', hT]; ring
  have hT12 : T ≤ 13 * (B * C) := by
    have : (58 * n + 64) * u ≤ 13 := by linarith
    calc T = ((58 * n + 64) * u) * (B * C) := by rw [hT]; ring
      _ ≤ 13 * (B * C) := mul_le_mul_of_nonneg_right this hP
  have fin := scale1_err h.rel hlen hu10 hP (by rw [hT]; positivity) hT12 d4 s2
  have e : pcov l = S l F / n := by
    unfold pcov
    rw [Moments.mean_map, hN]
  rw [e]
  refine fin.trans ?_
  rw [hT]
  linarith

theorem pvar_le_sq (l : List K) (hl : l ≠ []) (B : K) (hb : ∀ x ∈ l, |x| ≤ B) : pvar l ≤ B ^ 2 := by
  have h1 := mean_sq_shift l hl 0
  have h2 := mean_abs_le l hl (fun x => (x - 0) ^ 2) (B ^ 2) (fun x hx => by
    rw [sub_zero, abs_of_nonneg (sq_nonneg x)]
    exact sq_le_sq' (by have := (abs_le.1 (hb x hx)).1; linarith) ((abs_le.1 (hb x hx)).2))
  have h3 := (le_abs_self _).trans h2
  rw [h1] at h3
  have := sq_nonneg (mean l - 0)
  linarith

theorem pcov_self (l : List (K × K)) : pcov (l.map (fun p => (p.1, p.1))) = pvar (l.map Prod.fst) := by
  unfold pcov pvar
  simp only [List.map_map]
  congr 1
  refine List.map_congr_left (fun p _ => ?_)
  simp only [Function.comp_def]
  ring

/-- the steps after the covariances -/
theorem reg_steps {rnd : K → K} {u B C s ε δ β α bh x x' y y' ah v : K} (h : RelErr rnd u) (hu : 10 * u ≤ 1) (hB : 0 ≤ B) (hs : s = C + |β| * B)
    (hC : 0 ≤ C) (huε : 100 * u ≤ ε) (hδε : 10 * δ ≤ ε) (hδ0 : 0 ≤ δ) (hδ1 : δ ≤ 1) (hb : |bh - β| * B ≤ 2 * (ε * s)) (hx : |x| ≤ B) (hx' : |x' - x| ≤ δ * B)
    (hy : |y| ≤ C) (hy' : |y' - y| ≤ δ * C) (hα : α = y - β * x) (hah : ah = rnd (y' - rnd (bh * x'))) (hv : |v| ≤ B) :
    |ah - α| ≤ 6 * (ε * s) ∧ |rnd (rnd (|bh| * v) + ah) - (|β| * v + α)| ≤ 10 * (ε * s) := by
  have hu0 := h.nonneg
  have hβ0 := abs_nonneg β
  have hβB : 0 ≤ |β| * B := by positivity
  have hs0 : 0 ≤ s := by rw [hs]; linarith
  have hε0 : 0 ≤ ε := by linarith
  have hεs : 0 ≤ ε * s := by positivity
  have hus : u * s ≤ 1 / 100 * (ε * s) := by
    have := mul_le_mul_of_nonneg_right huε hs0
    linarith
  have hδs : δ * s ≤ 1 / 10 * (ε * s) := by
    have := mul_le_mul_of_nonneg_right hδε hs0
    linarith
  have huεs : u * (ε * s) ≤ 1 / 10 * (ε * s) := mul_le_mul_of_nonneg_right (by linarith) hεs
  have hδC : δ * C ≤ δ * s := mul_le_mul_of_nonneg_left (by rw [hs]; linarith) hδ0
  have hδβ : δ * (|β| * B) ≤ δ * s := mul_le_mul_of_nonneg_left (by rw [hs]; linarith) hδ0
  have hxB : |x'| ≤ 2 * B := by
    have := abs_add_le (x' - x) x
    rw [sub_add_cancel] at this
    have := mul_le_mul_of_nonneg_right hδ1 hB
    linarith
  -- the product of slope and mean
  have p1 : |bh * x' - β * x| ≤ 41 / 10 * (ε * s) := by
    have e : bh * x' - β * x = (bh - β) * x' + β * (x' - x) := by ring
    rw [e]
    refine (abs_add_le _ _).trans ?_
    rw [abs_mul, abs_mul]
    have m1 := mul_le_mul_of_nonneg_left hxB (abs_nonneg (bh - β))
    have m2 := mul_le_mul_of_nonneg_left hx' hβ0
    have e2 : |β| * (δ * B) = δ * (|β| * B) := by ring
    linarith
  have bx : |β * x| ≤ |β| * B := by
    rw [abs_mul]
    exact mul_le_mul_of_nonneg_left hx hβ0
  have hβBs : |β| * B ≤ s := by rw [hs]; linarith
  have p2 : |rnd (bh * x') - β * x| ≤ 46 / 10 * (ε * s) := by
    have := rnd_err h p1
    have m := mul_le_mul_of_nonneg_left (bx.trans hβBs) hu0
    linarith
  -- the intercept
  have p3 : |y' - rnd (bh * x') - α| ≤ 47 / 10 * (ε * s) := by
    have e : y' - rnd (bh * x') - α = (y' - y) - (rnd (bh * x') - β * x) := by rw [hα]; ring
    rw [e]
    refine (abs_sub _ _).trans ?_
    linarith
  have bα : |α| ≤ s := by
    rw [hα]
    refine (abs_sub _ _).trans ?_
    linarith
  have hm := mul_le_mul_of_nonneg_left bα hu0
  have p4 : |ah - α| ≤ 52 / 10 * (ε * s) := by
    rw [hah]
    have := rnd_err h p3
    linarith
  refine ⟨by linarith, ?_⟩
  -- a scaled value
  have q1 : |(|bh|) * v - |β| * v| ≤ 2 * (ε * s) := by
    rw [← sub_mul, abs_mul]
    have m1 := mul_le_mul (abs_abs_sub_abs_le bh β) hv (abs_nonneg _) (abs_nonneg _)
    linarith
  have bv : |(|β| * v)| ≤ s := by
    rw [abs_mul, abs_abs]
    exact (mul_le_mul_of_nonneg_left hv hβ0).trans hβBs
  have hmv := mul_le_mul_of_nonneg_left bv hu0
  have q2 : |rnd (|bh| * v) - |β| * v| ≤ 23 / 10 * (ε * s) := by
    have := rnd_err h q1
    linarith
  have q3 : |rnd (|bh| * v) + ah - (|β| * v + α)| ≤ 75 / 10 * (ε * s) := by
    have e : rnd (|bh| * v) + ah - (|β| * v + α) = (rnd (|bh| * v) - |β| * v) + (ah - α) := by ring
    rw [e]
    refine (abs_add_le _ _).trans ?_
    linarith
  have bva : |(|β| * v + α)| ≤ 2 * s := (abs_add_le _ _).trans (by linarith)
  have hmva := mul_le_mul_of_nonneg_left bva hu0
  have := rnd_err h q3
  linarith

/-- the slope -/
theorem slope_step {rnd : K → K} {u B C s g ε τ c c' w w' : K} (h : RelErr rnd u) (hu : 10 * u ≤ 1) (hB : 0 ≤ B) (hC : 0 ≤ C) (hτ : 0 < τ) (hτw : τ ≤ |w|)
    (hε : ε = g * B ^ 2 / τ) (h4 : 4 * ε ≤ 1) (huε : 100 * u ≤ ε) (hc : |c' - c| ≤ g * (B * C)) (hw : |w' - w| ≤ g * (B * B))
    (hs : s = C + |c / w| * B) : |rnd (c' / w') - c / w| * B ≤ 2 * (ε * s) := by
  have hu0 := h.nonneg
  have hgB : g * (B * B) = ε * τ := by rw [hε]; field_simp
  have h4' : 4 * (g * (B * B)) ≤ τ := by
    rw [hgB]
    have := mul_le_mul_of_nonneg_right h4 hτ.le
    linarith
  have h1 := rnd_err h (quot_err hτ hτw h4' hc hw)
  have h2 := mul_le_mul_of_nonneg_right h1 hB
  refine h2.trans ?_
  have e1 : 4 / 3 * ((g * (B * C) + g * (B * B) * |c / w|) / τ) * B = 4 / 3 * (ε * s) := by
    rw [hε, hs]
    ring
  have e2 : (4 / 3 * ((g * (B * C) + g * (B * B) * |c / w|) / τ) * (1 + u) + u * |c / w|) * B =
      4 / 3 * (ε * s) + 4 / 3 * (u * (ε * s)) + u * (|c / w| * B) := by
    rw [add_mul, mul_right_comm, e1]
    ring
  rw [e2]
  have hβ := mul_nonneg (abs_nonneg (c / w)) hB
  have hs0 : 0 ≤ s := by rw [hs]; linarith
  have hεs : 0 ≤ ε * s := mul_nonneg (by linarith) hs0
  have k1 : u * (ε * s) ≤ 1 / 10 * (ε * s) := mul_le_mul_of_nonneg_right (by linarith) hεs
  have k2 : u * (|c / w| * B) ≤ u * s := mul_le_mul_of_nonneg_left (by rw [hs]; linarith) hu0
  have k3 : u * s ≤ 1 / 100 * (ε * s) := by
    have := mul_le_mul_of_nonneg_right huε hs0
    linarith
  linarith

/-- **C127.** `linreg` of pairs of numbers: let `B` and `C` bound the values of the source and the reference, let `τ > 0` be a lower bound of the variance of
the source. If `ε = 58 (n + 2) u B² / τ` is at most 1/4, the errors of the slope (times `B`), of the intercept and of every scaled value are at most
`2 ε`, `6 ε` and `10 ε` times `C + |slope| B`. -/
theorem linreg_accuracy {A : RegArith K} {u B C τ ε : K} (h : A.Ok u) (l : List (K × K)) (hl : l ≠ []) (hn : 5 * ((l.length : K) + 1) * u ≤ 1)
    (hx : ∀ p ∈ l, |p.1| ≤ B) (hy : ∀ p ∈ l, |p.2| ≤ C) (hτ : 0 < τ) (hτv : τ ≤ pvar (l.map Prod.fst))
    (hε : ε = 58 * ((l.length : K) + 2) * u * B ^ 2 / τ) (h4 : 4 * ε ≤ 1) :
    |slopeF A l - regSlope l| * B ≤ 2 * ε * (C + |regSlope l| * B) ∧
    |interceptF A l - regIntercept l| ≤ 6 * ε * (C + |regSlope l| * B) ∧
    (linregF A l).length = l.length ∧ ∀ (i : ℕ) (p : K × K), l[i]? = some p →
      ∃ w, (linregF A l)[i]? = some w ∧ |w - (|regSlope l| * p.1 + regIntercept l)| ≤ 10 * ε * (C + |regSlope l| * B) := by
  have hu0 := h.rel.nonneg
  obtain ⟨q, hq⟩ := List.exists_mem_of_ne_nil l hl
  have hB : 0 ≤ B := (abs_nonneg _).trans (hx q hq)
  have hC : 0 ≤ C := (abs_nonneg _).trans (hy q hq)
  have hx1 : ∀ x ∈ l.map Prod.fst, |x| ≤ B := by
    intro x hx'
    obtain ⟨p, hp, rfl⟩ := List.mem_map.1 hx'
    exact hx p hp
  have hy1 : ∀ x ∈ l.map Prod.snd, |x| ≤ C := by
    intro x hx'
    obtain ⟨p, hp, rfl⟩ := List.mem_map.1 hx'
    exact hy p hp
  have hne1 : l.map Prod.fst ≠ [] := by simpa using hl
  have hne2 : l.map Prod.snd ≠ [] := by simpa using hl
  have mx := npMeanF_err h.rel h.add (l.map Prod.fst) hne1 (by simpa using hn) hx1
  have my := npMeanF_err h.rel h.add (l.map Prod.snd) hne2 (by simpa using hn) hy1
  have bx := mean_abs_le l hl Prod.fst B hx
  have by' := mean_abs_le l hl Prod.snd C hy
  have cxy := covF_err h A.dotXY h.xy l hl hn hx hy
  have cxx := covF_err h A.dotXX h.xx (l.map (fun p => (p.1, p.1))) (by simpa using hl) (by simpa using hn) (B := B) (C := B)
    (by
      intro p hp
      obtain ⟨p', hp', rfl⟩ := List.mem_map.1 hp
      exact hx p' hp')
    (by
      intro p hp
      obtain ⟨p', hp', rfl⟩ := List.mem_map.1 hp
      exact hx p' hp')
  rw [pcov_self] at cxx
  rw [List.length_map] at mx my cxx
  have hvB := pvar_le_sq (l.map Prod.fst) hne1 B hx1
  have hlen : (1 : K) ≤ (l.length : K) := by
    have : 1 ≤ l.length := List.length_pos_iff.mpr hl
    exact_mod_cast this
  have hw : τ ≤ |pvar (l.map Prod.fst)| := hτv.trans (le_abs_self _)
  have hu10 : 10 * u ≤ 1 := by nlinarith
  have hr : 1 ≤ B ^ 2 / τ := by rw [le_div_iff₀ hτ]; linarith
  have hεg : 58 * ((l.length : K) + 2) * u ≤ ε := by
    rw [hε, mul_div_assoc]
    exact le_mul_of_one_le_right (by positivity) hr
  have hnu : 0 ≤ (l.length : K) * u := by positivity
  have huε : 100 * u ≤ ε := by linarith
  have hs : |slopeF A l - regSlope l| * B ≤ 2 * (ε * (C + |regSlope l| * B)) :=
    slope_step (g := 58 * ((l.length : K) + 2) * u) h.rel hu10 hB hC hτ hw hε h4 huε (cxy.trans (le_of_eq (by ring)))
      (cxx.trans (le_of_eq (by ring))) rfl
  have steps := fun v hv => reg_steps (δ := 5 * ((l.length : K) + 1) * u) (v := v) (ah := interceptF A l) (α := regIntercept l) h.rel hu10 hB rfl hC huε (by linarith)
    (by positivity) hn hs bx (mx.trans (le_of_eq (by ring))) by' (my.trans (le_of_eq (by ring))) rfl rfl hv
  refine ⟨hs.trans (le_of_eq (by ring)), ((steps q.1 (hx q hq)).1).trans (le_of_eq (by ring)), by simp [linregF, linregStored], fun i p hp => ?_⟩
  refine ⟨A.rnd (A.rnd (|slopeF A l| * p.1) + interceptF A l), by simp [linregF, linregStored, hp], ?_⟩
  exact ((steps p.1 (hx p (List.mem_of_getElem? hp))).2).trans (le_of_eq (by ring))

/-- **C127.** If the slope is larger than its error bound, the computed slope has the right sign. -/
theorem linreg_slope_sign {A : RegArith K} {u B C τ ε : K} (h : A.Ok u) (l : List (K × K)) (hl : l ≠ []) (hn : 5 * ((l.length : K) + 1) * u ≤ 1)
    (hx : ∀ p ∈ l, |p.1| ≤ B) (hy : ∀ p ∈ l, |p.2| ≤ C) (hτ : 0 < τ) (hτv : τ ≤ pvar (l.map Prod.fst))
    (hε : ε = 58 * ((l.length : K) + 2) * u * B ^ 2 / τ) (h4 : 4 * ε ≤ 1) (hlarge : 2 * ε * (C + |regSlope l| * B) < |regSlope l| * B) :
    0 < slopeF A l ↔ 0 < regSlope l := by
  have h1 := (linreg_accuracy h l hl hn hx hy hτ hτv hε h4).1
  obtain ⟨q, hq⟩ := List.exists_mem_of_ne_nil l hl
  have hB : 0 ≤ B := (abs_nonneg _).trans (hx q hq)
  have h2 : |slopeF A l - regSlope l| * B < |regSlope l| * B := lt_of_le_of_lt h1 hlarge
  have h3 : |slopeF A l - regSlope l| < |regSlope l| := lt_of_mul_lt_mul_right h2 hB
  constructor
  · intro hp
    by_contra hc
    rw [abs_of_nonpos (not_lt.1 hc)] at h3
    have := (abs_lt.1 h3).2
    linarith
  · intro hp
    rw [abs_of_pos hp] at h3
    have := (abs_lt.1 h3).1
    linarith

end Field

/-! ### Double precision -/

/-- double precision, sums from left to right, products rounded. Used for scaling.py:207. -/
def doubleReg : RegArith ℚ := ⟨rnd64, seqSum rnd64, seqSum rnd64, seqSum rnd64, seqSum rnd64, fun a b => rnd64 (a * b)⟩

theorem doubleReg_ok : doubleReg.Ok (1 / 2 ^ 53) where
  rel := double_ok.rel
  add := double_ok.add
  avg := double_ok.add
  xx := double_ok.add
  xy := double_ok.add
  mul := fun _ _ => .inl rfl

/-- **C127.** `linreg` in double precision. -/
theorem linreg_double (l : List (ℚ × ℚ)) (hl : l ≠ []) (hn : l.length ≤ 2 ^ 40) (B C τ ε : ℚ) (hx : ∀ p ∈ l, |p.1| ≤ B) (hy : ∀ p ∈ l, |p.2| ≤ C)
    (hτ : 0 < τ) (hτv : τ ≤ pvar (l.map Prod.fst)) (hε : ε = 58 * ((l.length : ℚ) + 2) * (1 / 2 ^ 53) * B ^ 2 / τ) (h4 : 4 * ε ≤ 1) (i : ℕ) (p : ℚ × ℚ)
    (hp : l[i]? = some p) : ∃ w, (linregF doubleReg l)[i]? = some w ∧ |w - (|regSlope l| * p.1 + regIntercept l)| ≤ 10 * ε * (C + |regSlope l| * B) := by
  have hn' : (l.length : ℚ) ≤ 2 ^ 40 := by exact_mod_cast hn
  exact (linreg_accuracy doubleReg_ok l hl (by linarith) hx hy hτ hτv hε h4).2.2.2 i p hp

/-- **C127.** Without the hypothesis on the variance: for two pairs the slope of the line through them is 1/2, the computed slope 1/4. -/
theorem linreg_slope_wrong : regSlope [((2 : ℚ) ^ 53, (0 : ℚ)), (2 ^ 53 + 2, 1)] = 1 / 2 ∧ slopeF doubleReg [((2 : ℚ) ^ 53, (0 : ℚ)), (2 ^ 53 + 2, 1)] = 1 / 4 := by
  decide +kernel

/-! ### Examples -/

/-- pairs of values -/
def exReg : List (ℚ × ℚ) := [(0, 5), (1, 3), (2, 3), (3, 1)]

example : regSlope exReg = -6 / 5 ∧ pvar (exReg.map Prod.fst) = 5 / 4 ∧ regIntercept exReg = 24 / 5 := by decide +kernel

example : ∃ w, (linregF doubleReg exReg)[3]? = some w ∧ |w - (|regSlope exReg| * 3 + regIntercept exReg)| ≤
    10 * (58 * 6 * (1 / 2 ^ 53) * 3 ^ 2 / (5 / 4)) * (5 + |regSlope exReg| * 3) :=
  linreg_double exReg (by decide) (by decide) 3 5 (5 / 4) (58 * 6 * (1 / 2 ^ 53) * 3 ^ 2 / (5 / 4)) (by decide +kernel) (by decide +kernel) (by norm_num)
    (by decide +kernel) (by rw [show exReg.length = 4 from rfl]; norm_num) (by norm_num) 3 (3, 1) rfl

example : 0 < slopeF doubleReg exReg ↔ 0 < regSlope exReg :=
  linreg_slope_sign doubleReg_ok exReg (by decide) (by decide +kernel) (B := 3) (C := 5) (τ := 5 / 4) (ε := 58 * 6 * (1 / 2 ^ 53) * 3 ^ 2 / (5 / 4))
    (by decide +kernel) (by decide +kernel) (by norm_num) (by decide +kernel) (by rw [show exReg.length = 4 from rfl]; norm_num) (by norm_num)
    (by decide +kernel)

/-- the computed values: the negative slope is replaced by its absolute value -/
example : linregF doubleReg exReg ≠ [] ∧ slopeF doubleReg exReg < 0 ∧ |(linregF doubleReg exReg).getD 3 0 - 42 / 5| ≤ 1 / 2 ^ 40 := by decide +kernel

end Verif.Rounding
