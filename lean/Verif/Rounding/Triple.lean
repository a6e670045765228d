import Verif.Rounding.Accuracy
import Verif.Tcol.Model

/-!
C125: `tcol_metrics` with a rounding after every operation (`src/pytesmo/metrics/tcol.py:103-158`, `np.cov`), against the exact covariances and the
exact ratios. numpy adds in an order of its own, and the matrix product may keep a product exact (fused multiply-add); both are arbitrary here.
-/

namespace Verif.Rounding

open Rolling.Fl (rnd64)
open Moments (mean S)

variable {K : Type} [Field K] [LinearOrder K] [IsStrictOrderedRing K]

/-- numpy's arithmetic in `np.cov`: sums in some order, products rounded or kept exact in a fused operation.
Used for tcol.py:103, tcol.py:128-135. -/
structure Arith (K : Type) where
  rnd : K → K
  /-- `np.add.reduce` in `mean` -/
  add : List K → K
  /-- the sums of the matrix product -/
  dot : Fin 3 → Fin 3 → List K → K
  /-- a product in the matrix product -/
  mul : K → K → K

/-- the mean of a column: `average` of `np.cov` (tcol.py:103) -/
def Arith.mean (A : Arith K) (rows : List (Fin 3 → K)) (i : Fin 3) : K := A.rnd (A.add (rows.map (fun r => r i)) / (rows.length : K))

/-- `X -= avg` of `np.cov` (tcol.py:103) -/
def Arith.dev (A : Arith K) (rows : List (Fin 3 → K)) (i : Fin 3) (r : Fin 3 → K) : K := A.rnd (r i - A.mean rows i)

/-- `c = dot(X, X.T); c *= 1 / (n - 1)` of `np.cov` (tcol.py:103) -/
def Arith.cov (A : Arith K) (rows : List (Fin 3 → K)) (i j : Fin 3) : K :=
  A.rnd (A.dot i j (rows.map (fun r => A.mul (A.dev rows i r) (A.dev rows j r))) * A.rnd (1 / ((rows.length : K) - 1)))

/-- tcol.py:128-135 `err_var` -/
def Arith.errVar (A : Arith K) (c : Fin 3 → Fin 3 → K) (i : Fin 3) : K :=
  A.rnd (c i i - A.rnd (A.rnd (c i (i + 1) * c i (i + 2)) / c (i + 1) (i + 2)))

/-- tcol.py:137-145 `beta` -/
def Arith.beta (A : Arith K) (c : Fin 3 → Fin 3 → K) (ref i : Fin 3) : K :=
  if i ≠ ref then A.rnd (c ref (Tcol.otherInd ref i) / c i (Tcol.otherInd ref i)) else 1

/-! ### Specification -/

/-- every operation has a relative error of at most `u`; sums are trees of rounded additions -/
structure Arith.Ok (A : Arith K) (u : K) : Prop where
  rel : RelErr A.rnd u
  add : ∀ l, l ≠ [] → ∃ t : Tree K, t.leaves.Perm l ∧ A.add l = t.sum A.rnd
  dot : ∀ i j l, l ≠ [] → ∃ t : Tree K, t.leaves.Perm l ∧ A.dot i j l = t.sum A.rnd
  mul : ∀ a b, A.mul a b = A.rnd (a * b) ∨ A.mul a b = a * b

/-- the sample covariance -/
def sampleCov (rows : List (Fin 3 → K)) (i j : Fin 3) : K :=
  S rows (fun r => (r i - Moments.mean (rows.map (fun r => r i))) * (r j - Moments.mean (rows.map (fun r => r j)))) / ((rows.length : K) - 1)

/-- the error variance of triple collocation from exact covariances -/
def errVarOf (c : Fin 3 → Fin 3 → K) (i : Fin 3) : K := c i i - c i (i + 1) * c i (i + 2) / c (i + 1) (i + 2)

/-- the scaling coefficient of triple collocation from exact covariances -/
def betaOf (c : Fin 3 → Fin 3 → K) (ref i : Fin 3) : K :=
  if i ≠ ref then c ref (Tcol.otherInd ref i) / c i (Tcol.otherInd ref i) else 1

/-! ### Proofs -/

theorem absSum_perm {l m : List K} (h : l.Perm m) : absSum l = absSum m := by
  unfold absSum
  exact (h.map _).sum_eq

/-- a sum in any order -/
theorem sum_err {rnd : K → K} {u : K} (h : RelErr rnd u) (add : List K → K) (l : List K) (hl : l ≠ [])
    (ha : ∃ t : Tree K, t.leaves.Perm l ∧ add l = t.sum rnd) : |add l - l.sum| ≤ ((1 + u) ^ l.length - 1) * absSum l := by
  obtain ⟨t, h1, h2⟩ := ha
  have h3 := tree_err h t
  rw [h2, ← h1.sum_eq, ← absSum_perm h1]
  refine h3.trans (mul_le_mul_of_nonneg_right ?_ (absSum_nonneg _))
  have h4 := t.size_leaves
  rw [← h1.length_eq, ← h4, pow_succ]
  have := one_le_pow h.nonneg t.size
  nlinarith [h.nonneg]

theorem pow_le {u : K} (hu : 0 ≤ u) (n : ℕ) (hn : 5 * ((n : K) + 1) * u ≤ 1) : (1 + u) ^ n - 1 ≤ 2 * n * u :=
  pow_small hu n (by
    have : (0 : K) ≤ n := Nat.cast_nonneg n
    nlinarith)

/-- the mean of a column -/
theorem tmean_err {A : Arith K} {u B : K} (h : A.Ok u) (rows : List (Fin 3 → K)) (hl : rows ≠ []) (hn : 5 * ((rows.length : K) + 1) * u ≤ 1) (i : Fin 3)
    (hb : ∀ r ∈ rows, |r i| ≤ B) : |A.mean rows i - mean (rows.map (fun r => r i))| ≤ 5 * ((rows.length : K) + 1) * (u * B) := by
  have hu0 := h.rel.nonneg
  have hpos := Moments.len_pos (K := K) rows hl
  obtain ⟨q, hq⟩ := List.exists_mem_of_ne_nil rows hl
  have hB : 0 ≤ B := (abs_nonneg _).trans (hb q hq)
  have h1 := sum_err h.rel A.add (rows.map (fun r => r i)) (by simpa using hl) (h.add _ (by simpa using hl))
  rw [List.length_map] at h1
  have h2 := pow_le hu0 rows.length hn
  obtain ⟨s1, s2⟩ := S_abs_le rows (fun r => r i) B hb
  have h3 : |A.add (rows.map (fun r => r i)) - (rows.map (fun r => r i)).sum| ≤ (rows.length : K) * (2 * rows.length * (u * B)) := by
    refine h1.trans ((mul_le_mul h2 s2 (absSum_nonneg _) (by positivity)).trans (le_of_eq (by ring)))
  have h4 := div_step h.rel hpos h3 (G := B) s1
  unfold Arith.mean
  rw [Moments.mean_map]
  refine h4.trans ?_
  have hx : u * (2 * (rows.length : K) * (u * B)) ≤ 1 * (u * B) := by
    have : 2 * (rows.length : K) * u ≤ 1 := by nlinarith
    calc u * (2 * (rows.length : K) * (u * B)) = (2 * (rows.length : K) * u) * (u * B) := by ring
      _ ≤ 1 * (u * B) := mul_le_mul_of_nonneg_right this (by positivity)
  nlinarith [mul_nonneg hu0 hB, mul_nonneg hpos.le (mul_nonneg hu0 hB)]

/-- a product of the matrix product -/
theorem tprod_err {A : Arith K} {u B : K} (h : A.Ok u) {a a' b b' f : K} (hB : 0 ≤ B) (ha : |a| ≤ 2 * B) (hb : |b| ≤ 2 * B) (ha' : |a' - a| ≤ f)
    (hb' : |b' - b| ≤ f) (hf : f ≤ 2 * B) : |A.mul a' b' - a * b| ≤ 6 * (B * f) + 16 * (u * B ^ 2) ∧ |a * b| ≤ 4 * B ^ 2 := by
  rcases h.mul a' b' with e | e
  · rw [e]
    exact prod_step h.rel hB ha hb ha' hb' hf
  · rw [e]
    have := prod_step (rnd := fun x => x) (u := 0) ⟨le_refl _, fun x => by simp⟩ hB ha hb ha' hb' hf
    refine ⟨this.1.trans ?_, this.2⟩
    have hu0 := h.rel.nonneg
    have : 0 ≤ u * B ^ 2 := by positivity
    linarith

/-- multiplication by the rounded `1 / (n - 1)` -/
theorem scale_err {rnd : K → K} {u B n T D F : K} (h : RelErr rnd u) (hn : 2 ≤ n) (hu15 : 15 * u ≤ 1) (hT0 : 0 ≤ T) (hT12 : T ≤ 12 * B ^ 2)
    (d4 : |D - F| ≤ n * T) (s2 : |F| ≤ n * (4 * B ^ 2)) :
    |rnd (D * rnd (1 / (n - 1))) - F / (n - 1)| ≤ 2 * T + 96 * (u * B ^ 2) := by
  have hu0 := h.nonneg
  have hb2 : 0 ≤ B ^ 2 := by positivity
  have hub2 : 0 ≤ u * B ^ 2 := by positivity
  have hn0 : 0 ≤ n := by linarith
  have hn1 : 0 < n - 1 := by linarith
  have hratio : n / (n - 1) ≤ 2 := by rw [div_le_iff₀ hn1]; linarith
  have k1 := h.err (1 / (n - 1))
  have k2 := h.le (1 / (n - 1))
  rw [abs_of_pos (by positivity : 0 < 1 / (n - 1))] at k1 k2
  have e1 : F / (n - 1) = F * (1 / (n - 1)) := by ring
  have k3 : |D * rnd (1 / (n - 1)) - F / (n - 1)| ≤ 2 * T * (1 + u) + 8 * (u * B ^ 2) := by
    rw [e1]
    have e2 : D * rnd (1 / (n - 1)) - F * (1 / (n - 1)) = (D - F) * rnd (1 / (n - 1)) + F * (rnd (1 / (n - 1)) - 1 / (n - 1)) := by ring
    rw [e2]
    refine (abs_add_le _ _).trans ?_
    rw [abs_mul, abs_mul]
    have m1 := mul_le_mul d4 k2 (abs_nonneg _) (by positivity)
    have m2 := mul_le_mul s2 k1 (abs_nonneg _) (by positivity)
    have m3 : n * T * ((1 + u) * (1 / (n - 1))) = n / (n - 1) * (T * (1 + u)) := by ring
    have m4 : n * (4 * B ^ 2) * (u * (1 / (n - 1))) = n / (n - 1) * (4 * (u * B ^ 2)) := by ring
    have m5 := mul_le_mul_of_nonneg_right hratio (by positivity : 0 ≤ T * (1 + u))
    have m6 := mul_le_mul_of_nonneg_right hratio (by positivity : 0 ≤ 4 * (u * B ^ 2))
    linarith
  have c1 : |F / (n - 1)| ≤ 8 * B ^ 2 := by
    rw [abs_div, abs_of_pos hn1, div_le_iff₀ hn1]
    have : 0 ≤ (n - 2) * B ^ 2 := mul_nonneg (by linarith) hb2
    linarith
  have huT : u * T ≤ 12 * (u * B ^ 2) := by
    have := mul_le_mul_of_nonneg_left hT12 hu0
    linarith
  have huu : u * (u * B ^ 2) ≤ 1 / 15 * (u * B ^ 2) := mul_le_mul_of_nonneg_right (by linarith) hub2
  have huuT : u * (u * T) ≤ 1 / 15 * (12 * (u * B ^ 2)) := mul_le_mul (by linarith) huT (by positivity) (by norm_num)
  have fin := h.err (D * rnd (1 / (n - 1)))
  have hx : |D * rnd (1 / (n - 1))| ≤ 2 * T * (1 + u) + 8 * (u * B ^ 2) + 8 * B ^ 2 := by
    have := abs_add_le (D * rnd (1 / (n - 1)) - F / (n - 1)) (F / (n - 1))
    rw [sub_add_cancel] at this
    linarith
  have fin2 := fin.trans (mul_le_mul_of_nonneg_left hx hu0)
  refine (abs_tri _ (D * rnd (1 / (n - 1))) _).trans ((add_le_add fin2 k3).trans ?_)
  have e3 : u * (2 * T * (1 + u) + 8 * (u * B ^ 2) + 8 * B ^ 2) + (2 * T * (1 + u) + 8 * (u * B ^ 2)) =
      2 * T + 4 * (u * T) + 2 * (u * (u * T)) + 8 * (u * (u * B ^ 2)) + 16 * (u * B ^ 2) := by ring
  rw [e3]
  linarith

/-- **C125.** An entry of the covariance matrix: the error is relative to the square of the largest value. -/
theorem cov_err {A : Arith K} {u B : K} (h : A.Ok u) (rows : List (Fin 3 → K)) (hl : 2 ≤ rows.length) (hn : 5 * ((rows.length : K) + 1) * u ≤ 1) (i j : Fin 3)
    (hi : ∀ r ∈ rows, |r i| ≤ B) (hj : ∀ r ∈ rows, |r j| ≤ B) :
    |A.cov rows i j - sampleCov rows i j| ≤ 112 * ((rows.length : K) + 2) * (u * B ^ 2) := by
  have hu0 := h.rel.nonneg
  have hne : rows ≠ [] := by rintro rfl; simp at hl
  obtain ⟨q, hq⟩ := List.exists_mem_of_ne_nil rows hne
  have hB : 0 ≤ B := (abs_nonneg _).trans (hi q hq)
  have mi := tmean_err h rows hne hn i hi
  have mj := tmean_err h rows hne hn j hj
  have bi := mean_abs_le rows hne (fun r => r i) B hi
  have bj := mean_abs_le rows hne (fun r => r j) B hj
  have hlen : (2 : K) ≤ (rows.length : K) := by exact_mod_cast hl
  generalize hN : (rows.length : K) = n at *
  have hnu : 5 * (n * u) + 5 * u ≤ 1 := by linarith
  have hu15 : 15 * u ≤ 1 := by nlinarith
  have hb2 : 0 ≤ B ^ 2 := by positivity
  have hub2 : 0 ≤ u * B ^ 2 := by positivity
  have heB : 5 * (n + 1) * (u * B) ≤ B := by
    calc 5 * (n + 1) * (u * B) = (5 * (n + 1) * u) * B := by ring
      _ ≤ 1 * B := mul_le_mul_of_nonneg_right hn hB
      _ = B := one_mul B
  set f := 5 * (n + 1) * (u * B) + 3 * (u * B) with hf
  have hf2 : f ≤ 2 * B := by
    have : 3 * u * B ≤ 1 * B := mul_le_mul_of_nonneg_right (by linarith) hB
    rw [hf]; linarith
  set t := 6 * (B * f) + 16 * (u * B ^ 2) with ht
  have ht' : t = (30 * n + 64) * (u * B ^ 2) := by rw [ht, hf]; ring
  have ht9 : t ≤ 9 * B ^ 2 := by
    have : (30 * n + 64) * u ≤ 9 := by nlinarith
    calc t = ((30 * n + 64) * u) * B ^ 2 := by rw [ht']; ring
      _ ≤ 9 * B ^ 2 := mul_le_mul_of_nonneg_right this hb2
  have ht0 : 0 ≤ t := by rw [ht']; nlinarith
  -- the products
  set F : (Fin 3 → K) → K := fun r => (r i - mean (rows.map (fun r => r i))) * (r j - mean (rows.map (fun r => r j))) with hF
  set G : (Fin 3 → K) → K := fun r => A.mul (A.dev rows i r) (A.dev rows j r) with hG
  have hp : ∀ r ∈ rows, |G r - F r| ≤ t ∧ |F r| ≤ 4 * B ^ 2 := by
    intro r hr
    obtain ⟨d1, d2⟩ := dev_step h.rel (hi r hr) bi mi heB
    obtain ⟨d3, d4⟩ := dev_step h.rel (hj r hr) bj mj heB
    exact tprod_err h hB d2 d4 d1 d3 hf2
  have hGb : ∀ r ∈ rows, |G r| ≤ 4 * B ^ 2 + t := by
    intro r hr
    have := abs_add_le (G r - F r) (F r)
    rw [sub_add_cancel] at this
    linarith [(hp r hr).1, (hp r hr).2]
  have s1 : |S rows G - S rows F| ≤ n * t := by
    have e : S rows G - S rows F = S rows (fun r => G r - F r) := by
      have := Moments.S_add rows (fun r => G r - F r) F
      simp only [sub_add_cancel] at this
      rw [this]; ring
    rw [e, ← hN]
    exact (S_abs_le rows _ t (fun r hr => (hp r hr).1)).1
  have s2 : |S rows F| ≤ n * (4 * B ^ 2) := by
    rw [← hN]
    exact (S_abs_le rows F _ (fun r hr => (hp r hr).2)).1
  have s3 : absSum (rows.map G) ≤ n * (4 * B ^ 2 + t) := by
    rw [← hN]
    exact (S_abs_le rows G _ hGb).2
  -- their sum
  have d1 := sum_err h.rel (A.dot i j) (rows.map G) (by simpa using hne) (h.dot i j _ (by simpa using hne))
  rw [List.length_map] at d1
  have d2 := pow_le hu0 rows.length (by rw [hN]; exact hn)
  rw [hN] at d2
  have hn0 : 0 ≤ n := by linarith
  have d3 : |A.dot i j (rows.map G) - S rows G| ≤ 2 * n * u * (n * (13 * B ^ 2)) := by
    refine d1.trans (mul_le_mul d2 (s3.trans ?_) (absSum_nonneg _) (by positivity))
    exact mul_le_mul_of_nonneg_left (by linarith) hn0
  set T := (56 * n + 64) * (u * B ^ 2) with hT
  have d4 : |A.dot i j (rows.map G) - S rows F| ≤ n * T := by
    refine (abs_tri _ (S rows G) _).trans ((add_le_add d3 s1).trans (le_of_eq ?_))
    rw [ht', hT]; ring
  have hT12 : T ≤ 12 * B ^ 2 := by
    have : (56 * n + 64) * u ≤ 12 := by linarith
    calc T = ((56 * n + 64) * u) * B ^ 2 := by rw [hT]; ring
      _ ≤ 12 * B ^ 2 := mul_le_mul_of_nonneg_right this hb2
  have fin := scale_err h.rel hlen hu15 (by rw [hT]; positivity) hT12 d4 s2
  unfold Arith.cov sampleCov
  rw [hN]
  refine fin.trans (le_of_eq ?_)
  rw [hT]; ring

/-- a quotient whose denominator is not close to zero -/
theorem quot_err {x x' c c' D E τ : K} (hτ : 0 < τ) (hc : τ ≤ |c|) (hE : 4 * E ≤ τ) (hx : |x' - x| ≤ D) (hc' : |c' - c| ≤ E) :
    |x' / c' - x / c| ≤ 4 / 3 * ((D + E * |x / c|) / τ) := by
  have hE0 : 0 ≤ E := (abs_nonneg _).trans hc'
  have hD0 : 0 ≤ D := (abs_nonneg _).trans hx
  have hcl : 3 / 4 * τ ≤ |c'| := by
    have := abs_add_le (c - c') c'
    rw [sub_add_cancel] at this
    rw [abs_sub_comm] at hc'
    linarith
  have hcp : 0 < |c'| := by linarith
  have hc0 : c ≠ 0 := by intro h; rw [h, abs_zero] at hc; linarith
  have hc0' : c' ≠ 0 := abs_pos.mp hcp
  have e : x' / c' - x / c = ((x' - x) + x / c * (c - c')) / c' := by field_simp; ring
  rw [e, abs_div, div_le_iff₀ hcp]
  have h1 : |x' - x + x / c * (c - c')| ≤ D + E * |x / c| := by
    refine (abs_add_le _ _).trans ?_
    rw [abs_mul, abs_sub_comm c c']
    have := mul_le_mul_of_nonneg_left hc' (abs_nonneg (x / c))
    linarith
  refine h1.trans ?_
  have h2 : 0 ≤ D + E * |x / c| := by positivity
  have h3 : 4 / 3 * ((D + E * |x / c|) / τ) * (3 / 4 * τ) = D + E * |x / c| := by field_simp
  have h4 := mul_le_mul_of_nonneg_left hcl (by positivity : 0 ≤ 4 / 3 * ((D + E * |x / c|) / τ))
  rw [h3] at h4
  exact h4

theorem rnd_err {rnd : K → K} {u a a' d : K} (h : RelErr rnd u) (ha : |a' - a| ≤ d) : |rnd a' - a| ≤ d * (1 + u) + u * |a| := by
  have h1 := h.err a'
  have h2 := abs_add_le (a' - a) a
  rw [sub_add_cancel] at h2
  have h3 := mul_le_mul_of_nonneg_left (h2.trans (add_le_add_left ha _)) h.nonneg
  refine (abs_tri _ a' _).trans ?_
  linarith

/-- **C125.** The scaling coefficient from covariances with an error of at most `E`, if the covariance in the denominator is at least `τ`, four times `E`. -/
theorem beta_err {A : Arith K} {u E τ : K} (h : A.Ok u) (hu : 15 * u ≤ 1) (c c' : Fin 3 → Fin 3 → K) (hc : ∀ i j, |c' i j - c i j| ≤ E) (hτ : 0 < τ)
    (hE : 4 * E ≤ τ) (ref i : Fin 3) (hd : i ≠ ref → τ ≤ |c i (Tcol.otherInd ref i)|) :
    |A.beta c' ref i - betaOf c ref i| ≤ 2 * (1 + |betaOf c ref i|) * (E / τ + u) := by
  have hu0 := h.rel.nonneg
  have hE0 : 0 ≤ E := (abs_nonneg _).trans (hc 0 0)
  unfold Arith.beta betaOf
  by_cases hi : i = ref
  · rw [if_neg (by simpa using hi), if_neg (by simpa using hi), sub_self, abs_zero]
    positivity
  · rw [if_pos hi, if_pos hi]
    have h1 := quot_err hτ (hd hi) hE (hc ref (Tcol.otherInd ref i)) (hc i (Tcol.otherInd ref i))
    have h2 := rnd_err h.rel h1
    refine h2.trans ?_
    have hb := abs_nonneg (c ref (Tcol.otherInd ref i) / c i (Tcol.otherInd ref i))
    generalize |c ref (Tcol.otherInd ref i) / c i (Tcol.otherInd ref i)| = b at *
    have e1 : (E + E * b) / τ = (1 + b) * (E / τ) := by ring
    rw [e1]
    generalize hq : E / τ = q at *
    have hq0 : 0 ≤ q := by rw [← hq]; positivity
    have p1 : 0 ≤ (1 + b) * q := by positivity
    have p2 : u * ((1 + b) * q) ≤ 1 / 15 * ((1 + b) * q) := mul_le_mul_of_nonneg_right (by linarith) p1
    have p3 : 0 ≤ u * b := by positivity
    linarith

/-- **C125.** The error variance from covariances with an error of at most `E`: `G` is a bound of the covariances, `τ` a lower bound of the one in the
denominator. -/
theorem errVar_err {A : Arith K} {u E τ G : K} (h : A.Ok u) (hu : 15 * u ≤ 1) (c c' : Fin 3 → Fin 3 → K) (hc : ∀ i j, |c' i j - c i j| ≤ E) (hτ : 0 < τ)
    (hE : 4 * E ≤ τ) (i : Fin 3) (hd : τ ≤ |c (i + 1) (i + 2)|) (hG : ∀ i j, |c i j| ≤ G) :
    |A.errVar c' i - errVarOf c i| ≤ 10 * (G / τ) ^ 2 * (E + u * G) := by
  have hu0 := h.rel.nonneg
  have hE0 : 0 ≤ E := (abs_nonneg _).trans (hc 0 0)
  have hτG : τ ≤ G := hd.trans (hG _ _)
  have hG0 : 0 < G := by linarith
  set r := G / τ with hr
  have hr1 : 1 ≤ r := by rw [hr, le_div_iff₀ hτ]; linarith
  have hGr : G = r * τ := by rw [hr]; field_simp
  have g1 := hG i (i + 1)
  have g2 := hG i (i + 2)
  have g0 := hG i i
  unfold Arith.errVar errVarOf
  -- the product
  have a1 : |c' i (i + 1) * c' i (i + 2) - c i (i + 1) * c i (i + 2)| ≤ 9 / 4 * (G * E) := by
    have e : c' i (i + 1) * c' i (i + 2) - c i (i + 1) * c i (i + 2) =
        (c' i (i + 1) - c i (i + 1)) * (c' i (i + 2) - c i (i + 2)) + (c' i (i + 1) - c i (i + 1)) * c i (i + 2) + c i (i + 1) * (c' i (i + 2) - c i (i + 2)) := by ring
    rw [e]
    refine (abs_add_le _ _).trans ((add_le_add_left (abs_add_le _ _) _).trans ?_)
    rw [abs_mul, abs_mul, abs_mul]
    have m1 := mul_le_mul (hc i (i + 1)) (hc i (i + 2)) (abs_nonneg _) hE0
    have m2 := mul_le_mul (hc i (i + 1)) g2 (abs_nonneg _) hE0
    have m3 := mul_le_mul g1 (hc i (i + 2)) (abs_nonneg _) hG0.le
    have m4 : E * E ≤ 1 / 4 * G * E := mul_le_mul_of_nonneg_right (by linarith) hE0
    linarith
  have b1 : |c i (i + 1) * c i (i + 2)| ≤ G * G := by
    rw [abs_mul]
    exact mul_le_mul g1 g2 (abs_nonneg _) hG0.le
  have a2 := rnd_err h.rel a1
  have hGE : 0 ≤ G * E := by positivity
  have a3 : |A.rnd (c' i (i + 1) * c' i (i + 2)) - c i (i + 1) * c i (i + 2)| ≤ 12 / 5 * (G * (E + u * G)) := by
    refine a2.trans ?_
    have m1 := mul_le_mul_of_nonneg_left b1 hu0
    have m2 : u * (G * E) ≤ 1 / 15 * (G * E) := mul_le_mul_of_nonneg_right (by linarith) hGE
    have m3 : 0 ≤ u * (G * G) := by positivity
    linarith
  -- the quotient
  have a4 := quot_err hτ hd hE a3 (hc (i + 1) (i + 2))
  have b2 : |c i (i + 1) * c i (i + 2) / c (i + 1) (i + 2)| ≤ r * G := by
    rw [abs_div, div_le_iff₀ (by linarith)]
    have : r * G * τ ≤ r * G * |c (i + 1) (i + 2)| := mul_le_mul_of_nonneg_left hd (by positivity)
    have e : r * G * τ = G * G := by rw [hGr]; ring
    linarith
  set H := E + u * G with hH
  have hH0 : 0 ≤ H := by positivity
  have hEH : E ≤ H := by rw [hH]; nlinarith
  have huH : u * G ≤ H := by rw [hH]; linarith
  have hrr : r * H ≤ r ^ 2 * H := by
    have : r ≤ r ^ 2 := by nlinarith
    exact mul_le_mul_of_nonneg_right this hH0
  have hHr : H ≤ r ^ 2 * H := by nlinarith
  have a5 : |A.rnd (c' i (i + 1) * c' i (i + 2)) / c' (i + 1) (i + 2) - c i (i + 1) * c i (i + 2) / c (i + 1) (i + 2)| ≤ 68 / 15 * (r ^ 2 * H) := by
    refine a4.trans ?_
    have m1 : (12 / 5 * (G * H) + E * |c i (i + 1) * c i (i + 2) / c (i + 1) (i + 2)|) / τ ≤ 12 / 5 * (r * H) + r ^ 2 * H := by
      rw [div_le_iff₀ hτ]
      have n1 : E * |c i (i + 1) * c i (i + 2) / c (i + 1) (i + 2)| ≤ H * (r * G) := mul_le_mul hEH b2 (abs_nonneg _) hH0
      have n2 : (12 / 5 * (r * H) + r ^ 2 * H) * τ = 12 / 5 * (G * H) + H * (r * G) := by rw [hGr]; ring
      rw [n2]
      linarith
    linarith
  have a6 := rnd_err h.rel a5
  have hR : 0 ≤ r ^ 2 * H := by positivity
  have huR : u * (r ^ 2 * H) ≤ 1 / 15 * (r ^ 2 * H) := mul_le_mul_of_nonneg_right (by linarith) hR
  have hurG : u * (r * G) ≤ r ^ 2 * H := by
    have : u * (r * G) = r * (u * G) := by ring
    rw [this]
    exact (mul_le_mul_of_nonneg_left huH (by linarith)).trans hrr
  have a7 : |A.rnd (A.rnd (c' i (i + 1) * c' i (i + 2)) / c' (i + 1) (i + 2)) - c i (i + 1) * c i (i + 2) / c (i + 1) (i + 2)| ≤ 6 * (r ^ 2 * H) := by
    refine a6.trans ?_
    have := mul_le_mul_of_nonneg_left b2 hu0
    linarith
  -- the difference
  have a8 : |(c' i i - A.rnd (A.rnd (c' i (i + 1) * c' i (i + 2)) / c' (i + 1) (i + 2))) - (c i i - c i (i + 1) * c i (i + 2) / c (i + 1) (i + 2))| ≤ 7 * (r ^ 2 * H) := by
    have e : (c' i i - A.rnd (A.rnd (c' i (i + 1) * c' i (i + 2)) / c' (i + 1) (i + 2))) - (c i i - c i (i + 1) * c i (i + 2) / c (i + 1) (i + 2)) =
        (c' i i - c i i) - (A.rnd (A.rnd (c' i (i + 1) * c' i (i + 2)) / c' (i + 1) (i + 2)) - c i (i + 1) * c i (i + 2) / c (i + 1) (i + 2)) := by ring
    rw [e]
    refine (abs_sub _ _).trans ?_
    linarith [hc i i]
  have b3 : |c i i - c i (i + 1) * c i (i + 2) / c (i + 1) (i + 2)| ≤ 2 * (r * G) := by
    refine (abs_sub _ _).trans ?_
    have : 1 * G ≤ r * G := mul_le_mul_of_nonneg_right hr1 hG0.le
    linarith
  refine (rnd_err h.rel a8).trans ?_
  have := mul_le_mul_of_nonneg_left b3 hu0
  linarith

/-- **C125.** `tcol_metrics` as a whole: at least two observations, all values at most `B`. If the covariances between different data sets are at least `τ`, the
scaling coefficients and error variances differ from the exact ones by a few rounding units times the number of observations times powers of `B² / τ`. -/
theorem tcol_accuracy_partial {A : Arith K} {u B τ : K} (h : A.Ok u) (rows : List (Fin 3 → K)) (hl : 2 ≤ rows.length) (hn : 5 * ((rows.length : K) + 1) * u ≤ 1)
    (hB : ∀ r ∈ rows, ∀ i, |r i| ≤ B) (hτ : 0 < τ) (hd : ∀ i j, i ≠ j → τ ≤ |sampleCov rows i j|) (hE : 448 * ((rows.length : K) + 2) * (u * B ^ 2) ≤ τ)
    (ref i : Fin 3) :
    |A.beta (A.cov rows) ref i - betaOf (sampleCov rows) ref i| ≤
        2 * (1 + |betaOf (sampleCov rows) ref i|) * (15 * ((rows.length : K) + 2) * u * (8 * B ^ 2 / τ)) ∧
      |A.errVar (A.cov rows) i - errVarOf (sampleCov rows) i| ≤ 10 * (8 * B ^ 2 / τ) ^ 2 * (120 * ((rows.length : K) + 2) * (u * B ^ 2)) := by
  have hu0 := h.rel.nonneg
  have hlen : (2 : K) ≤ (rows.length : K) := by exact_mod_cast hl
  have hu15 : 15 * u ≤ 1 := by nlinarith
  have hne : rows ≠ [] := by rintro rfl; simp at hl
  have hc : ∀ i j, |A.cov rows i j - sampleCov rows i j| ≤ 112 * ((rows.length : K) + 2) * (u * B ^ 2) := fun i j =>
    cov_err h rows hl hn i j (fun r hr => hB r hr i) (fun r hr => hB r hr j)
  have hG : ∀ i j, |sampleCov rows i j| ≤ 8 * B ^ 2 := by
    intro i j
    have h1 := S_abs_le rows (fun r => (r i - mean (rows.map (fun r => r i))) * (r j - mean (rows.map (fun r => r j)))) (4 * B ^ 2) (by
      intro r hr
      have a1 := mean_abs_le rows hne (fun r => r i) B (fun r hr => hB r hr i)
      have a2 := mean_abs_le rows hne (fun r => r j) B (fun r hr => hB r hr j)
      have a3 : |r i - mean (rows.map (fun r => r i))| ≤ 2 * B := (abs_sub _ _).trans (by linarith [hB r hr i])
      have a4 : |r j - mean (rows.map (fun r => r j))| ≤ 2 * B := (abs_sub _ _).trans (by linarith [hB r hr j])
      rw [abs_mul]
      refine (mul_le_mul a3 a4 (abs_nonneg _) ((abs_nonneg _).trans a3)).trans (le_of_eq (by ring)))
    unfold sampleCov
    have hn1 : 0 < (rows.length : K) - 1 := by linarith
    rw [abs_div, abs_of_pos hn1, div_le_iff₀ hn1]
    have : 0 ≤ ((rows.length : K) - 2) * B ^ 2 := mul_nonneg (by linarith) (by positivity)
    linarith [h1.1]
  have hother : ∀ ref i : Fin 3, i ≠ ref → i ≠ Tcol.otherInd ref i := by decide
  have hnext : ∀ i : Fin 3, i + 1 ≠ i + 2 := by decide
  generalize hN : (rows.length : K) = n at *
  have hτB : τ ≤ 8 * B ^ 2 := (hd _ _ (hnext i)).trans (hG _ _)
  constructor
  · refine (beta_err h hu15 _ _ hc hτ (by linarith) ref i (fun hi => hd _ _ (hother ref i hi))).trans ?_
    refine mul_le_mul_of_nonneg_left ?_ (by positivity)
    have e1 : 112 * (n + 2) * (u * B ^ 2) / τ = 14 * (n + 2) * u * (8 * B ^ 2 / τ) := by ring
    rw [e1]
    have e2 : 1 ≤ 8 * B ^ 2 / τ := by rw [le_div_iff₀ hτ]; linarith
    have e3 : u * 1 ≤ u * (8 * B ^ 2 / τ) := mul_le_mul_of_nonneg_left e2 hu0
    have e4 : 0 ≤ (n + 1) * (u * (8 * B ^ 2 / τ)) := by
      have : 0 ≤ u * (8 * B ^ 2 / τ) := by linarith
      exact mul_nonneg (by linarith) this
    nlinarith
  · refine (errVar_err h hu15 _ _ hc hτ (by linarith) i (hd _ _ (hnext i)) hG).trans ?_
    refine mul_le_mul_of_nonneg_left ?_ (by positivity)
    have : 0 ≤ (8 * n + 8) * (u * B ^ 2) := by
      have : 0 ≤ u * B ^ 2 := by positivity
      exact mul_nonneg (by linarith) this
    linarith

/-- **C125.** The error variance does not become negative (and its root NaN) by rounding if the exact one is larger than the error bound. -/
theorem errVar_pos {A : Arith K} {u B τ : K} (h : A.Ok u) (rows : List (Fin 3 → K)) (hl : 2 ≤ rows.length) (hn : 5 * ((rows.length : K) + 1) * u ≤ 1)
    (hB : ∀ r ∈ rows, ∀ i, |r i| ≤ B) (hτ : 0 < τ) (hd : ∀ i j, i ≠ j → τ ≤ |sampleCov rows i j|) (hE : 448 * ((rows.length : K) + 2) * (u * B ^ 2) ≤ τ)
    (i : Fin 3) (hv : 10 * (8 * B ^ 2 / τ) ^ 2 * (120 * ((rows.length : K) + 2) * (u * B ^ 2)) < errVarOf (sampleCov rows) i) :
    0 < A.errVar (A.cov rows) i := by
  have := (abs_le.1 (tcol_accuracy_partial h rows hl hn hB hτ hd hE 0 i).2).1
  linarith

/-- tcol.py:147 `np.sqrt(err_var) * beta`; a negative variance gives NaN (`none`) -/
def Arith.errStd (A : Arith K) (sq : K → K) (c : Fin 3 → Fin 3 → K) (ref i : Fin 3) : Option K :=
  if A.errVar c i < 0 then none else some (A.rnd (sq (A.errVar c i) * A.beta c ref i))

/-- **C125.** The error standard deviation from an error variance with an error of at most `Δ` and a scaling coefficient with an error of at most `b`. -/
theorem errStd_err {A : Arith ℝ} {sq : ℝ → ℝ} {u Δ b v β : ℝ} (h : A.Ok u) (hsq : SqrtErr sq u) (c : Fin 3 → Fin 3 → ℝ) (ref i : Fin 3)
    (hv : |A.errVar c i - v| ≤ Δ) (hΔ : Δ < v) (hβ : |A.beta c ref i - β| ≤ b) :
    ∃ s, A.errStd sq c ref i = some s ∧
      |s - Real.sqrt v * β| ≤ (((1 + u) * (Δ / Real.sqrt v) + u * Real.sqrt v) * (|β| + b) + Real.sqrt v * b) * (1 + u) + u * |Real.sqrt v * β| := by
  have hu0 := h.rel.nonneg
  have hΔ0 : 0 ≤ Δ := (abs_nonneg _).trans hv
  have hv0 : 0 < v := by linarith
  have hs0 : 0 < Real.sqrt v := Real.sqrt_pos.2 hv0
  have hpos : 0 < A.errVar c i := by linarith [(abs_le.1 hv).1]
  refine ⟨_, by unfold Arith.errStd; rw [if_neg (not_lt.2 hpos.le)], ?_⟩
  refine rnd_err h.rel ?_
  have r1 : |Real.sqrt (A.errVar c i) - Real.sqrt v| ≤ Δ / Real.sqrt v := by
    rw [le_div_iff₀ hs0]
    have e : A.errVar c i - v = (Real.sqrt (A.errVar c i) - Real.sqrt v) * (Real.sqrt (A.errVar c i) + Real.sqrt v) := by
      have e1 := Real.mul_self_sqrt hpos.le
      have e2 := Real.mul_self_sqrt hv0.le
      linear_combination e2 - e1
    rw [e, abs_mul] at hv
    have hsum : Real.sqrt v ≤ |Real.sqrt (A.errVar c i) + Real.sqrt v| := by
      rw [abs_of_nonneg (by positivity)]
      linarith [Real.sqrt_nonneg (A.errVar c i)]
    exact (mul_le_mul_of_nonneg_left hsum (abs_nonneg _)).trans hv
  have r2 : |sq (A.errVar c i) - Real.sqrt v| ≤ (1 + u) * (Δ / Real.sqrt v) + u * Real.sqrt v := by
    have q := (hsq _ hpos.le).2
    have q2 : Real.sqrt (A.errVar c i) ≤ Real.sqrt v + Δ / Real.sqrt v := by linarith [(abs_le.1 r1).2]
    have q3 := q.trans (mul_le_mul_of_nonneg_left q2 hu0)
    refine (abs_tri _ (Real.sqrt (A.errVar c i)) _).trans ?_
    linarith
  set d := (1 + u) * (Δ / Real.sqrt v) + u * Real.sqrt v
  have hd0 : 0 ≤ d := (abs_nonneg _).trans r2
  have e : sq (A.errVar c i) * A.beta c ref i - Real.sqrt v * β = (sq (A.errVar c i) - Real.sqrt v) * A.beta c ref i + Real.sqrt v * (A.beta c ref i - β) := by ring
  rw [e]
  refine (abs_add_le _ _).trans ?_
  rw [abs_mul, abs_mul, abs_of_pos hs0]
  have hb : |A.beta c ref i| ≤ |β| + b := by
    have := abs_add_le (A.beta c ref i - β) β
    rw [sub_add_cancel] at this
    linarith
  have m1 := mul_le_mul r2 hb (abs_nonneg _) hd0
  have m2 := mul_le_mul_of_nonneg_left hβ hs0.le
  linarith

/-! ### Double precision -/

/-- the sum from left to right -/
def seqSum (rnd : K → K) : List K → K
  | [] => 0
  | a :: l => l.foldl (fun s v => rnd (s + v)) a

theorem seqSum_tree (rnd : K → K) (l : List K) (hl : l ≠ []) : ∃ t : Tree K, t.leaves.Perm l ∧ seqSum rnd l = t.sum rnd := by
  cases l with
  | nil => exact absurd rfl hl
  | cons a l =>
    have key : ∀ (l : List K) (t : Tree K), ∃ t' : Tree K, t'.leaves = t.leaves ++ l ∧ l.foldl (fun s v => rnd (s + v)) (t.sum rnd) = t'.sum rnd := by
      intro l
      induction l with
      | nil => intro t; exact ⟨t, by simp, rfl⟩
      | cons b l ih =>
        intro t
        obtain ⟨t', h1, h2⟩ := ih (.node t (.leaf b))
        exact ⟨t', by rw [h1]; simp [Tree.leaves], h2⟩
    obtain ⟨t, h1, h2⟩ := key l (.leaf a)
    exact ⟨t, by rw [h1]; rfl, h2⟩

/-- double precision, sums from left to right, products rounded -/
def double : Arith ℚ := ⟨rnd64, seqSum rnd64, fun _ _ => seqSum rnd64, fun a b => rnd64 (a * b)⟩

theorem double_ok : double.Ok (1 / 2 ^ 53) where
  rel := rnd64_relErr
  add := fun l hl => seqSum_tree rnd64 l hl
  dot := fun _ _ l hl => seqSum_tree rnd64 l hl
  mul := fun _ _ => .inl rfl

/-- **C125.** In double precision. -/
theorem tcol_double (rows : List (Fin 3 → ℚ)) (hl : 2 ≤ rows.length) (hn : rows.length ≤ 2 ^ 40) (B τ : ℚ) (hB : ∀ r ∈ rows, ∀ i, |r i| ≤ B) (hτ : 0 < τ)
    (hd : ∀ i j, i ≠ j → τ ≤ |sampleCov rows i j|) (hE : 448 * ((rows.length : ℚ) + 2) * (1 / 2 ^ 53 * B ^ 2) ≤ τ) (ref i : Fin 3) :
    |double.beta (double.cov rows) ref i - betaOf (sampleCov rows) ref i| ≤
        2 * (1 + |betaOf (sampleCov rows) ref i|) * (15 * ((rows.length : ℚ) + 2) * (1 / 2 ^ 53) * (8 * B ^ 2 / τ)) ∧
      |double.errVar (double.cov rows) i - errVarOf (sampleCov rows) i| ≤ 10 * (8 * B ^ 2 / τ) ^ 2 * (120 * ((rows.length : ℚ) + 2) * (1 / 2 ^ 53 * B ^ 2)) := by
  have hn' : (rows.length : ℚ) ≤ 2 ^ 40 := by exact_mod_cast hn
  exact tcol_accuracy_partial double_ok rows hl (by linarith) hB hτ hd hE ref i

/-- three identical series -/
def identical : List (Fin 3 → ℚ) := [fun _ => 0, fun _ => 0, fun _ => 1, fun _ => 5]

/-- **C125, negation.** Three identical series have no errors: the error variance is 0, the scaling coefficients are 1. In double precision the computed error
variance is negative, so that `err_std` is NaN. (All sums are exact here, the order of the additions does not matter.) -/
theorem identical_nan (sq : ℚ → ℚ) (ref i : Fin 3) :
    errVarOf (sampleCov identical) i = 0 ∧ double.errVar (double.cov identical) i = -(1 / 2 ^ 50) ∧ double.errStd sq (double.cov identical) ref i = none := by
  have h1 : ∀ i, errVarOf (sampleCov identical) i = 0 := by decide +kernel
  have h2 : ∀ i, double.errVar (double.cov identical) i = -(1 / 2 ^ 50) := by decide +kernel
  refine ⟨h1 i, h2 i, ?_⟩
  unfold Arith.errStd
  rw [h2, if_pos (by norm_num)]

/-! ### Examples -/

/-- three series with errors -/
def exTriples : List (Fin 3 → ℚ) := [![0, 0, 1], ![1, 2, 0], ![2, 3, 3], ![3, 5, 4], ![4, 9, 3]]

example : ∀ i j, i ≠ j → (2 : ℚ) ≤ |sampleCov exTriples i j| := by decide +kernel
example : ∀ i, errVarOf (sampleCov exTriples) i ≠ 0 := by decide +kernel
example := tcol_double exTriples (by decide) (by decide) 9 2 (by decide +kernel) (by norm_num) (by decide +kernel) (by norm_num [exTriples])
example := cov_err double_ok exTriples (by decide) (by norm_num [exTriples]) 0 1 (B := 9) (by decide +kernel) (by decide +kernel)
example : 0 < double.errVar (double.cov exTriples) 1 :=
  errVar_pos double_ok exTriples (by decide) (by norm_num [exTriples]) (B := 9) (τ := 2) (by decide +kernel) (by norm_num) (by decide +kernel)
    (by norm_num [exTriples]) 1 (lt_of_lt_of_le (b := 1 / 1000) (by norm_num [exTriples]) (by decide +kernel))

end Verif.Rounding
