import Verif.Rounding.Perfect
import Verif.Rolling.FloatRounding
import Mathlib.Data.EReal.Inv
import Mathlib.Data.List.Sort

/-!
C139: values that are not finite in the pairwise metrics (`src/pytesmo/metrics/_fast_pairwise.pyx`, `src/pytesmo/metrics/pairwise.py`).

Numbers of the machine are finite, infinite or NaN. The result of an operation on finite numbers is stored by an arbitrary function `st`, which
covers rounding, overflow and underflow. Signs of zeros are not modelled. The two arrays (equal length) are the list of their pairs.
-/

set_option linter.unusedSectionVars false

namespace Verif.Pairwise.Infinite

open Verif

/-- a number of the machine. Used for _fast_pairwise.pyx:12-341. -/
inductive X (K : Type)
  | fin (x : K)
  | inf (negative : Bool)
  | nan
  deriving DecidableEq

/-- specification: a number -/
def IsNumber {K : Type} : X K → Prop
  | .fin _ => True
  | _ => False

variable {K : Type} [Field K] [LinearOrder K]

/-- storing results of finite operations, and the square root of nonnegative numbers. Used for _fast_pairwise.pyx:12-341. -/
structure Machine (K : Type) where
  st : K → X K
  sqrt : K → K

/-- `a + b`. Used for _fast_pairwise.pyx:67-71. -/
def add (M : Machine K) : X K → X K → X K
  | .nan, _ => .nan
  | _, .nan => .nan
  | .fin a, .fin b => M.st (a + b)
  | .fin _, .inf t => .inf t
  | .inf s, .fin _ => .inf s
  | .inf s, .inf t => if s = t then .inf s else .nan

/-- `a - b`. Used for _fast_pairwise.pyx:67-71. -/
def sub (M : Machine K) : X K → X K → X K
  | .nan, _ => .nan
  | _, .nan => .nan
  | .fin a, .fin b => M.st (a - b)
  | .fin _, .inf t => .inf (!t)
  | .inf s, .fin _ => .inf s
  | .inf s, .inf t => if s = t then .nan else .inf s

/-- `a * b`. Used for _fast_pairwise.pyx:90-95. -/
def mul (M : Machine K) : X K → X K → X K
  | .nan, _ => .nan
  | _, .nan => .nan
  | .fin a, .fin b => M.st (a * b)
  | .fin a, .inf t => if a = 0 then .nan else .inf (xor t (decide (a < 0)))
  | .inf s, .fin b => if b = 0 then .nan else .inf (xor s (decide (b < 0)))
  | .inf s, .inf t => .inf (xor s t)

/-- `a / b`. Used for _fast_pairwise.pyx:67-71. -/
def div (M : Machine K) : X K → X K → X K
  | .nan, _ => .nan
  | _, .nan => .nan
  | .fin a, .fin b => if b = 0 then (if a = 0 then .nan else .inf (decide (a < 0))) else M.st (a / b)
  | .fin _, .inf _ => .fin 0
  | .inf s, .fin b => .inf (xor s (decide (b < 0)))
  | .inf _, .inf _ => .nan

/-- `sqrt(a)`. Used for _fast_pairwise.pyx:133-136. -/
def sqrt (M : Machine K) : X K → X K
  | .fin a => if a < 0 then .nan else .fin (M.sqrt a)
  | .inf false => .inf false
  | .inf true => .nan
  | .nan => .nan

/-- `np.abs(a)`. Used for pairwise.py:135. -/
def abs : X K → X K
  | .fin a => .fin |a|
  | .inf _ => .inf false
  | .nan => .nan

/-- `a < b`, false with NaN. Used for _fast_pairwise.pyx:133-136. -/
def lt : X K → X K → Bool
  | .fin a, .fin b => decide (a < b)
  | .fin _, .inf t => !t
  | .inf s, .fin _ => s
  | .inf s, .inf t => s && !t
  | _, _ => false

/-- _fast_pairwise.pyx:67-71 `bias` -/
def bias (M : Machine K) (l : List (X K × X K)) : X K :=
  div M (l.foldl (fun b p => add M b (sub M p.1 p.2)) (.fin 0)) (.fin l.length)

/-- _fast_pairwise.pyx:90-95 `RSS` -/
def RSS (M : Machine K) (l : List (X K × X K)) : X K :=
  l.foldl (fun s p => add M s (mul M (sub M p.1 p.2) (sub M p.1 p.2))) (.fin 0)

/-- pairwise.py:193 `msd` -/
def msd (M : Machine K) (l : List (X K × X K)) : X K := div M (RSS M l) (.fin l.length)

/-- pairwise.py:220-221 `rmsd` with `ddof=0` -/
def rmsd (M : Machine K) (l : List (X K × X K)) : X K := sqrt M (msd M l)

/-- the larger number, NaN with NaN (`np.max`, with `flip` `np.min`). Used for pairwise.py:253. -/
def extreme (flip : Bool) : X K → X K → X K
  | .nan, _ => .nan
  | _, .nan => .nan
  | a, b => if (if flip then lt b a else lt a b) then b else a

/-- pairwise.py:253 `nrmsd` -/
def nrmsd (M : Machine K) (l : List (X K × X K)) : X K :=
  let values := l.map Prod.fst ++ l.map Prod.snd
  div M (rmsd M l) (sub M (values.foldl (extreme false) (.inf true)) (values.foldl (extreme true) (.inf false)))

/-- variables of the loop, _fast_pairwise.pyx:33-34 -/
structure Welford (K : Type) where
  nobs : ℕ
  mx : X K
  my : X K
  M2x : X K
  M2y : X K
  C : X K
  deriving DecidableEq

/-- _fast_pairwise.pyx:36-43 -/
def step (M : Machine K) (s : Welford K) (p : X K × X K) : Welford K :=
  let n := s.nobs + 1
  let mx := add M s.mx (div M (sub M p.1 s.mx) (.fin n))
  let my := add M s.my (div M (sub M p.2 s.my) (.fin n))
  { nobs := n, mx := mx, my := my
    M2x := add M s.M2x (mul M (sub M p.1 mx) (sub M p.1 s.mx))
    M2y := add M s.M2y (mul M (sub M p.2 my) (sub M p.2 s.my))
    C := add M s.C (mul M (sub M p.1 mx) (sub M p.2 s.my)) }

/-- means, variances and covariance. Used for _fast_pairwise.pyx:12-44. -/
structure Mom (K : Type) where
  mx : X K
  my : X K
  vx : X K
  vy : X K
  cov : X K
  deriving DecidableEq

/-- _fast_pairwise.pyx:12-44 `_moments_welford` -/
def moments (M : Machine K) (l : List (X K × X K)) : Mom K :=
  let s := l.foldl (step M) ⟨0, .fin 0, .fin 0, .fin 0, .fin 0, .fin 0⟩
  ⟨s.mx, s.my, div M s.M2x (.fin l.length), div M s.M2y (.fin l.length), div M s.C (.fin l.length)⟩

/-- _fast_pairwise.pyx:133-136: `max(2 * sqrt(vx) * sqrt(vy) - 2 * cov, 0)`. In the generated file the second value is taken if it is larger
than the first (_fast_pairwise.c:27394-27402), so NaN stays NaN. -/
def mseCorr (M : Machine K) (m : Mom K) : X K :=
  let a := sub M (mul M (mul M (.fin 2) (sqrt M m.vx)) (sqrt M m.vy)) (mul M (.fin 2) m.cov)
  if lt a (.fin 0) then .fin 0 else a

/-- _fast_pairwise.pyx:175-178: `(sqrt(vx) - sqrt(vy)) ** 2` -/
def mseVar (M : Machine K) (m : Mom K) : X K :=
  let d := sub M (sqrt M m.vx) (sqrt M m.vy)
  mul M d d

/-- _fast_pairwise.pyx:213-216: `(mx - my) ** 2` -/
def mseBiasFromMoments (M : Machine K) (m : Mom K) : X K := mul M (sub M m.mx m.my) (sub M m.mx m.my)

/-- _fast_pairwise.pyx:210 `mse_bias` -/
def mseBias (M : Machine K) (l : List (X K × X K)) : X K := mul M (bias M l) (bias M l)

/-- _fast_pairwise.pyx:225-274 `mse_decomposition`: the total -/
def mse (M : Machine K) (l : List (X K × X K)) : X K :=
  let m := moments M l
  add M (add M (mseCorr M m) (mseVar M m)) (mseBiasFromMoments M m)

/-- _fast_pairwise.pyx:303-320 `_ubrmsd` for at least one observation -/
def ubrmsd (M : Machine K) (l : List (X K × X K)) : X K :=
  let mx := div M (l.foldl (fun s p => add M s p.1) (.fin 0)) (.fin l.length)
  let my := div M (l.foldl (fun s p => add M s p.2) (.fin 0)) (.fin l.length)
  let sum := l.foldl (fun s p =>
    let d := sub M (sub M p.1 mx) (sub M p.2 my)
    add M s (mul M d d)) (.fin 0)
  sqrt M (div M sum (.fin l.length))

/-- _fast_pairwise.pyx:330-331: `max(-1, min(v, 1))` as in the generated file (_fast_pairwise.c:36661-36675) -/
def clip (v : X K) : X K :=
  let m := if lt (.fin 1) v then .fin 1 else v
  if lt (.fin (-1)) m then m else .fin (-1)

/-- _fast_pairwise.pyx:323-341 `_pearsonr_from_moments`: R and its p-value; `pvalue` stands for lines 337-340 -/
def pearsonr (M : Machine K) (pvalue : X K → ℕ → X K) (vx vy cov : X K) (n : ℕ) : X K × X K :=
  if vx = .fin 0 ∨ vy = .fin 0 then (.nan, .nan)
  else
    let R := clip (div M cov (sqrt M (mul M vx vy)))
    if abs R = .fin 1 then (R, .fin 0) else (R, pvalue R n)

/-- the additions of numpy in the order of the tree. Used for pairwise.py:135, pairwise.py:520-522, pairwise.py:542. -/
def total (M : Machine K) : Rounding.Tree (X K) → X K
  | .leaf v => v
  | .node l r => add M (total M l) (total M r)

/-- `np.mean`. Used for pairwise.py:135, pairwise.py:520-522, pairwise.py:542. -/
def npMean (M : Machine K) (order : List (X K) → Rounding.Tree (X K)) (v : List (X K)) : X K := div M (total M (order v)) (.fin v.length)

/-- pairwise.py:135 `aad` -/
def aad (M : Machine K) (order : List (X K) → Rounding.Tree (X K)) (l : List (X K × X K)) : X K := npMean M order (l.map (fun p => abs (sub M p.1 p.2)))

/-- pairwise.py:520-522 `index_of_agreement` -/
def agreement (M : Machine K) (order : List (X K) → Rounding.Tree (X K)) (l : List (X K × X K)) : X K :=
  let m := npMean M order (l.map Prod.fst)
  let denom := total M (order (l.map (fun p =>
    let a := add M (abs (sub M p.2 m)) (abs (sub M p.1 m))
    mul M a a)))
  sub M (.fin 1) (div M (RSS M l) denom)

/-- pairwise.py:542 `nash_sutcliffe` -/
def nash (M : Machine K) (order : List (X K) → Rounding.Tree (X K)) (l : List (X K × X K)) : X K :=
  let m := npMean M order (l.map Prod.fst)
  let num := total M (order (l.map (fun p => mul M (sub M p.1 p.2) (sub M p.1 p.2))))
  let denom := total M (order (l.map (fun p => mul M (sub M p.1 m) (sub M p.1 m))))
  sub M (.fin 1) (div M num denom)

/-- pairwise.py:153 `mad`: `np.median` is NaN with NaN, otherwise the middle of the sorted values or the mean of the two in the middle -/
def mad (M : Machine K) (l : List (X K × X K)) : X K :=
  let v := l.map (fun p => abs (sub M p.1 p.2))
  if .nan ∈ v then .nan
  else
    let s := v.insertionSort (fun a b => lt b a = false)
    if s.length % 2 = 1 then s.getD (s.length / 2) .nan
    else div M (add M (s.getD (s.length / 2 - 1) .nan) (s.getD (s.length / 2) .nan)) (.fin 2)

/-! ### The arithmetic -/

/-- specification: the extended real number of a number of the machine that is not NaN -/
noncomputable def val : X ℝ → EReal
  | .fin a => (a : EReal)
  | .inf false => ⊤
  | .inf true => ⊥
  | .nan => 0

/-- exact arithmetic with real numbers -/
noncomputable def exact : Machine ℝ := ⟨.fin, Real.sqrt⟩

/-- **C139 (arithmetic).** Without rounding the operations are those of the extended real numbers, and NaN exactly for `inf - inf`, `0 * inf`,
`inf / inf` and `0 / 0`; NaN stays NaN. -/
theorem arithmetic (a b : X ℝ) (ha : a ≠ .nan) (hb : b ≠ .nan) :
    (add exact a b = .nan ↔ (val a = ⊤ ∧ val b = ⊥) ∨ (val a = ⊥ ∧ val b = ⊤)) ∧ (add exact a b ≠ .nan → val (add exact a b) = val a + val b) ∧
    (sub exact a b = .nan ↔ (val a = ⊤ ∧ val b = ⊤) ∨ (val a = ⊥ ∧ val b = ⊥)) ∧ (sub exact a b ≠ .nan → val (sub exact a b) = val a - val b) ∧
    (mul exact a b = .nan ↔ (val a = 0 ∧ (val b = ⊤ ∨ val b = ⊥)) ∨ ((val a = ⊤ ∨ val a = ⊥) ∧ val b = 0)) ∧
    (mul exact a b ≠ .nan → val (mul exact a b) = val a * val b) ∧
    (div exact a b = .nan ↔ (val a = 0 ∧ val b = 0) ∨ ((val a = ⊤ ∨ val a = ⊥) ∧ (val b = ⊤ ∨ val b = ⊥))) ∧
    (div exact a b ≠ .nan → val b ≠ 0 → val (div exact a b) = val a / val b) ∧
    (lt a b = true ↔ val a < val b) := by
  rcases a with a | s | _
  · rcases b with b | t | _
    · refine ⟨?_, ?_, ?_, ?_, ?_, ?_, ?_, ?_, ?_⟩
      · simp [add, exact, val]
      · simp [add, exact, val]
      · simp [sub, exact, val]
      · simp [sub, exact, val]
      · simp [mul, exact, val]
      · simp [mul, exact, val]
      · simp only [div, exact, val]
        by_cases h : b = 0 <;> by_cases h' : a = 0 <;> simp [h, h']
      · intro _ h
        have h : b ≠ 0 := by simpa [val] using h
        simp only [div, exact, val, if_neg h]
        rw [EReal.coe_div]
      · simp [lt, val]
    · have hm : a ≠ 0 → val (.inf (xor t (decide (a < 0)))) = (a : EReal) * val (.inf t) := by
        intro h
        rcases lt_or_gt_of_ne h with h | h
        · cases t <;> simp [val, h, EReal.coe_mul_top_of_neg, EReal.coe_mul_bot_of_neg]
        · cases t <;> simp [val, h, not_lt.2 (le_of_lt h), EReal.coe_mul_top_of_pos, EReal.coe_mul_bot_of_pos]
      refine ⟨?_, ?_, ?_, ?_, ?_, ?_, ?_, ?_, ?_⟩
      · cases t <;> simp [add, val]
      · cases t <;> simp [add, val]
      · cases t <;> simp [sub, val]
      · cases t <;> simp [sub, val]
      · by_cases h : a = 0 <;> cases t <;> simp [mul, val, h]
      · by_cases h : a = 0
        · simp [mul, h]
        · intro _
          simp only [mul, if_neg h]
          exact hm h
      · cases t <;> simp [div, val]
      · cases t <;> simp [div, val]
      · cases t <;> simp [lt, val]
    · exact absurd rfl hb
  · rcases b with b | t | _
    · have hm : b ≠ 0 → val (.inf (xor s (decide (b < 0)))) = val (.inf s) * (b : EReal) := by
        intro h
        rcases lt_or_gt_of_ne h with h | h
        · cases s <;> simp [val, h, EReal.top_mul_coe_of_neg, EReal.bot_mul_coe_of_neg]
        · cases s <;> simp [val, h, not_lt.2 (le_of_lt h), EReal.top_mul_coe_of_pos, EReal.bot_mul_coe_of_pos]
      refine ⟨?_, ?_, ?_, ?_, ?_, ?_, ?_, ?_, ?_⟩
      · cases s <;> simp [add, val]
      · cases s <;> simp [add, val]
      · cases s <;> simp [sub, val]
      · cases s <;> simp [sub, val]
      · by_cases h : b = 0 <;> cases s <;> simp [mul, val, h]
      · by_cases h : b = 0
        · simp [mul, h]
        · intro _
          simp only [mul, if_neg h]
          exact hm h
      · cases s <;> simp [div, val]
      · intro _ h
        have h : b ≠ 0 := by simpa [val] using h
        simp only [div]
        rcases lt_or_gt_of_ne h with h | h
        · cases s
          · simp [val, h, EReal.top_div_of_neg_ne_bot (EReal.coe_neg'.2 h) (EReal.coe_ne_bot b)]
          · simp [val, h, EReal.bot_div_of_neg_ne_bot (EReal.coe_neg'.2 h) (EReal.coe_ne_bot b)]
        · cases s
          · simp [val, not_lt.2 (le_of_lt h), EReal.top_div_of_pos_ne_top (EReal.coe_pos.2 h) (EReal.coe_ne_top b)]
          · simp [val, not_lt.2 (le_of_lt h), EReal.bot_div_of_pos_ne_top (EReal.coe_pos.2 h) (EReal.coe_ne_top b)]
      · cases s <;> simp [lt, val]
    · cases s <;> cases t <;> simp [add, sub, mul, div, lt, val]
    · exact absurd rfl hb
  · exact absurd rfl ha

/-! ### Values that are no numbers spread -/

theorem add_spreads (M : Machine K) (a b : X K) (h : ¬ IsNumber a ∨ ¬ IsNumber b) : ¬ IsNumber (add M a b) := by
  cases a <;> cases b <;> simp only [add] <;> (try split) <;> simp_all [IsNumber]

theorem sub_spreads (M : Machine K) (a b : X K) (h : ¬ IsNumber a ∨ ¬ IsNumber b) : ¬ IsNumber (sub M a b) := by
  cases a <;> cases b <;> simp only [sub] <;> (try split) <;> simp_all [IsNumber]

theorem mul_spreads (M : Machine K) (a b : X K) (h : ¬ IsNumber a ∨ ¬ IsNumber b) : ¬ IsNumber (mul M a b) := by
  cases a <;> cases b <;> simp only [mul] <;> (try split) <;> simp_all [IsNumber]

theorem div_spreads (M : Machine K) (a b : X K) (h : ¬ IsNumber a) : ¬ IsNumber (div M a b) := by
  cases a <;> cases b <;> simp [div, IsNumber] at h ⊢

theorem div_both (M : Machine K) (a b : X K) (ha : ¬ IsNumber a) (hb : ¬ IsNumber b) : div M a b = .nan := by
  cases a <;> cases b <;> simp [div, IsNumber] at ha hb ⊢

theorem sqrt_spreads (M : Machine K) (a : X K) (h : ¬ IsNumber a) : ¬ IsNumber (sqrt M a) := by
  rcases a with a | s | _
  · simp [IsNumber] at h
  · cases s <;> simp [sqrt, IsNumber]
  · simp [sqrt, IsNumber]

theorem abs_spreads (a : X K) (h : ¬ IsNumber a) : ¬ IsNumber (abs a) := by
  cases a <;> simp [abs, IsNumber] at h ⊢

theorem add_nan_left (M : Machine K) (a : X K) : add M .nan a = .nan := by cases a <;> rfl
theorem add_nan_right (M : Machine K) (a : X K) : add M a .nan = .nan := by cases a <;> rfl
theorem sub_nan_left (M : Machine K) (a : X K) : sub M .nan a = .nan := by cases a <;> rfl
theorem sub_nan_right (M : Machine K) (a : X K) : sub M a .nan = .nan := by cases a <;> rfl
theorem mul_nan_left (M : Machine K) (a : X K) : mul M .nan a = .nan := by cases a <;> rfl
theorem mul_nan_right (M : Machine K) (a : X K) : mul M a .nan = .nan := by cases a <;> rfl
theorem div_nan_left (M : Machine K) (a : X K) : div M .nan a = .nan := by cases a <;> rfl
theorem div_nan_right (M : Machine K) (a : X K) : div M a .nan = .nan := by cases a <;> rfl

/-- a fold that keeps a property and gets it at one element -/
theorem fold_gets {σ α : Type} (P : σ → Prop) (f : σ → α → σ) (keeps : ∀ s a, P s → P (f s a)) (a : α) (gets : ∀ s, P (f s a)) :
    ∀ (l : List α) (s : σ), a ∈ l → P (l.foldl f s) := by
  have later : ∀ (l : List α) (s : σ), P s → P (l.foldl f s) := by
    intro l
    induction l with
    | nil => exact fun s hs => hs
    | cons b l ih => exact fun s hs => ih _ (keeps _ _ hs)
  intro l
  induction l with
  | nil => intro s h; cases h
  | cons b l ih =>
    intro s h
    rcases List.mem_cons.1 h with rfl | h
    · exact later l _ (gets s)
    · exact ih _ h

theorem sum_spreads (M : Machine K) {α : Type} (g : α → X K) (l : List α) (s : X K) (a : α) (ha : a ∈ l) (hg : ¬ IsNumber (g a)) :
    ¬ IsNumber (l.foldl (fun s p => add M s (g p)) s) :=
  fold_gets (fun s => ¬ IsNumber s) _ (fun s b hs => add_spreads M s _ (.inl hs)) a (fun s => add_spreads M s _ (.inr hg)) l s ha

theorem total_spreads (M : Machine K) (t : Rounding.Tree (X K)) (v : X K) (hv : v ∈ t.leaves) (h : ¬ IsNumber v) : ¬ IsNumber (total M t) := by
  induction t with
  | leaf w => simp only [Rounding.Tree.leaves, List.mem_singleton] at hv; subst hv; exact h
  | node l r hl hr =>
    simp only [Rounding.Tree.leaves, List.mem_append] at hv
    rcases hv with hv | hv
    · exact add_spreads M _ _ (.inl (hl hv))
    · exact add_spreads M _ _ (.inr (hr hv))

/-- specification: `order` adds every value once -/
def AddsAll (order : List (X K) → Rounding.Tree (X K)) : Prop := ∀ v : List (X K), v ≠ [] → (order v).leaves.Perm v

/-- specification: one of the series has a value that is no number -/
def Spoilt (l : List (X K × X K)) : Prop := ∃ p ∈ l, ¬ IsNumber p.1 ∨ ¬ IsNumber p.2

theorem total_map_spreads (M : Machine K) {order : List (X K) → Rounding.Tree (X K)} (ho : AddsAll order) {α : Type} (g : α → X K) (l : List α) (a : α) (ha : a ∈ l)
    (hg : ¬ IsNumber (g a)) : ¬ IsNumber (total M (order (l.map g))) := by
  have hm : g a ∈ l.map g := List.mem_map_of_mem ha
  exact total_spreads M _ (g a) ((ho _ (List.ne_nil_of_mem hm)).mem_iff.2 hm) hg

/-- **C139 (differences).** With a value that is NaN or infinite in one of the series, the bias, the (root) mean square difference, also
normalised, the mean absolute difference, the unbiased difference and the two efficiencies are NaN or infinite. -/
theorem differences_spoilt (M : Machine K) {order : List (X K) → Rounding.Tree (X K)} (ho : AddsAll order) (l : List (X K × X K)) (h : Spoilt l) :
    ¬ IsNumber (bias M l) ∧ ¬ IsNumber (RSS M l) ∧ ¬ IsNumber (msd M l) ∧ ¬ IsNumber (rmsd M l) ∧ ¬ IsNumber (nrmsd M l) ∧
      ¬ IsNumber (mseBias M l) ∧ ¬ IsNumber (aad M order l) ∧ ¬ IsNumber (ubrmsd M l) ∧ agreement M order l = .nan ∧ ¬ IsNumber (nash M order l) := by
  obtain ⟨p, hp, hn⟩ := h
  have hd : ¬ IsNumber (sub M p.1 p.2) := sub_spreads M _ _ hn
  have h2 : ¬ IsNumber (mul M (sub M p.1 p.2) (sub M p.1 p.2)) := mul_spreads M _ _ (.inl hd)
  have hbias : ¬ IsNumber (bias M l) := div_spreads M _ _ (sum_spreads M (fun p : X K × X K => sub M p.1 p.2) l _ p hp hd)
  have hrss : ¬ IsNumber (RSS M l) := sum_spreads M (fun p : X K × X K => mul M (sub M p.1 p.2) (sub M p.1 p.2)) l _ p hp h2
  have hmsd : ¬ IsNumber (msd M l) := div_spreads M _ _ hrss
  have hrmsd : ¬ IsNumber (rmsd M l) := sqrt_spreads M _ hmsd
  refine ⟨hbias, hrss, hmsd, hrmsd, div_spreads M _ _ hrmsd, mul_spreads M _ _ (.inl hbias), ?_, ?_, ?_, ?_⟩
  · exact div_spreads M _ _ (total_map_spreads M ho (fun p : X K × X K => abs (sub M p.1 p.2)) l p hp (abs_spreads _ hd))
  · unfold ubrmsd
    refine sqrt_spreads M _ (div_spreads M _ _ ?_)
    apply sum_spreads M (fun q : X K × X K => mul M (sub M (sub M q.1 _) (sub M q.2 _)) (sub M (sub M q.1 _) (sub M q.2 _))) l _ p hp
    refine mul_spreads M _ _ (.inl (sub_spreads M _ _ ?_))
    rcases hn with hn | hn
    · exact .inl (sub_spreads M _ _ (.inl hn))
    · exact .inr (sub_spreads M _ _ (.inl hn))
  · unfold agreement
    simp only
    rw [div_both M _ _ hrss]
    · exact sub_nan_right M _
    · apply total_map_spreads M ho (fun q : X K × X K => mul M (add M (abs (sub M q.2 _)) (abs (sub M q.1 _))) (add M (abs (sub M q.2 _)) (abs (sub M q.1 _)))) l p hp
      refine mul_spreads M _ _ (.inl (add_spreads M _ _ ?_))
      rcases hn with hn | hn
      · exact .inr (abs_spreads _ (sub_spreads M _ _ (.inl hn)))
      · exact .inl (abs_spreads _ (sub_spreads M _ _ (.inl hn)))
  · unfold nash
    simp only
    refine sub_spreads M _ _ (.inr (div_spreads M _ _ ?_))
    exact total_map_spreads M ho (fun p : X K × X K => mul M (sub M p.1 p.2) (sub M p.1 p.2)) l p hp h2

/-! ### The moments -/

variable [IsStrictOrderedRing K]

/-- a value that is no number minus the mean with this value is NaN -/
theorem own_deviation (M : Machine K) (x m : X K) (n : ℕ) (hx : ¬ IsNumber x) : sub M x (add M m (div M (sub M x m) (.fin ((n + 1 : ℕ) : K)))) = .nan := by
  have hn : ¬ (((n + 1 : ℕ) : K) < 0) := not_lt.2 (Nat.cast_nonneg _)
  rcases x with x | s | _
  · simp [IsNumber] at hx
  · rcases m with m | t | _
    · simp only [sub, div, add, hn, decide_false, Bool.xor_false]
      simp
    · by_cases hst : s = t
      · subst hst
        simp [sub, div, add]
      · have hts : ¬ t = s := fun e => hst e.symm
        simp only [sub, hst, if_false, div, hn, decide_false, Bool.xor_false, add, hts]
    · simp [sub, div, add]
  · cases m <;> simp [sub]

theorem step_x (M : Machine K) (s : Welford K) (p : X K × X K) (h : ¬ IsNumber p.1) : (step M s p).M2x = .nan ∧ (step M s p).C = .nan := by
  unfold step
  simp only
  rw [own_deviation M p.1 s.mx s.nobs h, mul_nan_left, mul_nan_left, add_nan_right, add_nan_right]
  exact ⟨rfl, rfl⟩

theorem step_y (M : Machine K) (s : Welford K) (p : X K × X K) (h : ¬ IsNumber p.2) : (step M s p).M2y = .nan ∧ ¬ IsNumber (step M s p).C := by
  unfold step
  simp only
  rw [own_deviation M p.2 s.my s.nobs h, mul_nan_left, add_nan_right]
  exact ⟨rfl, add_spreads M _ _ (.inr (mul_spreads M _ _ (.inr (sub_spreads M _ _ (.inl h)))))⟩

theorem step_mean (M : Machine K) (s : Welford K) (p : X K × X K) :
    ((¬ IsNumber p.1 ∨ ¬ IsNumber s.mx) → ¬ IsNumber (step M s p).mx) ∧ ((¬ IsNumber p.2 ∨ ¬ IsNumber s.my) → ¬ IsNumber (step M s p).my) := by
  constructor
  · exact fun h => add_spreads M _ _ (.inr (div_spreads M _ _ (sub_spreads M _ _ h)))
  · exact fun h => add_spreads M _ _ (.inr (div_spreads M _ _ (sub_spreads M _ _ h)))

theorem moments_x (M : Machine K) (l : List (X K × X K)) (p : X K × X K) (hp : p ∈ l) (h : ¬ IsNumber p.1) :
    (moments M l).vx = .nan ∧ (moments M l).cov = .nan ∧ ¬ IsNumber (moments M l).mx := by
  have := fold_gets (fun s : Welford K => s.M2x = .nan ∧ s.C = .nan ∧ ¬ IsNumber s.mx) (step M)
    (by
      rintro s q ⟨h1, h2, h3⟩
      refine ⟨?_, ?_, (step_mean M s q).1 (.inr h3)⟩
      · unfold step; simp only; rw [h1, add_nan_left]
      · unfold step; simp only; rw [h2, add_nan_left]) p
    (fun s => ⟨(step_x M s p h).1, (step_x M s p h).2, (step_mean M s p).1 (.inl h)⟩) l ⟨0, .fin 0, .fin 0, .fin 0, .fin 0, .fin 0⟩ hp
  unfold moments
  simp only
  rw [this.1, this.2.1, div_nan_left]
  exact ⟨rfl, rfl, this.2.2⟩

theorem moments_y (M : Machine K) (l : List (X K × X K)) (p : X K × X K) (hp : p ∈ l) (h : ¬ IsNumber p.2) :
    (moments M l).vy = .nan ∧ ¬ IsNumber (moments M l).cov ∧ ¬ IsNumber (moments M l).my := by
  have := fold_gets (fun s : Welford K => s.M2y = .nan ∧ ¬ IsNumber s.C ∧ ¬ IsNumber s.my) (step M)
    (by
      rintro s q ⟨h1, h2, h3⟩
      refine ⟨?_, ?_, (step_mean M s q).2 (.inr h3)⟩
      · unfold step; simp only; rw [h1, add_nan_left]
      · exact add_spreads M _ _ (.inl h2)) p
    (fun s => ⟨(step_y M s p h).1, (step_y M s p h).2, (step_mean M s p).2 (.inl h)⟩) l ⟨0, .fin 0, .fin 0, .fin 0, .fin 0, .fin 0⟩ hp
  unfold moments
  simp only
  rw [this.1, div_nan_left]
  exact ⟨rfl, div_spreads M _ _ this.2.1, this.2.2⟩

/-- **C139 (decomposition).** The decomposition of the mean square error: correlation and variance part and the total are NaN, the bias part is
NaN or infinite. -/
theorem decomposition_spoilt (M : Machine K) (l : List (X K × X K)) (h : Spoilt l) :
    mseCorr M (moments M l) = .nan ∧ mseVar M (moments M l) = .nan ∧ ¬ IsNumber (mseBiasFromMoments M (moments M l)) ∧ mse M l = .nan := by
  obtain ⟨p, hp, hn⟩ := h
  have key : ((moments M l).vx = .nan ∨ (moments M l).vy = .nan) ∧ (¬ IsNumber (moments M l).mx ∨ ¬ IsNumber (moments M l).my) := by
    rcases hn with hn | hn
    · exact ⟨.inl (moments_x M l p hp hn).1, .inl (moments_x M l p hp hn).2.2⟩
    · exact ⟨.inr (moments_y M l p hp hn).1, .inr (moments_y M l p hp hn).2.2⟩
  have h1 : mseCorr M (moments M l) = .nan := by
    unfold mseCorr
    rcases key.1 with e | e
    · simp only [e, sqrt, mul_nan_left, mul_nan_right, sub_nan_left]
      simp [lt]
    · simp only [e, sqrt, mul_nan_right, sub_nan_left]
      simp [lt]
  have h2 : mseVar M (moments M l) = .nan := by
    unfold mseVar
    rcases key.1 with e | e
    · simp only [e, sqrt, sub_nan_left, mul_nan_left]
    · simp only [e, sqrt, sub_nan_right, mul_nan_left]
  refine ⟨h1, h2, mul_spreads M _ _ (.inl (sub_spreads M _ _ key.2)), ?_⟩
  unfold mse
  simp only
  rw [h1, add_nan_left, add_nan_left]

/-- **C139, negation (correlation).** A value that is NaN or infinite gives the correlation -1 with the p-value 0, unless the other series has
the variance 0. -/
theorem correlation_spoilt (M : Machine K) (pvalue : X K → ℕ → X K) (l : List (X K × X K)) (h : Spoilt l) (n : ℕ)
    (hx : (moments M l).vx ≠ .fin 0) (hy : (moments M l).vy ≠ .fin 0) :
    pearsonr M pvalue (moments M l).vx (moments M l).vy (moments M l).cov n = (.fin (-1), .fin 0) := by
  obtain ⟨p, hp, hn⟩ := h
  have key : mul M (moments M l).vx (moments M l).vy = .nan := by
    rcases hn with hn | hn
    · rw [(moments_x M l p hp hn).1, mul_nan_left]
    · rw [(moments_y M l p hp hn).1, mul_nan_right]
  unfold pearsonr
  rw [if_neg (by simp [hx, hy]), key]
  simp only [sqrt, div_nan_right]
  simp [clip, lt, abs]

/-- With variance 0 of the other series it is NaN. -/
theorem correlation_spoilt_constant (M : Machine K) (pvalue : X K → ℕ → X K) (l : List (X K × X K)) (n : ℕ)
    (h : (moments M l).vx = .fin 0 ∨ (moments M l).vy = .fin 0) :
    pearsonr M pvalue (moments M l).vx (moments M l).vy (moments M l).cov n = (.nan, .nan) := by
  unfold pearsonr
  rw [if_pos h]

/-- results of the calculators for a pair. Used for metric_calculators.py:1480-1498. -/
structure Results (K : Type) where
  bias : X K
  mseCorr : X K
  mseVar : X K
  mseBias : X K
  mse : X K
  RSS : X K
  RMSD : X K
  urmsd : X K
  R : X K
  pR : X K

/-- metric_calculators.py:1480-1498 `PairwiseMetricsMixin._calc_pairwise_metrics` up to the correlation, before the values are stored in single
precision. Infinite values pass `data.dropna()` (1652). Python's `max(v, 0)` takes the second value if it is larger. -/
def pairResults (M : Machine K) (pvalue : X K → ℕ → X K) (l : List (X K × X K)) : Results K :=
  let m := moments M l
  let v := add M (add M (mseCorr M m) (mseVar M m)) (mseBiasFromMoments M m)
  let mse := if lt v (.fin 0) then .fin 0 else v
  let r := pearsonr M pvalue m.vx m.vy m.cov l.length
  ⟨sub M m.mx m.my, mseCorr M m, mseVar M m, mseBiasFromMoments M m, mse, mul M mse (.fin l.length), sqrt M mse,
    sqrt M (sub M mse (mseBiasFromMoments M m)), r.1, r.2⟩

/-- **C139, negation (calculators).** What the calculators report for data with a value that is no number: all metrics are NaN or infinite, but
the correlation is -1 with the p-value 0 (NaN if the other series has the variance 0). -/
theorem calculator_spoilt (M : Machine K) (pvalue : X K → ℕ → X K) (l : List (X K × X K)) (h : Spoilt l) :
    let r := pairResults M pvalue l
    ¬ IsNumber r.bias ∧ r.mseCorr = .nan ∧ r.mseVar = .nan ∧ ¬ IsNumber r.mseBias ∧ r.mse = .nan ∧ r.RSS = .nan ∧ r.RMSD = .nan ∧ r.urmsd = .nan ∧
      (((moments M l).vx ≠ .fin 0 ∧ (moments M l).vy ≠ .fin 0 ∧ r.R = .fin (-1) ∧ r.pR = .fin 0) ∨
        (((moments M l).vx = .fin 0 ∨ (moments M l).vy = .fin 0) ∧ r.R = .nan ∧ r.pR = .nan)) := by
  obtain ⟨h1, h2, h3, h4⟩ := decomposition_spoilt M l h
  have hmse : (pairResults M pvalue l).mse = .nan := by
    unfold mse at h4
    simp only at h4
    simp only [pairResults, h4]
    simp [lt]
  have hm : (if lt (add M (add M (mseCorr M (moments M l)) (mseVar M (moments M l))) (mseBiasFromMoments M (moments M l))) (.fin 0) then (.fin 0 : X K)
      else add M (add M (mseCorr M (moments M l)) (mseVar M (moments M l))) (mseBiasFromMoments M (moments M l))) = .nan := hmse
  refine ⟨?_, h1, h2, h3, hmse, ?_, ?_, ?_, ?_⟩
  · obtain ⟨p, hp, hn⟩ := h
    refine sub_spreads M _ _ ?_
    rcases hn with hn | hn
    · exact .inl (moments_x M l p hp hn).2.2
    · exact .inr (moments_y M l p hp hn).2.2
  · simp only [pairResults]
    rw [hm, mul_nan_left]
  · simp only [pairResults]
    rw [hm]
    rfl
  · simp only [pairResults]
    rw [hm, sub_nan_left]
    rfl
  · by_cases hv : (moments M l).vx = .fin 0 ∨ (moments M l).vy = .fin 0
    · have := correlation_spoilt_constant M pvalue l l.length hv
      exact .inr ⟨hv, by simp only [pairResults, this], by simp only [pairResults, this]⟩
    · obtain ⟨hx, hy⟩ := not_or.1 hv
      have := correlation_spoilt M pvalue l h l.length hx hy
      exact .inl ⟨hx, hy, by simp only [pairResults, this], by simp only [pairResults, this]⟩

/-! ### Finite values without overflow: the metrics of C105 and C107 -/

/-- the machine of C105 and C107: rounding, no overflow -/
def rounded (rnd sq : K → K) : Machine K := ⟨fun x => .fin (rnd x), sq⟩

/-- specification: both series as numbers of the machine -/
def lift (l : List (K × K)) : List (X K × X K) := l.map (fun p => (.fin p.1, .fin p.2))

theorem fold_lift {σ τ α β : Type} (g : σ → τ) (f : σ → α → σ) (f' : τ → β → τ) (e : α → β) (h : ∀ s a, f' (g s) (e a) = g (f s a)) (l : List α) (s : σ) :
    (l.map e).foldl f' (g s) = g (l.foldl f s) := by
  induction l generalizing s with
  | nil => rfl
  | cons a l ih => rw [List.map_cons, List.foldl_cons, List.foldl_cons, h, ih]

/-- the variables of the loop as numbers of the machine -/
def liftW (s : Rounding.Welford K) : Welford K := ⟨s.nobs, .fin s.mx, .fin s.my, .fin s.M2x, .fin s.M2y, .fin s.C⟩

/-- **C139 (numbers).** For numbers without overflow the metrics are those of C105 and C107. -/
theorem numbers (rnd sq : K → K) (l : List (K × K)) (hl : l ≠ []) :
    bias (rounded rnd sq) (lift l) = .fin (Rounding.bias rnd l) ∧ RSS (rounded rnd sq) (lift l) = .fin (Rounding.RSS rnd l) ∧
      msd (rounded rnd sq) (lift l) = .fin (Rounding.msd rnd l) ∧
      moments (rounded rnd sq) (lift l) = ⟨.fin (Rounding.moments rnd l).mx, .fin (Rounding.moments rnd l).my, .fin (Rounding.moments rnd l).vx,
        .fin (Rounding.moments rnd l).vy, .fin (Rounding.moments rnd l).cov⟩ ∧
      (0 ≤ (Rounding.moments rnd l).vx → 0 ≤ (Rounding.moments rnd l).vy →
        mseCorr (rounded rnd sq) (moments (rounded rnd sq) (lift l)) = .fin (Rounding.mseCorr rnd sq (Rounding.moments rnd l)) ∧
        mse (rounded rnd sq) (lift l) = .fin (Rounding.mseDecomposition rnd sq l).1) := by
  have hlen : (lift l).length = l.length := by simp [lift]
  have h0 : ((l.length : ℕ) : K) ≠ 0 := Nat.cast_ne_zero.2 (by simpa using hl)
  have hrss : RSS (rounded rnd sq) (lift l) = .fin (Rounding.RSS rnd l) := by
    unfold RSS lift
    exact fold_lift X.fin _ _ _ (fun s a => rfl) l 0
  have hmom : moments (rounded rnd sq) (lift l) = ⟨.fin (Rounding.moments rnd l).mx, .fin (Rounding.moments rnd l).my, .fin (Rounding.moments rnd l).vx,
        .fin (Rounding.moments rnd l).vy, .fin (Rounding.moments rnd l).cov⟩ := by
    have hf : (lift l).foldl (step (rounded rnd sq)) ⟨0, .fin 0, .fin 0, .fin 0, .fin 0, .fin 0⟩ =
        liftW (l.foldl (Rounding.Welford.add rnd) ⟨0, 0, 0, 0, 0, 0⟩) := by
      unfold lift
      refine fold_lift liftW (Rounding.Welford.add rnd) (step (rounded rnd sq)) (fun p : K × K => (X.fin p.1, X.fin p.2)) ?_ l ⟨0, 0, 0, 0, 0, 0⟩
      intro s a
      have hn : ((s.nobs + 1 : ℕ) : K) ≠ 0 := by positivity
      simp only [step, liftW, Rounding.Welford.add, sub, div, add, mul, rounded, if_neg hn]
    unfold moments
    rw [hf, hlen]
    simp only [liftW, div, if_neg h0, rounded, Rounding.moments]
  refine ⟨?_, hrss, ?_, hmom, ?_⟩
  · unfold bias
    rw [hlen]
    unfold lift
    rw [fold_lift X.fin (fun b p => rnd (b + rnd (p.1 - p.2))) _ _ (fun s a => rfl) l 0]
    simp only [div, if_neg h0, rounded, Rounding.bias]
  · unfold msd
    rw [hrss, hlen]
    simp only [div, if_neg h0, rounded, Rounding.msd]
  · intro hx hy
    have hc : mseCorr (rounded rnd sq) (moments (rounded rnd sq) (lift l)) = .fin (Rounding.mseCorr rnd sq (Rounding.moments rnd l)) := by
      rw [hmom]
      unfold mseCorr Rounding.mseCorr
      simp only [sqrt, not_lt.2 hx, not_lt.2 hy, if_false, mul, sub, rounded, lt, decide_eq_true_eq]
      split
      · rw [max_eq_right (le_of_lt ‹_›)]
      · rw [max_eq_left (not_lt.1 ‹_›)]
    refine ⟨hc, ?_⟩
    unfold mse
    simp only
    rw [hc, hmom]
    simp only [mseVar, mseBiasFromMoments, sqrt, not_lt.2 hx, not_lt.2 hy, if_false, sub, mul, add, rounded, Rounding.mseDecomposition, Rounding.mseVar,
      Rounding.mseBiasFromMoments]

/-- specification: a tree of additions of numbers as a tree of numbers of the machine -/
def liftTree : Rounding.Tree K → Rounding.Tree (X K)
  | .leaf v => .leaf (.fin v)
  | .node l r => .node (liftTree l) (liftTree r)

theorem total_lift (rnd sq : K → K) (t : Rounding.Tree K) : total (rounded rnd sq) (liftTree t) = .fin (t.sum rnd) := by
  induction t with
  | leaf v => rfl
  | node l r hl hr =>
    unfold liftTree total
    rw [hl, hr]
    rfl

theorem extreme_largest (v : List K) (m : K) (h : m ∈ v) (hm : ∀ a ∈ v, a ≤ m) : (v.map X.fin).foldl (extreme false) (.inf true) = .fin m := by
  have key : ∀ (v : List K) (a : K), ∃ b, (v.map X.fin).foldl (extreme false) (.fin a) = .fin b ∧ a ≤ b ∧ (∀ c ∈ v, c ≤ b) ∧ (b = a ∨ b ∈ v) := by
    intro v
    induction v with
    | nil => exact fun a => ⟨a, rfl, le_refl a, by simp, .inl rfl⟩
    | cons c v ih =>
      intro a
      simp only [List.map_cons, List.foldl_cons, extreme, lt, decide_eq_true_eq, Bool.false_eq_true, if_false]
      by_cases hc : a < c
      · obtain ⟨b, e, h1, h2, h3⟩ := ih c
        refine ⟨b, by rw [if_pos hc]; exact e, le_trans (le_of_lt hc) h1, ?_, ?_⟩
        · intro d hd
          rcases List.mem_cons.1 hd with rfl | hd
          exacts [h1, h2 d hd]
        · rcases h3 with rfl | h3
          exacts [.inr (by simp), .inr (List.mem_cons_of_mem _ h3)]
      · obtain ⟨b, e, h1, h2, h3⟩ := ih a
        refine ⟨b, by rw [if_neg hc]; exact e, h1, ?_, ?_⟩
        · intro d hd
          rcases List.mem_cons.1 hd with rfl | hd
          exacts [le_trans (not_lt.1 hc) h1, h2 d hd]
        · rcases h3 with rfl | h3
          exacts [.inl rfl, .inr (List.mem_cons_of_mem _ h3)]
  cases v with
  | nil => cases h
  | cons a v =>
    obtain ⟨b, e, h1, h2, h3⟩ := key v a
    have e' : ((a :: v).map X.fin).foldl (extreme false) (.inf true) = .fin b := by
      rw [← e]; rfl
    rw [e']
    congr 1
    apply le_antisymm
    · rcases h3 with rfl | h3
      exacts [hm _ (by simp), hm _ (List.mem_cons_of_mem _ h3)]
    · rcases List.mem_cons.1 h with rfl | h
      exacts [h1, h2 _ h]

theorem extreme_smallest (v : List K) (m : K) (h : m ∈ v) (hm : ∀ a ∈ v, m ≤ a) : (v.map X.fin).foldl (extreme true) (.inf false) = .fin m := by
  have key : ∀ (v : List K) (a : K), ∃ b, (v.map X.fin).foldl (extreme true) (.fin a) = .fin b ∧ b ≤ a ∧ (∀ c ∈ v, b ≤ c) ∧ (b = a ∨ b ∈ v) := by
    intro v
    induction v with
    | nil => exact fun a => ⟨a, rfl, le_refl a, by simp, .inl rfl⟩
    | cons c v ih =>
      intro a
      simp only [List.map_cons, List.foldl_cons, extreme, lt, decide_eq_true_eq, if_true]
      by_cases hc : c < a
      · obtain ⟨b, e, h1, h2, h3⟩ := ih c
        refine ⟨b, by rw [if_pos hc]; exact e, le_trans h1 (le_of_lt hc), ?_, ?_⟩
        · intro d hd
          rcases List.mem_cons.1 hd with rfl | hd
          exacts [h1, h2 d hd]
        · rcases h3 with rfl | h3
          exacts [.inr (by simp), .inr (List.mem_cons_of_mem _ h3)]
      · obtain ⟨b, e, h1, h2, h3⟩ := ih a
        refine ⟨b, by rw [if_neg hc]; exact e, h1, ?_, ?_⟩
        · intro d hd
          rcases List.mem_cons.1 hd with rfl | hd
          exacts [le_trans h1 (not_lt.1 hc), h2 d hd]
        · rcases h3 with rfl | h3
          exacts [.inl rfl, .inr (List.mem_cons_of_mem _ h3)]
  cases v with
  | nil => cases h
  | cons a v =>
    obtain ⟨b, e, h1, h2, h3⟩ := key v a
    have e' : ((a :: v).map X.fin).foldl (extreme true) (.inf false) = .fin b := by
      rw [← e]; rfl
    rw [e']
    congr 1
    apply le_antisymm
    · rcases List.mem_cons.1 h with rfl | h
      exacts [h1, h2 _ h]
    · rcases h3 with rfl | h3
      exacts [hm _ (by simp), hm _ (List.mem_cons_of_mem _ h3)]

/-- **C139 (numbers, the remaining metrics).** For numbers without overflow: `aad`, ubRMSD, Nash-Sutcliffe efficiency and index of agreement are
those of C105 and C107 (NaN or infinite exactly where those are undefined), nRMSD is the RMSD divided by the difference of the largest and the
smallest value of both series, and R is the quotient limited to [-1, 1]. -/
theorem numbers_rest (rnd sq : K → K) (order : List K → Rounding.Tree K) (orderX : List (X K) → Rounding.Tree (X K))
    (ho : ∀ v, orderX (v.map .fin) = liftTree (order v)) (l : List (K × K)) (hl : l ≠ []) :
    aad (rounded rnd sq) orderX (lift l) = .fin (Rounding.aad rnd order l) ∧
      ((∀ x, 0 ≤ x → 0 ≤ rnd x) → ubrmsd (rounded rnd sq) (lift l) = .fin (Rounding.ubrmsd rnd sq l)) ∧
      (∀ r, Rounding.nashSutcliffe rnd order l = some r → nash (rounded rnd sq) orderX (lift l) = .fin r) ∧
      (Rounding.nashSutcliffe rnd order l = none → ¬ IsNumber (nash (rounded rnd sq) orderX (lift l))) ∧
      (∀ r, Rounding.indexOfAgreement rnd order l = some r → agreement (rounded rnd sq) orderX (lift l) = .fin r) ∧
      (Rounding.indexOfAgreement rnd order l = none → ¬ IsNumber (agreement (rounded rnd sq) orderX (lift l))) ∧
      (∀ lo hi : K, (lo ∈ l.map Prod.fst ∨ lo ∈ l.map Prod.snd) → (hi ∈ l.map Prod.fst ∨ hi ∈ l.map Prod.snd) →
        (∀ p ∈ l, lo ≤ p.1 ∧ lo ≤ p.2 ∧ p.1 ≤ hi ∧ p.2 ≤ hi) → 0 ≤ Rounding.msd rnd l → rnd (hi - lo) ≠ 0 →
        nrmsd (rounded rnd sq) (lift l) = .fin (rnd (sq (Rounding.msd rnd l) / rnd (hi - lo)))) := by
  have hlen : (lift l).length = l.length := by simp [lift]
  have h0 : ((l.length : ℕ) : K) ≠ 0 := Nat.cast_ne_zero.2 (by simpa using hl)
  have hpos : (0 : K) < ((l.length : ℕ) : K) := Nat.cast_pos.2 (by cases l <;> simp at hl ⊢)
  obtain ⟨-, hrss, hmsd, -, -⟩ := numbers rnd sq l hl
  have tot : ∀ (f : K × K → K) (g : X K × X K → X K), (∀ p : K × K, g (.fin p.1, .fin p.2) = .fin (f p)) →
      total (rounded rnd sq) (orderX ((lift l).map g)) = .fin ((order (l.map f)).sum rnd) := by
    intro f g hfg
    have : (lift l).map g = (l.map f).map .fin := by
      unfold lift
      rw [List.map_map, List.map_map]
      exact List.map_congr_left (fun p _ => hfg p)
    rw [this, ho, total_lift]
  have hm : npMean (rounded rnd sq) orderX ((lift l).map Prod.fst) = .fin (Rounding.npMean rnd order (l.map Prod.fst)) := by
    unfold npMean Rounding.npMean
    rw [tot Prod.fst Prod.fst (fun p => rfl), List.length_map, List.length_map, hlen]
    simp only [div, if_neg h0, rounded]
  have one : ∀ a b : K, sub (rounded rnd sq) (.fin 1) (div (rounded rnd sq) (.fin a) (.fin b)) =
      if b = 0 then (if a = 0 then .nan else .inf (!decide (a < 0))) else .fin (rnd (1 - rnd (a / b))) := by
    intro a b
    simp only [div, rounded]
    split
    · split <;> rfl
    · rfl
  have oneNo : ∀ a b : K, b = 0 → ¬ IsNumber (sub (rounded rnd sq) (.fin 1) (div (rounded rnd sq) (.fin a) (.fin b))) := by
    intro a b hb
    rw [one, if_pos hb]
    split <;> exact fun h => h
  have hn : nash (rounded rnd sq) orderX (lift l) = sub (rounded rnd sq) (.fin 1) (div (rounded rnd sq)
      (.fin ((order (l.map (fun p => rnd (rnd (p.1 - p.2) * rnd (p.1 - p.2))))).sum rnd))
      (.fin ((order (l.map (fun p => rnd (rnd (p.1 - Rounding.npMean rnd order (l.map Prod.fst)) *
        rnd (p.1 - Rounding.npMean rnd order (l.map Prod.fst)))))).sum rnd))) := by
    unfold nash
    simp only
    rw [hm, tot _ _ (fun p => rfl), tot (fun p => rnd (rnd (p.1 - Rounding.npMean rnd order (l.map Prod.fst)) *
        rnd (p.1 - Rounding.npMean rnd order (l.map Prod.fst)))) _ (fun p => rfl)]
  have ha : agreement (rounded rnd sq) orderX (lift l) = sub (rounded rnd sq) (.fin 1) (div (rounded rnd sq) (.fin (Rounding.RSS rnd l))
      (.fin ((order (l.map (fun p =>
        let a := rnd (|rnd (p.2 - Rounding.npMean rnd order (l.map Prod.fst))| + |rnd (p.1 - Rounding.npMean rnd order (l.map Prod.fst))|)
        rnd (a * a)))).sum rnd))) := by
    unfold agreement
    simp only
    rw [hm, hrss, tot (fun p =>
        rnd (rnd (|rnd (p.2 - Rounding.npMean rnd order (l.map Prod.fst))| + |rnd (p.1 - Rounding.npMean rnd order (l.map Prod.fst))|) *
        rnd (|rnd (p.2 - Rounding.npMean rnd order (l.map Prod.fst))| + |rnd (p.1 - Rounding.npMean rnd order (l.map Prod.fst))|))) _ (fun p => rfl)]
  refine ⟨?_, ?_, ?_, ?_, ?_, ?_, ?_⟩
  · unfold aad npMean Rounding.aad
    rw [tot (fun p => |rnd (p.1 - p.2)|) _ (fun p => rfl), List.length_map, hlen]
    simp only [div, if_neg h0, rounded]
  · intro hr
    have h1 : div (rounded rnd sq) ((lift l).foldl (fun s p => add (rounded rnd sq) s p.1) (.fin 0)) (.fin (lift l).length) =
        .fin (rnd (l.foldl (fun s p => rnd (s + p.1)) 0 / (l.length : K))) := by
      rw [hlen]; unfold lift
      rw [fold_lift X.fin (fun s (p : K × K) => rnd (s + p.1)) _ _ (fun s a => rfl) l 0]
      simp only [div, if_neg h0, rounded]
    have h2 : div (rounded rnd sq) ((lift l).foldl (fun s p => add (rounded rnd sq) s p.2) (.fin 0)) (.fin (lift l).length) =
        .fin (rnd (l.foldl (fun s p => rnd (s + p.2)) 0 / (l.length : K))) := by
      rw [hlen]; unfold lift
      rw [fold_lift X.fin (fun s (p : K × K) => rnd (s + p.2)) _ _ (fun s a => rfl) l 0]
      simp only [div, if_neg h0, rounded]
    unfold ubrmsd Rounding.ubrmsd
    simp only
    rw [h1, h2, hlen]
    generalize rnd (l.foldl (fun s p => rnd (s + p.1)) 0 / (l.length : K)) = mx
    generalize rnd (l.foldl (fun s p => rnd (s + p.2)) 0 / (l.length : K)) = my
    unfold lift
    rw [fold_lift X.fin (fun s (p : K × K) => rnd (s + rnd (rnd (rnd (p.1 - mx) - rnd (p.2 - my)) * rnd (rnd (p.1 - mx) - rnd (p.2 - my))))) _ _
      (fun s a => rfl) l 0]
    have hnn : ∀ (l : List (K × K)) (s : K), 0 ≤ s → 0 ≤ l.foldl (fun s (p : K × K) =>
        rnd (s + rnd (rnd (rnd (p.1 - mx) - rnd (p.2 - my)) * rnd (rnd (p.1 - mx) - rnd (p.2 - my))))) s := by
      intro l
      induction l with
      | nil => exact fun s hs => hs
      | cons a l ih => exact fun s hs => ih _ (hr _ (add_nonneg hs (hr _ (mul_self_nonneg _))))
    simp only [div, if_neg h0, rounded, sqrt]
    rw [if_neg (not_lt.2 (hr _ (div_nonneg (hnn l 0 (le_refl 0)) (le_of_lt hpos))))]
  · intro r h
    rw [hn, one]
    unfold Rounding.nashSutcliffe at h
    simp only at h
    split at h
    · cases h
    · rename_i hd
      rw [if_neg hd]
      exact congrArg X.fin (Option.some.inj h)
  · intro h
    rw [hn]
    apply oneNo
    unfold Rounding.nashSutcliffe at h
    simp only at h
    split at h
    · assumption
    · cases h
  · intro r h
    rw [ha, one]
    unfold Rounding.indexOfAgreement at h
    simp only at h
    split at h
    · cases h
    · rename_i hd
      rw [if_neg hd]
      exact congrArg X.fin (Option.some.inj h)
  · intro h
    rw [ha]
    apply oneNo
    unfold Rounding.indexOfAgreement at h
    simp only at h
    split at h
    · assumption
    · cases h
  · intro lo hi hlo hhi hb hms hne
    have hv : (lift l).map Prod.fst ++ (lift l).map Prod.snd = (l.map Prod.fst ++ l.map Prod.snd).map .fin := by
      simp [lift, Function.comp_def]
    have hall : ∀ a ∈ l.map Prod.fst ++ l.map Prod.snd, lo ≤ a ∧ a ≤ hi := by
      intro a ha
      rcases List.mem_append.1 ha with ha | ha
      · obtain ⟨p, hp, rfl⟩ := List.mem_map.1 ha
        exact ⟨(hb p hp).1, (hb p hp).2.2.1⟩
      · obtain ⟨p, hp, rfl⟩ := List.mem_map.1 ha
        exact ⟨(hb p hp).2.1, (hb p hp).2.2.2⟩
    unfold nrmsd rmsd
    simp only
    rw [hmsd, hv, extreme_largest _ hi (List.mem_append.2 hhi) (fun a ha => (hall a ha).2),
      extreme_smallest _ lo (List.mem_append.2 hlo) (fun a ha => (hall a ha).1)]
    simp only [sqrt, if_neg (not_lt.2 hms), sub, rounded, div, if_neg hne]

/-- **C139 (numbers, correlation).** For numbers without overflow, R is the quotient limited to [-1, 1], with the p-value 0 at the ends. -/
theorem numbers_correlation (rnd sq : K → K) (pvalue : X K → ℕ → X K) (vx vy cov : K) (n : ℕ) (hx : vx ≠ 0) (hy : vy ≠ 0) (hp : 0 ≤ rnd (vx * vy))
    (hs : sq (rnd (vx * vy)) ≠ 0) (r : K) (hr : r = max (-1) (min (rnd (cov / sq (rnd (vx * vy)))) 1)) :
    pearsonr (rounded rnd sq) pvalue (.fin vx) (.fin vy) (.fin cov) n = (.fin r, if r = 1 ∨ r = -1 then .fin 0 else pvalue (.fin r) n) := by
  unfold pearsonr
  have hc : ∀ v : K, clip (.fin v) = .fin (max (-1) (min v 1)) := by
    intro v
    unfold clip
    simp only [lt, decide_eq_true_eq]
    by_cases h1 : 1 < v
    · simp only [if_pos h1, min_eq_right (le_of_lt h1), decide_eq_true_eq]
      split
      · rw [max_eq_right (le_of_lt ‹_›)]
      · rw [max_eq_left (not_lt.1 ‹_›)]
    · simp only [if_neg h1, min_eq_left (not_lt.1 h1), decide_eq_true_eq]
      split
      · rw [max_eq_right (le_of_lt ‹_›)]
      · rw [max_eq_left (not_lt.1 ‹_›)]
  rw [if_neg (by simp [hx, hy])]
  simp only [mul, rounded, sqrt, if_neg (not_lt.2 hp), div, if_neg hs]
  rw [hc, ← hr]
  have : (abs (.fin r) = (.fin 1 : X K)) ↔ (r = 1 ∨ r = -1) := by
    simp only [abs, X.fin.injEq]
    exact abs_eq zero_le_one
  by_cases h : r = 1 ∨ r = -1
  · rw [if_pos (this.2 h), if_pos h]
  · rw [if_neg (fun e => h (this.1 e)), if_neg h]

/-! ### The median -/

/-- **C139 (median).** The median absolute difference is NaN if one of the values is. -/
theorem mad_nan (M : Machine K) (l : List (X K × X K)) (p : X K × X K) (hp : p ∈ l) (h : p.1 = .nan ∨ p.2 = .nan) : mad M l = .nan := by
  have : (.nan : X K) ∈ l.map (fun p => abs (sub M p.1 p.2)) := by
    refine List.mem_map.2 ⟨p, hp, ?_⟩
    rcases h with h | h
    · rw [h, sub_nan_left]; rfl
    · rw [h, sub_nan_right]; rfl
  unfold mad
  simp only
  rw [if_pos this]

/-- **C139 (numbers, median).** For numbers without overflow `mad` is the middle one of the sorted absolute differences, or the mean of the two in
the middle. -/
theorem numbers_mad (rnd sq : K → K) (l : List (K × K)) (hl : l ≠ []) (s : List K) (hp : s.Perm (l.map (fun p => |rnd (p.1 - p.2)|)))
    (hs : s.Pairwise (· ≤ ·)) :
    mad (rounded rnd sq) (lift l) = .fin (if l.length % 2 = 1 then s.getD (l.length / 2) 0
      else rnd (rnd (s.getD (l.length / 2 - 1) 0 + s.getD (l.length / 2) 0) / 2)) := by
  have hv : (lift l).map (fun p => abs (sub (rounded rnd sq) p.1 p.2)) = (l.map (fun p => |rnd (p.1 - p.2)|)).map .fin := by
    simp [lift, sub, abs, rounded, Function.comp_def]
  have hsort : ((l.map (fun p => |rnd (p.1 - p.2)|)).map X.fin).insertionSort (fun a b => lt b a = false) = s.map .fin := by
    rw [← List.map_insertionSort (r := (· ≤ ·)) (s := fun a b => lt b a = false) X.fin _ (by intro a _ b _; simp [lt])]
    congr 1
    exact List.Perm.eq_of_pairwise (fun a b _ _ h1 h2 => le_antisymm h1 h2) (List.pairwise_insertionSort (· ≤ ·) _) hs ((List.perm_insertionSort _ _).trans hp.symm)
  have hlen : s.length = l.length := by rw [hp.length_eq, List.length_map]
  have hpos : 0 < l.length := by cases l <;> simp at hl ⊢
  have hget : ∀ i, i < l.length → (s.map X.fin).getD i .nan = .fin (s.getD i 0) := by
    intro i hi
    simp [List.getD_eq_getElem?_getD, List.getElem?_eq_getElem (hlen ▸ hi : i < s.length)]
  unfold mad
  simp only
  rw [hv, if_neg (by simp), hsort, List.length_map, hlen]
  split
  · rw [hget _ (by omega)]
  · rw [hget _ (by omega), hget _ (by omega)]
    have : (2 : K) ≠ 0 := two_ne_zero
    simp only [add, div, rounded, if_neg this]

/-! ### Concrete cases -/

open Verif.Rolling.Fl (rnd64)

/-- `double`: 53 binary digits, numbers from 2^1024 on are infinite. Used for the examples. -/
def double (sq : ℚ → ℚ) : Machine ℚ := ⟨fun x => if 2 ^ 1024 ≤ |rnd64 x| then .inf (decide (x < 0)) else .fin (rnd64 x), sq⟩

/-- the moments do not use the square root -/
theorem moments_sqrt (st : K → X K) (sq sq' : K → K) (l : List (X K × X K)) : moments ⟨st, sq⟩ l = moments ⟨st, sq'⟩ l := by
  have h1 : add ⟨st, sq⟩ = add ⟨st, sq'⟩ := rfl
  have h2 : sub ⟨st, sq⟩ = sub ⟨st, sq'⟩ := rfl
  have h3 : mul ⟨st, sq⟩ = mul ⟨st, sq'⟩ := rfl
  have h4 : div ⟨st, sq⟩ = div ⟨st, sq'⟩ := rfl
  have h5 : step ⟨st, sq⟩ = step ⟨st, sq'⟩ := by
    funext s p
    unfold step
    rw [h1, h2, h3, h4]
  unfold moments
  rw [h4, h5]

/-- **C139, negation (correlation).** One infinite value in two series that rise together: the correlation is -1 with the p-value 0. -/
theorem infinite_correlation (sq : ℚ → ℚ) (pvalue : X ℚ → ℕ → X ℚ) :
    let m := moments (double sq) [(.fin 1, .fin 2), (.fin 2, .fin 3), (.fin 3, .inf false)]
    pearsonr (double sq) pvalue m.vx m.vy m.cov 3 = (.fin (-1), .fin 0) := by
  apply correlation_spoilt
  · exact ⟨(.fin 3, .inf false), by simp, .inr (by simp [IsNumber])⟩
  · rw [double, moments_sqrt _ sq id]
    decide +kernel
  · rw [double, moments_sqrt _ sq id]
    decide +kernel

/-- **C139, negation (overflow).** Large numbers: a series has the correlation -1 with itself. -/
theorem overflow_correlation (sq : ℚ → ℚ) (pvalue : X ℚ → ℕ → X ℚ) :
    let m := moments (double sq) [(.fin (2 ^ 600), .fin (2 ^ 600)), (.fin 0, .fin 0)]
    pearsonr (double sq) pvalue m.vx m.vy m.cov 2 = (.fin (-1), .fin 0) := by
  have hm : moments (double sq) [(.fin (2 ^ 600), .fin (2 ^ 600)), (.fin 0, .fin 0)] =
      ⟨.fin (2 ^ 599), .fin (2 ^ 599), .inf false, .inf false, .inf false⟩ := by
    rw [double, moments_sqrt _ sq id]
    decide +kernel
  simp only [hm]
  simp [pearsonr, mul, sqrt, div, clip, lt, abs]

/-- **C139 (median).** An infinite value does not always spoil the median. -/
theorem mad_infinite : mad (double id) [(.fin 1, .fin 2), (.fin 2, .fin 4), (.fin 3, .inf false)] = .fin 2 := by
  decide +kernel

example : Spoilt [((.fin 1 : X ℚ), (.fin 2 : X ℚ)), (.fin 2, .inf true)] := ⟨(.fin 2, .inf true), by simp, .inr (by simp [IsNumber])⟩

example : bias (double id) [(.fin 1, .fin 2), (.fin 2, .inf true)] = .inf false ∧
    rmsd (double id) [(.fin 1, .fin 2), (.fin 2, .inf true)] = .inf false ∧
    mse (double id) [(.fin 1, .fin 2), (.fin 2, .inf true)] = .nan ∧
    bias (double id) [(.fin 1, .fin 2), (.fin 2, .fin 7)] = .fin (-3) := by
  decide +kernel

/-- an order of additions of numbers of the machine and of numbers -/
def chain {A : Type} (z : A) : List A → Rounding.Tree A
  | [] => .leaf z
  | v :: l => .node (.leaf v) (chain z l)

theorem chain_lift (v : List ℚ) : chain (.fin 0) (v.map X.fin) = liftTree (chain 0 v) := by
  induction v with
  | nil => rfl
  | cons a v ih => rw [List.map_cons, chain, ih]; rfl

/-- the hypotheses of `numbers_rest` hold for the series 1, 3 and 2, 5 without rounding: nRMSD for every square root -/
example (sq : ℚ → ℚ) : nrmsd (rounded id sq) (lift [(1, 2), (3, 5)]) = .fin (sq (5 / 2) / 4) ∧
    aad (rounded id sq) (chain (.fin 0)) (lift [(1, 2), (3, 5)]) = .fin (3 / 2) ∧
    nash (rounded id sq) (chain (.fin 0)) (lift [(1, 2), (3, 5)]) = .fin (-3 / 2) := by
  have h := numbers_rest id sq (chain 0) (chain (.fin 0)) chain_lift [((1 : ℚ), 2), (3, 5)] (by simp)
  refine ⟨?_, ?_, h.2.2.1 _ (by decide +kernel)⟩
  · rw [h.2.2.2.2.2.2 1 5 (by simp) (by simp) (by intro p hp; simp at hp; rcases hp with rfl | rfl <;> norm_num) (by decide +kernel) (by norm_num)]
    have : Rounding.msd id [((1 : ℚ), 2), (3, 5)] = 5 / 2 := by decide +kernel
    rw [this]
    norm_num
  · rw [h.1]
    have : Rounding.aad id (chain 0) [((1 : ℚ), 2), (3, 5)] = 3 / 2 := by decide +kernel
    rw [this]

/-- variances 4 and 9, covariance 3: R is 1/2; covariance 7: R is 1 with p-value 0 -/
example (pvalue : X ℚ → ℕ → X ℚ) : pearsonr (rounded id (fun x => if x = 36 then 6 else 0)) pvalue (.fin 4) (.fin 9) (.fin 3) 5 =
      (.fin (1 / 2), pvalue (.fin (1 / 2)) 5) ∧
    pearsonr (rounded id (fun x => if x = 36 then 6 else 0)) pvalue (.fin 4) (.fin 9) (.fin 7) 5 = (.fin 1, .fin 0) := by
  constructor
  · rw [numbers_correlation id _ pvalue 4 9 3 5 (by norm_num) (by norm_num) (by norm_num) (by norm_num) (1 / 2) (by norm_num)]
    norm_num
  · rw [numbers_correlation id _ pvalue 4 9 7 5 (by norm_num) (by norm_num) (by norm_num) (by norm_num) 1 (by norm_num)]
    norm_num

example (sq : ℚ → ℚ) : mad (rounded id sq) (lift [(1, 5), (2, 3), (7, 7), (2, 0)]) = .fin (3 / 2) := by
  rw [numbers_mad id sq [(1, 5), (2, 3), (7, 7), (2, 0)] (by simp) [0, 1, 2, 4] (by decide +kernel) (by decide +kernel)]
  norm_num

example : (double id).st (2 ^ 1024) = .inf false ∧ (double id).st (-2 ^ 1024) = .inf true ∧ (double id).st (2 ^ 1023) = .fin (2 ^ 1023) := by
  decide +kernel

/-- additions one after the other, from the last value to the first: an order that adds every value once -/
def sequence {A : Type} (z : A) : List A → Rounding.Tree A
  | [] => .leaf z
  | [v] => .leaf v
  | v :: w :: l => .node (.leaf v) (sequence z (w :: l))

theorem sequence_addsAll {K : Type} [Field K] [LinearOrder K] : AddsAll (K := K) (sequence (.fin 0)) := by
  intro v hv
  have : ∀ v : List (X K), v ≠ [] → (sequence (.fin 0) v).leaves = v := by
    intro v
    induction v with
    | nil => intro h; exact absurd rfl h
    | cons a v ih =>
      intro _
      cases v with
      | nil => rfl
      | cons b v =>
        show [a] ++ (sequence (.fin 0) (b :: v)).leaves = _
        rw [ih (by simp)]
        rfl
  rw [this v hv]

/-- the hypotheses of `differences_spoilt`, `calculator_spoilt` and `mad_nan` are met in double precision -/
example (sq : ℚ → ℚ) (pvalue : X ℚ → ℕ → X ℚ) : nash (double sq) (sequence (.fin 0)) [(.fin 1, .fin 2), (.fin 2, .inf true)] ≠ .fin 1 ∧
    (pairResults (double sq) pvalue [(.fin 1, .fin 2), (.fin 2, .inf true)]).mse = .nan ∧ mad (double sq) [(.fin 1, .fin 2), (.fin 2, .nan)] = .nan := by
  have h : Spoilt [((.fin 1 : X ℚ), (.fin 2 : X ℚ)), (.fin 2, .inf true)] := ⟨(.fin 2, .inf true), by simp, .inr (by simp [IsNumber])⟩
  refine ⟨fun e => ?_, (calculator_spoilt (double sq) pvalue _ h).2.2.2.2.1, mad_nan (double sq) _ (.fin 2, .nan) (by simp) (.inr rfl)⟩
  exact (differences_spoilt (double sq) sequence_addsAll _ h).2.2.2.2.2.2.2.2.2 (by rw [e]; trivial)

end Verif.Pairwise.Infinite
