import Mathlib.Analysis.SpecialFunctions.Trigonometric.Basic
import Mathlib.Data.List.Nodup
import Mathlib.Data.List.GetD
import Mathlib.Data.List.Range
import Mathlib.Tactic.NormNum
import Mathlib.Tactic.Ring
import Mathlib.Tactic.Linarith
import Mathlib.Algebra.BigOperators.Group.List.Basic

/-!
# C66: the argument `axis` of `smoothn`

Model of `src/pytesmo/interpolate/dctpls.py:533-549`, the array `Lambda` that decides along which axes an array is smoothed. Shapes are
lists of numbers, arrays functions of an index list. Axes are not negative. The rounding of the eigenvalues to the type of the data is left out.
-/

namespace Verif.Smoothn.Axis

set_option linter.unusedSectionVars false

/-- exceptions. Used for dctpls.py:539-549, dctpls.py:533-549. -/
inductive Err
  /-- no such axis (544) -/
  | indexError
  /-- the shapes do not fit (548) -/
  | valueError
  /-- `enumerate` of a number (539) -/
  | typeError
  deriving DecidableEq, Repr

/-- the argument `axis`. Used for dctpls.py:533-549. -/
inductive Arg
  | all
  | number (ax : ℕ)
  | tuple (axs : List ℕ)

/-- dctpls.py:545-546 `_lambda[k]` for an axis of length `n` -/
noncomputable def eigenvalue (n k : ℕ) : ℝ := 2 - 2 * Real.cos (Real.pi * k / n)

/-- dctpls.py:547 `_shp = [n if a == ax else 1 for a in axis]` -/
def shp (axis : List ℕ) (ax n : ℕ) : List ℕ := axis.map (fun a => if a = ax then n else 1)

/-- whether an array of shape `s` can be added in place to one of shape `shape`; shapes are aligned at their ends. Used for dctpls.py:539-549. -/
def fits (shape s : List ℕ) : Bool :=
  decide (s.length ≤ shape.length) && (s.zip (shape.drop (shape.length - s.length))).all (fun p => decide (p.1 = 1) || decide (p.1 = p.2))

/-- position in the flat array of the element of an array of shape `s` that is added at the (aligned) index. Used for dctpls.py:539-549. -/
def flat (s idx : List ℕ) : ℕ := (s.zip idx).foldl (fun acc p => acc * p.1 + (if p.1 = 1 then 0 else p.2)) 0

/-- dctpls.py:539-549, one round of the loop -/
noncomputable def addAxis (shape axis : List ℕ) (L : List ℕ → ℝ) (ax : ℕ) : Except Err (List ℕ → ℝ) :=
  match shape[ax]? with
  | none => .error .indexError
  | some n =>
    if (shp axis ax n).prod = n ∧ fits shape (shp axis ax n) then
      .ok (fun idx => L idx + eigenvalue n (flat (shp axis ax n) (idx.drop (shape.length - (shp axis ax n).length))))
    else .error .valueError

/-- dctpls.py:533-549 `Lambda` -/
noncomputable def lambdaArr (shape : List ℕ) (axis : Arg) : Except Err (List ℕ → ℝ) :=
  match axis with
  | .all => (List.range shape.length).foldlM (addAxis shape (List.range shape.length)) (fun _ => 0)
  | .number _ => .error .typeError
  | .tuple axs => axs.foldlM (addAxis shape axs) (fun _ => 0)

/-! ## Lemmas -/

theorem shp_split (pre post : List ℕ) (ax n : ℕ) (h : (pre ++ ax :: post).Nodup) :
    shp (pre ++ ax :: post) ax n = List.replicate pre.length 1 ++ n :: List.replicate post.length 1 := by
  have h1 : ∀ l : List ℕ, ax ∉ l → l.map (fun a => if a = ax then n else 1) = List.replicate l.length 1 := by
    intro l hl
    rw [List.eq_replicate_iff]
    refine ⟨by simp, fun b hb => ?_⟩
    rw [List.mem_map] at hb
    obtain ⟨a, ha, rfl⟩ := hb
    rw [if_neg (by rintro rfl; exact hl ha)]
  have hnd := List.nodup_append.mp h
  have hpre : ax ∉ pre := fun hc => hnd.2.2 ax hc ax (List.mem_cons_self ..) rfl
  have hpost : ax ∉ post := (List.nodup_cons.mp hnd.2.1).1
  unfold shp
  rw [List.map_append, List.map_cons, if_pos rfl, h1 pre hpre, h1 post hpost]

theorem foldl_ones (idx : List ℕ) : ∀ (k acc : ℕ), ((List.replicate k 1).zip idx).foldl
    (fun acc p => acc * p.1 + (if p.1 = 1 then 0 else p.2)) acc = acc := by
  induction idx with
  | nil => intro k acc; simp
  | cons i is ih =>
    intro k acc
    cases k with
    | zero => simp
    | succ k => rw [List.replicate_succ, List.zip_cons_cons, List.foldl_cons]; simpa using ih k acc

theorem flat_split (j k n : ℕ) (idx : List ℕ) (hl : j < idx.length) :
    flat (List.replicate j 1 ++ n :: List.replicate k 1) idx = if n = 1 then 0 else idx.getD j 0 := by
  have hidx : idx = idx.take j ++ idx.getD j 0 :: idx.drop (j + 1) := by
    conv_lhs => rw [← List.take_append_drop j idx, List.drop_eq_getElem_cons hl]
    rw [List.getD_eq_getElem _ _ hl]
  have hlen : (List.replicate j 1).length = (idx.take j).length := by simp; omega
  unfold flat
  conv_lhs => rw [hidx]
  rw [List.zip_append hlen, List.zip_cons_cons, List.foldl_append, foldl_ones, List.foldl_cons, foldl_ones]
  simp

theorem fits_split (shape : List ℕ) (j k n : ℕ) (hl : j + 1 + k ≤ shape.length) :
    fits shape (List.replicate j 1 ++ n :: List.replicate k 1) = true ↔
      n = 1 ∨ n = shape.getD (shape.length - (j + 1 + k) + j) 0 := by
  have hlen : (List.replicate j 1 ++ n :: List.replicate k 1).length = j + 1 + k := by simp; omega
  unfold fits
  rw [hlen, decide_eq_true hl, Bool.true_and]
  set d := shape.drop (shape.length - (j + 1 + k)) with hd
  have hdl : d.length = j + 1 + k := by rw [hd, List.length_drop]; omega
  have hj : j < d.length := by omega
  have hdj : d.getD j 0 = shape.getD (shape.length - (j + 1 + k) + j) 0 := by
    rw [List.getD_eq_getElem _ _ hj, List.getD_eq_getElem _ _ (by omega)]
    simp [hd]
  have hsplit : d = d.take j ++ d.getD j 0 :: d.drop (j + 1) := by
    conv_lhs => rw [← List.take_append_drop j d, List.drop_eq_getElem_cons hj]
    rw [List.getD_eq_getElem _ _ hj]
  have hl2 : (List.replicate j 1).length = (d.take j).length := by simp; omega
  have hones : ∀ (k : ℕ) (l : List ℕ), ((List.replicate k 1).zip l).all (fun p => decide (p.1 = 1) || decide (p.1 = p.2)) = true := by
    intro k l
    rw [List.all_eq_true]
    intro p hp
    have := List.eq_of_mem_replicate (List.of_mem_zip hp).1
    simp [this]
  rw [hsplit, List.zip_append hl2, List.zip_cons_cons, List.all_append, List.all_cons, hones, hones, ← hdj]
  simp

/-- the position in the array along which the axis with number `p` in the argument is smoothed -/
def target (shape axis : List ℕ) (p : ℕ) : ℕ := shape.length - axis.length + p

theorem addAxis_split (shape pre post : List ℕ) (ax n : ℕ) (L : List ℕ → ℝ) (h : (pre ++ ax :: post).Nodup)
    (hn : shape[ax]? = some n) (hlen : (pre ++ ax :: post).length ≤ shape.length) :
    (n = 1 ∨ n = shape.getD (target shape (pre ++ ax :: post) pre.length) 0 →
      ∃ L', addAxis shape (pre ++ ax :: post) L ax = .ok L' ∧ ∀ idx, idx.length = shape.length →
        L' idx = L idx + eigenvalue n (if n = 1 then 0 else idx.getD (target shape (pre ++ ax :: post) pre.length) 0)) ∧
    (¬ (n = 1 ∨ n = shape.getD (target shape (pre ++ ax :: post) pre.length) 0) →
      addAxis shape (pre ++ ax :: post) L ax = .error .valueError) := by
  have hs := shp_split pre post ax n h
  have hal : (pre ++ ax :: post).length = pre.length + 1 + post.length := by simp; omega
  have hprod : (shp (pre ++ ax :: post) ax n).prod = n := by rw [hs]; simp
  have hf := fits_split shape pre.length post.length n (by omega)
  rw [← hs] at hf
  have htgt : target shape (pre ++ ax :: post) pre.length = shape.length - (pre.length + 1 + post.length) + pre.length := by
    unfold target; rw [hal]
  rw [htgt]
  constructor
  · intro hok
    unfold addAxis
    rw [hn]
    simp only
    rw [if_pos ⟨hprod, hf.mpr hok⟩]
    refine ⟨_, rfl, fun idx hidx => ?_⟩
    have hsl : (shp (pre ++ ax :: post) ax n).length = pre.length + 1 + post.length := by rw [hs]; simp; omega
    rw [hsl, hs, flat_split _ _ _ _ (by rw [List.length_drop]; omega)]
    congr 3
    rw [List.getD_eq_getElem _ _ (by rw [List.length_drop]; omega), List.getD_eq_getElem _ _ (by omega)]
    simp
  · intro hno
    unfold addAxis
    rw [hn]
    simp only
    rw [if_neg (fun hc => hno (hf.mp hc.2))]

/-- what `Lambda` is for axes that exist and are different -/
theorem fold_axes (shape : List ℕ) : ∀ (post pre : List ℕ) (L : List ℕ → ℝ), (pre ++ post).Nodup → (∀ ax ∈ pre ++ post, ax < shape.length) →
    (pre ++ post).length ≤ shape.length →
    (∀ p, pre.length ≤ p → p < (pre ++ post).length → shape.getD ((pre ++ post).getD p 0) 0 = 1 ∨
      shape.getD ((pre ++ post).getD p 0) 0 = shape.getD (target shape (pre ++ post) p) 0) →
    ∃ L', post.foldlM (addAxis shape (pre ++ post)) L = .ok L' ∧ ∀ idx, idx.length = shape.length →
      (∀ d, d < shape.length → idx.getD d 0 < shape.getD d 0) →
      L' idx = L idx + ((List.range' pre.length post.length).map (fun p => eigenvalue (shape.getD ((pre ++ post).getD p 0) 0)
        (if shape.getD ((pre ++ post).getD p 0) 0 = 1 then 0 else idx.getD (target shape (pre ++ post) p) 0))).sum := by
  intro post
  induction post with
  | nil => intro pre L _ _ _ _; exact ⟨L, rfl, fun idx _ _ => by simp⟩
  | cons ax post ih =>
    intro pre L hnd hlt hlen hfit
    have hax : ax < shape.length := hlt ax (by simp)
    have hget : (pre ++ ax :: post).getD pre.length 0 = ax := by simp [List.getD]
    have hn : shape[ax]? = some (shape.getD ax 0) := by
      rw [List.getD_eq_getElem _ _ hax]; exact List.getElem?_eq_getElem hax
    have h1 := (addAxis_split shape pre post ax _ L hnd hn hlen).1
    have h2 := hfit pre.length (le_refl _) (by simp)
    rw [hget] at h2
    obtain ⟨L1, hL1, hv1⟩ := h1 h2
    have hassoc : pre ++ ax :: post = (pre ++ [ax]) ++ post := by simp
    obtain ⟨L2, hL2, hv2⟩ := ih (pre ++ [ax]) L1 (hassoc ▸ hnd) (hassoc ▸ hlt) (hassoc ▸ hlen)
      (fun p hp hp' => by
        have := hfit p (by simp at hp; omega) (hassoc ▸ hp')
        rwa [hassoc] at this)
    refine ⟨L2, ?_, fun idx hidx hb => ?_⟩
    · rw [List.foldlM_cons, hL1]
      show List.foldlM (addAxis shape (pre ++ ax :: post)) L1 post = _
      rw [hassoc]; exact hL2
    · rw [hv2 idx hidx hb, hv1 idx hidx, ← hassoc]
      have hr : List.range' pre.length (ax :: post).length = pre.length :: List.range' (pre ++ [ax]).length post.length := by
        rw [List.length_cons, List.range'_succ]; simp
      rw [hr, List.map_cons, List.sum_cons, hget]
      ring

/-! ## Theorems -/

/-- What is required: an array is smoothed along the axes asked for, each with the eigenvalues of its length. -/
def SmoothsAlong (shape axis : List ℕ) (L : List ℕ → ℝ) : Prop :=
  ∀ idx, idx.length = shape.length → (∀ d, d < shape.length → idx.getD d 0 < shape.getD d 0) →
    L idx = (axis.map (fun d => eigenvalue (shape.getD d 0) (idx.getD d 0))).sum

/-- C66 (partial): the last `m` axes in their order can be chosen, for arrays of any number of dimensions. -/
theorem axis_trailing_partial (shape : List ℕ) (m : ℕ) (hm : m ≤ shape.length) :
    ∃ L, lambdaArr shape (.tuple (List.range' (shape.length - m) m)) = .ok L ∧
      SmoothsAlong shape (List.range' (shape.length - m) m) L := by
  have hget : ∀ p, p < m → (List.range' (shape.length - m) m).getD p 0 = shape.length - m + p := by
    intro p hp
    rw [List.getD_eq_getElem _ _ (by simpa using hp)]
    simp
  have htgt : ∀ p, target shape (List.range' (shape.length - m) m) p = shape.length - m + p := by
    intro p; unfold target; rw [List.length_range']
  obtain ⟨L, hL, hv⟩ := fold_axes shape (List.range' (shape.length - m) m) [] (fun _ => 0) (by simpa using List.nodup_range')
    (by intro ax hax; rw [List.nil_append, List.mem_range'] at hax; obtain ⟨i, hi, rfl⟩ := hax; omega)
    (by simpa using hm)
    (by
      intro p _ hp
      rw [List.nil_append, List.length_range'] at hp
      right
      rw [List.nil_append, hget p hp, htgt])
  refine ⟨L, hL, fun idx hidx hb => ?_⟩
  rw [hv idx hidx hb, zero_add]
  have e1 : List.range' (shape.length - m) m = (List.range' 0 m).map (fun p => shape.length - m + p) := by
    rw [List.map_add_range']; simp
  conv_rhs => rw [e1]
  rw [List.map_map, List.length_range']
  refine congrArg List.sum (List.map_congr_left fun p hp => ?_)
  rw [List.mem_range'] at hp
  obtain ⟨i, hi, rfl⟩ := hp
  simp only [List.length_nil, zero_add, one_mul, List.nil_append, Function.comp]
  rw [hget i hi, htgt]
  have hlt := hb (shape.length - m + i) (by omega)
  split
  · next h1 => rw [h1] at hlt; congr 1; omega
  · rfl

/-- C66: without `axis` an array is smoothed along all axes. -/
theorem axis_all (shape : List ℕ) : ∃ L, lambdaArr shape .all = .ok L ∧ SmoothsAlong shape (List.range shape.length) L := by
  have h := axis_trailing_partial shape shape.length (le_refl _)
  rw [Nat.sub_self, ← List.range_eq_range'] at h
  exact h

/-- C66 (negation): a number as `axis` is a TypeError, although the documentation allows it. -/
theorem axis_number (shape : List ℕ) (ax : ℕ) : lambdaArr shape (.number ax) = .error .typeError := rfl

/-- C66 (negation): the first axis of a rectangle cannot be chosen. -/
theorem axis_first_fails (n m : ℕ) (hn : n ≠ 1) (hnm : n ≠ m) : lambdaArr [n, m] (.tuple [0]) = .error .valueError := by
  have h := (addAxis_split [n, m] [] [] 0 n (fun _ => 0) (by simp) rfl (by simp)).2 (by simp [target, hn, hnm])
  show List.foldlM (addAxis [n, m] [0]) (fun _ => 0) [0] = _
  rw [List.foldlM_cons]
  simp only [List.nil_append] at h
  rw [h]
  rfl

/-- C66 (negation): if the first axis of a square is chosen, the square is smoothed along the second one. -/
theorem axis_first_swapped (n : ℕ) (hn : 2 ≤ n) :
    ∃ L, lambdaArr [n, n] (.tuple [0]) = .ok L ∧ SmoothsAlong [n, n] [1] L ∧ ¬ SmoothsAlong [n, n] [0] L := by
  obtain ⟨L, hL, hv⟩ := (addAxis_split [n, n] [] [] 0 n (fun _ => 0) (by simp) rfl (by simp)).1 (Or.inr (by simp [target]))
  have hS : SmoothsAlong [n, n] [1] L := by
    intro idx hidx hb
    rw [hv idx hidx]
    rw [if_neg (by omega)]
    simp [target]
  refine ⟨L, ?_, hS, fun hc => ?_⟩
  · show List.foldlM (addAxis [n, n] [0]) (fun _ => 0) [0] = _
    rw [List.foldlM_cons]
    simp only [List.nil_append] at hL
    rw [hL]
    rfl
  · have hb : ∀ d, d < [n, n].length → [0, 1].getD d 0 < [n, n].getD d 0 := by
      intro d hd
      have hd2 : d < 2 := hd
      rcases (by omega : d = 0 ∨ d = 1) with rfl | rfl
      · show 0 < n; omega
      · show 1 < n; omega
    have h1 := hS [0, 1] rfl hb
    have h2 := hc [0, 1] rfl hb
    rw [h1] at h2
    simp [eigenvalue] at h2
    have hlt : Real.cos (Real.pi / n) < 1 := by
      rw [← Real.cos_zero]
      have hpi := Real.pi_pos
      have hn' : (0 : ℝ) < n := by exact_mod_cast (by omega : 0 < n)
      refine Real.cos_lt_cos_of_nonneg_of_le_pi (le_refl _) ?_ (div_pos hpi hn')
      rw [div_le_iff₀ hn']
      have : (1 : ℝ) ≤ n := by exact_mod_cast (by omega : 1 ≤ n)
      nlinarith
    linarith

/-- The eigenvalues are not negative, and 0 exactly for the constant part: this is assumed of `Lambda` in `IsDct`. -/
theorem eigenvalue_nonneg (n k : ℕ) : 0 ≤ eigenvalue n k ∧ eigenvalue n 0 = 0 := by
  constructor
  · unfold eigenvalue
    have := Real.cos_le_one (Real.pi * k / n)
    linarith
  · simp [eigenvalue]

example := axis_first_fails 3 4 (by decide) (by decide)
example := axis_first_swapped 3 (by decide)

end Verif.Smoothn.Axis
