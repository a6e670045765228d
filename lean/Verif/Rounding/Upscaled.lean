import Verif.Rounding.MetricsProps
import Verif.Upscaling.Order

/-!
C138: rounding of upscaled averages (`src/pytesmo/validation_framework/upscaling.py`).
-/

set_option linter.unusedSectionVars false

namespace Verif.Rounding

open Verif.Upscaling (Average rowMean Matched)

variable {K : Type} [Field K] [LinearOrder K] [IsStrictOrderedRing K]

/-- upscaling.py:324-329 (and 277): `df.mean(axis=1)` of one row with a rounding after every operation. pandas puts 0 in the place of
missing values, adds all of them (in some order) and divides by the number of the values that are present. -/
def rowMeanF (rnd : K → K) (order : List K → Tree K) (cells : List (Option K)) : Option K :=
  match cells.filterMap id with
  | [] => none
  | v :: vs => some (rnd ((order (cells.map (·.getD 0))).sum rnd / ((v :: vs).length : K)))

/-- upscaling.py:290-329: the upscaled series, the order of the additions may depend on the row -/
def upscaleF (rnd : K → K) (order : K → List K → Tree K) (m : Matched K) : List (K × Option K) :=
  m.rows.map (fun r => (r.time, rowMeanF rnd (order r.time) r.cells))

/-- specification: `order` adds every value once -/
def AddsAll (order : List K → Tree K) : Prop := ∀ v : List K, v ≠ [] → (order v).leaves.Perm v

/-- specification: the mean of the absolute values that are present -/
def absMean (cells : List (Option K)) : K := ((cells.filterMap id).map (fun x => |x|)).sum / ((cells.filterMap id).length : K)

theorem absSum_order {l l' : List K} (h : l.Perm l') : absSum l = absSum l' := (h.map _).sum_eq

theorem absSum_filled (cells : List (Option K)) : absSum (cells.map (·.getD 0)) = ((cells.filterMap id).map (fun x => |x|)).sum := by
  unfold absSum
  induction cells with
  | nil => rfl
  | cons c cells ih => cases c <;> simp_all

/-- **C138.** The computed average is missing exactly if all values are. -/
theorem upscaled_missing (rnd : K → K) (order : List K → Tree K) (cells : List (Option K)) :
    rowMeanF rnd order cells = none ↔ ∀ x ∈ cells, x = none := by
  rw [← Verif.Upscaling.rowMean_none]
  unfold rowMeanF rowMean
  cases cells.filterMap id <;> simp

/-- **C138.** It differs from the mean `m` of the values that are present by at most `2 n u` times the mean of their absolute values (`n`
points, missing or not), in whatever order they are added. -/
theorem upscaled_accuracy {rnd : K → K} {u : K} (h : RelErr rnd u) {order : List K → Tree K} (ho : AddsAll order) (cells : List (Option K))
    (hn : (cells.length : K) * u ≤ 1 / 2) (m : K) (hm : Average cells (some m)) :
    ∃ m', rowMeanF rnd order cells = some m' ∧ |m' - m| ≤ 2 * cells.length * u * absMean cells := by
  obtain ⟨h1, h2⟩ := hm
  have h2 := h2 m rfl
  rw [← Verif.Upscaling.filterMap_length] at h2
  have hne : cells ≠ [] := by
    rintro rfl
    exact absurd (h1.2 (by simp)) (by simp)
  have hne' : cells.map (·.getD 0) ≠ [] := by simpa using hne
  unfold rowMeanF absMean
  rw [← absSum_filled]
  cases hf : cells.filterMap id with
  | nil =>
    exfalso
    have : rowMean cells = none := by unfold rowMean; rw [hf]
    exact absurd (h1.2 ((Verif.Upscaling.rowMean_none cells).1 this)) (by simp)
  | cons v vs =>
    rw [hf] at h2
    refine ⟨_, rfl, ?_⟩
    set t := order (cells.map (·.getD 0)) with ht
    have hp : t.leaves.Perm (cells.map (·.getD 0)) := ho _ hne'
    have hl : t.size + 1 = cells.length := by rw [t.size_leaves, hp.length_eq, List.length_map]
    have e1 := tree_err h t
    rw [hp.sum_eq, absSum_order hp] at e1
    have e2 := mean_err h (v :: vs).length t.size (by simp) _ _ _ (abs_sum_le _) e1
    rw [hl, ← h2, mul_div_cancel_right₀ _ (by simp; positivity)] at e2
    refine e2.trans (mul_le_mul_of_nonneg_right (pow_small h.nonneg _ hn) ?_)
    exact div_nonneg (absSum_nonneg _) (Nat.cast_nonneg _)

/-- **C138.** The same for every time of an upscaled series. -/
theorem upscaled_series_accuracy {rnd : K → K} {u : K} (h : RelErr rnd u) {order : K → List K → Tree K} (ho : ∀ t, AddsAll (order t)) (m : Matched K)
    (hn : ∀ r ∈ m.rows, (r.cells.length : K) * u ≤ 1 / 2) :
    List.Forall₂ (fun r s => s.1 = r.time ∧ (s.2 = none ↔ ∀ x ∈ r.cells, x = none) ∧
      ∀ a, Average r.cells (some a) → ∃ a', s.2 = some a' ∧ |a' - a| ≤ 2 * r.cells.length * u * absMean r.cells) m.rows (upscaleF rnd order m) := by
  unfold upscaleF
  rw [List.forall₂_map_right_iff, List.forall₂_same]
  exact fun r hr => ⟨rfl, upscaled_missing _ _ _, fun a ha => upscaled_accuracy h (ho _) _ (hn r hr) a ha⟩

/-- **C138.** The order of the points changes an average by at most `4 n u` times the mean of the absolute values. -/
theorem upscaled_order {rnd : K → K} {u : K} (h : RelErr rnd u) {order order' : List K → Tree K} (ho : AddsAll order) (ho' : AddsAll order')
    (cells cells' : List (Option K)) (hp : cells.Perm cells') (hn : (cells.length : K) * u ≤ 1 / 2) (a b : K)
    (ha : rowMeanF rnd order cells = some a) (hb : rowMeanF rnd order' cells' = some b) : |a - b| ≤ 4 * cells.length * u * absMean cells := by
  have hsome : ∃ m, rowMean cells = some m := by
    cases hr : rowMean cells with
    | some m => exact ⟨m, rfl⟩
    | none =>
      have := (upscaled_missing rnd order cells).2 ((Verif.Upscaling.rowMean_none cells).1 hr)
      rw [this] at ha
      cases ha
  obtain ⟨m, hm⟩ := hsome
  have hA := Verif.Upscaling.rowMean_average cells
  rw [hm] at hA
  have hB := Verif.Upscaling.rowMean_average cells'
  rw [← Verif.Upscaling.rowMean_perm hp, hm] at hB
  obtain ⟨a', h1, h2⟩ := upscaled_accuracy h ho cells hn m hA
  obtain ⟨b', h3, h4⟩ := upscaled_accuracy h ho' cells' (by rwa [← hp.length_eq]) m hB
  rw [ha] at h1
  rw [hb] at h3
  cases h1
  cases h3
  have hc : absMean cells' = absMean cells := by
    have := hp.filterMap id
    unfold absMean
    rw [(this.map _).sum_eq, this.length_eq]
  rw [hc, ← hp.length_eq] at h4
  have e : a - b = (a - m) - (b - m) := by ring
  rw [e]
  refine (abs_sub _ _).trans ?_
  linarith

/-- **C138.** Averages of values between `lo ≥ 0` and `hi` stay in this range up to the factors `1 ∓ 2 n u`. -/
theorem upscaled_range {rnd : K → K} {u : K} (h : RelErr rnd u) {order : List K → Tree K} (ho : AddsAll order) (cells : List (Option K))
    (hn : (cells.length : K) * u ≤ 1 / 2) (lo hi : K) (hlo : 0 ≤ lo) (hv : ∀ x, some x ∈ cells → lo ≤ x ∧ x ≤ hi) (a : K)
    (ha : rowMeanF rnd order cells = some a) : (1 - 2 * cells.length * u) * lo ≤ a ∧ a ≤ (1 + 2 * cells.length * u) * hi := by
  cases hr : rowMean cells with
  | none =>
    have := (upscaled_missing rnd order cells).2 ((Verif.Upscaling.rowMean_none cells).1 hr)
    rw [this] at ha
    cases ha
  | some m =>
    have hA := Verif.Upscaling.rowMean_average cells
    rw [hr] at hA
    obtain ⟨a', h1, h2⟩ := upscaled_accuracy h ho cells hn m hA
    rw [ha] at h1
    cases h1
    obtain ⟨⟨x, hx, hxm⟩, y, hy, hmy⟩ := Verif.Upscaling.average_between cells m hA
    have b1 := (hv x hx).1
    have b2 := (hv y hy).2
    have hmean : absMean cells = m := by
      unfold absMean
      have e : (cells.filterMap id).map (fun x => |x|) = cells.filterMap id := by
        conv_rhs => rw [← List.map_id (cells.filterMap id)]
        apply List.map_congr_left
        intro z hz
        have hz' : some z ∈ cells := by simpa using hz
        exact abs_of_nonneg (hlo.trans (hv z hz').1)
      rw [e]
      have := hA.2 m rfl
      rw [← Verif.Upscaling.filterMap_length, ← Verif.Upscaling.filterMap_sum] at this
      rw [← this]
      refine mul_div_cancel_right₀ _ ?_
      intro h0
      have hl : (cells.filterMap id).length = 0 := by exact_mod_cast h0
      have hmem : x ∈ cells.filterMap id := by simpa using hx
      rw [List.length_eq_zero_iff.1 hl] at hmem
      cases hmem
    rw [hmean] at h2
    obtain ⟨h3, h4⟩ := abs_le.1 h2
    have hc : 0 ≤ (cells.length : K) * u := mul_nonneg (Nat.cast_nonneg _) h.nonneg
    constructor <;> nlinarith

/-- there is only one way to add two values -/
theorem tree_two (rnd : K → K) (x y : K) (t : Tree K) (hp : t.leaves.Perm [x, y]) : t.sum rnd = rnd (x + y) := by
  have hl := hp.length_eq
  rw [← t.size_leaves] at hl
  cases t with
  | leaf v => simp [Tree.size] at hl
  | node l r =>
    cases l with
    | node _ _ => simp [Tree.size] at hl
    | leaf v =>
      cases r with
      | node _ _ => simp [Tree.size] at hl
      | leaf w =>
        have := hp.sum_eq
        simp only [Tree.leaves, List.cons_append, List.nil_append, List.sum_cons, List.sum_nil, add_zero] at this
        simp only [Tree.sum]
        rw [this]

/-- **C138.** The average of two points stays between them: the rounding is monotone, keeps the two values and their doubles. -/
theorem upscaled_two {rnd : K → K} (hmono : ∀ x y, x ≤ y → rnd x ≤ rnd y) {order : List K → Tree K} (ho : AddsAll order) (x y : K) (hxy : x ≤ y)
    (hx : rnd x = x) (hy : rnd y = y) (hx2 : rnd (2 * x) = 2 * x) (hy2 : rnd (2 * y) = 2 * y) (cells : List (Option K))
    (hc : cells.Perm [some x, some y]) (a : K) (ha : rowMeanF rnd order cells = some a) : x ≤ a ∧ a ≤ y := by
  have hlen : (cells.filterMap id).length = 2 := (hc.filterMap id).length_eq
  have hp : (order (cells.map (·.getD 0))).leaves.Perm [x, y] := by
    refine (ho _ ?_).trans ?_
    · intro e
      have := hc.length_eq
      simp_all
    · simpa using hc.map (·.getD 0)
  set t := order (cells.map (·.getD 0)) with ht
  have hsum := tree_two rnd x y t hp
  unfold rowMeanF at ha
  cases hf : cells.filterMap id with
  | nil => rw [hf] at hlen; simp at hlen
  | cons v vs =>
    rw [hf] at ha hlen
    simp only [Option.some.injEq] at ha
    rw [hlen, ← ht, hsum] at ha
    rw [← ha]
    push_cast
    constructor
    · calc x = rnd x := hx.symm
        _ ≤ _ := by
          apply hmono
          have : 2 * x ≤ rnd (x + y) := by
            rw [← hx2]
            exact hmono _ _ (by linarith)
          linarith
    · calc _ ≤ rnd y := by
            apply hmono
            have : rnd (x + y) ≤ 2 * y := by
              rw [← hy2]
              exact hmono _ _ (by linarith)
            linarith
        _ = y := hy

/-- Without rounding it is the average of C37. -/
theorem upscaled_exact {order : List K → Tree K} (ho : AddsAll order) (cells : List (Option K)) : rowMeanF id order cells = rowMean cells := by
  have hid : RelErr (id : K → K) 0 := ⟨le_refl _, fun x => by simp⟩
  cases hr : rowMean cells with
  | none => exact (upscaled_missing id order cells).2 ((Verif.Upscaling.rowMean_none cells).1 hr)
  | some m =>
    have hA := Verif.Upscaling.rowMean_average cells
    rw [hr] at hA
    obtain ⟨a, h1, h2⟩ := upscaled_accuracy hid ho cells (by simp) m hA
    rw [h1]
    simp only [mul_zero, zero_mul] at h2
    rw [sub_eq_zero.1 (abs_nonpos_iff.1 h2)]

open Verif.Rolling.Fl (rnd64)

/-- **C138, negation.** With three points the average can leave the range of the values: three times 0.1 gives more than 0.1. -/
theorem upscaled_outside :
    let x := rnd64 (1 / 10)
    ∃ a, rowMeanF rnd64 fromLeft [some x, some x, some x] = some a ∧ x < a := by
  refine ⟨_, rfl, ?_⟩
  decide +kernel

/-- **C138, negation.** The order of the points in the look-up table changes the last digits of the average. -/
theorem upscaled_order_matters :
    rowMeanF rnd64 fromLeft [some (rnd64 (1 / 10)), some (rnd64 (2 / 10)), some (rnd64 (3 / 10))] ≠
      rowMeanF rnd64 fromLeft [some (rnd64 (3 / 10)), some (rnd64 (2 / 10)), some (rnd64 (1 / 10))] := by
  decide +kernel

/-! ### Concrete cases -/

example : AddsAll fromLeft := fromLeft_leaves

/-- one point is missing -/
def exCells : List (Option ℚ) := [some (rnd64 (1 / 10)), none, some (rnd64 (3 / 10))]

example : ∃ m, Average exCells (some m) := ⟨(rowMean exCells).getD 0, by
  have := Verif.Upscaling.rowMean_average exCells
  rwa [show rowMean exCells = some ((rowMean exCells).getD 0) by decide +kernel] at this⟩

example : rowMeanF rnd64 fromLeft exCells = some (rnd64 (1 / 5)) := by decide +kernel

example := upscaled_range rnd64_relErr fromLeft_leaves exCells (by norm_num [exCells]) (rnd64 (1 / 10)) (rnd64 (3 / 10)) (by decide +kernel)
  (by
    intro x hx
    simp only [exCells, List.mem_cons, Option.some.injEq, reduceCtorEq, List.not_mem_nil, or_false, false_or] at hx
    rcases hx with rfl | rfl <;> constructor <;> decide +kernel)
  (rnd64 (1 / 5)) (by decide +kernel)

example := upscaled_two (order := fromLeft) Verif.Rolling.Fl.rnd64_mono fromLeft_leaves (rnd64 (1 / 10)) (rnd64 (3 / 10)) (by decide +kernel) (by decide +kernel)
  (by decide +kernel) (by decide +kernel) (by decide +kernel) [some (rnd64 (3 / 10)), some (rnd64 (1 / 10))] (List.Perm.swap _ _ _) (rnd64 (1 / 5)) (by decide +kernel)

example := upscaled_order rnd64_relErr fromLeft_leaves fromLeft_leaves [some (rnd64 (1 / 10)), some (rnd64 (2 / 10)), some (rnd64 (3 / 10))]
  [some (rnd64 (2 / 10)), some (rnd64 (1 / 10)), some (rnd64 (3 / 10))] (List.Perm.swap _ _ _) (by norm_num) _ _ rfl rfl

example : (upscaleF rnd64 (fun _ => fromLeft) ⟨[0, 1], [⟨0, [some 1, some 2]⟩, ⟨1, [none, none]⟩]⟩).map Prod.snd = [some (3 / 2), none] := by decide +kernel

end Verif.Rounding
