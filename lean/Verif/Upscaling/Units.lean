import Verif.Upscaling.Props
import Verif.Collocation.Relations

/-!
C100, first part: `get_upscaled_ts` in other units of the variable and on another clock.
-/

set_option linter.unusedSectionVars false

namespace Verif.Upscaling

open Verif.Collocation (Row Frame combinedCollocation clock reclock reclockFrame combined_clock Admissible)

/-! ### Specification -/

section Spec
variable {N K : Type} [DecidableEq N] [Field K]

/-- a value in other units: gain `g` and offset `o` -/
def unit (g o v : K) : K := g * v + o

/-- the frame of a point on another clock, the variable `target` in other units, every other column as it was -/
def PF.other (a b g o : K) (target : N) (f : PF N K) : PF N K :=
  ⟨f.cols, f.rows.map (fun r => (clock a b r.1, fun n => if n = target then (r.2 n).map (unit g o) else r.2 n))⟩

/-- a series on another clock, in other units -/
def otherSeries (a b g o : K) (l : List (K × Option K)) : List (K × Option K) := l.map (fun r => (clock a b r.1, r.2.map (unit g o)))

/-- a result on another clock, in other units -/
def Up.other (a b g o : K) (target : N) : Up N K → Up N K
  | .frame f => .frame (f.other a b g o target)
  | .series l => .series (otherSeries a b g o l)

/-- a statistic of two series that does not depend on the units, if both are in the same units -/
def UnitFree {E B : Type} (regr : List (Option K) → List (Option K) → Except E B) (g o : K) : Prop :=
  ∀ x y, regr (x.map (Option.map (unit g o))) (y.map (Option.map (unit g o))) = regr x y

end Spec

variable {N K : Type} [DecidableEq N] [Field K] [LinearOrder K] [IsStrictOrderedRing K]

/-- a matched frame on another clock, in other units -/
def Matched.other (a b g o : K) (m : Matched K) : Matched K := ⟨m.cols, m.rows.map (reclock a b (unit g o))⟩

theorem rowMean_units (g o : K) (cells : List (Option K)) : rowMean (cells.map (Option.map (unit g o))) = (rowMean cells).map (unit g o) := by
  have h : (cells.map (Option.map (unit g o))).filterMap id = (cells.filterMap id).map (unit g o) := by
    induction cells with
    | nil => rfl
    | cons c cs ih => cases c <;> simpa using ih
  unfold rowMean
  rw [h]
  cases hc : cells.filterMap id with
  | nil => rfl
  | cons v vs =>
    simp only [List.map_cons, Option.map_some, Option.some.injEq]
    have hs : ((v :: vs).map (unit g o)).sum = g * (v :: vs).sum + ((v :: vs).length : K) * o := Collocation.sum_affine g o (v :: vs)
    rw [List.map_cons] at hs
    rw [hs, show (unit g o v :: vs.map (unit g o)).length = (v :: vs).length by simp]
    have hne : ((v :: vs).length : K) ≠ 0 := Nat.cast_ne_zero.mpr (by simp)
    unfold unit
    field_simp

theorem at_units (h : K → K) (cells : List (Option K)) (i : ℕ) : at' (cells.map (Option.map h)) i = (at' cells i).map h := by
  unfold at'
  rw [List.getElem?_map]
  cases cells[i]? <;> rfl

theorem selectCols_other (keep : ℕ → Bool) (a b g o : K) (m : Matched K) :
    selectCols keep (m.other a b g o) = (selectCols keep m).other a b g o := by
  unfold selectCols Matched.other
  simp only [List.map_map, Matched.mk.injEq, true_and]
  apply List.map_congr_left
  intro r _
  simp only [Function.comp, reclock, List.map_map, Row.mk.injEq, true_and]
  apply List.map_congr_left
  intro i _
  exact at_units _ _ _

theorem dropEmptyCols_other (a b g o : K) (m : Matched K) : dropEmptyCols (m.other a b g o) = (dropEmptyCols m).other a b g o := by
  unfold dropEmptyCols
  rw [selectCols_other]
  congr 2
  funext i
  unfold Matched.other
  rw [List.any_map]
  congr 1
  funext r
  simp only [Function.comp, reclock, at_units, Option.isSome_map]

theorem count_other (a b : K) (h : K → K) (f : Frame K K) : count (reclockFrame a b h f) = count f := by
  unfold count reclockFrame
  rw [List.filter_map, List.length_map]
  congr 2
  funext r
  simp only [Function.comp, reclock, List.getElem?_map]
  cases r.cells[0]? with
  | none => rfl
  | some c => cases c <;> rfl

theorem pickRef_other (a b : K) (h : K → K) (ref : Frame K K) (l : List (Frame K K)) :
    pickRef (reclockFrame a b h ref) (l.map (reclockFrame a b h)) = reclockFrame a b h (pickRef ref l) := by
  induction l generalizing ref with
  | nil => rfl
  | cons f fs ih =>
    simp only [List.map_cons, pickRef, count_other]
    split
    · exact ih ref
    · exact ih f

theorem toMatch_other (a b g o : K) (target : N) (f : PF N K) :
    toMatch target (f.other a b g o target) = (toMatch target f).map (reclockFrame a b (unit g o)) := by
  unfold toMatch PF.other reclockFrame
  simp only
  split
  · simp only [Except.map, List.map_map]
    congr 2
    apply List.map_congr_left
    intro r _
    simp [Function.comp, reclock]
  · rfl

theorem temporalMatch_other {a : K} (ha : 0 < a) (b g o hours : K) (drop : Bool) (l : List (Frame K K)) :
    temporalMatch (a * hours) drop (l.map (reclockFrame a b (unit g o))) = (temporalMatch hours drop l).map (Matched.other a b g o) := by
  cases l with
  | nil => rfl
  | cons f fs =>
    unfold temporalMatch
    simp only [List.map_cons]
    have h := combined_clock ha b (unit g o) {} (fun hm => ⟨g, o, rfl⟩) (if drop then .any else .no) false (pickRef f (f :: fs)) (f :: fs) hours
    have hp := pickRef_other a b (unit g o) f (f :: fs)
    simp only [List.map_cons] at h hp
    rw [hp, h]
    cases combinedCollocation {} (if drop then .any else .no) false (pickRef f (f :: fs)) (f :: fs) hours with
    | error e => rfl
    | ok rows =>
      simp only [Except.map]
      rw [← dropEmptyCols_other]
      unfold Matched.other
      simp

theorem tstabilityFilter_other (regr : List (Option K) → List (Option K) → Except Err (Option K × Option K)) {g o : K} (hr : UnitFree regr g o)
    (a b rMin seeMax : K) (minN : ℕ) (m : Matched K) :
    tstabilityFilter regr rMin seeMax minN (m.other a b g o) = (tstabilityFilter regr rMin seeMax minN m).map (Matched.other a b g o) := by
  unfold tstabilityFilter
  have hc : (m.other a b g o).cols = m.cols := rfl
  rw [hc]
  by_cases hn : m.cols.length < minN
  · rw [if_pos hn, if_pos hn]; rfl
  · rw [if_neg hn, if_neg hn]
    have he : (m.other a b g o).rows.map (fun r => rowMean r.cells) = (m.rows.map (fun r => rowMean r.cells)).map (Option.map (unit g o)) := by
      simp only [Matched.other, List.map_map]
      apply List.map_congr_left
      intro r _
      exact rowMean_units g o r.cells
    have hi : ∀ i, (m.other a b g o).rows.map (fun r => at' r.cells i) = (m.rows.map (fun r => at' r.cells i)).map (Option.map (unit g o)) := by
      intro i
      simp only [Matched.other, List.map_map]
      apply List.map_congr_left
      intro r _
      exact at_units _ _ _
    simp only [he, hi, hr _ _, bind, Except.bind]
    generalize (List.range m.cols.length).mapM (m := Except Err) (fun i => regr (m.rows.map (fun r => rowMean r.cells)) (m.rows.map (fun r => at' r.cells i))) = st
    cases st with
    | error e => rfl
    | ok stats =>
      simp only [Except.map]
      rw [selectCols_other]

theorem upscale_other (method : String) (a b g o : K) (m : Matched K) :
    upscale method (m.other a b g o) = (upscale method m).map (otherSeries a b g o) := by
  unfold upscale
  split
  · simp only [Except.map, otherSeries, Matched.other, List.map_map]
    congr 1
    apply List.map_congr_left
    intro r _
    simp only [Function.comp, reclock, rowMean_units]
  · rfl

theorem mapM_other {α β γ : Type} {ε : Type} (f : α → Except ε β) (h : β → γ) (l : List α) :
    l.mapM (fun x => (f x).map h) = (l.mapM f).map (List.map h) := by
  induction l with
  | nil => rfl
  | cons x xs ih =>
    simp only [List.mapM_cons, bind, Except.bind, pure, Except.pure]
    rw [ih]
    cases f x with
    | error e => rfl
    | ok v =>
      simp only [Except.map]
      cases xs.mapM f with
      | error e => rfl
      | ok vs => rfl

theorem filterMap_other {α β : Type} (h : α → β) (l : List (Option α)) : (l.map (Option.map h)).filterMap id = (l.filterMap id).map h := by
  induction l with
  | nil => rfl
  | cons x xs ih => cases x <;> simpa using ih

/-- **C100.** Points in other units of the variable (same units for all of them), on a clock with another origin and another unit (`hours` in the
new unit): the upscaled series is the same, in the new units and on the new clock, for every option (with and without the stability filter, as long
as the statistics that it looks at are unit free), also the frame of a single point, also nothing, also every exception. -/
theorem upscaled_other (regr : List (Option K) → List (Option K) → Except Err (Option K × Option K)) {a : K} (ha : 0 < a) (b : K) {g o : K}
    (A : Args K) (hr : A.stability = true → UnitFree regr g o) (target : N) (lut : List (ℕ × List ℕ))
    (read : ℕ → Except Err (Option (PF N K))) (gpi : ℕ) :
    getUpscaledTs regr { A with hours := a * A.hours } target lut (fun p => (read p).map (Option.map (PF.other a b g o target))) gpi =
      (getUpscaledTs regr A target lut read gpi).map (Option.map (Up.other a b g o target)) := by
  unfold getUpscaledTs
  cases lut.lookup gpi with
  | none => rfl
  | some points =>
    simp only [bind, Except.bind]
    rw [mapM_other]
    generalize points.mapM read = rd
    cases rd with
    | error e => rfl
    | ok all =>
      simp only [Except.map]
      rw [filterMap_other]
      generalize all.filterMap id = tss
      match tss with
      | [] => rfl
      | [f] => rfl
      | f :: f' :: fs =>
        simp only [List.map_cons]
        have h1 : (f.other a b g o target :: f'.other a b g o target :: fs.map (PF.other a b g o target)).mapM (toMatch target) =
            ((f :: f' :: fs).mapM (toMatch target)).map (List.map (reclockFrame a b (unit g o))) := by
          rw [← mapM_other]
          have : (f.other a b g o target :: f'.other a b g o target :: fs.map (PF.other a b g o target)) = (f :: f' :: fs).map (PF.other a b g o target) := rfl
          rw [this]
          rw [List.mapM_map]
          congr 1
          funext x
          exact toMatch_other a b g o target x
        rw [h1]
        generalize (f :: f' :: fs).mapM (toMatch target) = fr
        cases fr with
        | error e => rfl
        | ok frames =>
          simp only [Except.map]
          rw [temporalMatch_other ha]
          generalize temporalMatch A.hours A.dropMissing frames = tm
          cases tm with
          | error e => rfl
          | ok m =>
            simp only [Except.map]
            have up : ∀ m' : Matched K, (upscale A.method (m'.other a b g o)).bind (fun s => Except.ok (some (Up.series (N := N) s))) =
                ((upscale A.method m').bind (fun s => Except.ok (some (Up.series (N := N) s)))).map (Option.map (Up.other a b g o target)) := by
              intro m'
              rw [upscale_other]
              cases upscale A.method m' with
              | error e => rfl
              | ok s => rfl
            by_cases hs : A.stability = true
            · rw [if_pos hs, if_pos hs, tstabilityFilter_other regr (hr hs)]
              cases tstabilityFilter regr A.rMin A.seeMax A.minN m with
              | error e => rfl
              | ok m' => exact up m'
            · rw [if_neg hs, if_neg hs]
              exact up m

end Verif.Upscaling
