import Verif.Collocation.Model

/-!
Model of `Upscaling`, `src/pytesmo/validation_framework/upscaling.py:118-401` (`read_ds`, 43-115, is modelled in
`Verif.DataManager.Model` and enters here as `read`).

Simplifications:
* time stamps and values as in `Verif.Collocation.Model`; `hours` is a number in the same unit as the times;
* `scipy.stats.linregress` is a parameter `regr` that gives `rvalue` and `stderr` (`none` for NaN) or an exception;
* extra keyword arguments reach every function (`**kwargs`), here they are explicit parameters.
-/

namespace Verif.Upscaling

open Verif.Collocation (Row Frame combinedCollocation)

/-- exceptions. Used for upscaling.py:386-392, upscaling.py:188-234. -/
inductive Err
  | keyError
  | read
  | regression
  | collocation (e : Collocation.Err)
  deriving DecidableEq, Repr

/-- a data frame with named columns. Used for upscaling.py:386-392, upscaling.py:331-401. -/
structure PF (N K : Type) where
  cols : List N
  rows : List (K × (N → Option K))

/-- a data frame whose columns are the series with the given numbers. Used for upscaling.py:232, upscaling.py:188-234. -/
structure Matched (K : Type) where
  cols : List ℕ
  rows : List (Row K K)

/-- the result: the frame of a single point, or the upscaled series. Used for upscaling.py:331-401. -/
inductive Up (N K : Type)
  | frame (f : PF N K)
  | series (l : List (K × Option K))

section
variable {N K : Type} [DecidableEq N] [Field K] [LinearOrder K]

/-- upscaling.py:386-392: the target column of a point as frame of one column -/
def toMatch (target : N) (f : PF N K) : Except Err (Frame K K) :=
  if target ∈ f.cols then .ok ⟨1, f.rows.map (fun r => ⟨r.1, [r.2 target]⟩)⟩ else .error .keyError

/-- `df.count().iloc[0]`: the number of values of the first column. Used for upscaling.py:211-219. -/
def count (f : Frame K K) : ℕ := (f.rows.filter (fun r => ((r.cells[0]?).join).isSome)).length

/-- upscaling.py:211-219: the series with the most values, the first one if there are several -/
def pickRef : Frame K K → List (Frame K K) → Frame K K
  | ref, [] => ref
  | ref, f :: fs => if count ref ≥ count f then pickRef ref fs else pickRef f fs

/-- the cells of a row at the given positions. Used for upscaling.py:232, upscaling.py:236-288. -/
def at' (cells : List (Option K)) (i : ℕ) : Option K := (cells[i]?).join

/-- keep the columns at the positions where `keep` is true. Used for upscaling.py:232, upscaling.py:236-288. -/
def selectCols (keep : ℕ → Bool) (m : Matched K) : Matched K :=
  let pos := (List.range m.cols.length).filter keep
  ⟨pos.map (fun i => m.cols.getD i 0), m.rows.map (fun r => ⟨r.time, pos.map (at' r.cells)⟩)⟩

/-- `dropna(axis="columns", how="all")` (upscaling.py:232) -/
def dropEmptyCols (m : Matched K) : Matched K := selectCols (fun i => m.rows.any (fun r => (at' r.cells i).isSome)) m

/-- upscaling.py:188-234 `temporal_match` -/
def temporalMatch (hours : K) (dropMissing : Bool) (l : List (Frame K K)) : Except Err (Matched K) :=
  match l with
  | [] => .error .keyError
  | f :: fs =>
    match combinedCollocation {} (if dropMissing then .any else .no) false (pickRef f (f :: fs)) (f :: fs) hours with
    | .error e => .error (.collocation e)
    | .ok rows => .ok (dropEmptyCols ⟨List.range (f :: fs).length, rows⟩)

/-- `DataFrame.mean(axis=1)` of one row: the mean of the values that are present (upscaling.py:277, 327) -/
def rowMean (cells : List (Option K)) : Option K :=
  match cells.filterMap id with
  | [] => none
  | v :: vs => some ((v :: vs).sum / ((v :: vs).length : K))

/-- `x < bound` where `x` may be NaN. Used for upscaling.py:236-288. -/
def ltN (x : Option K) (bound : K) : Bool := match x with
  | none => false
  | some v => decide (v < bound)

/-- `x > bound` where `x` may be NaN. Used for upscaling.py:236-288. -/
def gtN (x : Option K) (bound : K) : Bool := match x with
  | none => false
  | some v => decide (v > bound)

/-- upscaling.py:236-288 `tstability_filter` -/
def tstabilityFilter (regr : List (Option K) → List (Option K) → Except Err (Option K × Option K)) (rMin seeMax : K) (minN : ℕ)
    (m : Matched K) : Except Err (Matched K) :=
  if m.cols.length < minN then .ok m
  else do
    let estimate := m.rows.map (fun r => rowMean r.cells)
    let stats ← (List.range m.cols.length).mapM (fun i => regr estimate (m.rows.map (fun r => at' r.cells i)))
    .ok (selectCols (fun i => match stats[i]? with
      | none => true
      | some s => !(ltN s.1 rMin || gtN s.2 seeMax)) m)

/-- upscaling.py:290-329 `upscale` and `_average` -/
def upscale (method : String) (m : Matched K) : Except Err (List (K × Option K)) :=
  if method = "average" then .ok (m.rows.map (fun r => (r.time, rowMean r.cells))) else .error .keyError

/-- keyword arguments of `get_upscaled_ts`. Used for upscaling.py:331-401. -/
structure Args (K : Type) where
  method : String := "average"
  stability : Bool := false
  hours : K
  dropMissing : Bool := false
  rMin : K
  seeMax : K
  minN : ℕ := 4

/-- upscaling.py:331-401 `get_upscaled_ts`: `lut` is the look-up table of the data set, `target` its first column -/
def getUpscaledTs (regr : List (Option K) → List (Option K) → Except Err (Option K × Option K)) (a : Args K) (target : N)
    (lut : List (ℕ × List ℕ)) (read : ℕ → Except Err (Option (PF N K))) (gpi : ℕ) : Except Err (Option (Up N K)) :=
  match lut.lookup gpi with
  | none => .ok none
  | some points => do
    let all ← points.mapM read
    match all.filterMap id with
    | [] => .ok none
    | [f] => .ok (some (.frame f))
    | tss => do
      let frames ← tss.mapM (toMatch target)
      let m ← temporalMatch a.hours a.dropMissing frames
      let m ← if a.stability then tstabilityFilter regr a.rMin a.seeMax a.minN m else .ok m
      let s ← upscale a.method m
      .ok (some (.series s))

end

end Verif.Upscaling
