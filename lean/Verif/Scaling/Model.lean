import Mathlib.Analysis.SpecialFunctions.Sqrt
import Verif.Cdf.Model

/-!
Model of `src/pytesmo/scaling.py` (whole file; `cdf_match` is in `Verif.Cdf.Model`).

Arrays are lists of `Option ℝ`, NaN is `none`; there are no infinite values. Data frames are lists of named columns of equal
length; the index is left out, all operations use the index of the frame itself.
-/

noncomputable section

namespace Verif.Scaling

/-- the exceptions. Used for scaling.py:143-162, scaling.py:212-230. -/
inductive Err
  | keyError
  | indexError
  /-- array lengths, `np.min` of an empty array, `linregress` of identical or no values -/
  | valueError
  /-- an exception raised inside CDF matching -/
  | cdf (e : Cdf.Err)

/-- an array; `none` is NaN. Used for scaling.py:233-250, scaling.py:143-162. -/
abbrev Arr := List (Option ℝ)

/-- all values, if none is NaN (numpy reductions propagate NaN). Used for scaling.py:233-250, scaling.py:143-162. -/
def allSome (l : Arr) : Option (List ℝ) := if l.all Option.isSome then some (l.filterMap id) else none

/-- `np.mean` of an array without NaN. Used for scaling.py:233-250. -/
def npMean (l : List ℝ) : ℝ := l.sum / (l.length : ℝ)

/-- `np.std` (ddof 0). Used for scaling.py:233-250. -/
def npStd (l : List ℝ) : ℝ := Real.sqrt (npMean (l.map (fun v => (v - npMean l) * (v - npMean l))))

/-- `np.min`, `np.max`. Used for scaling.py:143-162. -/
def npMin : List ℝ → Option ℝ
  | [] => none
  | a :: l => some (l.foldl min a)

/-- `np.max`. Used for scaling.py:143-162. -/
def npMax : List ℝ → Option ℝ
  | [] => none
  | a :: l => some (l.foldl max a)

/-- scaling.py:233-250 `mean_std`. A NaN in one of the arrays, a zero standard deviation (0/0) and an empty reference give NaN. -/
def meanStd (src ref : Arr) : Arr :=
  match allSome src, allSome ref with
  | some s, some r =>
    if npStd s = 0 ∨ r = [] then src.map (fun _ => none)
    else s.map (fun v => some ((v - npMean s) / npStd s * npStd r + npMean r))
  | _, _ => src.map (fun _ => none)

/-- scaling.py:143-162 `min_max`. `np.min` of an empty array raises ValueError. -/
def minMax (src ref : Arr) : Except Err Arr :=
  if src = [] ∨ ref = [] then .error .valueError
  else
    match allSome src, allSome ref with
    | some s, some r =>
      match npMin s, npMax s, npMin r, npMax r with
      | some a, some b, some c, some d =>
        if b - a = 0 then .ok (src.map (fun _ => none))
        else .ok (s.map (fun v => some ((v - a) / (b - a) * (d - c) + c)))
      | _, _, _, _ => .error .valueError
    | _, _ => .ok (src.map (fun _ => none))

/-- `scipy.stats.linregress(src, ref)`: slope and intercept; `none` is NaN (a single pair, or NaN in the data). It raises for
arrays of different length, for no values and for identical source values. Used for scaling.py:212-230. -/
def linregParams (src ref : Arr) : Except Err (Option (ℝ × ℝ)) :=
  if src = [] ∨ ref = [] ∨ src.length ≠ ref.length then .error .valueError
  else
    match allSome src, allSome ref with
    | some s, some r =>
      if (∀ v ∈ s, ∀ w ∈ s, v = w) then (if s.length = 1 then .ok none else .error .valueError)
      else
        let slope := (List.zipWith (fun v w => (v - npMean s) * (w - npMean r)) s r).sum /
          (s.map (fun v => (v - npMean s) * (v - npMean s))).sum
        .ok (some (slope, npMean r - slope * npMean s))
    | none, some _ => .ok none
    | some s, none => if (∀ v ∈ s, ∀ w ∈ s, v = w) ∧ 1 < s.length then .error .valueError else .ok none
    | none, none => .ok none

/-- scaling.py:165-184 `linreg_stored_params`: `np.abs(slope) * src + intercept` -/
def linregStoredParams (src : Arr) (p : Option (ℝ × ℝ)) : Arr :=
  match p with
  | some (slope, intercept) => src.map (Option.map (fun v => |slope| * v + intercept))
  | none => src.map (fun _ => none)

/-- scaling.py:212-230 `linreg` -/
def linreg (src ref : Arr) : Except Err Arr := do
  let p ← linregParams src ref
  .ok (linregStoredParams src p)

/-- keyword arguments; only `cdf_match` looks at them. Used for scaling.py:258-322, scaling.py:95-140. -/
structure Kwargs where
  params : Cdf.Params ℝ
  maxVal : Option ℝ
  minVal : Option ℝ

/-- scaling.py:258-322 -/
def cdfMatch (kw : Kwargs) (src ref : Arr) : Except Err Arr :=
  match Cdf.cdfMatch kw.params kw.maxVal kw.minVal src ref with
  | .ok r => .ok r
  | .error e => .error (.cdf e)

/-- the choices of the argument. Used for scaling.py:95-140, scaling.py:58-92. -/
abbrev Method := Arr → Arr → Except Err Arr

/-- scaling.py:95-140 `get_scaling_function` with its table -/
def scalingFunction (kw : Kwargs) (method : String) : Except Err Method :=
  if method = "linreg" then .ok linreg
  else if method = "mean_std" then .ok (fun s r => .ok (meanStd s r))
  else if method = "min_max" then .ok minMax
  else if method = "cdf_match" then .ok (cdfMatch kw)
  else if method = "cdf_beta_match" then .ok (cdfMatch kw)
  else .error .keyError

/-- a frame: named columns. Used for scaling.py:58-92, scaling.py:16-55. -/
abbrev Frame := List (String × Arr)

/-- number of rows. Used for scaling.py:58-92, scaling.py:16-55. -/
def nRows (df : Frame) : ℕ := ((df.head?.map Prod.snd).getD []).length

/-- `pd.Series(scaled, index=df.index)`: the length must fit. Used for scaling.py:58-92, scaling.py:16-55. -/
def checked (n : ℕ) (r : Arr) : Except Err Arr := if r.length = n then .ok r else .error .valueError

/-- scaling.py:58-92 `scale(df, method, reference_index)`. The index is not negative; column names are distinct (selecting one of
two equally named columns gives a frame, not a series). -/
def scale (f : Except Err Method) (df : Frame) (referenceIndex : ℕ) : Except Err Frame := do
  let f ← f
  match df[referenceIndex]? with
  | none => .error .indexError
  | some reference => do
    let rest := df.filter (fun c => decide (c.1 ≠ reference.1))
    let scaled ← rest.mapM (fun c => do
      let r ← f c.2 reference.2
      let r ← checked (nRows df) r
      .ok (c.1, r))
    .ok (scaled.insertIdx referenceIndex reference)

/-- `df[label]`. Used for scaling.py:16-55. -/
def column (df : Frame) (label : String) : Except Err Arr :=
  match df.find? (fun c => decide (c.1 = label)) with
  | some c => .ok c.2
  | none => .error .keyError

/-- `df[label] = …`: replaced in place if the label exists, else appended. Used for scaling.py:16-55. -/
def setColumn (df : Frame) (label : String) (a : Arr) : Frame :=
  if df.any (fun c => decide (c.1 = label)) then df.map (fun c => if c.1 = label then (label, a) else c) else df ++ [(label, a)]

/-- `df.columns.values[i]`. Used for scaling.py:16-55. -/
def labelAt (df : Frame) (i : ℕ) : Except Err String :=
  match df[i]? with
  | some c => .ok c.1
  | none => .error .indexError

/-- scaling.py:16-55 `add_scaled`; the returned frame is the caller's frame. -/
def addScaled (lookup : String → Except Err Method) (df : Frame) (method : String) (labelIn labelScale : Option String) :
    Except Err Frame := do
  let labelIn ← match labelIn with
    | some l => .ok l
    | none => labelAt df 0
  let labelScale ← match labelScale with
    | some l => .ok l
    | none => labelAt df 1
  let f ← lookup method
  let src ← column df labelIn
  let ref ← column df labelScale
  let scaled ← f src ref
  let scaled ← checked (nRows df) scaled
  .ok (setColumn df (labelIn ++ "_scaled_" ++ method) scaled)

end Verif.Scaling
