import Verif.Rounding.Basic

/-!
Model of the scaling functions with rounding: `min_max` (143-162), `linreg_stored_params` (165-184) and `mean_std` (233-251) of
`src/pytesmo/scaling.py`. `rnd` is the rounding after every operation of numpy. Minimum and maximum of arrays are exact; mean and standard deviation (numpy) and
the parameters of the regression (scipy) are numbers that are given, whatever their errors. NaN, overflow and division by zero (`src` constant) are not modelled.
-/

namespace Verif.Rounding

variable {K : Type} [Field K] [LinearOrder K]

/-- scaling.py:160-162 for one value of `src`; `mn`, `mx` are minimum and maximum of `src`, `rmn`, `rmx` those of `ref` -/
def minMaxValue (rnd : K → K) (mn mx rmn rmx v : K) : K :=
  rnd (rnd (rnd (rnd (v - mn) / rnd (mx - mn)) * rnd (rmx - rmn)) + rmn)

/-- `np.min` (0 for an empty array, where numpy raises). Used for scaling.py:143-162. -/
def npMin : List K → K
  | [] => 0
  | v :: l => l.foldl min v

/-- `np.max`. Used for scaling.py:143-162. -/
def npMax : List K → K
  | [] => 0
  | v :: l => l.foldl max v

/-- scaling.py:143-162 `min_max(src, ref)` -/
def minMax (rnd : K → K) (src ref : List K) : List K :=
  src.map (minMaxValue rnd (npMin src) (npMax src) (npMin ref) (npMax ref))

/-- scaling.py:184 `np.abs(slope) * src + intercept` -/
def linregStored (rnd : K → K) (slope intercept : K) (src : List K) : List K :=
  src.map (fun v => rnd (rnd (|slope| * v) + intercept))

/-- scaling.py:250: `((src - np.mean(src)) / np.std(src)) * np.std(ref) + np.mean(ref)` with `m`, `s` computed for `src` and `rm`, `rs` for `ref` -/
def meanStd (rnd : K → K) (m s rm rs : K) (src : List K) : List K :=
  src.map (fun v => rnd (rnd (rnd (rnd (v - m) / s) * rs) + rm))

end Verif.Rounding
