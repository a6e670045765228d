import Verif.Pairwise.Ci

/-!
C80: `has_analytical_ci` and `with_analytical_ci`, `src/pytesmo/metrics/confidence_intervals.py` (8-72), with the functions they find in
the module `src/pytesmo/metrics/pairwise.py`.

The rank correlations and Pearson's coefficient (scipy) are parameters. A metric value or bound is `none` if it is NaN; infinite
intermediate values are modelled (`XR`), other infinite values are not.
-/

namespace Verif.Pairwise

/-- exceptions; `metric` is whatever the metric itself raises. Used for pairwise.py:193, 220-221, confidence_intervals.py:24. -/
inductive CiErr
  | attributeError
  | typeError
  | valueError
  | metric
  deriving DecidableEq

/-- a floating point number. Used for pairwise.py:376, 434, 492. -/
inductive XR
  | nan
  | ninf
  | fin (x : ℝ)
  | pinf

/-- addition of floating point numbers (without rounding). Used for pairwise.py:374-378, 431-436, 489-494. -/
noncomputable def XR.add : XR → XR → XR
  | .nan, _ => .nan
  | _, .nan => .nan
  | .pinf, .ninf => .nan
  | .ninf, .pinf => .nan
  | .pinf, _ => .pinf
  | _, .pinf => .pinf
  | .ninf, _ => .ninf
  | _, .ninf => .ninf
  | .fin a, .fin b => .fin (a + b)

/-- change of sign. Used for pairwise.py:374-378, 431-436, 489-494. -/
noncomputable def XR.neg : XR → XR
  | .nan => .nan
  | .pinf => .ninf
  | .ninf => .pinf
  | .fin a => .fin (-a)

open Classical in
/-- `np.arctanh`. Used for pairwise.py:374-378, 431-436, 489-494. -/
noncomputable def arctanhX (r : ℝ) : XR :=
  if -1 < r ∧ r < 1 then .fin (Real.artanh r) else if r = 1 then .pinf else if r = -1 then .ninf else .nan

/-- `np.tanh`. Used for pairwise.py:374-378, 431-436, 489-494. -/
noncomputable def tanhX : XR → Option ℝ
  | .nan => none
  | .pinf => some 1
  | .ninf => some (-1)
  | .fin a => some (Real.tanh a)

open Classical in
/-- `w / np.sqrt(n - 3)` (pairwise.py:376, 434, 492) -/
noncomputable def overSqrt (w n : ℝ) : XR :=
  if n < 3 then .nan
  else if n = 3 then (if w = 0 then .nan else if 0 < w then .pinf else .ninf)
  else .fin (w / Real.sqrt (n - 3))

/-- bounds of an interval. Used for pairwise.py:374-378, 431-436, 489-494, pairwise.py:102-104. -/
abbrev Bounds := Option ℝ × Option ℝ

/-- pairwise.py:374-378, 431-436, 489-494 with the width factor `w` -/
noncomputable def fisherBounds (r w n : ℝ) : Bounds :=
  (tanhX ((arctanhX r).add (overSqrt w n).neg), tanhX ((arctanhX r).add (overSqrt w n)))

/-- the external functions. Used for pairwise.py:42-542, confidence_intervals.py:24. -/
structure CiEnv where
  /-- `scipy.stats.t.ppf` -/
  tppf : ℝ → ℝ → ℝ
  /-- `scipy.stats.chi2.ppf` -/
  chi2ppf : ℝ → ℝ → ℝ
  /-- `scipy.stats.norm.ppf` -/
  normppf : ℝ → ℝ
  /-- `stats.pearsonr(x, y)[0]` (pairwise.py:344) -/
  pearsonr : Pairs → Except CiErr (Option ℝ)
  /-- `stats.spearmanr(x, y)[0]` (pairwise.py:401) -/
  spearmanr : Pairs → Except CiErr (Option ℝ)
  /-- `stats.kendalltau(x, y)[0]` (pairwise.py:459) -/
  kendalltau : Pairs → Except CiErr (Option ℝ)
  /-- the metrics without interval whose values do not matter here (`aad`, `mad`, `mse_corr`, ...), by name -/
  others : String → Pairs → Except CiErr (Option ℝ)

/-- a metric value or a confidence interval function applied to NaN gives NaN bounds. Used for pairwise.py:42-542. -/
def onValue (f : ℝ → Bounds) : Option ℝ → Bounds
  | none => (none, none)
  | some v => f v

/-- the attributes of the module `pairwise`. Used for pairwise.py:42-542. -/
inductive Attr
  /-- a function of `x` and `y` -/
  | metric (f : Pairs → Except CiErr (Option ℝ))
  /-- a function of `x`, `y`, the estimate and alpha -/
  | ci (f : Pairs → Option ℝ → ℝ → Bounds)
  /-- something else: a list, a module, a function of other arguments; calling it with arrays raises TypeError -/
  | other

/-- pairwise.py:193, 220-221: ZeroDivisionError for empty arrays -/
noncomputable def orZeroDivision (l : Pairs) (v : Option ℝ) : Except CiErr (Option ℝ) := if l = [] then .error .metric else .ok v

/-- pairwise.py:102-104; NaN with fewer than two observations (division by 0 degrees of freedom) -/
noncomputable def biasBounds (tppf : ℝ → ℝ → ℝ) (l : Pairs) (b alpha : ℝ) : Bounds :=
  if l.length < 2 then (none, none) else (some (biasCi tppf l b alpha).1, some (biasCi tppf l b alpha).2)

/-- pairwise.py:317-321; NaN with fewer than two observations (chi-square distribution with 0 degrees of freedom) -/
noncomputable def ubrmsdBounds (chi2ppf : ℝ → ℝ → ℝ) (l : Pairs) (u alpha : ℝ) : Bounds :=
  if l.length < 2 then (none, none) else (some (ubrmsdCi chi2ppf l u alpha).1, some (ubrmsdCi chi2ppf l u alpha).2)

/-- the namespace of the module (pairwise.py:42-542), without names that begin with two underscores. A metric with `ddof` is called
without. `mse_decomposition` returns several values; no interval follows, so they do not matter. -/
noncomputable def namespaceOf (E : CiEnv) : List (String × Attr) :=
  [("np", .other), ("stats", .other), ("warnings", .other),
   ("bias", .metric (fun l => .ok (if l = [] then none else some (bias l)))),
   ("mse_bias", .metric (E.others "mse_bias")), ("mse_var", .metric (E.others "mse_var")),
   ("mse_corr", .metric (E.others "mse_corr")), ("mse_decomposition", .metric (E.others "mse_decomposition")),
   ("RSS", .metric (fun l => .ok (some (RSS l)))), ("_ubrmsd", .metric (E.others "_ubrmsd")), ("rolling_pr_rmsd", .other),
   ("has_ci", .other), ("no_ci", .other),
   ("bias_ci", .ci (fun l m alpha => onValue (fun b => biasBounds E.tppf l b alpha) m)),
   ("_bias_ci_from_moments", .other),
   ("aad", .metric (E.others "aad")), ("mad", .metric (E.others "mad")),
   ("msd", .metric (fun l => orZeroDivision l (some (msd l)))),
   ("rmsd", .metric (fun l => orZeroDivision l (some (rmsd l 0)))),
   ("nrmsd", .metric (fun l => orZeroDivision l (some (nrmsd l 0)))),
   ("ubrmsd", .metric (fun l => .ok (if l = [] then none else some (ubrmsd l 0)))),
   ("ubrmsd_ci", .ci (fun l m alpha => onValue (fun u => ubrmsdBounds E.chi2ppf l u alpha) m)),
   ("pearson_r", .metric E.pearsonr),
   ("pearson_r_ci", .ci (fun l m alpha => onValue (fun r => fisherBounds r (E.normppf (1 - alpha / 2)) (num l)) m)),
   ("spearman_r", .metric E.spearmanr),
   ("spearman_r_ci", .ci (fun l m alpha =>
      onValue (fun r => fisherBounds r (E.normppf (1 - alpha / 2) * Real.sqrt (1 + r ^ 2 / 2)) (num l)) m)),
   ("kendall_tau", .metric E.kendalltau),
   ("kendall_tau_ci", .ci (fun l m alpha => onValue (fun r => fisherBounds r (E.normppf (1 - alpha / 2) * 0.431) (num l)) m)),
   ("index_of_agreement", .metric (E.others "index_of_agreement")),
   ("nash_sutcliffe", .metric (E.others "nash_sutcliffe"))]

/-- `getattr(pairwise, s)`. Used for confidence_intervals.py:24, confidence_intervals.py:66-72. -/
noncomputable def attrOf (E : CiEnv) (s : String) : Option Attr := (namespaceOf E).lookup s

/-- the argument `metric_func`: a string, or a callable with its `__name__` (if it has one).
Used for confidence_intervals.py:24, confidence_intervals.py:27-72. -/
inductive MetricArg
  | str (s : String)
  | fn (name : Option String) (f : Pairs → Except CiErr (Option ℝ))

/-- confidence_intervals.py:24 `has_analytical_ci` -/
noncomputable def hasAnalyticalCi (E : CiEnv) : MetricArg → Except CiErr Bool
  | .fn (some s) _ => .ok (attrOf E (s ++ "_ci")).isSome
  | .fn none _ => .error .attributeError
  | .str _ => .error .attributeError

/-- confidence_intervals.py:66-72 for a callable -/
noncomputable def ciOfCallable (E : CiEnv) (name : Option String) (f : Pairs → Except CiErr (Option ℝ)) (l : Pairs) (alpha : ℝ) :
    Except CiErr (Option ℝ × Bounds) :=
  match f l with
  | .error e => .error e
  | .ok m =>
    match name with
    | none => .error .attributeError
    | some s =>
      match attrOf E (s ++ "_ci") with
      | none => .error .valueError
      | some (.ci g) => .ok (m, g l m alpha)
      | some _ => .error .typeError

/-- confidence_intervals.py:27-72 `with_analytical_ci`; the metrics of the module have their own name as `__name__` -/
noncomputable def withAnalyticalCi (E : CiEnv) (a : MetricArg) (l : Pairs) (alpha : ℝ) : Except CiErr (Option ℝ × Bounds) :=
  match a with
  | .fn name f => ciOfCallable E name f l alpha
  | .str s =>
    match attrOf E s with
    | none => .error .attributeError
    | some (.metric f) => ciOfCallable E (some s) f l alpha
    | some _ => .error .typeError

/-! ### Specification -/

/-- the metrics with an interval -/
def withInterval : List String := ["bias", "ubrmsd", "pearson_r", "spearman_r", "kendall_tau"]

/-- both bounds are numbers and enclose `v` -/
def BoundsEnclose (b : Bounds) (v : ℝ) : Prop := ∃ lo hi, b = (some lo, some hi) ∧ lo ≤ v ∧ v ≤ hi

/-- the interval `b` lies within the interval `c` -/
def BoundsWithin (b c : Bounds) : Prop := ∃ lo hi lo' hi', b = (some lo, some hi) ∧ c = (some lo', some hi') ∧ lo' ≤ lo ∧ hi ≤ hi'

/-- what is used of the quantile functions -/
structure CiEnv.Good (E : CiEnv) : Prop where
  t : ∀ df, SymQuantile (fun q => E.tppf q df)
  norm : SymQuantile E.normppf

end Verif.Pairwise
