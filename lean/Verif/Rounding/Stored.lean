import Verif.Rounding.Perfect

/-!
Model of `PairwiseIntercomparisonMetrics.calc_metrics` and `PairwiseMetricsMixin._calc_pairwise_metrics` (`src/pytesmo/validation_framework/metric_calculators.py:1649-1672, 1456-1505`) in
machine arithmetic, with the results stored in single precision (`_get_metric_template`, 92-140).

`rm` is the rounding of the type of the data (`double`, or `float` for a frame of float32 columns: `_moments_welford` works in the type of its arguments), `r` that of `double`, `r32` the
conversion to float32, `sq` the square root of the C library and of numpy, `tq n` the value of `stats.t.ppf(0.975, n - 1)`. `none` is NaN; the maximum of NaN and 0 is taken to be NaN.
Rank correlations, p-values, the intervals of `urmsd` and the correlations and bootstrapped intervals are in `Pairwise` and `Bootstrap`; the data have at least two rows without NaN.
-/

namespace Verif.Rounding

variable {K : Type} [Field K] [LinearOrder K]

/-- `sqrt` of C and numpy: NaN for negative numbers (_fast_pairwise.pyx:136, 178; metric_calculators.py:1494-1495; pairwise.py:113) -/
def root (sq : K → K) (v : K) : Option K := if v < 0 then none else some (sq v)

/-- the results, metric_calculators.py:1480-1498, 1514-1517 -/
structure Res (K : Type) where
  BIAS : K
  mseCorr : Option K
  mseVar : Option K
  mseBias : K
  mse : Option K
  RSS : Option K
  RMSD : Option K
  urmsd : Option K
  R : Option K
  biasCi : Option (K × K)
  deriving DecidableEq

/-- _fast_pairwise.pyx:323-331: the correlation, `none` for NaN -/
def pearson (r sq : K → K) (m : Mom K) : Option K :=
  if m.vx = 0 ∨ m.vy = 0 then none
  else (root sq (r (m.vx * m.vy))).map (fun d => max (-1) (min (r (m.cov / d)) 1))

/-- pairwise.py:107-116 -/
def biasCi (r sq tq : K → K) (m : Mom K) (n : K) : Option (K × K) :=
  (root sq (r (r (n / r (n - 1)) * r (r (m.vx + m.vy) - r (2 * m.cov))))).map (fun std =>
    let delta := r (r (std / sq n) * tq n)
    let b := r (m.mx - m.my)
    (r (b - delta), r (b + delta)))

/-- metric_calculators.py:1479-1498, 1513-1517 in `double`, from moments and number of observations -/
def fromMoments (r sq tq : K → K) (m : Mom K) (n : K) : Res K :=
  let corr := (root sq m.vx).bind (fun _ => (root sq m.vy).map (fun _ => mseCorr r sq m))
  let var := (root sq m.vx).bind (fun _ => (root sq m.vy).map (fun _ => mseVar r sq m))
  let b := mseBiasFromMoments r m
  let mse := corr.bind (fun c => var.map (fun v => max (r (r (c + v) + b)) 0))
  { BIAS := r (m.mx - m.my)
    mseCorr := corr
    mseVar := var
    mseBias := b
    mse := mse
    RSS := mse.map (fun e => r (e * n))
    RMSD := mse.bind (root sq)
    urmsd := mse.bind (fun e => root sq (r (e - b)))
    R := pearson r sq m
    biasCi := biasCi r sq tq m n }

/-- assignment to the float32 arrays of the template, metric_calculators.py:96-130 -/
def store (r32 : K → K) (x : Res K) : Res K :=
  { BIAS := r32 x.BIAS
    mseCorr := x.mseCorr.map r32
    mseVar := x.mseVar.map r32
    mseBias := r32 x.mseBias
    mse := x.mse.map r32
    RSS := x.RSS.map r32
    RMSD := x.RMSD.map r32
    urmsd := x.urmsd.map r32
    R := x.R.map r32
    biasCi := x.biasCi.map (fun c => (r32 c.1, r32 c.2)) }

/-- metric_calculators.py:1663-1669 for the rows `l` without NaN -/
def calcMetrics (rm r r32 sq tq : K → K) (l : List (K × K)) : Res K :=
  store r32 (fromMoments r sq tq (moments rm l) (l.length : K))

end Verif.Rounding
