import Verif.Rounding.Metrics

/-!
Model of the metrics that compare a series with itself, with rounding: `_moments_welford` (12-44), `mse_corr` (98-136), `mse_var` (140-178),
`mse_bias` (181-216), `mse_decomposition` (225-274) and `_ubrmsd` (277-320) of `src/pytesmo/metrics/_fast_pairwise.pyx`, `index_of_agreement` and
`nash_sutcliffe` of `src/pytesmo/metrics/pairwise.py` (493-542).

Conventions as in `Rounding.Metrics`: `rnd` after every operation, `sq` is the square root of the C library, numpy adds in any order. Division by zero
(NaN or infinite in the code) is excluded by hypotheses.
-/

namespace Verif.Rounding

variable {K : Type} [Field K]

/-- variables of the loop, _fast_pairwise.pyx:33-34 -/
structure Welford (K : Type) where
  nobs : ℕ
  mx : K
  my : K
  M2x : K
  M2y : K
  C : K
  deriving DecidableEq

/-- _fast_pairwise.pyx:36-43 -/
def Welford.add (rnd : K → K) (s : Welford K) (p : K × K) : Welford K :=
  let n := s.nobs + 1
  let mx := rnd (s.mx + rnd (rnd (p.1 - s.mx) / (n : K)))
  let my := rnd (s.my + rnd (rnd (p.2 - s.my) / (n : K)))
  { nobs := n, mx := mx, my := my
    M2x := rnd (s.M2x + rnd (rnd (p.1 - mx) * rnd (p.1 - s.mx)))
    M2y := rnd (s.M2y + rnd (rnd (p.2 - my) * rnd (p.2 - s.my)))
    C := rnd (s.C + rnd (rnd (p.1 - mx) * rnd (p.2 - s.my))) }

/-- means, variances and covariance. Used for _fast_pairwise.pyx:12-44, _fast_pairwise.pyx:133-136. -/
structure Mom (K : Type) where
  mx : K
  my : K
  vx : K
  vy : K
  cov : K
  deriving DecidableEq

/-- _fast_pairwise.pyx:12-44 `_moments_welford` -/
def moments (rnd : K → K) (l : List (K × K)) : Mom K :=
  let s := l.foldl (Welford.add rnd) ⟨0, 0, 0, 0, 0, 0⟩
  ⟨s.mx, s.my, rnd (s.M2x / (l.length : K)), rnd (s.M2y / (l.length : K)), rnd (s.C / (l.length : K))⟩

/-- _fast_pairwise.pyx:133-136: `max(2 * sqrt(vx) * sqrt(vy) - 2 * cov, 0)` -/
def mseCorr [LinearOrder K] (rnd sq : K → K) (m : Mom K) : K :=
  max (rnd (rnd (rnd (2 * sq m.vx) * sq m.vy) - rnd (2 * m.cov))) 0

/-- _fast_pairwise.pyx:175-178: `(sqrt(vx) - sqrt(vy)) ** 2` -/
def mseVar (rnd sq : K → K) (m : Mom K) : K := rnd (rnd (sq m.vx - sq m.vy) * rnd (sq m.vx - sq m.vy))

/-- _fast_pairwise.pyx:213-216: `(mx - my) ** 2` -/
def mseBiasFromMoments (rnd : K → K) (m : Mom K) : K := rnd (rnd (m.mx - m.my) * rnd (m.mx - m.my))

/-- _fast_pairwise.pyx:210: `bias(x, y) ** 2` -/
def mseBias (rnd : K → K) (l : List (K × K)) : K := rnd (bias rnd l * bias rnd l)

/-- _fast_pairwise.pyx:225-274: (mse, mse_corr, mse_bias, mse_var) -/
def mseDecomposition [LinearOrder K] (rnd sq : K → K) (l : List (K × K)) : K × K × K × K :=
  let m := moments rnd l
  (rnd (rnd (mseCorr rnd sq m + mseVar rnd sq m) + mseBiasFromMoments rnd m), mseCorr rnd sq m, mseBiasFromMoments rnd m, mseVar rnd sq m)

/-- _fast_pairwise.pyx:303-320 -/
def ubrmsd (rnd sq : K → K) (l : List (K × K)) : K :=
  let mx := rnd (l.foldl (fun s p => rnd (s + p.1)) 0 / (l.length : K))
  let my := rnd (l.foldl (fun s p => rnd (s + p.2)) 0 / (l.length : K))
  let sum := l.foldl (fun s p =>
    let d := rnd (rnd (p.1 - mx) - rnd (p.2 - my))
    rnd (s + rnd (d * d))) 0
  sq (rnd (sum / (l.length : K)))

/-- `np.mean`. Used for pairwise.py:520-522, pairwise.py:542. -/
def npMean (rnd : K → K) (order : List K → Tree K) (v : List K) : K := rnd ((order v).sum rnd / (v.length : K))

/-- pairwise.py:520-522 (`o = p.1`, `p = p.2`); `none` for a denominator 0 -/
def indexOfAgreement [LinearOrder K] (rnd : K → K) (order : List K → Tree K) (l : List (K × K)) : Option K :=
  let m := npMean rnd order (l.map Prod.fst)
  let denom := (order (l.map (fun p =>
    let a := rnd (|rnd (p.2 - m)| + |rnd (p.1 - m)|)
    rnd (a * a)))).sum rnd
  if denom = 0 then none else some (rnd (1 - rnd (RSS rnd l / denom)))

/-- pairwise.py:542; `none` for a denominator 0 -/
def nashSutcliffe [DecidableEq K] (rnd : K → K) (order : List K → Tree K) (l : List (K × K)) : Option K :=
  let m := npMean rnd order (l.map Prod.fst)
  let num := (order (l.map (fun p => rnd (rnd (p.1 - p.2) * rnd (p.1 - p.2))))).sum rnd
  let denom := (order (l.map (fun p => rnd (rnd (p.1 - m) * rnd (p.1 - m))))).sum rnd
  if denom = 0 then none else some (rnd (1 - rnd (num / denom)))

end Verif.Rounding
