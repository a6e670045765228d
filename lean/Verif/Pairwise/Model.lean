import Mathlib.Analysis.SpecialFunctions.Artanh
import Mathlib.Analysis.SpecialFunctions.Sqrt
import Verif.Moments.Model

/-!
Model of the pairwise metrics: `src/pytesmo/metrics/_fast_pairwise.pyx` (49-341), `src/pytesmo/metrics/pairwise.py`
(80-542) and `pearsonr_recursive`, `pearson_conf` of `src/pytesmo/metrics/deprecated.py`.

The two input arrays (equal length, NaN-free) are the list of their pairs. Arithmetic is over ℝ. The quantile functions and
the incomplete beta function of scipy are parameters. For `n = 0` (NaN in the code) the model's division gives 0; no
theorem speaks about empty inputs.
-/

namespace Verif.Pairwise

open Verif.Moments

/-- two arrays of equal length, element by element. Used for _fast_pairwise.pyx:67-71, _fast_pairwise.pyx:90-95. -/
abbrev Pairs := List (ℝ × ℝ)

/-- `len(x)`. Used for _fast_pairwise.pyx:67-71, _fast_pairwise.pyx:303-320. -/
noncomputable def num (l : Pairs) : ℝ := (l.length : ℝ)

/-- `np.mean` over a derived array. Used for pairwise.py:135, pairwise.py:286-294. -/
noncomputable def npMean (l : List ℝ) : ℝ := l.sum / (l.length : ℝ)

/-- _fast_pairwise.pyx:67-71 -/
noncomputable def bias (l : Pairs) : ℝ := l.foldl (fun b p => b + (p.1 - p.2)) 0 / num l

/-- _fast_pairwise.pyx:90-95 -/
noncomputable def RSS (l : Pairs) : ℝ := l.foldl (fun s p => s + (p.1 - p.2) ^ 2) 0

/-- _fast_pairwise.pyx:133-136 -/
noncomputable def mseCorrFromMoments (m : Moments ℝ) : ℝ :=
  max (2 * Real.sqrt m.varx * Real.sqrt m.vary - 2 * m.cov) 0

/-- _fast_pairwise.pyx:175-178 -/
noncomputable def mseVarFromMoments (m : Moments ℝ) : ℝ := (Real.sqrt m.varx - Real.sqrt m.vary) ^ 2

/-- _fast_pairwise.pyx:213-216 -/
noncomputable def mseBiasFromMoments (m : Moments ℝ) : ℝ := (m.mx - m.my) ^ 2

/-- _fast_pairwise.pyx:98-130 -/
noncomputable def mseCorr (l : Pairs) : ℝ := mseCorrFromMoments (momentsWelford l)
/-- _fast_pairwise.pyx:140-172 -/
noncomputable def mseVar (l : Pairs) : ℝ := mseVarFromMoments (momentsWelford l)
/-- _fast_pairwise.pyx:181-210 -/
noncomputable def mseBias (l : Pairs) : ℝ := bias l ^ 2

/-- _fast_pairwise.pyx:225-274; the result is (mse, mse_corr, mse_bias, mse_var). -/
noncomputable def mseDecomposition (l : Pairs) : ℝ × ℝ × ℝ × ℝ :=
  let m := momentsWelford l
  let c := mseCorrFromMoments m
  let v := mseVarFromMoments m
  let b := mseBiasFromMoments m
  (c + v + b, c, b, v)

/-- _fast_pairwise.pyx:303-320 -/
noncomputable def ubrmsd0 (l : Pairs) : ℝ :=
  let s := l.foldl (fun (s : ℝ × ℝ) p => (s.1 + p.1, s.2 + p.2)) (0, 0)
  let mx := s.1 / num l
  let my := s.2 / num l
  Real.sqrt (l.foldl (fun s p => s + ((p.1 - mx) - (p.2 - my)) ^ 2) 0 / num l)

/-- _fast_pairwise.pyx:323-341 `_pearsonr_from_moments` (R and p-value; `none` is (NaN, NaN)). -/
noncomputable def pearsonrFromMoments (betainc : ℝ → ℝ → ℝ → ℝ) (varx vary cov : ℝ) (n : ℤ) :
    Option (ℝ × ℝ) :=
  if varx = 0 ∨ vary = 0 then none
  else
    let R := max (-1) (min (cov / Real.sqrt (varx * vary)) 1)
    if |R| = 1 then some (R, 0)
    else
      let df : ℝ := (n : ℝ) - 2
      let t2 := R * R * (df / ((1 - R) * (1 + R)))
      let z := min (df / (df + t2)) 1
      some (R, betainc (df / 2) (1 / 2) z)

/-- pairwise.py:135 -/
noncomputable def aad (l : Pairs) : ℝ := npMean (l.map (fun p => |p.1 - p.2|))

/-- pairwise.py:193 -/
noncomputable def msd (l : Pairs) : ℝ := RSS l / num l

/-- pairwise.py:220-228 -/
noncomputable def rmsd (l : Pairs) (ddof : ℤ) : ℝ :=
  if ddof = 0 then Real.sqrt (msd l) else Real.sqrt (RSS l / (num l - ddof))

/-- `np.max` / `np.min` of `[x, y]` (pairwise.py:253); on empty input numpy raises, the model gives 0. -/
noncomputable def maxBoth (l : Pairs) : ℝ :=
  match l with
  | [] => 0
  | p :: l => l.foldl (fun m q => max m (max q.1 q.2)) (max p.1 p.2)
/-- see `maxBoth`. Used for pairwise.py:253. -/
noncomputable def minBoth (l : Pairs) : ℝ :=
  match l with
  | [] => 0
  | p :: l => l.foldl (fun m q => min m (min q.1 q.2)) (min p.1 p.2)

/-- pairwise.py:253 -/
noncomputable def nrmsd (l : Pairs) (ddof : ℤ) : ℝ := rmsd l ddof / (maxBoth l - minBoth l)

/-- pairwise.py:286-294 -/
noncomputable def ubrmsd (l : Pairs) (ddof : ℤ) : ℝ :=
  if ddof ≠ 0 then
    let mx := npMean (l.map Prod.fst)
    let my := npMean (l.map Prod.snd)
    Real.sqrt (RSS (l.map (fun p => (p.1 - mx, p.2 - my))) / (num l - ddof))
  else ubrmsd0 l

/-- pairwise.py:520-522 (`o = p.1`, `p = p.2`) -/
noncomputable def indexOfAgreement (l : Pairs) : ℝ :=
  let m := npMean (l.map Prod.fst)
  let denom := (l.map (fun p => (|p.2 - m| + |p.1 - m|) ^ 2)).sum
  1 - RSS l / denom

/-- pairwise.py:542 -/
noncomputable def nashSutcliffe (l : Pairs) : ℝ :=
  let m := npMean (l.map Prod.fst)
  1 - (l.map (fun p => (p.1 - p.2) ^ 2)).sum / (l.map (fun p => (p.1 - m) ^ 2)).sum

/-- `np.std(d, ddof=1)` as used in pairwise.py:103 -/
noncomputable def npStd1 (d : List ℝ) : ℝ :=
  Real.sqrt ((d.map (fun a => (a - npMean d) ^ 2)).sum / ((d.length : ℝ) - 1))

/-- pairwise.py:80-104; `tppf q df` is `scipy.stats.t.ppf`. -/
noncomputable def biasCi (tppf : ℝ → ℝ → ℝ) (l : Pairs) (b alpha : ℝ) : ℝ × ℝ :=
  let delta := npStd1 (l.map (fun p => p.1 - p.2)) / Real.sqrt (num l) * tppf (1 - alpha / 2) (num l - 1)
  (b - delta, b + delta)

/-- pairwise.py:107-116 -/
noncomputable def biasCiFromMoments (tppf : ℝ → ℝ → ℝ) (alpha : ℝ) (m : Moments ℝ) (n : ℝ) : ℝ × ℝ :=
  let std := Real.sqrt (n / (n - 1) * (m.varx + m.vary - 2 * m.cov))
  let delta := std / Real.sqrt n * tppf (1 - alpha / 2) (n - 1)
  let b := m.mx - m.my
  (b - delta, b + delta)

/-- pairwise.py:297-321; `chi2ppf q df` is `scipy.stats.chi2.ppf`. -/
noncomputable def ubrmsdCi (chi2ppf : ℝ → ℝ → ℝ) (l : Pairs) (u alpha : ℝ) : ℝ × ℝ :=
  let n := num l
  let ub := u ^ 2
  (Real.sqrt (n * ub / chi2ppf (1 - alpha / 2) (n - 1)), Real.sqrt (n * ub / chi2ppf (alpha / 2) (n - 1)))

/-- pairwise.py:373-378; `normppf` is `scipy.stats.norm.ppf`. -/
noncomputable def pearsonCi (normppf : ℝ → ℝ) (n r alpha : ℝ) : ℝ × ℝ :=
  let v := Real.artanh r
  let z := normppf (1 - alpha / 2)
  (Real.tanh (v - z / Real.sqrt (n - 3)), Real.tanh (v + z / Real.sqrt (n - 3)))

/-- pairwise.py:430-436 -/
noncomputable def spearmanCi (normppf : ℝ → ℝ) (n r alpha : ℝ) : ℝ × ℝ :=
  let v := Real.artanh r
  let z := normppf (1 - alpha / 2)
  (Real.tanh (v - z * Real.sqrt (1 + r ^ 2 / 2) / Real.sqrt (n - 3)),
   Real.tanh (v + z * Real.sqrt (1 + r ^ 2 / 2) / Real.sqrt (n - 3)))

/-- pairwise.py:488-494 -/
noncomputable def kendallCi (normppf : ℝ → ℝ) (n r alpha : ℝ) : ℝ × ℝ :=
  let v := Real.artanh r
  let z := normppf (1 - alpha / 2)
  (Real.tanh (v - z * 0.431 / Real.sqrt (n - 3)), Real.tanh (v + z * 0.431 / Real.sqrt (n - 3)))

/-- deprecated.py:340-376 `pearson_conf(r, n, c)` -/
noncomputable def pearsonConf (normppf : ℝ → ℝ) (r n c : ℝ) : ℝ × ℝ :=
  let z := Real.artanh r
  let stdErr := 1 / Real.sqrt (n - 3)
  let q := normppf (1 - (1 - c / 100) / 2)
  (Real.tanh (z - stdErr * q), Real.tanh (z + stdErr * q))

/-- Parameters passed from call to call of `pearsonr_recursive`. Used for deprecated.py:280-281, deprecated.py:279-336. -/
structure RecParams where
  n : ℝ
  sxy : ℝ
  sx : ℝ
  sy : ℝ
  sx2 : ℝ
  sy2 : ℝ

/-- deprecated.py:280-281, the default arguments. -/
def RecParams.init : RecParams := ⟨0, 0, 0, 0, 0, 0⟩

/-- deprecated.py:279-336 `pearsonr_recursive`; a zero denominator (NaN or inf in numpy) is `none`. -/
noncomputable def pearsonrRecursive (l : Pairs) (s : RecParams) : Option ℝ × RecParams :=
  let n := s.n + num l
  let sxy := s.sxy + (l.map (fun p => p.1 * p.2)).sum
  let sx := s.sx + (l.map Prod.fst).sum
  let sy := s.sy + (l.map Prod.snd).sum
  let sx2 := s.sx2 + (l.map (fun p => p.1 ^ 2)).sum
  let sy2 := s.sy2 + (l.map (fun p => p.2 ^ 2)).sum
  let den := Real.sqrt (n * sx2 - sx ^ 2) * Real.sqrt (n * sy2 - sy ^ 2)
  ((if den = 0 then none else some ((n * sxy - sx * sy) / den)), ⟨n, sxy, sx, sy, sx2, sy2⟩)

/-- A user calling `pearsonr_recursive` chunk by chunk with `*params` (deprecated.py:318-319): all returned coefficients. -/
noncomputable def recursiveRun : List Pairs → RecParams → List (Option ℝ)
  | [], _ => []
  | c :: cs, s => (pearsonrRecursive c s).1 :: recursiveRun cs (pearsonrRecursive c s).2

end Verif.Pairwise
