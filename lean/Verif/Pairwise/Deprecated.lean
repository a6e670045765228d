import Verif.Pairwise.Analytical

/-!
C81: the deprecated `mse` (`src/pytesmo/metrics/deprecated.py`, 198-245) and `mad` (`src/pytesmo/metrics/pairwise.py`, 138-154).

A value is `none` if it is not finite. `scipy.stats.pearsonr` is modelled: ValueError for fewer than two observations, NaN if a series is
constant, otherwise the quotient of the centred products clipped to [-1, 1].
-/

namespace Verif.Pairwise

/-- `np.std(x, ddof=ddof)`; with `n ≤ ddof` numpy divides by 0. Used for deprecated.py:199-245. -/
noncomputable def npStd (x : List ℝ) (ddof : ℤ) : Option ℝ :=
  if (x.length : ℤ) ≤ ddof then none
  else some (Real.sqrt ((x.map (fun a => (a - npMean x) ^ 2)).sum / ((x.length : ℝ) - ddof)))

/-- sum of the squared deviations from the mean. Used for deprecated.py:274. -/
noncomputable def devSq (x : List ℝ) : ℝ := (x.map (fun a => (a - npMean x) ^ 2)).sum

open Classical in
/-- `stats.pearsonr(x, y)[0]` (deprecated.py:274) -/
noncomputable def scipyPearsonr (l : Pairs) : Except CiErr (Option ℝ) :=
  if l.length < 2 then .error .valueError
  else
    let mx := npMean (l.map Prod.fst)
    let my := npMean (l.map Prod.snd)
    let nx := Real.sqrt (devSq (l.map Prod.fst))
    let ny := Real.sqrt (devSq (l.map Prod.snd))
    if nx = 0 ∨ ny = 0 then .ok none
    else .ok (some (max (min ((l.map (fun p => (p.1 - mx) / nx * ((p.2 - my) / ny))).sum) 1) (-1)))

/-- the results of `mse`, in the order of the code. Used for deprecated.py:199-245. -/
structure OldMse where
  mse : Option ℝ
  corr : Option ℝ
  bias : Option ℝ
  var : Option ℝ

/-- deprecated.py:199-245 `mse` -/
noncomputable def oldMse (l : Pairs) (ddof : ℤ) : Except CiErr OldMse :=
  let sx := npStd (l.map Prod.fst) ddof
  let sy := npStd (l.map Prod.snd) ddof
  match scipyPearsonr l with
  | .error e => .error e
  | .ok r =>
    let corr := sx.bind (fun a => sy.bind (fun b => r.map (fun r => 2 * a * b * (1 - r))))
    let bias2 := bias l ^ 2
    let var := sx.bind (fun a => sy.map (fun b => (a - b) ^ 2))
    .ok ⟨corr.bind (fun c => var.map (fun v => c + bias2 + v)), corr, some bias2, var⟩

/-- `np.median`. Used for pairwise.py:138-154. -/
noncomputable def npMedian (l : List ℝ) : Option ℝ :=
  let s := l.insertionSort (· ≤ ·)
  if l = [] then none
  else some ((s.getD ((s.length - 1) / 2) 0 + s.getD (s.length / 2) 0) / 2)

/-- pairwise.py:138-154 `mad` -/
noncomputable def madOf (l : Pairs) : Option ℝ := npMedian (l.map (fun p => |p.1 - p.2|))

end Verif.Pairwise
