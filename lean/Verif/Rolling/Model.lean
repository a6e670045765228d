import Verif.Pairwise.Model

/-!
Model of `rolling_pr_rmsd` (`src/pytesmo/metrics/_fast_pairwise.pyx:347-489`).

`ts j` is `timestamps[j]`, `d j` is `(x[j], y[j])`, arrays have length `n`. The C variable `upper` (last index in the window,
-1 at the start) is represented by `hi = upper + 1`.
-/

namespace Verif.Rolling

open Verif.Moments Verif.Pairwise

/-- Local variables that live across the rounds (400-403). -/
structure State where
  lower : ℕ
  hi : ℕ
  m : Moments.State ℝ
  msd : ℝ

/-- lines 400-403 -/
noncomputable def init : State := ⟨0, 0, Moments.init, 0⟩

/-- `for j in js: v = j; if cond(j): break`, the value of `v` afterwards (412-415, 428-433, 438-441). -/
def scan (cond : ℕ → Prop) [DecidablePred cond] (v : ℕ) : List ℕ → ℕ
  | [] => v
  | j :: js => if cond j then j else scan cond j js

/-- `range(a, b)`, the ranges of lines 412, 428, 438, 450, 464 -/
def rangeAB (a b : ℕ) : List ℕ := List.range' a (b - a)

open Classical in
/-- lines 410-442: the new (lower, hi) -/
noncomputable def bounds (ts : ℕ → ℝ) (n : ℕ) (w : ℝ) (center : Bool) (i lower hi : ℕ) : ℕ × ℕ :=
  if center then
    let lower' := scan (fun j => ts j ≥ ts i - w) lower (rangeAB lower n)
    let hi' :=
      if ts (n - 1) > ts i + w then
        -- `upper` is set to 1 in the first round; `upper = j - 1` is `hi = j`
        let upper := if i = 0 then 1 else hi - 1
        scan (fun j => ts j > ts i + w) (upper + 1) (rangeAB upper n)
      else n
    (lower', hi')
  else
    (scan (fun j => ts j > ts i - w) lower (rangeAB lower n), i + 1)

/-- lines 451-459 -/
noncomputable def add (s : Moments.State ℝ × ℝ) (p : ℝ × ℝ) : Moments.State ℝ × ℝ :=
  let m := Moments.step s.1 p
  (m, s.2 + ((p.1 - p.2) ^ 2 - s.2) / m.nobs)

/-- lines 465-473 -/
noncomputable def remove (s : Moments.State ℝ × ℝ) (p : ℝ × ℝ) : Moments.State ℝ × ℝ :=
  let m := s.1
  let nobs := m.nobs - 1
  let mx := m.mx - (p.1 - m.mx) / nobs
  let my := m.my - (p.2 - m.my) / nobs
  ({ nobs := nobs, mx := mx, my := my
     M2x := m.M2x - (p.1 - m.mx) * (p.1 - mx)
     M2y := m.M2y - (p.2 - m.my) * (p.2 - my)
     C := m.C - (p.1 - m.mx) * (p.2 - my) },
   s.2 - ((p.1 - p.2) ^ 2 - s.2) / nobs)

/-- One output (lines 475-487): (R, p-value) and RMSD; `none` is NaN. -/
structure Out where
  pr : Option (ℝ × ℝ)
  rmsd : Option ℝ

/-- lines 404-487: one round -/
noncomputable def round (betainc : ℝ → ℝ → ℝ → ℝ) (ts : ℕ → ℝ) (d : ℕ → ℝ × ℝ) (n : ℕ) (w : ℝ) (center : Bool)
    (minPeriods : ℤ) (s : State) (i : ℕ) : State × Out :=
  let b := bounds ts n w center i s.lower s.hi
  let a := ((rangeAB s.hi b.2).map d).foldl add (s.m, s.msd)
  let r := ((rangeAB s.lower b.1).map d).foldl remove a
  let numObs : ℤ := (b.2 : ℤ) - (b.1 : ℤ)
  let out : Out :=
    if numObs = 0 ∨ numObs < minPeriods then ⟨none, none⟩
    else ⟨pearsonrFromMoments betainc r.1.M2x r.1.M2y r.1.C numObs, some (Real.sqrt r.2)⟩
  (⟨b.1, b.2, r.1, r.2⟩, out)

/-- lines 404-487: the rounds in turn, one output each -/
noncomputable def loop (betainc : ℝ → ℝ → ℝ → ℝ) (ts : ℕ → ℝ) (d : ℕ → ℝ × ℝ) (n : ℕ) (w : ℝ) (center : Bool)
    (minPeriods : ℤ) : State → List ℕ → List Out
  | _, [] => []
  | s, i :: is =>
    let r := round betainc ts d n w center minPeriods s i
    r.2 :: loop betainc ts d n w center minPeriods r.1 is

/-- lines 347-489 `rolling_pr_rmsd(timestamps, x, y, window_size, center, min_periods)` -/
noncomputable def rollingPrRmsd (betainc : ℝ → ℝ → ℝ → ℝ) (ts : ℕ → ℝ) (d : ℕ → ℝ × ℝ) (n : ℕ) (w : ℝ) (center : Bool)
    (minPeriods : ℤ) : List Out :=
  loop betainc ts d n w center minPeriods init (List.range n)

end Verif.Rolling
