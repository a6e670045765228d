import Verif.Rolling.Model
import Verif.Filters.Model

/-!
C132: the compiled routines with every access to an array made explicit: `src/pytesmo/metrics/_fast_pairwise.pyx` and
`src/pytesmo/time_series/filters.pyx` are compiled with `boundscheck=False` and `wraparound=False`, so an index outside of an array
reads whatever lies in memory there.

Arrays are lists, indices are integers (as in C), and a run that accesses anything outside of an array is `none`. What is computed from
the values read is that of the models `Verif.Pairwise`, `Verif.Rolling` and `Verif.Filters`.
-/

namespace Verif.Memory

/-- `a[i]`, `none` outside of the array. Used for _fast_pairwise.pyx:1 (`boundscheck=False, wraparound=False`) and filters.pyx:45-46,
112-113. -/
def rd {α : Type} (a : List α) (i : ℤ) : Option α := if 0 ≤ i then a[i.toNat]? else none

/-- `range(a, b)` with integers. Used for _fast_pairwise.pyx:35-489, filters.pyx:84-171. -/
def rangeZ (a b : ℤ) : List ℤ := (List.range (b - a).toNat).map (fun k : ℕ => a + (k : ℤ))

/-- `for j in js: s = f(s, x[j], y[j])`, the form of the loops of lines 36-43, 69-70, 93-94, 311-313, 318-319, 449-459 and 464-473 of
_fast_pairwise.pyx -/
def over {σ α β : Type} (x : List α) (y : List β) (f : σ → α × β → σ) : σ → List ℤ → Option σ
  | s, [] => some s
  | s, j :: js =>
    match rd x j, rd y j with
    | some a, some b => over x y f (f s (a, b)) js
    | _, _ => none

/-! ### Two series -/

/-- _fast_pairwise.pyx:67-71 `bias(x, y)`: `n = len(x)`, the length of `y` is not looked at. -/
noncomputable def bias (x y : List ℝ) : Option ℝ :=
  (over x y (fun b p => b + (p.1 - p.2)) 0 (rangeZ 0 x.length)).map (fun b => b / (x.length : ℝ))

/-- _fast_pairwise.pyx:90-95 `RSS(x, y)` -/
noncomputable def RSS (x y : List ℝ) : Option ℝ := over x y (fun s p => s + (p.1 - p.2) ^ 2) 0 (rangeZ 0 x.length)

/-- _fast_pairwise.pyx:28-44 `_moments_welford(x, y)` (used by `mse_corr`, `mse_var`, `mse_decomposition`) -/
noncomputable def moments (x y : List ℝ) : Option (Moments.Moments ℝ) :=
  (over x y Moments.step Moments.init (rangeZ 0 x.length)).map (fun s =>
    ⟨s.mx, s.my, s.M2x / (x.length : ℝ), s.M2y / (x.length : ℝ), s.C / (x.length : ℝ)⟩)

/-- _fast_pairwise.pyx:303-320 `_ubrmsd(x, y)`; for empty arrays (NaN) the model gives 0, as in `Verif.Pairwise`. -/
noncomputable def ubrmsd (x y : List ℝ) : Option ℝ :=
  match over x y (fun (s : ℝ × ℝ) p => (s.1 + p.1, s.2 + p.2)) (0, 0) (rangeZ 0 x.length) with
  | none => none
  | some s =>
    let mx := s.1 / (x.length : ℝ)
    let my := s.2 / (x.length : ℝ)
    (over x y (fun s p => s + ((p.1 - mx) - (p.2 - my)) ^ 2) 0 (rangeZ 0 x.length)).map (fun s => Real.sqrt (s / (x.length : ℝ)))

/-! ### Rolling metrics -/

open Classical in
/-- `for j in js: v = f(j); if cond(timestamps[j]): break`, the value of `v` afterwards (_fast_pairwise.pyx:412-415, 428-433, 438-441) -/
noncomputable def scan (ts : List ℝ) (cond : ℝ → Prop) (f : ℤ → ℤ) : ℤ → List ℤ → Option ℤ
  | v, [] => some v
  | _, j :: js =>
    match rd ts j with
    | none => none
    | some t => if cond t then some (f j) else scan ts cond f (f j) js

open Classical in
/-- _fast_pairwise.pyx:410-442: the new (lower, upper) -/
noncomputable def bounds (ts : List ℝ) (w : ℝ) (center : Bool) (i lower upper : ℤ) : Option (ℤ × ℤ) :=
  let n : ℤ := ts.length
  match rd ts i with
  | none => none
  | some ti =>
    if center then
      match scan ts (fun t => t ≥ ti - w) id lower (rangeZ lower n), rd ts (n - 1) with
      | some lower', some last =>
        if last > ti + w then
          let upper := if i = 0 then 1 else upper
          (scan ts (fun t => t > ti + w) (fun j => j - 1) upper (rangeZ upper n)).map (fun upper' => (lower', upper'))
        else some (lower', n - 1)
      | _, _ => none
    else (scan ts (fun t => t > ti - w) id lower (rangeZ lower n)).map (fun lower' => (lower', i))

/-- The local variables that live across the rounds (_fast_pairwise.pyx:400-403); here `upper` is the C variable, -1 at the start. -/
structure State where
  lower : ℤ
  upper : ℤ
  m : Moments.State ℝ
  msd : ℝ

/-- _fast_pairwise.pyx:404-487: one round -/
noncomputable def round (betainc : ℝ → ℝ → ℝ → ℝ) (ts x y : List ℝ) (w : ℝ) (center : Bool) (minPeriods : ℤ) (s : State) (i : ℤ) :
    Option (State × Rolling.Out) :=
  match bounds ts w center i s.lower s.upper with
  | none => none
  | some b =>
    match over x y Rolling.add (s.m, s.msd) (rangeZ (s.upper + 1) (b.2 + 1)) with
    | none => none
    | some a =>
      match over x y Rolling.remove a (rangeZ s.lower b.1) with
      | none => none
      | some r =>
        let numObs : ℤ := b.2 - b.1 + 1
        let out : Rolling.Out :=
          if numObs = 0 ∨ numObs < minPeriods then ⟨none, none⟩
          else ⟨Pairwise.pearsonrFromMoments betainc r.1.M2x r.1.M2y r.1.C numObs, some (Real.sqrt r.2)⟩
        some (⟨b.1, b.2, r.1, r.2⟩, out)

/-- _fast_pairwise.pyx:404-487: the rounds in turn -/
noncomputable def loop (betainc : ℝ → ℝ → ℝ → ℝ) (ts x y : List ℝ) (w : ℝ) (center : Bool) (minPeriods : ℤ) :
    State → List ℤ → Option (List Rolling.Out)
  | _, [] => some []
  | s, i :: is =>
    match round betainc ts x y w center minPeriods s i with
    | none => none
    | some r => (loop betainc ts x y w center minPeriods r.1 is).map (fun l => r.2 :: l)

/-- _fast_pairwise.pyx:347-489 `rolling_pr_rmsd(timestamps, x, y, window_size, center, min_periods)` -/
noncomputable def rolling (betainc : ℝ → ℝ → ℝ → ℝ) (ts x y : List ℝ) (w : ℝ) (center : Bool) (minPeriods : ℤ) :
    Option (List Rolling.Out) :=
  loop betainc ts x y w center minPeriods ⟨0, -1, Moments.init, 0⟩ (rangeZ 0 ts.length)

/-! ### Filters -/

section
variable {K : Type} [Field K] [LinearOrder K]

/-- filters.pyx:152-160 and 162-171: the loops over `j`; `jd[j]` is only read for usable values. `t0` is `in_jd[i]`. -/
def accumulate (nan limit t0 : K) (data : List (Option K)) (jd : List K) : List ℤ → K × ℕ → Option (K × ℕ)
  | [], s => some s
  | j :: js, s =>
    match rd data j with
    | none => none
    | some v =>
      match Filters.usable nan v with
      | none => accumulate nan limit t0 data jd js s
      | some v =>
        match rd jd j with
        | none => none
        | some t => if |t - t0| ≤ limit then accumulate nan limit t0 data jd js (s.1 + v, s.2 + 1) else some s

/-- `filtered[i] = v`, `none` outside of the array. Used for filters.pyx:91, 102, 174. -/
def wr {α : Type} (a : List α) (i : ℤ) (v : α) : Option (List α) := if 0 ≤ i ∧ i < a.length then some (a.set i.toNat v) else none

/-- filters.pyx:147-174: one round of the loop over `i`. The backward loop is `range(i, -1, -1)` without `j = i`. -/
def boxcarRound (nan limit : K) (fillna : Bool) (minObs : ℤ) (data : List (Option K)) (jd : List K) (out : List (Option K)) (i : ℤ) :
    Option (List (Option K)) :=
  match rd data i, rd jd i with
  | some v, some t0 =>
    if (Filters.usable nan v).isSome || fillna then
      match accumulate nan limit t0 data jd (rangeZ i jd.length) (0, 0) with
      | none => none
      | some s =>
        match accumulate nan limit t0 data jd (rangeZ 0 i).reverse s with
        | none => none
        | some s => if minObs ≤ (s.2 : ℤ) then wr out i (Filters.average minObs s) else some out
    else some out
  | _, _ => none

/-- filters.pyx:116-176 `boxcar_filter(in_data, in_jd, window, nan, fillna, min_obs)`: the result has the length of `in_data`, the loops
run to the length of `in_jd`. -/
def boxcar (data : List (Option K)) (jd : List K) (window nan : K) (fillna : Bool) (minObs : ℤ) : Option (List (Option K)) :=
  (rangeZ 0 jd.length).foldlM (boxcarRound nan (window / 2) fillna minObs data jd) (List.replicate data.length none)

end

/-- filters.pyx:84-108: one round of the loops over `i` and `index`: `in_jd` is only read and `filtered` only written for usable values. -/
noncomputable def expRound (ctime : ℤ) (nan : ℝ) (data : List (Option ℝ)) (jd : List ℝ)
    (s : Option Filters.ExpState × List (Option ℝ)) (i : ℤ) : Option (Option Filters.ExpState × List (Option ℝ)) :=
  match rd data i with
  | none => none
  | some v =>
    match Filters.usable nan v with
    | none => some s
    | some _ =>
      match rd jd i with
      | none => none
      | some t =>
        let r := Filters.expStep ctime nan s.1 (t, v)
        (wr s.2 i r.2).map (fun out => (r.1, out))

/-- filters.pyx:50-110 `exp_filter(in_data, in_jd, ctime, nan)` -/
noncomputable def expFilter (data : List (Option ℝ)) (jd : List ℝ) (ctime : ℤ) (nan : ℝ) : Option (List (Option ℝ)) :=
  ((rangeZ 0 jd.length).foldlM (expRound ctime nan data jd) (none, List.replicate data.length none)).map Prod.snd

end Verif.Memory
