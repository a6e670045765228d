import Verif.Collocation.Model
import Mathlib.Data.List.Dedup

/-!
# C89: time zones in `temporal_collocation` and `combined_temporal_collocation`

Model of `src/pytesmo/temporal_matching.py:285-305`, `345`, `357` and `478-502` on top of `Verif.Collocation.Model`, whose other simplifications
apply. An index without time zone has local times, an index with a time zone has instants and the name of the zone, as in pandas.
-/

set_option linter.unusedSectionVars false

namespace Verif.Collocation.Tz

/-- The time zones: local time of an instant; instant of a local time (`none` if it does not exist or is ambiguous: `tz_localize` raises);
the zone called "UTC". Used for temporal_matching.py:285-305, temporal_matching.py:342-366. -/
structure Zones (Z K : Type) where
  wall : Z → K → K
  localize : Z → K → Option K
  utc : Z

/-- exceptions. Used for temporal_matching.py:285-305, temporal_matching.py:184-380. -/
inductive TzErr
  | collocation (e : Err)
  /-- `AmbiguousTimeError`, `NonExistentTimeError` of `tz_localize` -/
  | localize
  deriving DecidableEq, Repr

/-- a `DataFrame`: time zone of the index (`none`: no time zone, the times of the rows are local times; otherwise instants).
Used for temporal_matching.py:184-380, temporal_matching.py:458-470. -/
structure TFrame (Z K : Type) where
  tz : Option Z
  frame : Frame K K
  deriving DecidableEq, Repr

section
variable {Z K : Type} [DecidableEq Z] [Field K] [LinearOrder K]

/-- errors of the functions without time zones. Used for temporal_matching.py:184-380, temporal_matching.py:383-509. -/
def lift {α : Type} : Except Err α → Except TzErr α
  | .ok x => .ok x
  | .error e => .error (.collocation e)

/-- `index.tz_localize(z)`. Used for temporal_matching.py:285-305. -/
def localizeTimes (E : Zones Z K) (z : Z) (ts : List K) : Except TzErr (List K) :=
  ts.mapM (fun t => match E.localize z t with
    | none => .error .localize
    | some i => .ok i)

/-- `frame.tz_localize(z)`. Used for temporal_matching.py:285-305, temporal_matching.py:498-502. -/
def localizeRows (E : Zones Z K) (z : Z) (rows : List (Row K K)) : Except TzErr (List (Row K K)) :=
  rows.mapM (fun r => match E.localize z r.time with
    | none => .error .localize
    | some i => .ok { r with time := i })

/-- temporal_matching.py:285-305: the common time zone, the times of the reference and the rows of the other frame. `tz_convert` (305) does not
change instants. -/
def prepare (E : Zones Z K) (refTz : Option Z) (ref : List K) (otherTz : Option Z) (rows : List (Row K K)) :
    Except TzErr (Option Z × List K × List (Row K K)) :=
  match refTz, otherTz with
  | none, none => .ok (none, ref, rows)
  | none, some z => (localizeTimes E z ref).bind (fun r => .ok (some z, r, rows))
  | some z, none => (localizeRows E z rows).bind (fun o => .ok (some z, ref, o))
  | some z, some _ => .ok (some z, ref, rows)

/-- what `to_julian_date()` (345, 357) starts from: the fields year, month, ... of a pandas index are those of the local time -/
def julian (E : Zones Z K) (tz : Option Z) (t : K) : K :=
  match tz with
  | none => t
  | some z => E.wall z t

/-- temporal_matching.py:342-366 with a time zone: the resampling uses local times, the result has the index of the reference -/
def meanTz (E : Zones Z K) (tz : Option Z) (o : Opts) (window : K) (width : Nat) (rows : List (Row K K)) (ref : List K)
    (flagged : Option (List Bool)) : Except Err (List (OutRow K K)) :=
  (meanBranch o window width (rows.map (fun r => { r with time := julian E tz r.time })) (ref.map (julian E tz)) flagged).bind
    (fun col => .ok (List.zipWith (fun t r => { r with time := t }) ref col))

/-- temporal_matching.py:307-380, when reference and other frame have the same time zone `tz` -/
def collocate (E : Zones Z K) (o : Opts) (window : K) (width : Nat) (tz : Option Z) (ref : List K) (rows : List (Row K K))
    (flagged : Option (List Bool)) : Except Err (List (OutRow K K)) := do
  let drop := o.dropduplicates || !o.mean
  let rows' := if drop then dedupe rows else rows
  let ref' := if drop then dedupeTimes ref else ref
  let col ← if o.mean then meanTz E tz o window width rows' ref' flagged else nearestBranch o window width rows' ref' flagged
  pure (if o.dropna then col.filter (fun r => !allNaN r) else col)

/-- temporal_matching.py:184-380 `temporal_collocation`; the result with its time zone -/
def tzCollocation (E : Zones Z K) (o : Opts) (refTz : Option Z) (ref : List K) (other : TFrame Z K) (window : K) :
    Except TzErr (Option Z × List (OutRow K K)) :=
  (lift (checkFlag o.flag ref.length)).bind (fun flagged =>
    (prepare E refTz ref other.tz other.frame.rows).bind (fun p =>
      (lift (collocate E o window other.frame.width p.1 p.2.1 p.2.2 flagged)).bind (fun out => .ok (p.1, out))))

/-- temporal_matching.py:458-470: one entry of the list comprehension -/
def one (E : Zones Z K) (o : Opts) (refTz : Option Z) (ref : List K) (window : K) (f : TFrame Z K) : Except TzErr (TFrame Z K) :=
  (tzCollocation E { o with returnIndex := false, returnDistance := false } refTz ref f window).bind
    (fun r => .ok ⟨r.1, ⟨f.frame.width, r.2.map (fun x => ⟨x.time, x.cells⟩)⟩⟩)

/-- temporal_matching.py:479-493: the time zone to which everything is brought, `none` if nothing has to be done -/
def commonTz (E : Zones Z K) (tzs : List (Option Z)) : Option Z :=
  if tzs.dedup.length = 1 then none
  else match (tzs.filterMap id).dedup with
    | [z] => some z
    | _ => some E.utc

/-- temporal_matching.py:498-502, one round of the loop: `d.index = ...` -/
def bring (E : Zones Z K) (z : Z) (d : TFrame Z K) : Except TzErr (TFrame Z K) :=
  match d.tz with
  | none => (localizeRows E z d.frame.rows).bind (fun rows => .ok ⟨some z, ⟨d.frame.width, rows⟩⟩)
  | some _ => .ok ⟨some z, d.frame⟩

/-- temporal_matching.py:479-502 -/
def unify (E : Zones Z K) (dfs : List (TFrame Z K)) : Except TzErr (List (TFrame Z K)) :=
  match commonTz E (dfs.map TFrame.tz) with
  | none => .ok dfs
  | some z => dfs.mapM (bring E z)

/-- temporal_matching.py:472-477: the frames to be joined -/
def withRef (o : Opts) (addRef : Bool) (reference : TFrame Z K) (dfs : List (TFrame Z K)) : List (TFrame Z K) :=
  if addRef then
    { reference with frame := ⟨reference.frame.width, if o.dropduplicates then dedupe reference.frame.rows else reference.frame.rows⟩ } :: dfs
  else dfs

/-- temporal_matching.py:383-509 `combined_temporal_collocation` -/
def combined (E : Zones Z K) (o : Opts) (comb : Combined) (addRef : Bool) (reference : TFrame Z K) (others : List (TFrame Z K)) (window : K) :
    Except TzErr (List (Row K K)) :=
  (others.mapM (one E o reference.tz (reference.frame.rows.map Row.time) window)).bind (fun dfs =>
    (unify E (withRef o addRef reference dfs)).bind (fun dfs =>
      (lift (concatColumns (dfs.map TFrame.frame))).bind (fun merged => .ok (combinedDropna comb merged))))

/-- The caller's reference frame after the call. `dfs.insert(0, reference)` (477) inserts the frame itself unless duplicates were dropped, and
`d.index = ...` (499-502) then changes it; the frames are brought to the common time zone one after the other, the reference first. -/
def referenceAfter (E : Zones Z K) (o : Opts) (addRef : Bool) (reference : TFrame Z K) (others : List (TFrame Z K)) (window : K) : TFrame Z K :=
  match others.mapM (one E o reference.tz (reference.frame.rows.map Row.time) window) with
  | .error _ => reference
  | .ok dfs =>
    if addRef && !o.dropduplicates then
      match commonTz E ((withRef o addRef reference dfs).map TFrame.tz) with
      | none => reference
      | some z =>
        match bring E z reference with
        | .error _ => reference
        | .ok r => r
    else reference

end
end Verif.Collocation.Tz
