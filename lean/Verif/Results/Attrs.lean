import Verif.Results.Model

/-! Model of the attributes of variables and of the search for locations in
/repo/src/pytesmo/validation_framework/results_manager.py (178-202 and the calls in 226-231, 279-284, 309-341).

A dictionary of attributes is a list of names and values. The dictionary `attr` of the user maps names of variables to such dictionaries;
it is shared with the user, so changes to the inner dictionaries are visible afterwards. -/

set_option linter.unusedSectionVars false

namespace Verif.Results

/-- attributes of one variable. Used for results_manager.py:188-202, results_manager.py:226-231. -/
abbrev Attr := List (String × String)

/-- the attributes in the file, by variable. Used for results_manager.py:226-231. -/
abbrev AttrFile := List (String × Attr)

/-- results_manager.py:188-202 `_sel_attr`: the attributes of the variable and the dictionary of the user afterwards -/
def selAttr (attr : List (String × Attr)) (name : String) (time : Bool) : Attr × List (String × Attr) :=
  let cur := (attr.lookup name).getD []
  if cur.any (fun e => decide (e.1 = "coordinates")) then (cur, attr)
  else
    let new := cur ++ [("coordinates", if time then "idx lat lon time" else "idx lat lon")]
    (new, attr.map (fun e => if e.1 = name then (e.1, new) else e))

/-- results_manager.py:226-231 and 279-284 for the attributes: they are written when the variable is created. Both callers pass
`time=False`. -/
def putAttr (st : AttrFile × List (String × Attr)) (name : String) : AttrFile × List (String × Attr) :=
  if name ∈ st.1.map Prod.fst then st
  else ((name, (selAttr st.2 name false).1) :: st.1, (selAttr st.2 name false).2)

/-- the attributes of a new file (88-145): `lon`, `lat`, `idx`, `_row_size` and `time` exist; `own` are their attributes -/
def newAttrs (own : String → Attr) : AttrFile := ["lon", "lat", "idx", "_row_size", "time"].map (fun n => (n, own n))

/-- one call of `add_metrics_results` or `add_ts_results`: the names of the results, `attr=None` is an empty dictionary
(results_manager.py:204-233, 235-286) -/
def addAttrs (f : AttrFile) (attr : Option (List (String × Attr))) (names : List String) : AttrFile × List (String × Attr) :=
  names.foldl putAttr (f, attr.getD [])

/-- a sequence of such calls (results_manager.py:204-233, 235-286) with the same dictionary of the user -/
def addAllAttrs (f : AttrFile) (attr : List (String × Attr)) : List (List String) → AttrFile × List (String × Attr)
  | [] => (f, attr)
  | names :: l =>
    let r := addAttrs f (some attr) names
    addAllAttrs r.1 r.2 l

/-- results_manager.py:178-182 `_lonlat2idx`: positions with these coordinates -/
def lonlat2idx {V : Type} [DecidableEq V] (f : File V) (lon lat : V) : List ℕ :=
  let lons := (((f.vars.lookup "lon").map Prod.snd).getD [])
  let lats := (((f.vars.lookup "lat").map Prod.snd).getD [])
  (List.range (min lons.length lats.length)).filter (fun i => decide (readAt lons i = some lon) && decide (readAt lats i = some lat))

/-- results_manager.py:184-186 `_idx2lonlat`; negative indices are not modelled -/
def idx2lonlat {V : Type} (f : File V) (i : ℕ) : Option V × Option V :=
  (readAt (((f.vars.lookup "lon").map Prod.snd).getD []) i, readAt (((f.vars.lookup "lat").map Prod.snd).getD []) i)

/-! ### Specification -/

/-- what a user expects as attributes of a variable: the given ones, and the names of the coordinates unless given -/
def expected (given : Option Attr) (coords : String) : Attr :=
  if "coordinates" ∈ (given.getD []).map Prod.fst then given.getD [] else given.getD [] ++ [("coordinates", coords)]

end Verif.Results
