import Verif.DataManager.Props

/-!
C69, C70: the constructor of `DataManager` (`src/pytesmo/validation_framework/data_manager.py:99-191`) and what the data manager then
reads for a grid point.

A reader is an element of `R`. Its grid (if it has one), its reading methods, the look-up table and the nearest neighbour search
of grids are parameters (`Ext`).
-/

set_option linter.unusedSectionVars false

namespace Verif.DataManager

variable {α : Type} [LinearOrder α] {R G P A KW Mth T V D : Type} [LinearOrder T]

/-- The third-party parts: `grid` is the attribute `grid` of a reader, `call r m g args kwargs` is `r.m(g, *args, **kwargs)`,
`calcLut` is `grid.calc_lut(other_grid, max_dist)` and `nearest` is `grid.find_nearest_gpi(lon, lat, max_dist)` with `none` for an
infinite distance; `inf` is `np.inf`, `noArgs`/`noKwargs` are the empty list and dict. Used for data_manager.py:158-168, data_manager.py:181-190. -/
structure Ext (R G P A KW Mth T V D : Type) where
  grid : R → Option G
  call : R → Mth → ℕ → A → KW → Outcome T V
  calcLut : G → G → D → List Int
  nearest : G → P → D → ℕ × Option ℚ
  inf : D
  noArgs : A
  noKwargs : KW

/-- The dictionary a user gives for one data set; `none` is a missing key. `class` is mandatory (as documented); `columns` plays no
role here. Used for data_manager.py:158-168, data_manager.py:99-151. -/
structure Entry (R A KW D : Type) where
  cls : R
  useLut : Option Bool := none
  args : Option A := none
  kwargs : Option KW := none
  compatible : Option Bool := none
  maxDist : Option D := none
  deriving DecidableEq

/-- The same dictionary with all keys present. Used for data_manager.py:158-168, data_manager.py:181-190. -/
structure Full (R A KW D : Type) where
  cls : R
  useLut : Bool
  args : A
  kwargs : KW
  compatible : Bool
  maxDist : D

/-- data_manager.py:158-168 `new_defaults = dict(defaults); new_defaults.update(self.datasets[dataset])` -/
def addDefaults (E : Ext R G P A KW Mth T V D) (e : Entry R A KW D) : Full R A KW D :=
  { cls := e.cls
    useLut := e.useLut.getD false
    args := e.args.getD E.noArgs
    kwargs := e.kwargs.getD E.noKwargs
    compatible := e.compatible.getD false
    maxDist := e.maxDist.getD E.inf }

/-- a dictionary with all keys, as the user sees it afterwards. Used for data_manager.py:99-151. -/
def Full.toEntry (f : Full R A KW D) : Entry R A KW D :=
  ⟨f.cls, some f.useLut, some f.args, some f.kwargs, some f.compatible, some f.maxDist⟩

/-- `read_ts_names`: a string for all data sets or a dictionary. Used for data_manager.py:129-136, upscaling.py:66-72. -/
inductive Methods (α Mth : Type)
  | all (m : Mth)
  | dict (d : List (α × Mth))

/-- data_manager.py:129-136: the reading method of a data set -/
def Methods.get (m : Methods α Mth) (names : List α) (n : α) : Option Mth :=
  match m with
  | .all m => (names.map (fun k => (k, m))).lookup n
  | .dict d => d.lookup n

/-- data_manager.py:181-190, one data set: the look-up table, `none` without `use_lut` -/
def lutOf (E : Ext R G P A KW Mth T V D) (refGrid : Option G) (f : Full R A KW D) : Except Err (Option (List Int)) :=
  if f.useLut then
    match refGrid, E.grid f.cls with
    | some rg, some og => .ok (some (E.calcLut rg og f.maxDist))
    | _, _ => .error .attributeError
  else .ok none

/-- data_manager.py:331-338: the search on the grid of the data set -/
def nearestOf (E : Ext R G P A KW Mth T V D) (f : Full R A KW D) (p : P) : Except Err (ℕ × Option ℚ) :=
  match E.grid f.cls with
  | none => .error .attributeError
  | some og => .ok (E.nearest og p f.maxDist)

/-- upscaling.py:66-72: `read_ds` of the data manager: `self.datasets[name]` and `self.read_ts_names[name]` may raise KeyError. -/
def readOf (E : Ext R G P A KW Mth T V D) (period : Option (T × T)) (m : Methods α Mth) (ds : List (α × Full R A KW D)) (n : α)
    (g : ℕ) : Except Err (Option (List (T × V))) :=
  match ds.lookup n with
  | none => .error .keyError
  | some f =>
    match m.get (ds.map Prod.fst) n with
    | none => .error .keyError
    | some mth => readDs period (E.call f.cls mth g f.args f.kwargs)

/-- data_manager.py:138-151: with upscaling no look-up tables are calculated -/
def lutFor (E : Ext R G P A KW Mth T V D) (refGrid : Option G) (ups : Bool) (f : Full R A KW D) : Except Err (Option (List Int)) :=
  if ups then .ok none else lutOf E refGrid f

/-- data_manager.py:112-117, 138-151: sources of the other data sets -/
def sources (E : Ext R G P A KW Mth T V D) (refGrid : Option G) (ups : Bool) :
    List (α × Full R A KW D) → Except Err (List (α × Source P))
  | [] => .ok []
  | (n, f) :: l => do
    let lut ← lutFor E refGrid ups f
    let rest ← sources E refGrid ups l
    .ok ((n, ⟨f.compatible, lut, nearestOf E f⟩) :: rest)

/-- data_manager.py:99-151 `DataManager(datasets, ref_name, period, read_ts_names, upscale_parms)`: the user's dictionary of
dictionaries afterwards, and the data manager. Upscaling is modelled in `Verif.Upscaling`, here it is a parameter. -/
def mkManager (E : Ext R G P A KW Mth T V D) (ds : List (α × Entry R A KW D)) (ref : α) (period : Option (T × T))
    (m : Methods α Mth) (ups : Option (α → ℕ → Except Err (Option (List (T × V))))) :
    Except Err (List (α × Entry R A KW D) × Manager α P (List (T × V))) :=
  let full := ds.map (fun e => (e.1, addDefaults E e.2))
  match full.lookup ref with
  | none => .error .keyError
  | some r =>
    match sources E (E.grid r.cls) ups.isSome (full.filter (fun e => decide (e.1 ≠ ref))) with
    | .error e => .error e
    | .ok ss => .ok (full.map (fun e => (e.1, e.2.toEntry)), ⟨ref, ss, readOf E period m full, ups⟩)

/-! ### Specification -/

/-- Grid point `g` of a data set with the configuration `e` is the one for the reference point `gpi` at position `p`, by the
documentation of the options. -/
def Located (E : Ext R G P A KW Mth T V D) (refCls : R) (e : Entry R A KW D) (gpi : ℕ) (p : P) (g : ℕ) : Prop :=
  (e.compatible = some true ∧ g = gpi) ∨
  (e.compatible ≠ some true ∧ e.useLut = some true ∧ ∃ rg og, E.grid refCls = some rg ∧ E.grid e.cls = some og ∧
    ∃ l, (e.maxDist = none ∧ l = E.calcLut rg og E.inf ∨ ∃ d, e.maxDist = some d ∧ l = E.calcLut rg og d) ∧
      l[gpi]? = some (g : ℤ)) ∨
  (e.compatible ≠ some true ∧ e.useLut ≠ some true ∧ ∃ og, E.grid e.cls = some og ∧
    ∃ dist, (e.maxDist = none ∧ E.nearest og p E.inf = (g, some dist)) ∨
      ∃ d, e.maxDist = some d ∧ E.nearest og p d = (g, some dist))

/-- the reading method of data set `n` -/
def MethodFor (m : Methods α Mth) (n : α) (mth : Mth) : Prop :=
  m = .all mth ∨ ∃ d, m = .dict d ∧ d.lookup n = some mth

/-- Reading data set `n` with configuration `e` at grid point `g` gives the rows `out`: the rows of the frame the reader returns that
are inside the period, at least one. -/
def Reads (E : Ext R G P A KW Mth T V D) (period : Option (T × T)) (m : Methods α Mth) (n : α) (e : Entry R A KW D) (g : ℕ)
    (out : List (T × V)) : Prop :=
  ∃ mth rows, MethodFor m n mth ∧
    E.call e.cls mth g (match e.args with | some a => a | none => E.noArgs) (match e.kwargs with | some a => a | none => E.noKwargs)
      = .frame rows ∧
    out ≠ [] ∧ out = rows.filter (fun r => period.all (fun ab => decide (ab.1 ≤ r.1) && decide (r.1 ≤ ab.2)))

end Verif.DataManager
