import Verif.Validation.More
import Mathlib.Data.List.Perm.Basic

/-!
C72: `Validation.get_processing_jobs` (`src/pytesmo/validation_framework/validation.py:735-765`), and `calc(*job)` for its jobs.

Grid point indices, longitudes and latitudes are elements of one type `N` (numbers). A grid is the list of its (active) points;
`get_grid_points`, `get_cells` (sorted unique cells) and `grid_points_for_cell` of pygeogrids are modelled on it.
-/

set_option linter.unusedSectionVars false

namespace Verif.Validation

variable {N : Type} [DecidableEq N]

/-- a grid point: index, longitude, latitude, cell. Used for validation.py:735-765. -/
structure Pt (N : Type) where
  gpi : N
  lon : N
  lat : N
  cell : ℕ
  deriving DecidableEq

/-- The grid of the reference: `exact` is `type(grid) is CellGrid`, false for other grids and for subclasses of `CellGrid`.
Used for validation.py:735-765. -/
structure RefGrid (N : Type) where
  exact : Bool
  pts : List (Pt N)

/-- pygeogrids `CellGrid.get_cells`: sorted, without repetition. Used for validation.py:735-765. -/
def RefGrid.cells (g : RefGrid N) : List ℕ := ((g.pts.map Pt.cell).dedup).insertionSort (· ≤ ·)

/-- A job: a list of three arrays or an array of numbers. Used for validation.py:735-765, validation.py:188-256. -/
inductive Job (N : Type)
  | arrays (gpis lons lats : List N)
  | array (l : List N)
  deriving DecidableEq

/-- `[gpis, lons, lats]` of a list of points. Used for validation.py:735-765. -/
def arraysOf (l : List (Pt N)) : Job N := .arrays (l.map Pt.gpi) (l.map Pt.lon) (l.map Pt.lat)

/-- validation.py:735-765 `get_processing_jobs()`; the reference grid is `None` if the reader has none -/
def getProcessingJobs (g : Option (RefGrid N)) : List (Job N) :=
  match g with
  | none => []
  | some g =>
    if g.exact then g.cells.map (fun c => arraysOf (g.pts.filter (fun p => decide (p.cell = c))))
    else [.array (g.pts.map Pt.gpi), .array (g.pts.map Pt.lon), .array (g.pts.map Pt.lat)]

/-- The locations on which `calc(*job)` works (validation.py:188-256); `none` is the TypeError for missing arguments -/
def jobLocations : Job N → Option (List (List (Item N)))
  | .arrays gpis lons lats => some (locations (.seq gpis) (.seq lons) (.seq lats) [])
  | .array (a :: b :: c :: l) => some (locations (.scalar a) (.scalar b) (.scalar c) (l.map .scalar))
  | .array _ => none

/-- Specification: the location of a grid point -/
def location (p : Pt N) : List (Item N) := [.elem p.gpi, .elem p.lon, .elem p.lat]

theorem filterMap_cons3 {X : Type} (a b c : List X) (i : ℕ) (x y z : X) (ha : a[i]? = some x) (hb : b[i]? = some y)
    (hc : c[i]? = some z) : ([a, b, c].filterMap (fun l => (l[i]?).map Item.elem)) = [.elem x, .elem y, .elem z] := by
  simp [ha, hb, hc]

theorem arrays_locations (l : List (Pt N)) (hl : l ≠ []) : jobLocations (arraysOf l) = some (l.map location) := by
  show some (locations _ _ _ _) = some _
  refine congrArg some ?_
  obtain ⟨h1, h2⟩ := locations_sequences_partial ([] : List (List N)) (l.map Pt.gpi) (l.map Pt.lon) (l.map Pt.lat) l.length
    (List.length_pos_iff.mpr hl) (by intro a ha; rcases List.mem_cons.mp ha with rfl | ha
                                     · simp
                                     rcases List.mem_cons.mp ha with rfl | ha
                                     · simp
                                     rcases List.mem_cons.mp ha with rfl | ha
                                     · simp
                                     simp at ha)
  apply List.ext_getElem?
  intro i
  by_cases hi : i < l.length
  · have h2 := h2 i hi
    rw [filterMap_cons3 _ _ _ i l[i].gpi l[i].lon l[i].lat (by simp [hi]) (by simp [hi]) (by simp [hi])] at h2
    simp only [List.map_nil] at h2
    rw [h2]
    simp [hi, location]
  · rw [List.getElem?_eq_none, List.getElem?_eq_none]
    · simp; omega
    · simp only [List.map_nil] at h1
      rw [h1]; omega

theorem flatMap_filter_perm (cs : List ℕ) (hn : cs.Nodup) (l : List (Pt N)) (h : ∀ p ∈ l, p.cell ∈ cs) :
    (cs.flatMap (fun c => l.filter (fun p => decide (p.cell = c)))).Perm l := by
  induction l with
  | nil => simp
  | cons p l ih =>
    refine List.Perm.trans ?_ (List.Perm.cons p (ih (fun q hq => h q (by simp [hq]))))
    have hp := h p (by simp)
    obtain ⟨a, b, rfl⟩ := List.append_of_mem hp
    have hna : p.cell ∉ a := by
      have := (List.nodup_append.mp hn).2.2
      intro hc
      exact this _ hc _ (by simp) rfl
    have hnb : p.cell ∉ b := by
      have := (List.nodup_append.mp hn).2.1
      exact (List.nodup_cons.mp this).1
    have e : ∀ cs : List ℕ, p.cell ∉ cs → cs.flatMap (fun c => (p :: l).filter (fun q => decide (q.cell = c))) =
        cs.flatMap (fun c => l.filter (fun q => decide (q.cell = c))) := by
      intro cs hcs
      have : ∀ c ∈ cs, (p :: l).filter (fun q => decide (q.cell = c)) = l.filter (fun q => decide (q.cell = c)) := by
        intro c hc
        rw [List.filter_cons_of_neg]
        simp only [decide_eq_true_eq]
        intro hh
        exact hcs (hh ▸ hc)
      exact List.flatMap_congr this
    rw [List.flatMap_append, List.flatMap_cons, List.flatMap_append, List.flatMap_cons, e a hna, e b hnb,
      List.filter_cons_of_pos (by simp)]
    rw [List.cons_append]
    exact List.perm_middle

theorem flatten_map_some {β γ : Type} (f : β → Option (List γ)) (g : β → List γ) (l : List β) (h : ∀ b ∈ l, f b = some (g b)) :
    l.map f = (l.map g).map some := by
  rw [List.map_map]
  exact List.map_congr_left h

/-- **C72.** For a reference on a `CellGrid`, no job fails to start and all jobs together work on every grid point of the reference
exactly once, with its own longitude and latitude; every job stays inside one cell, and the cells of the jobs are different. -/
theorem jobs_cell_grid_partial (g : RefGrid N) (hex : g.exact = true) :
    ∃ locs : List (List (List (Item N))), (getProcessingJobs (some g)).map jobLocations = locs.map some ∧
      locs.flatten.Perm (g.pts.map location) ∧
      ∃ cs : List ℕ, cs.Nodup ∧ List.Forall₂ (fun c loc => loc = (g.pts.filter (fun p => decide (p.cell = c))).map location) cs locs := by
  have hcells : ∀ c, c ∈ g.cells ↔ ∃ p ∈ g.pts, p.cell = c := by
    intro c
    unfold RefGrid.cells
    rw [(List.perm_insertionSort _ _).mem_iff, List.mem_dedup, List.mem_map]
  have hnd : g.cells.Nodup := by
    unfold RefGrid.cells
    rw [(List.perm_insertionSort _ _).nodup_iff]
    exact List.nodup_dedup _
  refine ⟨g.cells.map (fun c => (g.pts.filter (fun p => decide (p.cell = c))).map location), ?_, ?_, g.cells, hnd, ?_⟩
  · unfold getProcessingJobs
    simp only [hex, if_true]
    rw [List.map_map, List.map_map]
    apply List.map_congr_left
    intro c hc
    apply arrays_locations
    obtain ⟨p, hp, hpc⟩ := (hcells c).mp hc
    intro h0
    have : p ∈ g.pts.filter (fun p => decide (p.cell = c)) := List.mem_filter.mpr ⟨hp, by simpa using hpc⟩
    rw [h0] at this
    simp at this
  · have := (flatMap_filter_perm g.cells hnd g.pts (fun p hp => (hcells _).mpr ⟨p, hp, rfl⟩)).map location
    rw [List.map_flatMap] at this
    rwa [List.flatMap_def] at this
  · rw [List.forall₂_map_right_iff, List.forall₂_same]
    intro c _
    rfl

/-- a cell grid with the points 1, 2, 3 in the cells 7, 5, 7 -/
def exCells : RefGrid ℕ := ⟨true, [⟨1, 10, 20, 7⟩, ⟨2, 11, 21, 5⟩, ⟨3, 12, 22, 7⟩]⟩

example : getProcessingJobs (some exCells) = [.arrays [2] [11] [21], .arrays [1, 3] [10, 12] [20, 22]] := by decide +kernel

/-- **C72, negation.** For every other grid (also of a subclass of `CellGrid`) with at least three points there are three jobs, and the
first one is a single location whose index, longitude and latitude are the indices of the first three points; the others are made of
longitudes and of latitudes in the same way. -/
theorem jobs_other_grid (g : RefGrid N) (hex : g.exact = false) (p q r : Pt N) (l : List (Pt N)) (hp : g.pts = p :: q :: r :: l) :
    (getProcessingJobs (some g)).map jobLocations =
      [some [(Arg.scalar p.gpi :: .scalar q.gpi :: .scalar r.gpi :: l.map (fun x => .scalar x.gpi)).map .whole],
       some [(Arg.scalar p.lon :: .scalar q.lon :: .scalar r.lon :: l.map (fun x => .scalar x.lon)).map .whole],
       some [(Arg.scalar p.lat :: .scalar q.lat :: .scalar r.lat :: l.map (fun x => .scalar x.lat)).map .whole]] := by
  have key : ∀ (a b c : N) (l : List N), jobLocations (.array (a :: b :: c :: l)) =
      some [(Arg.scalar a :: .scalar b :: .scalar c :: l.map .scalar).map .whole] := by
    intro a b c l
    show some (locations _ _ _ _) = _
    rw [locations_scalars]
    intro x hx s
    simp only [List.mem_cons, List.mem_map] at hx
    rcases hx with rfl | rfl | rfl | ⟨y, -, rfl⟩ <;> simp
  unfold getProcessingJobs
  simp only [hex, Bool.false_eq_true, if_false, hp, List.map_cons, List.map_nil, key, List.map_map]
  rfl

/-- with one or two points every job raises TypeError -/
theorem jobs_small_grid (g : RefGrid N) (hex : g.exact = false) (h : g.pts.length < 3) :
    (getProcessingJobs (some g)).map jobLocations = [none, none, none] := by
  unfold getProcessingJobs
  simp only [hex, Bool.false_eq_true, if_false]
  match hp : g.pts, h with
  | [], _ => rfl
  | [_], _ => rfl
  | [_, _], _ => rfl

example := jobs_small_grid ({ exCells with exact := false, pts := exCells.pts.take 2 }) rfl (by decide)

/-- the same three points on a plain grid: location (1, 2, 3) instead of (1, 10, 20), (2, 11, 21), (3, 12, 22) -/
theorem jobs_other_grid_wrong :
    (getProcessingJobs (some { exCells with exact := false })).map jobLocations =
      [some [[.whole (.scalar 1), .whole (.scalar 2), .whole (.scalar 3)]],
       some [[.whole (.scalar 10), .whole (.scalar 11), .whole (.scalar 12)]],
       some [[.whole (.scalar 20), .whole (.scalar 21), .whole (.scalar 22)]]] :=
  jobs_other_grid ⟨false, exCells.pts⟩ rfl ⟨1, 10, 20, 7⟩ ⟨2, 11, 21, 5⟩ ⟨3, 12, 22, 7⟩ [] rfl

/-- without a grid there is nothing to do -/
theorem jobs_without_grid : getProcessingJobs (none : Option (RefGrid N)) = [] := rfl

end Verif.Validation
