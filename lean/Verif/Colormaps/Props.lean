import Verif.Colormaps.Model
import Mathlib.Tactic.Linarith

/-! C103: colour maps are found by their names. -/

namespace Verif.Colormaps

variable {C : Type}

/-! ## Specification -/

/-- the file `base` in the directory `dir` has the content `j` -/
def Holds (fs : FS C) (dir : List Name) (base : Name) (j : Json C) : Prop := (dir, base, j) ∈ fs.files

/-- a path names one file only -/
def Unique (fs : FS C) : Prop := ∀ f ∈ fs.files, ∀ g ∈ fs.files, f.1 = g.1 → f.2.1 = g.2.1 → f = g

/-- the files below a directory that a user can see -/
def Below (fs : FS C) (dir : List Name) (f : List Name × Name × Json C) : Prop := 
  f ∈ fs.files ∧ dir <+: f.1 ∧ (∃ stem, f.2.1 = stem ++ ".cmap".toList) ∧ f.2.1.head? ≠ some '.'

/-- the map described by a file -/
def mapOf (base : Name) (j : Json C) : Option (Cmap C) :=
  match j.colors with
  | none => none
  | some c =>
    if j.type = some "list".toList then some (.list (j.name.getD base) c)
    else if j.type = none ∨ j.type = some "linear".toList then some (.linear (j.name.getD base) c)
    else none

/-- the files that are listed: the name ends with `.cmap` and does not start with a dot -/
theorem visible_iff (b : Name) : visible b = true ↔ (∃ stem, b = stem ++ ".cmap".toList) ∧ b.head? ≠ some '.' := by
  simp only [visible, Bool.and_eq_true, decide_eq_true_eq]
  refine and_congr_left fun _ => ⟨?_, ?_⟩
  · rintro ⟨t, h⟩; exact ⟨t, h.symm⟩
  · rintro ⟨t, h⟩; exact ⟨t, h.symm⟩

/-! ## Reading -/

theorem read_ok (fs : FS C) (hu : Unique fs) (p : Path) (dir : List Name) (base : Name) (j : Json C) (h : Holds fs dir base j)
    (hp : fs.resolve p = dir ++ [base]) : fs.read p = .ok j := by
  unfold FS.read
  cases hf : fs.files.find? (fun f => decide (f.1 ++ [f.2.1] = fs.resolve p)) with
  | none =>
    exact absurd (List.find?_eq_none.mp hf _ h) (by simp [hp])
  | some g =>
    have h1 := List.mem_of_find?_eq_some hf
    have h2 := List.find?_some hf
    simp only [decide_eq_true_eq] at h2
    rw [hp] at h2
    obtain ⟨h3, h4⟩ := List.append_inj' h2 rfl
    have := hu g h1 _ h h3 (by simpa using h4)
    rw [this]

theorem read_none (fs : FS C) (p : Path) (h : ∀ f ∈ fs.files, f.1 ++ [f.2.1] ≠ fs.resolve p) : fs.read p = .error .notFound := by
  unfold FS.read
  rw [List.find?_eq_none.mpr (by simpa using h)]

theorem mapM_ok {α β : Type} (f : α → Except Err β) (g : α → β) : ∀ (l : List α), (∀ a ∈ l, f a = .ok (g a)) → l.mapM f = .ok (l.map g)
  | [], _ => rfl
  | a :: l, h => by
    rw [List.mapM_cons, h a List.mem_cons_self, mapM_ok f g l (fun b hb => h b (List.mem_cons_of_mem _ hb))]
    rfl

/-- the entry of a file in the list of maps -/
def entryOf (folder : Path) (dir : List Name) (f : List Name × Name × Json C) : Entry :=
  match f.2.2.name with
  | some n => .name n
  | none => .path ⟨folder.abs, folder.parts ++ f.1.drop dir.length ++ [f.2.1]⟩

/-- in an absolute folder every file gives one entry -/
theorem userColormaps_abs (fs : FS C) (hu : Unique fs) (folder : Path) (ha : folder.abs = true) :
    userColormaps fs folder = .ok ((fs.files.filter (fun f => decide (folder.parts <+: f.1) && visible f.2.1)).map (entryOf folder folder.parts)) := by
  have hr : fs.resolve folder = folder.parts := by simp [FS.resolve, ha]
  have hw : fs.walk folder = (fs.files.filter (fun f => decide (folder.parts <+: f.1) && visible f.2.1)).map
      (fun f => ((⟨folder.abs, folder.parts ++ f.1.drop folder.parts.length⟩ : Path), f.2.1)) := by
    unfold FS.walk
    rw [hr]
    induction fs.files with
    | nil => rfl
    | cons f l ih =>
      by_cases h : folder.parts <+: f.1 ∧ visible f.2.1 = true
      · rw [List.filterMap_cons_some (by rw [if_pos h]), ih, List.filter_cons_of_pos (by simpa using h)]
        rfl
      · rw [List.filterMap_cons_none (by rw [if_neg h]), ih, List.filter_cons_of_neg (by simpa using h)]
  unfold userColormaps
  rw [hw, List.mapM_map]
  refine mapM_ok _ _ _ ?_
  intro f hf
  rw [List.mem_filter] at hf
  obtain ⟨h1, h2⟩ := hf
  simp only [Bool.and_eq_true, decide_eq_true_eq] at h2
  obtain ⟨rest, hrest⟩ := h2.1
  have hd : folder.parts ++ f.1.drop folder.parts.length = f.1 := by
    rw [← hrest, List.drop_left]
  simp only [Function.comp]
  rw [read_ok fs hu _ f.1 f.2.1 f.2.2 h1 (by simp [join, ha, FS.resolve, hd])]
  simp only [Except.map, entryOf]
  cases f.2.2.name <;> rfl

theorem loadColormap_ok (fs : FS C) (hu : Unique fs) (p : Path) (dir : List Name) (base : Name) (j : Json C) (h : Holds fs dir base j)
    (hp : fs.resolve p = dir ++ [base]) : loadColormap fs p base = .ok (mapOf base j) := by
  unfold loadColormap mapOf
  rw [read_ok fs hu p dir base j h hp]
  simp only [Except.map]
  cases hc : j.colors with
  | none => rfl
  | some c =>
    simp only
    cases ht : j.type with
    | none => simp
    | some t =>
      by_cases h1 : t = "linear".toList
      · subst h1
        simp
      · by_cases h2 : t = "list".toList
        · subst h2
          simp
        · simp only [if_neg h1, if_neg h2]
          rw [if_neg (by simpa using h2), if_neg (by simpa using h1)]

/-- C103, part 1: in an absolute folder, a name is a user-defined map if *the content* of some file below the folder says `name.cmap`; then
the file of this name in the folder itself is read (an error if there is none). All other names are maps of matplotlib or an error. -/
theorem load_partial (fs : FS C) (hu : Unique fs) (system : List Name) (n : Name) (folder : Path) (ha : folder.abs = true) :
    ((∃ f, Below fs folder.parts f ∧ f.2.2.name = some (n ++ ext)) →
      (∀ j, Holds fs folder.parts (n ++ ext) j → load fs system n folder = .ok (mapOf (n ++ ext) j)) ∧
      ((∀ j, ¬ Holds fs folder.parts (n ++ ext) j) → load fs system n folder = .error .notFound)) ∧
    ((¬ ∃ f, Below fs folder.parts f ∧ f.2.2.name = some (n ++ ext)) →
      load fs system n folder = if n ∈ system then .ok (some (.system n)) else .error .valueError) := by
  have hmem : Entry.name (n ++ ext) ∈ (fs.files.filter (fun f => decide (folder.parts <+: f.1) && visible f.2.1)).map (entryOf folder folder.parts) ↔
      ∃ f, Below fs folder.parts f ∧ f.2.2.name = some (n ++ ext) := by
    rw [List.mem_map]
    constructor
    · rintro ⟨f, hf, he⟩
      rw [List.mem_filter] at hf
      simp only [Bool.and_eq_true, decide_eq_true_eq] at hf
      refine ⟨f, ⟨hf.1, hf.2.1, (visible_iff _).mp hf.2.2⟩, ?_⟩
      unfold entryOf at he
      cases hn : f.2.2.name with
      | none => rw [hn] at he; cases he
      | some m => rw [hn] at he; cases he; rfl
    · rintro ⟨f, ⟨h1, h2, h3⟩, h4⟩
      refine ⟨f, List.mem_filter.mpr ⟨h1, by simp [h2, (visible_iff _).mpr h3]⟩, ?_⟩
      unfold entryOf
      rw [h4]
  have hp : fs.resolve (join folder ⟨false, [n ++ ext]⟩) = folder.parts ++ [n ++ ext] := by
    simp [join, FS.resolve, ha]
  unfold load
  rw [userColormaps_abs fs hu folder ha]
  simp only [Except.bind]
  constructor
  · intro h
    rw [if_pos (hmem.mpr h)]
    refine ⟨fun j hj => loadColormap_ok fs hu _ _ _ j hj hp, fun hno => ?_⟩
    unfold loadColormap
    rw [read_none]
    · rfl
    · intro f hf he
      rw [hp] at he
      obtain ⟨h3, h4⟩ := List.append_inj' he rfl
      have h4 : f.2.1 = n ++ ext := by simpa using h4
      exact hno f.2.2 (by unfold Holds; rw [← h3, ← h4]; exact hf)
  · intro h
    rw [if_neg (fun h' => h (hmem.mp h'))]

/-- C103, part 2: a file in an absolute folder that is called `name.cmap` and says so itself is loaded under this name, also if
matplotlib has a map of this name (the documentation says that the maps of matplotlib come first). -/
theorem load_own (fs : FS C) (hu : Unique fs) (system : List Name) (n : Name) (hn : n ≠ []) (hd : n.head? ≠ some '.') (folder : Path)
    (ha : folder.abs = true) (j : Json C) (h : Holds fs folder.parts (n ++ ext) j) (hj : j.name = some (n ++ ext)) :
    load fs system n folder = .ok (mapOf (n ++ ext) j) := by
  refine ((load_partial fs hu system n folder ha).1 ⟨_, ⟨h, List.prefix_refl _, ?_⟩, hj⟩).1 j h
  cases n with
  | nil => exact absurd rfl hn
  | cons c n => exact ⟨⟨c :: n, rfl⟩, by simpa using hd⟩

/-- C103, part 3 (negation): in a *relative* folder below which there is a map, every call fails, because the directory is joined to the path twice, unless
there is another folder of the same name inside. -/
theorem load_relative (fs : FS C) (system : List Name) (n : Name) (parts : List Name) (hp : parts ≠ [])
    (f : List Name × Name × Json C) (hf : Below fs (fs.cwd ++ parts) f)
    (hno : ∀ g ∈ fs.files, ¬ (fs.cwd ++ parts ++ parts <+: g.1 ∨ ∃ k, fs.cwd ++ parts ++ k ++ parts <+: g.1)) :
    load fs system n ⟨false, parts⟩ = .error .notFound := by
  have hu : userColormaps fs ⟨false, parts⟩ = .error .notFound := by
    unfold userColormaps
    have hall : ∀ w ∈ fs.walk ⟨false, parts⟩, fs.read (join w.1 ⟨w.1.abs, w.1.parts ++ [w.2]⟩) = .error .notFound := by
      intro w hw
      unfold FS.walk at hw
      rw [List.mem_filterMap] at hw
      obtain ⟨g, hg, hgw⟩ := hw
      split at hgw
      · next hc =>
        cases hgw
        apply read_none
        intro x hx he
        simp only [join, Bool.false_eq_true, if_false, FS.resolve] at he
        refine hno x hx (Or.inr ⟨g.1.drop (fs.cwd ++ parts).length, ?_⟩)
        have h1 : x.1 ++ [x.2.1] = (fs.cwd ++ parts ++ g.1.drop (fs.cwd ++ parts).length ++ parts ++ g.1.drop (fs.cwd ++ parts).length) ++ [g.2.1] := by
          rw [he]
          simp [List.append_assoc]
        obtain ⟨h2, -⟩ := List.append_inj' h1 rfl
        rw [h2]
        exact List.prefix_append _ _
      · cases hgw
    have hex : fs.walk ⟨false, parts⟩ ≠ [] := by
      obtain ⟨h1, h2, h3⟩ := hf
      refine List.ne_nil_of_mem (a := (⟨false, parts ++ f.1.drop (fs.cwd ++ parts).length⟩, f.2.1)) ?_
      unfold FS.walk
      rw [List.mem_filterMap]
      refine ⟨f, h1, ?_⟩
      have : fs.resolve ⟨false, parts⟩ = fs.cwd ++ parts := rfl
      rw [this, if_pos ⟨h2, (visible_iff _).mpr h3⟩]
    cases hw : fs.walk ⟨false, parts⟩ with
    | nil => exact absurd hw hex
    | cons w l =>
      rw [List.mapM_cons]
      have := hall w (by rw [hw]; exact List.mem_cons_self)
      simp only [this]
      rfl
  unfold load
  rw [hu]
  rfl

example := load_relative (⟨[(["w".toList, "m".toList], "x.cmap".toList, ⟨some "x.cmap".toList, some 7, none⟩)], ["w".toList]⟩ : FS ℕ) [] "x".toList
  ["m".toList] (by simp) (["w".toList, "m".toList], "x.cmap".toList, ⟨some "x.cmap".toList, some 7, none⟩)
  ⟨by simp, by simp, ⟨"x".toList, rfl⟩, by decide⟩
  (by
    intro g hg
    rw [List.mem_singleton] at hg
    subst hg
    rintro (h | ⟨k, h⟩)
    · have := h.length_le
      simp at this
    · have := h.length_le
      simp at this)

/-! ## Concrete folders -/

/-- a folder `/m` with one file -/
def one (base : String) (j : Json ℕ) : FS ℕ := ⟨[(["m".toList], base.toList, j)], []⟩

def folder : Path := ⟨true, ["m".toList]⟩

theorem one_unique (base : String) (j : Json ℕ) : Unique (one base j) := by
  intro f hf g hg _ _
  simp only [one, List.mem_singleton] at hf hg
  rw [hf, hg]

/-- C103, part 4 (negation): maps in the list that cannot be loaded under the name in the list: the file says `x` (without extension), the file
says nothing, or the file is in a folder inside the folder. -/
theorem listed_not_loaded :
    (userColormaps (one "x.cmap" ⟨some "x".toList, some 7, none⟩) folder = .ok [.name "x".toList] ∧
      load (one "x.cmap" ⟨some "x".toList, some 7, none⟩) [] "x".toList folder = .error .valueError) ∧
    (userColormaps (one "x.cmap" ⟨none, some 7, none⟩) folder = .ok [.path ⟨true, ["m".toList, "x.cmap".toList]⟩] ∧
      load (one "x.cmap" ⟨none, some 7, none⟩) [] "x".toList folder = .error .valueError) ∧
    (∃ fs : FS ℕ, Unique fs ∧ Holds fs ["m".toList, "sub".toList] "x.cmap".toList ⟨some "x.cmap".toList, some 7, none⟩ ∧
      userColormaps fs folder = .ok [.name "x.cmap".toList] ∧ load fs [] "x".toList folder = .error .notFound) := by
  refine ⟨⟨?_, ?_⟩, ⟨?_, ?_⟩, ⟨[(["m".toList, "sub".toList], "x.cmap".toList, ⟨some "x.cmap".toList, some 7, none⟩)], []⟩, ?_, ?_, ?_, ?_⟩
  · rfl
  · rfl
  · rfl
  · rfl
  · intro f hf g hg _ _
    simp only [List.mem_singleton] at hf hg
    rw [hf, hg]
  · simp [Holds]
  · rfl
  · rfl

/-- C103, part 5 (negation): a name finds another map than the one that has it: the file `y.cmap` says that it is `x.cmap`, the file `x.cmap` says that it
is `z.cmap`; the name `x` gives the map `z`. -/
theorem other_map_loaded :
    ∃ fs : FS ℕ, Unique fs ∧ Holds fs ["m".toList] "y.cmap".toList ⟨some "x.cmap".toList, some 1, none⟩ ∧
      load fs [] "x".toList folder = .ok (some (.linear "z.cmap".toList 2)) := by
  refine ⟨⟨[(["m".toList], "y.cmap".toList, ⟨some "x.cmap".toList, some 1, none⟩),
    (["m".toList], "x.cmap".toList, ⟨some "z.cmap".toList, some 2, none⟩)], []⟩, ?_, by simp [Holds], by rfl⟩
  intro f hf g hg h1 h2
  simp only [List.mem_cons, List.not_mem_nil, or_false] at hf hg
  rcases hf with rfl | rfl <;> rcases hg with rfl | rfl <;> first | rfl | (exact absurd h2 (by decide))

/-- the map of the package: file and content agree -/
example : load (one "SWI_ASCAT.cmap" ⟨some "SWI_ASCAT.cmap".toList, some 11, some "linear".toList⟩) ["SWI_ASCAT".toList] "SWI_ASCAT".toList folder =
    .ok (some (.linear "SWI_ASCAT.cmap".toList 11)) :=
  load_own _ (one_unique _ _) _ "SWI_ASCAT".toList (by decide) (by decide) folder rfl ⟨some "SWI_ASCAT.cmap".toList, some 11, some "linear".toList⟩
    (by simp [Holds, one, folder, ext]) (by decide)

/-- a relative folder with a map -/
example : load (⟨[(["w".toList, "m".toList], "x.cmap".toList, ⟨some "x.cmap".toList, some 7, none⟩)], ["w".toList]⟩ : FS ℕ) [] "x".toList
    ⟨false, ["m".toList]⟩ = .error .notFound := by rfl

end Verif.Colormaps
