import Mathlib.Data.List.Basic

/-!
Model of `src/pytesmo/colormaps/load_cmap.py`.

Names are lists of characters, paths are lists of names. Files in the way of a directory, links, files that are no JSON or no JSON object,
and names of colour maps with a slash are not modelled. Colours are an external type.
-/

namespace Verif.Colormaps

/-- a string. Used for load_cmap.py:34-35, load_cmap.py:44-62. -/
abbrev Name := List Char

/-- exceptions. Used for load_cmap.py:30-40, load_cmap.py:44-62. -/
inductive Err
  /-- `FileNotFoundError` of `open` -/
  | notFound
  /-- `ValueError("Colormap not found")` (82) -/
  | valueError
  deriving DecidableEq, Repr

/-- a path as written: absolute or relative. Used for load_cmap.py:34-35, load_cmap.py:30-40. -/
structure Path where
  abs : Bool
  parts : List Name
  deriving DecidableEq, Repr

/-- the content of a `.cmap` file. Used for load_cmap.py:34-35, load_cmap.py:30-40. -/
structure Json (C : Type) where
  name : Option Name
  colors : Option C
  type : Option Name
  deriving DecidableEq, Repr

/-- the file system: contents of files by absolute path (directory and name of the file), and the working directory.
Used for load_cmap.py:34-35, load_cmap.py:30-40. -/
structure FS (C : Type) where
  files : List (List Name × Name × Json C)
  cwd : List Name

variable {C : Type}

/-- `os.path.join`. Used for load_cmap.py:30-40, load_cmap.py:65-83. -/
def join (p q : Path) : Path := if q.abs then q else ⟨p.abs, p.parts ++ q.parts⟩

/-- the directory that is meant by a path. Used for load_cmap.py:34-35. -/
def FS.resolve (fs : FS C) (p : Path) : List Name := if p.abs then p.parts else fs.cwd ++ p.parts

/-- `json.load(open(path))`. Used for load_cmap.py:30-40, load_cmap.py:44-62. -/
def FS.read (fs : FS C) (p : Path) : Except Err (Json C) :=
  match fs.files.find? (fun f => decide (f.1 ++ [f.2.1] = fs.resolve p)) with
  | none => .error .notFound
  | some f => .ok f.2.2

/-- the extension of the files. Used for load_cmap.py:65-83. -/
def ext : Name := ".cmap".toList

/-- what `glob.glob(root + "/*.cmap")` finds (35): no hidden files -/
def visible (base : Name) : Bool := decide (ext <:+ base) && decide (base.head? ≠ some '.')

/-- load_cmap.py:34-35 `os.walk` and `glob`: the directories under the folder as they are written (`root`) and the names of the files in them -/
def FS.walk (fs : FS C) (folder : Path) : List (Path × Name) :=
  fs.files.filterMap (fun f =>
    if fs.resolve folder <+: f.1 ∧ visible f.2.1 then some (⟨folder.abs, folder.parts ++ f.1.drop (fs.resolve folder).length⟩, f.2.1) else none)

/-- an entry of the list of user-defined maps: the name in the file, or the path of the file if there is none (39) -/
inductive Entry
  | name (n : Name)
  | path (p : Path)
  deriving DecidableEq, Repr

/-- load_cmap.py:30-40 `get_user_colormaps(cmap_fldr)`; `glob` gives the path with its directory, which is joined to the directory once more (37) -/
def userColormaps (fs : FS C) (folder : Path) : Except Err (List Entry) :=
  (fs.walk folder).mapM (fun w =>
    let name : Path := ⟨w.1.abs, w.1.parts ++ [w.2]⟩
    (fs.read (join w.1 name)).map (fun j => match j.name with
      | some n => .name n
      | none => .path name))

/-- a colour map of matplotlib. Used for load_cmap.py:44-62, load_cmap.py:65-83. -/
inductive Cmap (C : Type)
  | system (n : Name)
  | linear (n : Name) (c : C)
  | list (n : Name) (c : C)
  deriving DecidableEq, Repr

/-- load_cmap.py:44-62 `load_colormap(json_file)` -/
def loadColormap (fs : FS C) (file : Path) (base : Name) : Except Err (Option (Cmap C)) :=
  (fs.read file).map (fun j => match j.colors with
    | none => none
    | some c =>
      let name := j.name.getD base
      match j.type with
      | none => some (.linear name c)
      | some t => if t = "linear".toList then some (.linear name c) else if t = "list".toList then some (.list name c) else none)

/-- load_cmap.py:65-83 `load(cmap_name, cmap_folder)`; `system` are the maps of matplotlib -/
def load (fs : FS C) (system : List Name) (cmapName : Name) (folder : Path) : Except Err (Option (Cmap C)) :=
  (userColormaps fs folder).bind fun user =>
    if Entry.name (cmapName ++ ext) ∈ user then loadColormap fs (join folder ⟨false, [cmapName ++ ext]⟩) (cmapName ++ ext)
    else if cmapName ∈ system then .ok (some (.system cmapName))
    else .error .valueError

end Verif.Colormaps
