import Verif.DataManager.Model

/-! Specification: admissible result names, location of a data set. -/

namespace Verif.DataManager

variable {α : Type} [LinearOrder α]

/-- An admissible result key of length `n` for reference `ref`: sorted, the data sets are pairwise distinct and contain the reference,
every column belongs to its data set. -/
def Admissible (ds : List (α × List α)) (ref : α) (n : ℕ) (L : List (Col α)) : Prop :=
  L.Pairwise (· ≤ ·) ∧ L.length = n ∧ (L.map (fun p => (ofLex p).1)).Nodup ∧
  (∀ p ∈ L, ∃ cols, ((ofLex p).1, cols) ∈ ds ∧ (ofLex p).2 ∈ cols) ∧ ref ∈ L.map (fun p => (ofLex p).1)

/-- The grid point `g` of a data set belongs to the reference point `gpi` at position `p`. -/
def BelongsTo {P : Type} (s : Source P) (gpi : ℕ) (p : P) (g : ℕ) : Prop :=
  (s.compatible = true ∧ g = gpi) ∨
  (s.compatible = false ∧ ∃ l, s.lut = some l ∧ l[gpi]? = some (g : ℤ)) ∨
  (s.compatible = false ∧ s.lut = none ∧ ∃ d, s.nearest p = .ok (g, some d))

end Verif.DataManager
