import Verif.Collocation.Props
import Mathlib.Algebra.Order.Floor.Ring
import Mathlib.Data.Rat.Floor

/-!
# C90 and C91: data types and the option `checkna` of `temporal_collocation`

Model of `src/pytesmo/temporal_matching.py:352-366` (type of the array of means) and `373-376` (`checkna`), on top of `Verif.Collocation.Model`.
-/

set_option linter.unusedSectionVars false
set_option synthInstance.maxSize 1000

namespace Verif.Collocation

/-! ### Model -/

/-- the type of the first column of `other` (356) -/
inductive Dtype
  | float | int | bool
  deriving DecidableEq, Repr

section
variable {K : Type} [Field K] [LinearOrder K] [FloorRing K]

/-- the integer next to zero. Used for temporal_matching.py:184-380. -/
def trunc (x : K) : ℤ := if 0 ≤ x then ⌊x⌋ else ⌈x⌉

/-- numpy: a floating point number stored in an array of type `d`; the result of storing NaN as integer depends on the platform (`garbage`).
Used for temporal_matching.py:184-380. -/
def store (d : Dtype) (garbage : ℤ) (x : Option K) : Option K :=
  match d, x with
  | .float, x => x
  | .int, some x => some (trunc x : ℤ)
  | .int, none => some garbage
  | .bool, some x => some (if x = 0 then 0 else 1)
  | .bool, none => some 1

/-- temporal_matching.py:184-380 with `method="mean"`: `data` (356) has the type of the first column, every mean is stored in it (359-362). For
`method="nearest"` the type makes no difference. Frames have at least one column. -/
def typedCollocation (d : Dtype) (garbage : ℤ) (o : Opts) (ref : List K) (other : Frame K K) (window : K) : Except Err (List (OutRow K K)) :=
  (temporalCollocation { o with dropna := false } ref other window).bind (fun rows =>
    .ok (let rows := if o.mean then rows.map (fun r => { r with cells := r.cells.map (store d garbage) }) else rows
      if o.dropna then rows.filter (fun r => !allNaN r) else rows))

/-- temporal_matching.py:373-376 `np.any(collocated.isnull().apply(np.all))`: for a frame `apply` takes the columns, for a series the elements. The
columns are those of `other`, and `index_other` and `distance_other` if they were added. -/
def noMatchTest (series : Bool) (o : Opts) (width : ℕ) (rows : List (OutRow K K)) : Bool :=
  if series then rows.any (fun r => r.cells.all Option.isNone)
  else (List.range width).any (fun i => rows.all (fun r => ((r.cells[i]?).join).isNone)) ||
    (!o.mean && (o.returnIndex || o.returnDistance) && rows.all (fun r => r.index.isNone)) ||
    (!o.mean && o.returnDistance && rows.all (fun r => r.distance.isNone))

/-- temporal_matching.py:184-380: whether the call warns "No match has been found" -/
def warnsNoMatch (checkna series : Bool) (o : Opts) (ref : List K) (other : Frame K K) (window : K) : Except Err Bool :=
  (temporalCollocation { o with dropna := false } ref other window).bind (fun rows => .ok (checkna && noMatchTest series o other.width rows))

end

/-! ### C90 -/

section
variable {K : Type} [Field K] [LinearOrder K] [IsStrictOrderedRing K] [FloorRing K]

/-- **C90.** Exactly what the mean method returns, for every type of the first column: the mean of the values within the window stored in that type. -/
theorem typed_mean_exact (d : Dtype) (garbage : ℤ) (o : Opts) (ref : List K) (other : Frame K K) (window : K)
    (hm : o.mean = true) (hf : o.flag = none) (hd : o.dropna = false) (hdup : o.dropduplicates = false)
    (hne : other.rows ≠ []) (hs : other.rows.Pairwise (fun a b => a.time ≤ b.time)) (hr : ref.Pairwise (· ≤ ·)) :
    ∃ out, typedCollocation d garbage o ref other window = .ok out ∧ out.map OutRow.time = ref ∧
      ∀ r ∈ out, r.cells = (List.range other.width).map (fun i =>
        store d garbage (Resample.windowMean (other.rows.map (fun x => (x.time, (x.cells[i]?).join))) (2 * window) r.time)) := by
  obtain ⟨out, h1, h2, h3⟩ := mean_collocation o ref other window hm hf hd hdup hne hs hr
  refine ⟨out.map (fun r => { r with cells := r.cells.map (store d garbage) }), ?_, ?_, ?_⟩
  · unfold typedCollocation
    rw [show ({ o with dropna := false } : Opts) = o by cases o; simp_all, h1]
    simp [Except.bind, hm, hd]
  · rw [List.map_map, ← h2]; rfl
  · intro r hr
    obtain ⟨r', hr', rfl⟩ := List.mem_map.mp hr
    simp only
    rw [h3 r' hr', List.map_map]
    rfl

/-- **C90.** For floating point data the result is the mean, and missing where the window has no value. -/
theorem float_mean_partial (garbage : ℤ) (o : Opts) (ref : List K) (other : Frame K K) (window : K)
    (hm : o.mean = true) (hf : o.flag = none) (hd : o.dropna = false) (hdup : o.dropduplicates = false)
    (hne : other.rows ≠ []) (hs : other.rows.Pairwise (fun a b => a.time ≤ b.time)) (hr : ref.Pairwise (· ≤ ·)) :
    ∃ out, typedCollocation .float garbage o ref other window = .ok out ∧ out.map OutRow.time = ref ∧
      ∀ r ∈ out, r.cells = (List.range other.width).map (fun i =>
        Resample.windowMean (other.rows.map (fun x => (x.time, (x.cells[i]?).join))) (2 * window) r.time) :=
  typed_mean_exact .float garbage o ref other window hm hf hd hdup hne hs hr

/-- **C90, negation.** If the first column has integers, no column of the result has a missing value, at no reference time, however far from all data,
and no row is dropped with `dropna=True`. -/
theorem int_mean_never_missing (garbage : ℤ) (o : Opts) (ref : List K) (other : Frame K K) (window : K)
    (hm : o.mean = true) (hf : o.flag = none) (hd : o.dropna = true) (hdup : o.dropduplicates = false) (hwidth : 0 < other.width)
    (hne : other.rows ≠ []) (hs : other.rows.Pairwise (fun a b => a.time ≤ b.time)) (hr : ref.Pairwise (· ≤ ·)) :
    ∃ out, typedCollocation .int garbage o ref other window = .ok out ∧ out.map OutRow.time = ref ∧ ∀ r ∈ out, ∀ c ∈ r.cells, c ≠ none := by
  obtain ⟨out, h1, h2, h3⟩ := typed_mean_exact .int garbage { o with dropna := false } ref other window hm hf rfl hdup hne hs hr
  have hsome : ∀ r ∈ out, ∀ c ∈ r.cells, c ≠ none := by
    intro r hr c hc
    rw [h3 r hr] at hc
    obtain ⟨i, -, rfl⟩ := List.mem_map.mp hc
    cases Resample.windowMean (other.rows.map (fun x => (x.time, (x.cells[i]?).join))) (2 * window) r.time <;> simp [store]
  refine ⟨out, ?_, h2, hsome⟩
  unfold typedCollocation at h1 ⊢
  generalize hg : temporalCollocation { o with dropna := false } ref other window = res at h1 ⊢
  simp only [hm, hd, if_true, Bool.false_eq_true, if_false] at h1 ⊢
  cases hc : res with
  | error e => rw [hc] at h1; simp [Except.bind] at h1
  | ok rows =>
    rw [hc] at h1
    simp only [Except.bind, Except.ok.injEq] at h1 ⊢
    rw [h1, List.filter_eq_self]
    intro r hr
    have hlen : r.cells.length = other.width := by rw [h3 r hr]; simp
    obtain ⟨c, cs, hcc⟩ := List.exists_cons_of_length_pos (by rw [hlen]; exact hwidth)
    have hc0 := hsome r hr c (by rw [hcc]; exact List.mem_cons_self ..)
    obtain ⟨x, rfl⟩ := Option.ne_none_iff_exists'.mp hc0
    simp [allNaN, hcc]

end

/-- the mean of 1.5 and 2 and of 0.5 and 1 in floating point -/
example : typedCollocation .float (-9) { mean := true } [0, 5] (⟨2, [⟨0, [some 1, some (1 / 2)]⟩, ⟨1, [some 2, some 1]⟩]⟩ : Frame ℚ ℚ) 1 =
    .ok [⟨0, [some (3 / 2), some (3 / 4)], none, none⟩, ⟨5, [none, none], none, none⟩] := by decide +kernel

/-- **C90, negation.** With integers in the first column the means of all columns are cut off, also those of a column with other numbers, and times
without data get a number. -/
theorem int_mean_truncated :
    typedCollocation .int (-9) { mean := true } [0, 5] (⟨2, [⟨0, [some 1, some (1 / 2)]⟩, ⟨1, [some 2, some 1]⟩]⟩ : Frame ℚ ℚ) 1 =
      .ok [⟨0, [some 1, some 0], none, none⟩, ⟨5, [some (-9), some (-9)], none, none⟩] := by decide +kernel

section
variable {K : Type} [Field K] [LinearOrder K] [IsStrictOrderedRing K] [FloorRing K]

/-- **C90, negation.** What integers keep of a mean: an integer less than one away from it, on the side of zero. -/
theorem int_store (garbage : ℤ) (x : K) : ∃ z : ℤ, store .int garbage (some x) = some (z : K) ∧ |x - z| < 1 ∧ |(z : K)| ≤ |x| ∧ 0 ≤ x * z := by
  refine ⟨trunc x, rfl, ?_⟩
  unfold trunc
  split
  · rename_i h
    have h1 := Int.floor_le x
    have h2 := Int.lt_floor_add_one x
    have h3 : (0 : K) ≤ ⌊x⌋ := by exact_mod_cast Int.floor_nonneg.mpr h
    refine ⟨?_, ?_, mul_nonneg h h3⟩
    · rw [abs_lt]; constructor <;> linarith
    · rw [abs_of_nonneg h3, abs_of_nonneg h]; exact h1
  · rename_i h
    have h0 : x ≤ 0 := le_of_lt (not_le.mp h)
    have h1 := Int.le_ceil x
    have h2 := Int.ceil_lt_add_one x
    have h3 : ((⌈x⌉ : ℤ) : K) ≤ 0 := by exact_mod_cast Int.ceil_le.mpr (by simpa using h0)
    refine ⟨?_, ?_, mul_nonneg_of_nonpos_of_nonpos h0 h3⟩
    · rw [abs_lt]; constructor <;> linarith
    · rw [abs_of_nonpos h3, abs_of_nonpos h0]; linarith

/-- **C90, negation.** If the first column has booleans, every mean becomes 0 or 1: 0 only where the mean is 0, 1 also where there is no value. -/
theorem bool_store (garbage : ℤ) (x : Option K) : (store .bool garbage x = some 0 ∧ x = some 0) ∨ (store .bool garbage x = some 1 ∧ x ≠ some 0) := by
  cases x with
  | none => exact .inr ⟨rfl, by simp⟩
  | some x =>
    by_cases h : x = 0
    · exact .inl ⟨by simp [store, h], by rw [h]⟩
    · exact .inr ⟨by simp [store, h], by simpa using h⟩

end

/-! ### C91 -/

section
variable {K : Type} [Field K] [LinearOrder K] [IsStrictOrderedRing K] [FloorRing K]

/-- no reference time has an observation in its window -/
def NoMatch (ref : List K) (other : Frame K K) (window : K) : Prop := ∀ t ∈ ref, ∀ x ∈ other.rows, window < |x.time - t|

/-- **C91.** Nearest collocation of a frame without any match warns. -/
theorem checkna_warns_partial (o : Opts) (ref : List K) (other : Frame K K) (window : K) (hw : 0 ≤ window) (hm : o.mean = false)
    (hf : o.flag = none) (hwidth : 0 < other.width) (hno : NoMatch ref other window) (b : Bool)
    (h : warnsNoMatch true false o ref other window = .ok b) : b = true := by
  unfold warnsNoMatch at h
  cases hc : temporalCollocation { o with dropna := false } ref other window with
  | error e => rw [hc] at h; simp [Except.bind] at h
  | ok rows =>
    rw [hc] at h
    simp only [Except.bind, Except.ok.injEq, Bool.true_and] at h
    obtain ⟨h1, h2⟩ := nearest_collocation { o with dropna := false } ref other window hw hm hf rfl rows hc
    rw [← h]
    unfold noMatchTest
    rw [if_neg (by simp), Bool.or_eq_true, Bool.or_eq_true]
    refine Or.inl (Or.inl ?_)
    rw [List.any_eq_true]
    refine ⟨0, List.mem_range.mpr hwidth, ?_⟩
    rw [List.all_eq_true]
    intro r hr
    obtain ⟨m, g1, g2, -⟩ := h2 r hr
    have ht : r.time ∈ ref := (h1.2.2 _).mpr (List.mem_map_of_mem hr)
    have hmn : m = none := by
      cases m with
      | none => rfl
      | some x =>
        have hx := List.mem_of_find?_eq_some g1.2.1
        exact absurd g1.1 (not_le.mpr (hno _ ht x hx))
    rw [g2, hmn]
    simp [shown, List.getElem?_replicate, hwidth]

/-- **C91.** Without `checkna` there is no warning. -/
theorem checkna_off (series : Bool) (o : Opts) (ref : List K) (other : Frame K K) (window : K) (b : Bool)
    (h : warnsNoMatch false series o ref other window = .ok b) : b = false := by
  unfold warnsNoMatch at h
  cases hc : temporalCollocation { o with dropna := false } ref other window with
  | error e => rw [hc] at h; simp [Except.bind] at h
  | ok rows => rw [hc] at h; simpa [Except.bind] using h.symm

/-- **C91, partial.** If the call warns for a frame (nearest), there is a column without a value at all reference times. Missing: the column may be empty
although matches were found, see `checkna_warns_with_matches`. -/
theorem checkna_column_partial (o : Opts) (ref : List K) (other : Frame K K) (window : K) (hw : 0 ≤ window) (hm : o.mean = false)
    (hf : o.flag = none) (hi : o.returnIndex = false) (hdist : o.returnDistance = false)
    (h : warnsNoMatch true false o ref other window = .ok true) :
    ∃ i < other.width, ∀ t ∈ ref, ∃ m, IsNearest other.rows window t m ∧ ((shown other.width m)[i]?).join = none := by
  unfold warnsNoMatch at h
  cases hc : temporalCollocation { o with dropna := false } ref other window with
  | error e => rw [hc] at h; simp [Except.bind] at h
  | ok rows =>
    rw [hc] at h
    simp only [Except.bind, Except.ok.injEq, Bool.true_and] at h
    obtain ⟨h1, h2⟩ := nearest_collocation { o with dropna := false } ref other window hw hm hf rfl rows hc
    unfold noMatchTest at h
    rw [if_neg (by simp), hi, hdist] at h
    simp only [Bool.or_self, Bool.and_false, Bool.false_and, Bool.or_false, List.any_eq_true, List.mem_range, List.all_eq_true] at h
    obtain ⟨i, hi', hcol⟩ := h
    refine ⟨i, hi', ?_⟩
    intro t ht
    obtain ⟨r, hr, rfl⟩ := List.mem_map.mp ((h1.2.2 t).mp ht)
    obtain ⟨m, g1, g2, -⟩ := h2 r hr
    refine ⟨m, g1, ?_⟩
    have := hcol r hr
    rw [g2] at this
    simpa using this

end

/-- no observation near the reference: warning -/
example : NoMatch [(0 : ℚ)] ⟨1, [⟨5, [some 1]⟩]⟩ 1 ∧ warnsNoMatch true false {} [0] (⟨1, [⟨5, [some 1]⟩]⟩ : Frame ℚ ℚ) 1 = .ok true := by
  refine ⟨?_, by decide +kernel⟩
  intro t ht x hx
  simp only [List.mem_singleton] at ht hx
  subst ht hx
  decide +kernel

/-- all reference times have matches with values: no warning -/
example : warnsNoMatch true false {} [0, 5] (⟨1, [⟨0, [some 1]⟩, ⟨5, [some 1]⟩]⟩ : Frame ℚ ℚ) 1 = .ok false := by decide +kernel

/-- **C91, negation.** Every reference time has a match, with a value in the first column, but the second column is empty: warning. -/
theorem checkna_warns_with_matches :
    warnsNoMatch true false {} [0, 5] (⟨2, [⟨0, [some 1, none]⟩, ⟨5, [some 1, none]⟩]⟩ : Frame ℚ ℚ) 1 = .ok true := by decide +kernel

/-- **C91, negation.** For a series a single reference time without match is enough for the warning that no match has been found. -/
theorem checkna_series_warns_with_matches :
    warnsNoMatch true true {} [0, 5, 9] (⟨1, [⟨0, [some 1]⟩, ⟨5, [some 1]⟩]⟩ : Frame ℚ ℚ) 1 = .ok true := by decide +kernel

example := checkna_warns_partial {} [(0 : ℚ)] ⟨1, [⟨5, [some 1]⟩]⟩ 1 (by norm_num) rfl rfl (by decide)
  (by intro t ht x hx; simp only [List.mem_singleton] at ht hx; subst ht hx; norm_num) true (by decide +kernel)

end Verif.Collocation
