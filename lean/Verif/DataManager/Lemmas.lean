import Mathlib.Data.List.Nodup
import Mathlib.Data.List.Perm.Basic
import Verif.DfMetrics.Lemmas
import Verif.DataManager.Spec

/-! Lemmas for the data manager. -/

set_option linter.unusedSectionVars false

namespace Verif.DataManager

open DfMetrics (combinations mem_combinations combinations_nodup)

variable {α : Type} [LinearOrder α]

theorem chunks_flatten (k : ℕ) (hk : 0 < k) (rows : List (List α)) (h : ∀ r ∈ rows, r.length = k) (fuel : ℕ)
    (hf : rows.length ≤ fuel) : chunks k fuel rows.flatten = rows := by
  induction rows generalizing fuel with
  | nil => cases fuel <;> simp [chunks]
  | cons r rows ih =>
    cases fuel with
    | zero => simp at hf
    | succ fuel =>
      have hr := h r (by simp)
      unfold chunks
      rw [List.flatten_cons, if_neg, List.take_left' hr, List.drop_left' hr, ih (fun r hr => h r (by simp [hr])) fuel (by simpa using hf)]
      intro hc
      have := congrArg List.length hc
      rw [List.length_append] at this
      simp only [List.length_nil] at this
      omega

theorem length_le_flatten (rows : List (List α)) (h : ∀ r ∈ rows, 0 < r.length) : rows.length ≤ rows.flatten.length := by
  induction rows with
  | nil => simp
  | cons r rows ih =>
    have h1 := h r (by simp)
    have h2 := ih (fun r hr => h r (by simp [hr]))
    simp only [List.length_cons, List.flatten_cons, List.length_append]
    omega

theorem flatRow_length (r : Col α) (os : List (Col α)) : (flatRow r os).length = (os.length + 1) * 2 := by
  unfold flatRow
  induction os generalizing r with
  | nil => rfl
  | cons o os ih =>
    have := ih o
    rw [List.flatMap_cons, List.length_append, this]
    simp; omega

theorem pairUp_flat (l : List (Col α)) : pairUp (l.flatMap (fun p => [(ofLex p).1, (ofLex p).2])) = l := by
  induction l with
  | nil => rfl
  | cons p l ih =>
    rw [List.flatMap_cons]
    simp only [List.cons_append, List.nil_append, pairUp, ih]
    rfl

theorem evens_flat (l : List (Col α)) : evens (l.flatMap (fun p => [(ofLex p).1, (ofLex p).2])) = l.map (fun p => (ofLex p).1) := by
  induction l with
  | nil => rfl
  | cons p l ih =>
    rw [List.flatMap_cons]
    simp only [List.cons_append, List.nil_append, evens, ih, List.map_cons]

theorem dedup_length_iff (l : List α) : l.dedup.length = l.length ↔ l.Nodup := by
  constructor
  · intro h
    have := (List.dedup_sublist l).eq_of_length h
    rw [← this]; exact List.nodup_dedup l
  · intro h; rw [h.dedup]

/-- the columns of the other data sets -/
def otherColumns (ds : List (α × List α)) (ref : α) : List (Col α) :=
  (((ds.map Prod.fst).erase ref).insertionSort (· ≤ ·)).flatMap (fun o => ((ds.lookup o).getD []).map (col o))

theorem lookup_eq_some {β : Type} {ds : List (α × β)} (hn : (ds.map Prod.fst).Nodup) {k : α} {v : β} :
    ds.lookup k = some v ↔ (k, v) ∈ ds := by
  induction ds with
  | nil => simp
  | cons e ds ih =>
    obtain ⟨k', v'⟩ := e
    rw [List.map_cons, List.nodup_cons] at hn
    by_cases hk : k = k'
    · subst hk
      rw [List.lookup_cons_self]
      simp only [Option.some.injEq, List.mem_cons, Prod.mk.injEq, true_and]
      constructor
      · intro h; exact .inl h.symm
      · rintro (h | h)
        · exact h.symm
        · exact absurd (List.mem_map.mpr ⟨_, h, rfl⟩) hn.1
    · rw [List.lookup_cons, ]
      have : (k == k') = false := by simpa using hk
      rw [this]
      simp only [ih hn.2, List.mem_cons, Prod.mk.injEq, hk, false_and, false_or]

theorem lookup_eq_none {β : Type} {ds : List (α × β)} {k : α} : ds.lookup k = none ↔ k ∉ ds.map Prod.fst := by
  induction ds with
  | nil => simp
  | cons e ds ih =>
    obtain ⟨k', v'⟩ := e
    by_cases hk : k = k'
    · subst hk; simp
    · rw [List.lookup_cons]
      have : (k == k') = false := by simpa using hk
      rw [this]
      simp [ih, hk]

theorem mem_otherColumns {ds : List (α × List α)} (hn : (ds.map Prod.fst).Nodup) {ref : α} {p : Col α} :
    p ∈ otherColumns ds ref ↔ (ofLex p).1 ≠ ref ∧ ∃ cols, ((ofLex p).1, cols) ∈ ds ∧ (ofLex p).2 ∈ cols := by
  unfold otherColumns
  rw [List.mem_flatMap]
  constructor
  · rintro ⟨o, ho, hp⟩
    rw [List.mem_insertionSort, hn.mem_erase_iff] at ho
    obtain ⟨c, hc, rfl⟩ := List.mem_map.mp hp
    refine ⟨ho.1, ?_⟩
    cases hl : ds.lookup o with
    | none => rw [hl] at hc; simp at hc
    | some cols =>
      rw [hl] at hc
      exact ⟨cols, (lookup_eq_some hn).mp hl, hc⟩
  · rintro ⟨hne, cols, hc, hm⟩
    refine ⟨(ofLex p).1, ?_, ?_⟩
    · rw [List.mem_insertionSort, hn.mem_erase_iff]
      exact ⟨hne, List.mem_map.mpr ⟨_, hc, rfl⟩⟩
    · rw [(lookup_eq_some hn).mpr hc]
      exact List.mem_map.mpr ⟨(ofLex p).2, by simpa using hm, rfl⟩

theorem col_inj {d c d' c' : α} (h : col d c = col d' c') : d = d' ∧ c = c' := by
  unfold col at h
  have := toLex.injective h
  simpa using this

theorem otherColumns_nodup {ds : List (α × List α)} (hn : (ds.map Prod.fst).Nodup) (hc : ∀ e ∈ ds, e.2.Nodup) (ref : α) :
    (otherColumns ds ref).Nodup := by
  unfold otherColumns
  rw [List.nodup_flatMap]
  constructor
  · intro o _
    refine List.Nodup.map (fun a b h => (col_inj h).2) ?_
    cases hl : ds.lookup o with
    | none => simp
    | some cols => exact hc _ ((lookup_eq_some hn).mp hl)
  · have : (((ds.map Prod.fst).erase ref).insertionSort (· ≤ ·)).Nodup :=
      (List.perm_insertionSort _ _).nodup_iff.mpr (hn.erase _)
    refine (List.nodup_iff_pairwise_ne.mp this).imp ?_
    intro a b hab p hp hp'
    obtain ⟨c, -, rfl⟩ := List.mem_map.mp hp
    obtain ⟨c', -, h⟩ := List.mem_map.mp hp'
    exact hab (col_inj h).1.symm

/-- the model without the flattening detour -/
theorem getResultNames_eq (ds : List (α × List α)) (ref : α) (cols : List α) (hl : ds.lookup ref = some cols) (n : ℕ) (hn : n ≠ 0) :
    getResultNames ds ref n = .ok (((cols.flatMap (fun c => (combinations (n - 1) (otherColumns ds ref)).map (col ref c :: ·))).filter
      (fun L => decide ((L.map (fun p => (ofLex p).1)).Nodup))).map (fun L => L.insertionSort (· ≤ ·))) := by
  unfold getResultNames
  rw [hl]
  simp only [if_neg hn]
  set rows := (cols.map (col ref)).flatMap (fun r => (combinations (n - 1) (otherColumns ds ref)).map (flatRow r)) with hrows
  set base := cols.flatMap (fun c => (combinations (n - 1) (otherColumns ds ref)).map (col ref c :: ·)) with hbase
  have hrb : rows = base.map (fun L => L.flatMap (fun p => [(ofLex p).1, (ofLex p).2])) := by
    rw [hrows, hbase, List.flatMap_map, List.map_flatMap]
    apply List.flatMap_congr
    intro c _
    rw [List.map_map]
    rfl
  have hlen : ∀ L ∈ base, L.length = n := by
    intro L hL
    rw [hbase, List.mem_flatMap] at hL
    obtain ⟨c, -, hL⟩ := hL
    obtain ⟨S, hS, rfl⟩ := List.mem_map.mp hL
    have := ((mem_combinations _ _ _).mp hS).1
    simp only [List.length_cons]; omega
  have hk : ∀ r ∈ rows, r.length = n * 2 := by
    intro r hr
    rw [hrb] at hr
    obtain ⟨L, hL, rfl⟩ := List.mem_map.mp hr
    have h1 := hlen L hL
    cases L with
    | nil => simp at h1; omega
    | cons p L =>
      have := flatRow_length p L
      unfold flatRow at this
      rw [this]
      simp only [List.length_cons] at h1
      omega
  have hch : chunks (n * 2) rows.flatten.length rows.flatten = rows :=
    chunks_flatten _ (by omega) rows hk _ (length_le_flatten rows (fun r hr => by rw [hk r hr]; omega))
  have hgoal : chunks (n * 2) rows.flatten.length rows.flatten = base.map (fun L => L.flatMap (fun p => [(ofLex p).1, (ofLex p).2])) := by
    rw [hch, hrb]
  unfold otherColumns at hgoal hrows
  rw [hrows] at hgoal
  rw [hgoal, List.filter_map, List.map_map]
  congr 1
  have hf : base.filter ((fun ch => decide ((evens ch).dedup.length = n)) ∘ (fun L => L.flatMap (fun p => [(ofLex p).1, (ofLex p).2]))) =
      base.filter (fun L => decide ((L.map (fun p => (ofLex p).1)).Nodup)) := by
    apply List.filter_congr
    intro L hL
    simp only [Function.comp, evens_flat, decide_eq_decide]
    rw [← dedup_length_iff, List.length_map, hlen L hL]
  rw [hf]
  apply List.map_congr_left
  intro L _
  simp only [Function.comp, pairUp_flat]

theorem eq_filter_of_sublist {β : Type} [DecidableEq β] {S l : List β} (h : S.Sublist l) (hn : l.Nodup) :
    S = l.filter (fun x => decide (x ∈ S)) := by
  induction h with
  | slnil => rfl
  | cons a h ih =>
    rw [List.nodup_cons] at hn
    rw [List.filter_cons_of_neg (by simpa using fun ha => hn.1 (h.subset ha))]
    exact ih hn.2
  | cons_cons a h ih =>
    rename_i S l
    rw [List.nodup_cons] at hn
    rw [List.filter_cons_of_pos (by simp)]
    congr 1
    rw [ih hn.2]
    apply List.filter_congr
    intro x hx
    have hxa : x ≠ a := fun hc => hn.1 (hc ▸ hx)
    have := ih hn.2
    rw [← this]
    simp [hxa]

theorem perm_sublists_eq {β : Type} [DecidableEq β] {S S' l : List β} (h : S.Sublist l) (h' : S'.Sublist l) (hn : l.Nodup)
    (hp : S.Perm S') : S = S' := by
  rw [eq_filter_of_sublist h hn, eq_filter_of_sublist h' hn]
  apply List.filter_congr
  intro x _
  rw [decide_eq_decide]
  exact hp.mem_iff

end Verif.DataManager
