import Verif.Collocation.Spec
import Verif.Common.ListAux
import Verif.Resample.Props
import Mathlib.Data.List.Induction
import Mathlib.Data.List.Nodup

set_option linter.unusedSectionVars false

namespace Verif.Collocation

variable {K V : Type} [Field K] [LinearOrder K] [IsStrictOrderedRing K]

/-! ### duplicates -/

theorem dedupeTimes_sublist : ∀ l : List K, (dedupeTimes l).Sublist l
  | [] => by simp [dedupeTimes]
  | t :: ts => by
    unfold dedupeTimes
    exact (List.filter_sublist.trans (dedupeTimes_sublist ts)).cons_cons t

theorem mem_dedupeTimes : ∀ (l : List K) (x : K), x ∈ l ↔ x ∈ dedupeTimes l
  | [], x => by simp [dedupeTimes]
  | t :: ts, x => by
    unfold dedupeTimes
    simp only [List.mem_cons, List.mem_filter, ← mem_dedupeTimes ts]
    by_cases h : x = t <;> simp [h]

theorem nodup_dedupeTimes : ∀ l : List K, (dedupeTimes l).Nodup
  | [] => by simp [dedupeTimes]
  | t :: ts => by
    unfold dedupeTimes
    refine List.nodup_cons.2 ⟨by simp, (nodup_dedupeTimes ts).filter _⟩

theorem dedupeTimes_spec (l : List K) : IsDistinctOf (dedupeTimes l) l :=
  ⟨nodup_dedupeTimes l, dedupeTimes_sublist l, mem_dedupeTimes l⟩

theorem dedupeTimes_of_nodup : ∀ {l : List K}, l.Nodup → dedupeTimes l = l
  | [], _ => rfl
  | t :: ts, h => by
    unfold dedupeTimes
    rw [dedupeTimes_of_nodup (List.nodup_cons.1 h).2]
    congr 1
    rw [List.filter_eq_self]
    intro x hx
    have := (List.nodup_cons.1 h).1
    simp only [decide_eq_true_eq]
    rintro rfl
    exact this hx

theorem dedupe_sublist : ∀ l : List (Row K V), (dedupe l).Sublist l
  | [] => by simp [dedupe]
  | t :: ts => by
    unfold dedupe
    exact (List.filter_sublist.trans (dedupe_sublist ts)).cons_cons t

theorem dedupe_times : ∀ l : List (Row K V), (dedupe l).map Row.time = dedupeTimes (l.map Row.time)
  | [] => rfl
  | r :: rs => by
    unfold dedupe
    simp only [List.map_cons, dedupeTimes, ← dedupe_times rs, List.filter_map]
    rfl

theorem dedupe_nodup (l : List (Row K V)) : ((dedupe l).map Row.time).Nodup := by
  rw [dedupe_times]; exact nodup_dedupeTimes _

theorem find_dedupe : ∀ (l : List (Row K V)) (t : K),
    (dedupe l).find? (fun x => decide (x.time = t)) = l.find? (fun x => decide (x.time = t))
  | [], t => rfl
  | r :: rs, t => by
    unfold dedupe
    by_cases h : r.time = t
    · simp [h]
    · have h' : ∀ x : Row K V, x.time = t → x.time ≠ r.time := fun x hx hr => h (hr ▸ hx)
      simp only [List.find?_cons, h, decide_false]
      rw [← find_dedupe rs t, List.find?_filter]
      congr 1
      funext x
      by_cases hx : x.time = t
      · simp [hx, Ne.symm h]
      · simp [hx]

theorem exists_dedupe {l : List (Row K V)} {x : Row K V} (hx : x ∈ l) :
    ∃ y ∈ dedupe l, y.time = x.time := by
  have : x.time ∈ dedupeTimes (l.map Row.time) := (mem_dedupeTimes _ _).1 (List.mem_map_of_mem hx)
  rw [← dedupe_times, List.mem_map] at this
  exact this

theorem dedupe_of_nodup {l : List (Row K V)} (h : (l.map Row.time).Nodup) : dedupe l = l := by
  induction l with
  | nil => rfl
  | cons r rs ih =>
    rw [List.map_cons, List.nodup_cons] at h
    unfold dedupe
    rw [ih h.2]
    congr 1
    rw [List.filter_eq_self]
    intro x hx
    simp only [decide_eq_true_eq]
    intro he
    exact h.1 (he ▸ List.mem_map_of_mem hx)

/-! ### neighbours -/

/-- Invariant of the pad fold. -/
theorem padRow_spec (t : K) : ∀ (rows : List (Row K V)),
    match padRow rows t with
    | none => ∀ x ∈ rows, t < x.time
    | some b => b.time ≤ t ∧ rows.find? (fun x => decide (x.time = b.time)) = some b ∧
        ∀ x ∈ rows, x.time ≤ t → x.time ≤ b.time := by
  intro rows
  unfold padRow
  induction rows using List.reverseRecOn with
  | nil => simp
  | append_singleton l a ih =>
    rw [List.foldl_append, List.foldl_cons, List.foldl_nil]
    by_cases ha : a.time ≤ t
    · rw [if_pos ha]
      revert ih
      cases hf : (l.foldl _ none : Option (Row K V)) with
      | none =>
        intro ih
        simp only at ih ⊢
        refine ⟨ha, ?_, ?_⟩
        · rw [List.find?_append]
          have : l.find? (fun x => decide (x.time = a.time)) = none := by
            rw [List.find?_eq_none]
            intro x hx
            have := ih x hx
            simp only [decide_eq_true_eq]
            intro he; rw [he] at this; exact absurd ha (not_le.2 this)
          simp [this]
        · intro x hx hxt
          rcases List.mem_append.1 hx with hx | hx
          · exact absurd hxt (not_le.2 (ih x hx))
          · simp at hx; rw [hx]
      | some b =>
        intro ih
        simp only at ih ⊢
        obtain ⟨h1, h2, h3⟩ := ih
        by_cases hb : b.time < a.time
        · rw [if_pos hb]
          refine ⟨ha, ?_, ?_⟩
          · rw [List.find?_append]
            have : l.find? (fun x => decide (x.time = a.time)) = none := by
              rw [List.find?_eq_none]
              intro x hx
              simp only [decide_eq_true_eq]
              intro he
              have := h3 x hx (he ▸ ha)
              rw [he] at this; exact absurd hb (not_lt.2 this)
            simp [this]
          · intro x hx hxt
            rcases List.mem_append.1 hx with hx | hx
            · exact le_trans (h3 x hx hxt) (le_of_lt hb)
            · simp at hx; rw [hx]
        · rw [if_neg hb]
          refine ⟨h1, ?_, ?_⟩
          · rw [List.find?_append, h2]; rfl
          · intro x hx hxt
            rcases List.mem_append.1 hx with hx | hx
            · exact h3 x hx hxt
            · simp at hx; rw [hx]; exact not_lt.1 hb
    · rw [if_neg ha]
      revert ih
      cases hf : (l.foldl _ none : Option (Row K V)) with
      | none =>
        intro ih x hx
        rcases List.mem_append.1 hx with hx | hx
        · exact ih x hx
        · simp at hx; rw [hx]; exact not_le.1 ha
      | some b =>
        intro ih
        simp only at ih ⊢
        obtain ⟨h1, h2, h3⟩ := ih
        refine ⟨h1, ?_, ?_⟩
        · rw [List.find?_append, h2]; rfl
        · intro x hx hxt
          rcases List.mem_append.1 hx with hx | hx
          · exact h3 x hx hxt
          · simp at hx; rw [hx] at hxt; exact absurd hxt ha

/-- Invariant of the backfill fold. -/
theorem backfillRow_spec (t : K) : ∀ (rows : List (Row K V)),
    match backfillRow rows t with
    | none => ∀ x ∈ rows, x.time < t
    | some b => t ≤ b.time ∧ rows.find? (fun x => decide (x.time = b.time)) = some b ∧
        ∀ x ∈ rows, t ≤ x.time → b.time ≤ x.time := by
  intro rows
  unfold backfillRow
  induction rows using List.reverseRecOn with
  | nil => simp
  | append_singleton l a ih =>
    rw [List.foldl_append, List.foldl_cons, List.foldl_nil]
    by_cases ha : t ≤ a.time
    · rw [if_pos ha]
      revert ih
      cases hf : (l.foldl _ none : Option (Row K V)) with
      | none =>
        intro ih
        simp only at ih ⊢
        refine ⟨ha, ?_, ?_⟩
        · rw [List.find?_append]
          have : l.find? (fun x => decide (x.time = a.time)) = none := by
            rw [List.find?_eq_none]
            intro x hx
            have := ih x hx
            simp only [decide_eq_true_eq]
            intro he; rw [he] at this; exact absurd ha (not_le.2 this)
          simp [this]
        · intro x hx hxt
          rcases List.mem_append.1 hx with hx | hx
          · exact absurd hxt (not_le.2 (ih x hx))
          · simp at hx; rw [hx]
      | some b =>
        intro ih
        simp only at ih ⊢
        obtain ⟨h1, h2, h3⟩ := ih
        by_cases hb : a.time < b.time
        · rw [if_pos hb]
          refine ⟨ha, ?_, ?_⟩
          · rw [List.find?_append]
            have : l.find? (fun x => decide (x.time = a.time)) = none := by
              rw [List.find?_eq_none]
              intro x hx
              simp only [decide_eq_true_eq]
              intro he
              have := h3 x hx (he ▸ ha)
              rw [he] at this; exact absurd hb (not_lt.2 this)
            simp [this]
          · intro x hx hxt
            rcases List.mem_append.1 hx with hx | hx
            · exact le_trans (le_of_lt hb) (h3 x hx hxt)
            · simp at hx; rw [hx]
        · rw [if_neg hb]
          refine ⟨h1, ?_, ?_⟩
          · rw [List.find?_append, h2]; rfl
          · intro x hx hxt
            rcases List.mem_append.1 hx with hx | hx
            · exact h3 x hx hxt
            · simp at hx; rw [hx]; exact not_lt.1 hb
    · rw [if_neg ha]
      revert ih
      cases hf : (l.foldl _ none : Option (Row K V)) with
      | none =>
        intro ih x hx
        rcases List.mem_append.1 hx with hx | hx
        · exact ih x hx
        · simp at hx; rw [hx]; exact not_le.1 ha
      | some b =>
        intro ih
        simp only at ih ⊢
        obtain ⟨h1, h2, h3⟩ := ih
        refine ⟨h1, ?_, ?_⟩
        · rw [List.find?_append, h2]; rfl
        · intro x hx hxt
          rcases List.mem_append.1 hx with hx | hx
          · exact h3 x hx hxt
          · simp at hx; rw [hx] at hxt; exact absurd hxt ha

/-- The lookup returns what the specification asks for. -/
theorem nearestRow_isNearest (rows : List (Row K V)) (w t : K) :
    IsNearest rows w t (nearestRow rows w t) := by
  have hp := padRow_spec t rows
  have hb := backfillRow_spec t rows
  unfold nearestRow
  -- reduce to: the candidate is nearest
  have key : ∀ c : Row K V,
      (rows.find? (fun x => decide (x.time = c.time)) = some c) →
      (∀ x ∈ rows, |c.time - t| ≤ |x.time - t| ∧ (|x.time - t| = |c.time - t| → x.time ≤ c.time)) →
      IsNearest rows w t (if |c.time - t| ≤ w then some c else none) := by
    intro c h1 h2
    split
    · rename_i h; exact ⟨h, h1, h2⟩
    · rename_i h
      intro x hx
      exact lt_of_lt_of_le (not_le.1 h) (h2 x hx).1
  revert hp hb
  cases padRow rows t with
  | none =>
    cases backfillRow rows t with
    | none =>
      intro hp hb x hx
      exact absurd (hp x hx) (not_lt.2 (le_of_lt (hb x hx)))
    | some b =>
      rintro hp ⟨b1, b2, b3⟩
      apply key b b2
      intro x hx
      have hx1 := hp x hx
      have hx2 := b3 x hx (le_of_lt hx1)
      rw [abs_of_nonneg (by linarith), abs_of_nonneg (by linarith)]
      constructor
      · linarith
      · intro h; linarith
  | some a =>
    cases backfillRow rows t with
    | none =>
      rintro ⟨a1, a2, a3⟩ hb
      apply key a a2
      intro x hx
      have hx1 := hb x hx
      have hx2 := a3 x hx (le_of_lt hx1)
      rw [abs_of_nonpos (by linarith), abs_of_nonpos (by linarith)]
      constructor
      · linarith
      · intro h; linarith
    | some b =>
      rintro ⟨a1, a2, a3⟩ ⟨b1, b2, b3⟩
      have ea : |a.time - t| = t - a.time := by rw [abs_of_nonpos (by linarith)]; ring
      have eb : |b.time - t| = b.time - t := abs_of_nonneg (by linarith)
      by_cases hlt : |a.time - t| < |b.time - t|
      · simp only [if_pos hlt]
        apply key a a2
        intro x hx
        rw [ea, eb] at hlt
        rw [ea]
        rcases le_total x.time t with hxt | hxt
        · have := a3 x hx hxt
          rw [abs_of_nonpos (by linarith)]
          constructor
          · linarith
          · intro h; linarith
        · have := b3 x hx hxt
          rw [abs_of_nonneg (by linarith)]
          constructor
          · linarith
          · intro h; linarith
      · simp only [if_neg hlt]
        apply key b b2
        intro x hx
        rw [ea, eb] at hlt
        rw [eb]
        rcases le_total x.time t with hxt | hxt
        · have := a3 x hx hxt
          rw [abs_of_nonpos (by linarith)]
          constructor
          · linarith
          · intro h; linarith
        · have := b3 x hx hxt
          rw [abs_of_nonneg (by linarith)]
          constructor
          · linarith
          · intro h; linarith

/-- Looking at the first of simultaneous observations only does not matter. -/
theorem isNearest_dedupe {rows : List (Row K V)} {w t : K} {m : Option (Row K V)}
    (h : IsNearest (dedupe rows) w t m) : IsNearest rows w t m := by
  cases m with
  | none =>
    intro x hx
    obtain ⟨y, hy, he⟩ := exists_dedupe hx
    rw [← he]; exact h y hy
  | some r =>
    obtain ⟨h1, h2, h3⟩ := h
    refine ⟨h1, ?_, ?_⟩
    · rw [← find_dedupe]; exact h2
    · intro x hx
      obtain ⟨y, hy, he⟩ := exists_dedupe hx
      rw [← he]; exact h3 y hy

/-- The specification determines the match. -/
theorem isNearest_unique {rows : List (Row K V)} {w t : K} {m m' : Option (Row K V)}
    (h : IsNearest rows w t m) (h' : IsNearest rows w t m') : m = m' := by
  cases m with
  | none =>
    cases m' with
    | none => rfl
    | some r =>
      exact absurd h'.1 (not_le.2 (h r (List.mem_of_find?_eq_some h'.2.1)))
  | some r =>
    cases m' with
    | none => exact absurd h.1 (not_le.2 (h' r (List.mem_of_find?_eq_some h.2.1)))
    | some r' =>
      have hr := List.mem_of_find?_eq_some h.2.1
      have hr' := List.mem_of_find?_eq_some h'.2.1
      have a1 := h.2.2 r' hr'
      have a2 := h'.2.2 r hr
      have e : |r.time - t| = |r'.time - t| := le_antisymm a1.1 a2.1
      have et : r.time = r'.time := le_antisymm (a2.2 e) (a1.2 e.symm)
      have := h.2.1
      rw [et, h'.2.1] at this
      exact this.symm

/-- Lookups for a frame with unique index and a window that is not negative. -/
theorem reindexNearest_ok {rows : List (Row K V)} {w : K} {ref : List K} (hw : 0 ≤ w)
    (hn : (rows.map Row.time).Nodup) {out : List (K × Option (Row K V))}
    (h : reindexNearest rows w ref = .ok out) :
    out = ref.map (fun t => (t, nearestRow rows w t)) := by
  unfold reindexNearest at h
  split at h
  · rename_i he
    injection h with h
    subst h; subst he
    rw [List.map_map]
    apply List.map_congr_left
    intro r hr
    simp only [Function.comp]
    congr 1
    have h1 : IsNearest rows w r.time (some r) := by
      refine ⟨by simpa using hw, ?_, ?_⟩
      · have hsome : (rows.find? (fun x => decide (x.time = r.time))).isSome := by
          rw [List.find?_isSome]; exact ⟨r, hr, by simp⟩
        obtain ⟨y, hy⟩ := Option.isSome_iff_exists.1 hsome
        have hy1 := List.find?_some hy
        have hy2 := List.mem_of_find?_eq_some hy
        simp only [decide_eq_true_eq] at hy1
        rw [hy]
        congr 1
        exact List.inj_on_of_nodup_map hn hy2 hr hy1
      · intro x hx
        constructor
        · simp
        · intro hx0
          simp only [sub_self, abs_zero, abs_eq_zero, sub_eq_zero] at hx0
          exact le_of_eq hx0
    exact isNearest_unique h1 (nearestRow_isNearest rows w r.time)
  · split at h
    · injection h with h
      rename_i hr
      have : ref = [] := by simpa using hr
      subst this; subst h; rfl
    · split at h
      · injection h with h; exact h.symm
      · cases h

/-- Closed form of a result row from the match `m`. -/
def outOf (o : Opts) (width : Nat) (t : K) (m : Option (Row K V)) : OutRow K V :=
  ⟨t, shown width m, if o.returnIndex || o.returnDistance then m.map Row.time else none,
    if o.returnDistance then m.map (fun x => x.time - t) else none⟩

theorem nearestBranch_plain (o : Opts) (w : K) (width : Nat) (rows : List (Row K V)) (ref : List K)
    (hw : 0 ≤ w) (hn : (rows.map Row.time).Nodup) :
    nearestBranch o w width rows ref none =
      match reindexNearest rows w ref with
      | .error e => .error e
      | .ok _ => .ok (ref.map (fun t => outOf o width t (nearestRow rows w t))) := by
  unfold nearestBranch
  simp only [bind, Except.bind, pure, Except.pure]
  cases hr : reindexNearest rows w ref with
  | error e => rfl
  | ok c =>
    have hc := reindexNearest_ok hw hn hr
    subst hc
    simp only [List.map_map]
    congr 1
    apply List.map_congr_left
    intro t _
    simp only [Function.comp, ofLookup, outOf, shown]
    cases nearestRow rows w t <;> simp

theorem select_ok {mask : List Bool} {rows : List (Row K V)} (h : mask.length = rows.length) :
    select mask rows = .ok ((rows.zip mask).filterMap (fun x => if x.2 then some x.1 else none)) := by
  simp [select, h]

theorem select_unflagged {f : List Bool} {rows : List (Row K V)} :
    (rows.zip (f.map (!·))).filterMap (fun x => if x.2 then some x.1 else none) = unflagged rows f := by
  unfold unflagged
  induction rows generalizing f with
  | nil => simp
  | cons r rs ih =>
    cases f with
    | nil => simp
    | cons b f =>
      simp only [List.map_cons, List.zip_cons_cons, List.filterMap_cons, List.filter_cons]
      cases b <;> simp [ih]

theorem select_flagged {f : List Bool} {rows : List (Row K V)} :
    (rows.zip f).filterMap (fun x => if x.2 then some x.1 else none) = flaggedRows rows f := by
  unfold flaggedRows
  induction rows generalizing f with
  | nil => simp
  | cons r rs ih =>
    cases f with
    | nil => simp
    | cons b f =>
      simp only [List.zip_cons_cons, List.filterMap_cons, List.filter_cons]
      cases b <;> simp [ih]

theorem unflagged_sublist (rows : List (Row K V)) (f : List Bool) : (unflagged rows f).Sublist rows := by
  unfold unflagged
  have h1 : (List.map Prod.fst (List.filter (fun x => !x.2) (rows.zip f))).Sublist
      (List.map Prod.fst (rows.zip f)) := List.Sublist.map _ List.filter_sublist
  exact h1.trans (map_fst_zip_sublist _ _)

theorem flaggedRows_sublist (rows : List (Row K V)) (f : List Bool) : (flaggedRows rows f).Sublist rows := by
  unfold flaggedRows
  have h1 : (List.map Prod.fst (List.filter (fun x => x.2) (rows.zip f))).Sublist
      (List.map Prod.fst (rows.zip f)) := List.Sublist.map _ List.filter_sublist
  exact h1.trans (map_fst_zip_sublist _ _)

/-- Closed form of a result row with flags. -/
def outOfFlag (o : Opts) (width : Nat) (t : K) (mv mi : Option (Row K V)) : OutRow K V :=
  let c := if o.useInvalid then List.zipWith (fun x y => x.orElse (fun _ => y)) (shown width mv) (shown width mi)
    else shown width mv
  let ix := if o.useInvalid then (mv.map Row.time).orElse (fun _ => mi.map Row.time) else mv.map Row.time
  ⟨t, c, if o.returnIndex || o.returnDistance then ix else none,
    if o.returnDistance then ix.map (fun x => x - t) else none⟩

theorem nearestBranch_flag (o : Opts) (w : K) (width : Nat) (rows : List (Row K V)) (ref : List K)
    (f : List Bool) (hw : 0 ≤ w) (hn : (rows.map Row.time).Nodup) (out : List (OutRow K V))
    (h : nearestBranch o w width rows ref (some f) = .ok out) :
    f.length = rows.length ∧
    out = ref.map (fun t => outOfFlag o width t (nearestRow (unflagged rows f) w t)
      (nearestRow (flaggedRows rows f) w t)) := by
  unfold nearestBranch at h
  simp only [bind, Except.bind, pure, Except.pure] at h
  have hlen : f.length = rows.length := by
    by_contra hne
    simp [select, hne] at h
  refine ⟨hlen, ?_⟩
  rw [select_ok (by simpa using hlen), select_unflagged] at h
  simp only at h
  have hnu : ((unflagged rows f).map Row.time).Nodup := hn.sublist ((unflagged_sublist rows f).map _)
  have hnf : ((flaggedRows rows f).map Row.time).Nodup := hn.sublist ((flaggedRows_sublist rows f).map _)
  cases hr : reindexNearest (unflagged rows f) w ref with
  | error e => rw [hr] at h; simp at h
  | ok c =>
    have hc := reindexNearest_ok hw hnu hr
    subst hc
    rw [hr] at h
    simp only at h
    by_cases hu : o.useInvalid
    · simp only [hu, if_true] at h
      rw [select_ok hlen, select_flagged] at h
      simp only at h
      cases hr2 : reindexNearest (flaggedRows rows f) w ref with
      | error e => rw [hr2] at h; simp at h
      | ok c =>
        have hc := reindexNearest_ok hw hnf hr2
        subst hc
        rw [hr2] at h
        simp only [Except.ok.injEq] at h
        subst h
        simp only [List.map_map, List.zipWith_map, List.map_zipWith]
        rw [List.zipWith_self]
        apply List.map_congr_left
        intro t _
        simp only [Function.comp, ofLookup, outOfFlag, shown, combineFirst, hu, if_true]
        cases nearestRow (unflagged rows f) w t <;> cases nearestRow (flaggedRows rows f) w t <;>
          simp
    · simp only [hu] at h
      simp only [Bool.false_eq_true, if_false, Except.ok.injEq] at h
      subst h
      simp only [List.map_map]
      apply List.map_congr_left
      intro t _
      simp only [Function.comp, ofLookup, outOfFlag, shown, hu]
      cases nearestRow (unflagged rows f) w t <;> simp

/-! ### concatenation -/

theorem cellsAt_getElem {width : Nat} {rows : List (Row K K)} (hn : (rows.map Row.time).Nodup)
    {i : Nat} {r : Row K K} (h : rows[i]? = some r) : cellsAt width rows r.time = r.cells := by
  unfold cellsAt
  have hmem := List.mem_of_getElem? h
  have hsome : (rows.find? (fun x => decide (x.time = r.time))).isSome := by
    rw [List.find?_isSome]; exact ⟨r, hmem, by simp⟩
  obtain ⟨y, hy⟩ := Option.isSome_iff_exists.1 hsome
  have hy1 := List.find?_some hy
  have hy2 := List.mem_of_find?_eq_some hy
  simp only [decide_eq_true_eq] at hy1
  rw [hy]
  rw [List.inj_on_of_nodup_map hn hy2 hmem hy1]

theorem concat_spec {frames : List (Frame K K)} (hne : frames ≠ [])
    (hn : ∀ f ∈ frames, (f.rows.map Row.time).Nodup) :
    ∃ rows, concatColumns frames = .ok rows ∧ (rows.map Row.time).Nodup ∧
      (∀ t, t ∈ rows.map Row.time ↔ ∃ f ∈ frames, t ∈ f.rows.map Row.time) ∧
      (∀ r ∈ rows, r.cells = frames.flatMap (fun f => cellsAt f.width f.rows r.time)) ∧
      (∀ idx, (∀ f ∈ frames, f.rows.map Row.time = idx) → rows.map Row.time = idx) := by
  cases frames with
  | nil => exact absurd rfl hne
  | cons f0 fs =>
    unfold concatColumns
    simp only [List.map_cons]
    split
    · rename_i hall
      rw [List.all_eq_true] at hall
      have heq : ∀ f ∈ f0 :: fs, f.rows.map Row.time = f0.rows.map Row.time := by
        intro f hf
        rcases List.mem_cons.1 hf with rfl | hf
        · rfl
        · have := hall _ (List.mem_map_of_mem hf)
          simpa using this
      have htimes : (List.map Row.time (List.map (fun x : K × Nat => (⟨x.1, (f0 :: fs).flatMap (fun f => cellsNth f.width f.rows x.2)⟩ : Row K K)) (f0.rows.map Row.time).zipIdx)) =
          f0.rows.map Row.time := by
        rw [List.map_map]
        have : (Row.time ∘ fun x : K × Nat => (⟨x.1, (f0 :: fs).flatMap (fun f => cellsNth f.width f.rows x.2)⟩ : Row K K)) = Prod.fst := rfl
        rw [this, List.zipIdx_map_fst]
      refine ⟨_, rfl, ?_, ?_, ?_, ?_⟩
      · rw [htimes]; exact hn f0 (by simp)
      · intro t
        rw [htimes]
        constructor
        · intro h; exact ⟨f0, by simp, h⟩
        · rintro ⟨f, hf, h⟩; rw [heq f hf] at h; exact h
      · intro r hr
        obtain ⟨⟨t, i⟩, hx, rfl⟩ := List.mem_map.1 hr
        rw [List.mem_zipIdx_iff_getElem?] at hx
        simp only at hx ⊢
        apply List.flatMap_congr
        intro f hf
        have hx' : (f.rows.map Row.time)[i]? = some t := by rw [heq f hf]; exact hx
        rw [List.getElem?_map] at hx'
        cases hri : f.rows[i]? with
        | none => rw [hri] at hx'; simp at hx'
        | some r =>
          rw [hri] at hx'
          simp only [Option.map_some, Option.some.injEq] at hx'
          subst hx'
          rw [cellsAt_getElem (hn f hf) hri, cellsNth, hri]
      · intro idx hidx
        rw [htimes]; exact hidx f0 (by simp)
    · rename_i hall
      have hnd : ((f0.rows.map Row.time) :: List.map (fun f => List.map Row.time f.rows) fs).all
          (fun j => decide j.Nodup) = true := by
        rw [List.all_eq_true]
        intro j hj
        rw [← List.map_cons (f := fun f : Frame K K => f.rows.map Row.time)] at hj
        obtain ⟨f, hf, rfl⟩ := List.mem_map.1 hj
        simpa using hn f hf
      rw [if_pos hnd]
      refine ⟨_, rfl, ?_, ?_, ?_, ?_⟩
      · rw [List.map_map]
        have : (Row.time ∘ fun t : K => (⟨t, (f0 :: fs).flatMap (fun f => cellsAt f.width f.rows t)⟩ : Row K K)) = id := rfl
        rw [this, List.map_id]; exact nodup_dedupeTimes _
      · intro t
        rw [List.map_map]
        have : (Row.time ∘ fun t : K => (⟨t, (f0 :: fs).flatMap (fun f => cellsAt f.width f.rows t)⟩ : Row K K)) = id := rfl
        rw [this, List.map_id, unionTimes, ← mem_dedupeTimes, List.mem_flatMap]
      · intro r hr
        obtain ⟨t, _, rfl⟩ := List.mem_map.1 hr
        rfl
      · intro idx hidx
        exfalso
        apply hall
        rw [List.all_eq_true]
        intro j hj
        obtain ⟨f, hf, rfl⟩ := List.mem_map.1 hj
        simp [hidx f (by simp [hf]), hidx f0 (by simp)]

/-- Closed form of the frame that `combined_temporal_collocation` gets for one data set. -/
theorem collocation_closed {o : Opts} {ref : List K} {f : Frame K K} {w : K} (hw : 0 ≤ w)
    (hm : o.mean = false) (hf : o.flag = none) {c : List (OutRow K K)}
    (h : temporalCollocation { o with returnIndex := false, returnDistance := false } ref f w = .ok c) :
    c.map (fun r => Row.mk r.time r.cells) =
      ((dedupeTimes ref).map (fun t => Row.mk t (shown f.width (nearestRow (dedupe f.rows) w t)))).filter
        (fun r => !o.dropna || r.cells.any Option.isSome) := by
  unfold temporalCollocation at h
  simp only [hf, checkFlag, hm, Bool.not_false, Bool.or_true, if_true,
    Bool.false_eq_true, if_false, bind, Except.bind, pure, Except.pure] at h
  rw [nearestBranch_plain _ w f.width _ _ hw (dedupe_nodup f.rows)] at h
  cases hr : reindexNearest (dedupe f.rows) w (dedupeTimes ref) with
  | error e => rw [hr] at h; simp at h
  | ok c' =>
    rw [hr] at h
    simp only [Except.ok.injEq] at h
    subst h
    cases hd : o.dropna with
    | false =>
      simp only [Bool.false_eq_true, if_false, Bool.not_false, Bool.true_or, List.map_map]
      rw [List.filter_eq_self.2 (by simp)]
      rfl
    | true =>
      simp only [if_true, Bool.not_true, Bool.false_or]
      rw [List.filter_map, List.filter_map, List.map_map]
      have : ((fun r : Row K K => r.cells.any Option.isSome) ∘ fun t =>
          Row.mk t (shown f.width (nearestRow (dedupe f.rows) w t))) =
          ((fun r : OutRow K K => !allNaN r) ∘ fun t =>
          outOf { o with returnIndex := false, returnDistance := false } f.width t
            (nearestRow (dedupe f.rows) w t)) := by
        funext t
        simp only [Function.comp, allNaN, outOf, Bool.or_self, Bool.false_eq_true, if_false,
          Option.isNone_none, Bool.and_true]
        rw [Bool.eq_iff_iff]
        simp [Option.isSome_iff_ne_none]
      rw [this]
      rfl

theorem times_collocation (f : Frame K K) (w : K) (q : Row K K → Bool) (ts : List K)
    (hn : ts.Nodup) :
    (((ts.map (fun t => Row.mk t (shown f.width (nearestRow (dedupe f.rows) w t)))).filter q).map Row.time).Nodup := by
  refine List.Nodup.sublist (List.Sublist.map _ List.filter_sublist) ?_
  rw [List.map_map]
  have : (Row.time ∘ fun t => Row.mk t (shown f.width (nearestRow (dedupe f.rows) w t))) = id := rfl
  rw [this, List.map_id]; exact hn

theorem shown_length {f : Frame K K} (hwf : ∀ r ∈ f.rows, r.cells.length = f.width) (w t : K) :
    (shown f.width (nearestRow (dedupe f.rows) w t)).length = f.width := by
  have hq := nearestRow_isNearest (dedupe f.rows) w t
  cases hx : nearestRow (dedupe f.rows) w t with
  | none => simp [shown]
  | some x =>
    rw [hx] at hq
    exact hwf x ((dedupe_sublist _).subset (List.mem_of_find?_eq_some hq.2.1))

theorem cellsAt_collocation {f : Frame K K} (hwf : ∀ r ∈ f.rows, r.cells.length = f.width) (w : K)
    (drop : Bool) (ts : List K) {t : K} (ht : t ∈ ts) :
    cellsAt f.width ((ts.map (fun t => Row.mk t (shown f.width (nearestRow (dedupe f.rows) w t)))).filter
      (fun r => !drop || r.cells.any Option.isSome)) t = shown f.width (nearestRow (dedupe f.rows) w t) := by
  have hlen := shown_length hwf w t
  set g : K → Row K K := fun t => Row.mk t (shown f.width (nearestRow (dedupe f.rows) w t)) with hg
  unfold cellsAt
  cases hfind : ((ts.map g).filter (fun r => !drop || r.cells.any Option.isSome)).find? (fun r => decide (r.time = t)) with
  | some r =>
    have h1 := List.find?_some hfind
    have h2 := List.mem_of_find?_eq_some hfind
    simp only [decide_eq_true_eq] at h1
    obtain ⟨h3, _⟩ := List.mem_filter.1 h2
    obtain ⟨u, _, rfl⟩ := List.mem_map.1 h3
    simp only [hg] at h1 ⊢
    rw [h1]
  | none =>
    rw [List.find?_eq_none] at hfind
    have : ¬ (!drop || (g t).cells.any Option.isSome) = true := by
      intro hq
      exact hfind (g t) (List.mem_filter.2 ⟨List.mem_map_of_mem ht, hq⟩) (by simp [hg])
    simp only [Bool.or_eq_true, not_or, List.any_eq_true, hg] at this
    simp only
    symm
    rw [List.eq_replicate_iff]
    refine ⟨hlen, ?_⟩
    intro b hb
    cases b with
    | none => rfl
    | some v => exact absurd ⟨some v, hb, rfl⟩ this.2

end Verif.Collocation
