import Verif.Matchers.Spec
import Verif.Collocation.Props
import Verif.DfMetrics.Lemmas
import Mathlib.Data.List.Perm.Basic

/-! C48 and C61: the temporal matchers of the validation framework. -/

namespace Verif.Matchers
set_option linter.unusedSectionVars false

open Verif.Collocation (Row Frame Opts Combined combinedCollocation IsNearest shown isNearest_unique)
open Verif.DfMetrics (combinations mem_combinations combinations_nodup)

section
variable {α K : Type} [LinearOrder α] [Field K] [LinearOrder K] [IsStrictOrderedRing K]

theorem rowAt_unique {β : Type} {window : K} {ref : DF β K} {others : List (DF β K)} {t : K} {c c' : List (Option K)}
    (h : RowAt window ref others t c) (h' : RowAt window ref others t c') : c = c' := by
  obtain ⟨r, hr, p, hp, rfl⟩ := h
  obtain ⟨r', hr', p', hp', rfl⟩ := h'
  rw [hr] at hr'
  cases hr'
  congr 2
  clear hr
  induction hp generalizing p' with
  | nil => cases hp'; rfl
  | cons h1 _ ih =>
    cases hp' with
    | cons h2 ht =>
      obtain ⟨m, hm, rfl⟩ := h1
      obtain ⟨m', hm', rfl⟩ := h2
      rw [isNearest_unique hm hm', ih _ ht]

/-- the condition that `combined_dropna` keeps a row -/
def keepOf : Combined → List (Option K) → Prop
  | .no => fun _ => True
  | .any => AllValues
  | .all => SomeValue

theorem collocate_join {β : Type} (comb : Combined) {window : K} (hw : 0 ≤ window) {ref : DF β K} {others : List (DF β K)}
    (hwf : ∀ f ∈ others, WellFormed f) {rows : List (Row K K)}
    (h : combinedCollocation { dropna := true, dropduplicates := true } comb true ref.frame (others.map DF.frame) window = .ok rows) :
    IsJoin (keepOf comb) window ref others rows := by
  obtain ⟨full, hout, hnd, hmem, -, hcells⟩ := Collocation.combined_collocation { dropna := true, dropduplicates := true } comb true
    ref.frame (others.map DF.frame) window hw rfl rfl
    (fun f hf r hr => by obtain ⟨g, hg, rfl⟩ := List.mem_map.1 hf; exact hwf g hg r hr) (Or.inr (Or.inl rfl)) rows h
  have hrow : ∀ r ∈ full, RowAt window ref others r.time r.cells := by
    intro r hr
    obtain ⟨parts, hp, hc⟩ := hcells r hr
    have ht := ((hmem r.time).1 (List.mem_map_of_mem hr)).1
    obtain ⟨x, hx, he⟩ := List.mem_map.1 ht
    have hsome : (ref.rows.find? (fun x => decide (x.time = r.time))).isSome := by
      rw [List.find?_isSome]; exact ⟨x, hx, by simpa using he⟩
    obtain ⟨r0, h0⟩ := Option.isSome_iff_exists.1 hsome
    refine ⟨r0, h0, parts, ?_, ?_⟩
    · rw [List.forall₂_map_left_iff] at hp
      exact hp
    · rw [hc, if_pos rfl]
      have : (ref.frame.rows.find? (fun x => decide (x.time = r.time))) = some r0 := h0
      rw [this]; rfl
  refine ⟨?_, fun t cells => ?_⟩
  · rw [hout]
    exact hnd.sublist (List.filter_sublist.map _)
  · rw [hout, List.mem_filter]
    constructor
    · rintro ⟨hr, hk⟩
      refine ⟨hrow _ hr, ?_⟩
      clear h hout
      cases comb <;> simpa [keepOf, AllValues, SomeValue] using hk
    · rintro ⟨hr, hk⟩
      refine ⟨?_, by clear h hout; cases comb <;> simpa [keepOf, AllValues, SomeValue] using hk⟩
      obtain ⟨r0, h0, -⟩ := id hr
      have ht : t ∈ full.map Row.time := by
        refine (hmem t).2 ⟨?_, Or.inl rfl⟩
        have := List.find?_some h0
        exact List.mem_map.2 ⟨r0, List.mem_of_find?_eq_some h0, by simpa using this⟩
      obtain ⟨r, hrf, rfl⟩ := List.mem_map.1 ht
      have := rowAt_unique (hrow r hrf) hr
      rw [← this]
      exact hrf

theorem collocate_total {β : Type} (comb : Combined) (window : K) (ref : DF β K) (others : List (DF β K))
    (hw : 0 ≤ window) (hmono : ∀ f ∈ others, Collocation.Monotone f.rows) :
    ∃ rows, combinedCollocation { dropna := true, dropduplicates := true } comb true ref.frame (others.map DF.frame) window
      = .ok rows := by
  unfold combinedCollocation
  have hone : ∀ f ∈ others.map DF.frame, ∃ g, Collocation.collocateOne { dropna := true, dropduplicates := true }
      (ref.frame.rows.map Row.time) window f = .ok g ∧ (g.rows.map Row.time).Nodup := by
    intro f hf
    obtain ⟨f, hf', rfl⟩ := List.mem_map.1 hf
    obtain ⟨c, hc⟩ := Collocation.nearest_total { dropna := true, dropduplicates := true } (ref.frame.rows.map Row.time) f.frame window rfl rfl
      (hmono f hf')
    unfold Collocation.collocateOne
    rw [show ({ ({ dropna := true, dropduplicates := true } : Opts) with returnIndex := false, returnDistance := false } : Opts)
      = { dropna := true, dropduplicates := true } from rfl, hc]
    refine ⟨_, rfl, ?_⟩
    have := Collocation.collocation_closed (o := { dropna := true, dropduplicates := true }) hw rfl rfl hc
    simp only [this]
    exact Collocation.times_collocation _ _ _ _ (Collocation.nodup_dedupeTimes _)
  have hm : ∀ l : List (Frame K K), (∀ f ∈ l, ∃ g, Collocation.collocateOne { dropna := true, dropduplicates := true }
      (ref.frame.rows.map Row.time) window f = .ok g ∧ (g.rows.map Row.time).Nodup) →
      ∃ dfs, l.mapM (Collocation.collocateOne { dropna := true, dropduplicates := true } (ref.frame.rows.map Row.time) window)
        = .ok dfs ∧ ∀ f ∈ dfs, (f.rows.map Row.time).Nodup := by
    intro l hl
    induction l with
    | nil => exact ⟨[], rfl, by simp⟩
    | cons f l ih =>
      obtain ⟨g, hg, hn⟩ := hl f (by simp)
      obtain ⟨gs, hgs, hns⟩ := ih (fun f hf => hl f (by simp [hf]))
      refine ⟨g :: gs, ?_, ?_⟩
      · rw [List.mapM_cons, hg, hgs]; rfl
      · intro x hx
        rcases List.mem_cons.1 hx with rfl | hx
        · exact hn
        · exact hns x hx
  obtain ⟨dfs, hdfs, hnd⟩ := hm _ hone
  simp only [bind, Except.bind, pure, Except.pure, if_true]
  rw [hdfs]
  obtain ⟨rows, hrows, -⟩ := Collocation.concat_spec (frames := Frame.mk ref.frame.width (Collocation.dedupe ref.frame.rows) :: dfs)
    (by simp) (by
      intro f hf
      rcases List.mem_cons.1 hf with rfl | hf
      · exact Collocation.dedupe_nodup _
      · exact hnd f hf)
  simp only [hrows]
  exact ⟨_, rfl⟩

/-! ### combinatory_matcher -/

theorem sublist_eq_filter {β : Type} [DecidableEq β] {l S : List β} (hl : l.Nodup) (h : S.Sublist l) :
    S = l.filter (fun x => decide (x ∈ S)) := by
  induction h with
  | slnil => rfl
  | cons a h ih =>
    rename_i S l
    obtain ⟨ha, hn⟩ := List.nodup_cons.1 hl
    rw [List.filter_cons_of_neg (by simpa using fun hm => ha (h.subset hm))]
    exact ih hn
  | cons_cons a h ih =>
    rename_i S l
    obtain ⟨ha, hn⟩ := List.nodup_cons.1 hl
    rw [List.filter_cons_of_pos (by simp)]
    congr 1
    conv_lhs => rw [ih hn]
    refine List.filter_congr (fun x hx => ?_)
    have : x ≠ a := fun h => ha (h ▸ hx)
    simp [this]

/-- the key of the result for the other data sets `S` -/
def keyOf (refkey : α) (S : List (α × DF α K)) : List α := refkey :: (S.map Prod.fst).insertionSort (· ≤ ·)

theorem keyOf_injective {l S S' : List (α × DF α K)} (refkey : α) (hl : (l.map Prod.fst).Nodup) (h : S.Sublist l) (h' : S'.Sublist l)
    (e : keyOf refkey S = keyOf refkey S') : S = S' := by
  have hp : (S.map Prod.fst).Perm (S'.map Prod.fst) :=
    ((List.perm_insertionSort _ _).symm.trans (by rw [(List.cons.inj e).2])).trans (List.perm_insertionSort (· ≤ ·) _)
  have hm : ∀ x, x ∈ S.map Prod.fst ↔ x ∈ S'.map Prod.fst := fun x => hp.mem_iff
  have hinj : ∀ x ∈ l, ∀ y ∈ l, x.1 = y.1 → x = y := fun x hx y hy e => List.inj_on_of_nodup_map hl hx hy e
  classical
  rw [sublist_eq_filter hl.of_map h, sublist_eq_filter hl.of_map h']
  refine List.filter_congr (fun x hx => ?_)
  have : x ∈ S ↔ x ∈ S' := by
    constructor
    · intro hS
      obtain ⟨y, hy, e⟩ := List.mem_map.1 ((hm x.1).1 (List.mem_map_of_mem hS))
      rw [hinj x hx y (h'.subset hy) e.symm]; exact hy
    · intro hS
      obtain ⟨y, hy, e⟩ := List.mem_map.1 ((hm x.1).2 (List.mem_map_of_mem hS))
      rw [hinj x hx y (h.subset hy) e.symm]; exact hy
  simp [this]

/-- the named frames that are joined -/
def named (e : α × DF α K) : DF (α × α) K := ⟨e.2.columns.map (fun c => (e.1, c)), e.2.rows⟩

theorem lookup_of_mem {β : Type} {k : α} {v : β} {l : List (α × β)} (hl : (l.map Prod.fst).Nodup) (h : (k, v) ∈ l) :
    l.lookup k = some v := by
  induction l with
  | nil => simp at h
  | cons e l ih =>
    obtain ⟨k', v'⟩ := e
    rw [List.map_cons, List.nodup_cons] at hl
    rcases List.mem_cons.1 h with e | hm
    · cases e; simp [List.lookup]
    · have hne : k ≠ k' := fun hh => hl.1 (List.mem_map.2 ⟨(k, v), hm, hh⟩)
      rw [List.lookup_cons, show (k == k') = false by simpa using hne]
      exact ih hl.2 hm

theorem rowAt_named (window : K) (refkey : α) (ref : DF α K) (S : List (α × DF α K)) (t : K) (cells : List (Option K)) :
    RowAt window (nameMultiindex ref refkey) (S.map named) t cells ↔ RowAt window ref (S.map Prod.snd) t cells := by
  have hf : ∀ parts : List (List (Option K)),
      List.Forall₂ (fun (f : DF (α × α) K) c => ∃ m, IsNearest f.rows window t m ∧ c = shown f.columns.length m) (S.map named) parts ↔
      List.Forall₂ (fun (f : DF α K) c => ∃ m, IsNearest f.rows window t m ∧ c = shown f.columns.length m) (S.map Prod.snd) parts := by
    intro parts
    rw [List.forall₂_map_left_iff, List.forall₂_map_left_iff]
    have : (fun (e : α × DF α K) c => ∃ m, IsNearest (named e).rows window t m ∧ c = shown (named e).columns.length m)
        = (fun (e : α × DF α K) c => ∃ m, IsNearest e.2.rows window t m ∧ c = shown e.2.columns.length m) := by
      funext e c
      simp [named]
    rw [this]
  unfold RowAt
  simp only [hf]
  rfl

theorem columns_named (refkey : α) (ref : DF α K) (S : List (α × DF α K)) :
    (nameMultiindex ref refkey).columns ++ (S.map named).flatMap DF.columns = joinColumns (refkey, ref) S := by
  unfold joinColumns nameMultiindex
  rw [List.flatMap_cons, List.flatMap_map]; rfl

theorem combLoop_spec {window : K} (hw : 0 ≤ window) (refkey : α) (ref : DF (α × α) K) (l : List (α × DF α K))
    (hl : (l.map Prod.fst).Nodup) (hwf : ∀ e ∈ l, WellFormed e.2) :
    ∀ (Ss : List (List (α × DF α K))) (d out : List (List α × DF (α × α) K)),
      (∀ S ∈ Ss, S.Sublist l) → Ss.Nodup → (d.map Prod.fst).Nodup → (∀ S ∈ Ss, keyOf refkey S ∉ d.map Prod.fst) →
      combLoop window refkey ref Ss d = .ok out →
      ∃ new, out = d ++ new ∧ (out.map Prod.fst).Nodup ∧
        (∀ e ∈ new, ∃ S ∈ Ss, e.1 = keyOf refkey S) ∧
        ∀ S ∈ Ss, ∃ rows, IsJoin SomeValue window ref (S.map named) rows ∧
          ((rows ≠ [] ∧ (keyOf refkey S, (⟨ref.columns ++ (S.map named).flatMap DF.columns, rows⟩ : DF (α × α) K)) ∈ new) ∨
            (rows = [] ∧ keyOf refkey S ∉ out.map Prod.fst))
  | [], d, out, _, _, hd, _, h => by
    cases h
    exact ⟨[], by simp, hd, by simp, by simp⟩
  | S :: Ss, d, out, hs, hn, hd, hk, h => by
    obtain ⟨hSs, hn'⟩ := List.nodup_cons.1 hn
    unfold combLoop at h
    have he : S.map (fun e => nameMultiindex e.2 e.1) = S.map named := rfl
    rw [he] at h
    unfold basicMatch collocate at h
    have hsub := hs S (by simp)
    cases hc : combinedCollocation { dropna := true, dropduplicates := true } .all true ref.frame ((S.map named).map DF.frame) window with
    | error e => rw [hc] at h; cases h
    | ok rows =>
      rw [hc] at h
      replace h : combLoop window refkey ref Ss (if rows.length ≠ 0 then
        put d (keyOf refkey S) ⟨ref.columns ++ (S.map named).flatMap DF.columns, rows⟩ else d) = .ok out := h
      have hj : IsJoin SomeValue window ref (S.map named) rows := collocate_join .all hw (by
        intro f hf
        obtain ⟨e, he, rfl⟩ := List.mem_map.1 hf
        intro r hr
        have := hwf e (hsub.subset he) r hr
        rw [this]; simp [named]) hc
      have hkS := hk S (by simp)
      have hother : ∀ S' ∈ Ss, keyOf refkey S' ≠ keyOf refkey S := by
        intro S' hS' e
        exact hSs (keyOf_injective refkey hl (hs S' (by simp [hS'])) hsub e ▸ hS')
      by_cases hr : rows = []
      · rw [if_neg (by simp [hr])] at h
        obtain ⟨new, e1, e2, e3, e4⟩ := combLoop_spec hw refkey ref l hl hwf Ss d out (fun T hT => hs T (by simp [hT])) hn' hd
          (fun T hT => hk T (by simp [hT])) h
        refine ⟨new, e1, e2, fun e he => ?_, fun T hT => ?_⟩
        · obtain ⟨T, hT, h1⟩ := e3 e he
          exact ⟨T, by simp [hT], h1⟩
        · rcases List.mem_cons.1 hT with rfl | hT
          · refine ⟨rows, hj, Or.inr ⟨hr, ?_⟩⟩
            rw [e1, List.map_append, List.mem_append]
            rintro (h1 | h1)
            · exact hkS h1
            · obtain ⟨e, he, h2⟩ := List.mem_map.1 h1
              obtain ⟨T', hT', h3⟩ := e3 e he
              exact hother T' hT' (h3.symm.trans h2)
          · exact e4 T hT
      · rw [if_pos (by simpa [List.length_eq_zero_iff] using hr)] at h
        unfold put at h
        rw [if_neg hkS] at h
        obtain ⟨new, e1, e2, e3, e4⟩ := combLoop_spec hw refkey ref l hl hwf Ss _ out (fun T hT => hs T (by simp [hT])) hn'
          (by
            rw [List.map_append, List.nodup_append]
            refine ⟨hd, by simp, ?_⟩
            intro x hx y hy
            simp only [List.map_cons, List.map_nil, List.mem_singleton] at hy
            subst hy
            exact fun h => hkS (h ▸ hx))
          (fun T hT => by
            rw [List.map_append, List.mem_append]
            rintro (h1 | h1)
            · exact hk T (by simp [hT]) h1
            · simp only [List.map_cons, List.map_nil, List.mem_singleton] at h1
              exact hother T hT h1) h
        refine ⟨(keyOf refkey S, ⟨ref.columns ++ (S.map named).flatMap DF.columns, rows⟩) :: new, by rw [e1]; simp, e2,
          fun e he => ?_, fun T hT => ?_⟩
        · rcases List.mem_cons.1 he with rfl | he
          · exact ⟨S, by simp, rfl⟩
          · obtain ⟨T, hT, h1⟩ := e3 e he
            exact ⟨T, by simp [hT], h1⟩
        · rcases List.mem_cons.1 hT with rfl | hT
          · exact ⟨rows, hj, Or.inl ⟨hr, by simp⟩⟩
          · obtain ⟨rw', h1, h2⟩ := e4 T hT
            refine ⟨rw', h1, ?_⟩
            rcases h2 with ⟨h3, h4⟩ | h3
            · exact Or.inl ⟨h3, by simp [h4]⟩
            · exact Or.inr h3

/-- **C48.** Whenever `combinatory_matcher` returns, its result has for every selection `S` of `n - 1` other data sets the join of
the reference with them under the key `(refkey, *sorted names)`, unless that join is empty, and nothing else; no key is repeated. The join has
one row per reference time at which the reference or one of the matches in the window has a value, with the reference's cells and
those of the nearest match of each data set (NaN without a match), and the columns are named by data set and column. -/
theorem combinatory_matcher (window : K) (hw : 0 ≤ window) (dict : List (α × DF α K)) (hdict : (dict.map Prod.fst).Nodup)
    (refkey : α) (ref : DF α K) (href : (refkey, ref) ∈ dict) (n : ℕ) (hwf : ∀ e ∈ dict, WellFormed e.2)
    (out : List (List α × DF (α × α) K)) (h : combinatoryMatcher window dict refkey n = .ok out) :
    (out.map Prod.fst).Nodup ∧
    (∀ e ∈ out, ∃ S : List (α × DF α K), S.Sublist (dict.filter (fun e => decide (e.1 ≠ refkey))) ∧ S.length + 1 = n ∧
      e.1 = refkey :: (S.map Prod.fst).insertionSort (· ≤ ·)) ∧
    ∀ S : List (α × DF α K), S.Sublist (dict.filter (fun e => decide (e.1 ≠ refkey))) → S.length + 1 = n →
      ∃ rows, IsJoin SomeValue window ref (S.map Prod.snd) rows ∧
        ((rows ≠ [] ∧ (refkey :: (S.map Prod.fst).insertionSort (· ≤ ·),
            (⟨joinColumns (refkey, ref) S, rows⟩ : DF (α × α) K)) ∈ out) ∨
          (rows = [] ∧ refkey :: (S.map Prod.fst).insertionSort (· ≤ ·) ∉ out.map Prod.fst)) := by
  unfold combinatoryMatcher at h
  have hlk := lookup_of_mem hdict href
  rw [hlk] at h
  simp only at h
  by_cases hn : n = 0
  · rw [if_pos hn] at h; cases h
  rw [if_neg hn] at h
  set l := dict.filter (fun e => decide (e.1 ≠ refkey)) with hldef
  have hl : (l.map Prod.fst).Nodup := hdict.sublist (List.filter_sublist.map _)
  obtain ⟨new, e1, e2, e3, e4⟩ := combLoop_spec hw refkey (nameMultiindex ref refkey) l hl
    (fun e he => hwf e (List.mem_of_mem_filter he)) (combinations (n - 1) l) [] out
    (fun S hS => ((mem_combinations _ _ _).1 hS).2) (combinations_nodup _ _ hl.of_map) (by simp) (by simp) h
  rw [List.nil_append] at e1
  subst e1
  refine ⟨e2, fun e he => ?_, fun S hS hlen => ?_⟩
  · obtain ⟨S, hS, h1⟩ := e3 e he
    obtain ⟨h2, h3⟩ := (mem_combinations _ _ _).1 hS
    exact ⟨S, h3, by omega, h1⟩
  · obtain ⟨rows, hj, hcase⟩ := e4 S ((mem_combinations _ _ _).2 ⟨by omega, hS⟩)
    refine ⟨rows, ⟨hj.1, fun t cells => (hj.2 t cells).trans (and_congr_left' (rowAt_named window refkey ref S t cells))⟩, ?_⟩
    rw [columns_named] at hcase
    exact hcase

/-- the matcher returns if the other frames are in temporal order -/
theorem combinatory_matcher_total (window : K) (hw : 0 ≤ window) (dict : List (α × DF α K)) (refkey : α)
    (hr : refkey ∈ dict.map Prod.fst) (n : ℕ) (hn : 0 < n)
    (hmono : ∀ e ∈ dict, e.1 ≠ refkey → Collocation.Monotone e.2.rows) :
    ∃ out, combinatoryMatcher window dict refkey n = .ok out := by
  unfold combinatoryMatcher
  have hlk : ∃ ref, dict.lookup refkey = some ref := by
    cases h : dict.lookup refkey with
    | some r => exact ⟨r, rfl⟩
    | none =>
      rw [List.lookup_eq_none_iff] at h
      obtain ⟨e, he, h1⟩ := List.mem_map.1 hr
      exact absurd (h e he) (by simp [h1])
  obtain ⟨ref, hlk⟩ := hlk
  rw [hlk]
  simp only
  rw [if_neg (by omega)]
  have hloop : ∀ (Ss : List (List (α × DF α K))) (d : List (List α × DF (α × α) K)),
      (∀ S ∈ Ss, ∀ e ∈ S, Collocation.Monotone e.2.rows) →
      ∃ out, combLoop window refkey (nameMultiindex ref refkey) Ss d = .ok out := by
    intro Ss
    induction Ss with
    | nil => exact fun d _ => ⟨d, rfl⟩
    | cons S Ss ih =>
      intro d hS
      obtain ⟨rows, hrows⟩ := collocate_total .all window (nameMultiindex ref refkey)
        (S.map (fun e => nameMultiindex e.2 e.1)) hw (by
          intro f hf
          obtain ⟨e, he, rfl⟩ := List.mem_map.1 hf
          exact hS S (by simp) e he)
      unfold combLoop basicMatch collocate
      rw [hrows]
      exact ih _ (fun S' hS' => hS S' (by simp [hS']))
  refine hloop _ _ (fun S hS e he => ?_)
  have := ((mem_combinations _ _ _).1 hS).2.subset he
  obtain ⟨h1, h2⟩ := List.mem_filter.1 this
  exact hmono e h1 (by simpa using h2)

/-- a missing reference is an error -/
theorem combinatory_matcher_missing (window : K) (dict : List (α × DF α K)) (refkey : α) (n : ℕ)
    (h : refkey ∉ dict.map Prod.fst) : combinatoryMatcher window dict refkey n = .error .valueError := by
  unfold combinatoryMatcher
  have : dict.lookup refkey = none := by
    rw [List.lookup_eq_none_iff]
    intro e he
    have : refkey ≠ e.1 := fun hh => h (hh ▸ List.mem_map_of_mem he)
    simpa using this
  rw [this]

/-! ### make_combined_temporal_matcher -/

/-- **C61.** The matcher of `make_combined_temporal_matcher` returns a single frame, under the key of the reference followed by the
other names in the order of the dictionary. It has exactly the reference times at which the reference and the nearest row of every
other data set in the window have values in all columns. The window is one hour if none was given. -/
theorem combined_matcher (hour : K) (window : Option K) (hw : 0 ≤ window.getD hour) (dict : List (α × DF α K))
    (hdict : (dict.map Prod.fst).Nodup) (refname : α) (ref : DF α K) (href : (refname, ref) ∈ dict) (n : Option ℕ)
    (hn : n = none ∨ n = some dict.length) (hwf : ∀ e ∈ dict, WellFormed e.2)
    (out : List (List α × DF (α × α) K)) (h : combinedMatcher hour window dict refname n = .ok out) :
    ∃ S, S = dict.filter (fun e => decide (e.1 ≠ refname)) ∧ ∃ rows,
      out = [(refname :: S.map Prod.fst, ⟨joinColumns (refname, ref) S, rows⟩)] ∧
      IsJoin AllValues (window.getD hour) ref (S.map Prod.snd) rows := by
  unfold combinedMatcher at h
  rw [if_neg (by rcases hn with rfl | rfl <;> simp), lookup_of_mem hdict href] at h
  simp only at h
  refine ⟨_, rfl, ?_⟩
  generalize hS : dict.filter (fun e => decide (e.1 ≠ refname)) = S at h ⊢
  have he : S.map (fun e => nameMultiindex e.2 e.1) = S.map named := rfl
  rw [he] at h
  unfold collocate at h
  cases hc : combinedCollocation { dropna := true, dropduplicates := true } .any true (nameMultiindex ref refname).frame
      ((S.map named).map DF.frame) (window.getD hour) with
  | error e => rw [hc] at h; cases h
  | ok rows =>
    rw [hc] at h
    refine ⟨rows, ?_, ?_⟩
    · rw [← columns_named]
      exact (Except.ok.inj h).symm
    · have hj := collocate_join .any hw (by
        intro f hf
        obtain ⟨e, he, rfl⟩ := List.mem_map.1 hf
        intro r hr
        have := hwf e (List.mem_of_mem_filter (hS ▸ he)) r hr
        rw [this]; simp [named]) hc
      exact ⟨hj.1, fun t cells => (hj.2 t cells).trans (and_congr_left' (rowAt_named _ refname ref S t cells))⟩

/-- it returns if the other frames are in temporal order -/
theorem combined_matcher_total (hour : K) (window : Option K) (hw : 0 ≤ window.getD hour) (dict : List (α × DF α K))
    (hdict : (dict.map Prod.fst).Nodup) (refname : α) (ref : DF α K) (href : (refname, ref) ∈ dict) (n : Option ℕ)
    (hmono : ∀ e ∈ dict, e.1 ≠ refname → Collocation.Monotone e.2.rows) :
    ∃ out, combinedMatcher hour window dict refname n = .ok out := by
  unfold combinedMatcher
  by_cases hn : n.any (fun n => decide (dict.length ≠ n)) = true
  · rw [if_pos hn]; exact ⟨_, rfl⟩
  rw [if_neg hn, lookup_of_mem hdict href]
  obtain ⟨rows, hrows⟩ := collocate_total .any (window.getD hour) (nameMultiindex ref refname)
    ((dict.filter (fun e => decide (e.1 ≠ refname))).map (fun e => nameMultiindex e.2 e.1)) hw (by
      intro f hf
      obtain ⟨e, he, rfl⟩ := List.mem_map.1 hf
      obtain ⟨h1, h2⟩ := List.mem_filter.1 he
      exact hmono e h1 (by simpa using h2))
  unfold collocate
  simp only [hrows]
  exact ⟨_, rfl⟩

/-- Negation for C61: the documented combinations of size `k` are not formed, and for a number `n` other than that of all data sets the result
is empty, whatever the data. -/
theorem combined_matcher_other_number (hour : K) (window : Option K) (dict : List (α × DF α K)) (refname : α) (n : ℕ)
    (hn : n ≠ dict.length) : combinedMatcher hour window dict refname (some n) = .ok [] := by
  unfold combinedMatcher
  rw [if_pos (by simp; omega)]

/-- three data sets `0`, `1`, `2`: the second has a match for the first reference time only -/
def threeSets : List (ℕ × DF ℕ ℚ) :=
  [(1, ⟨[5], [⟨1, [some 10]⟩]⟩), (0, ⟨[5], [⟨1, [some 1]⟩, ⟨2, [some 2]⟩, ⟨9, [none]⟩]⟩), (2, ⟨[6], [⟨2, [some 7]⟩]⟩)]

example : (combinatoryMatcher (1 / 2) threeSets 0 2).toOption
    = some [([0, 1], ⟨[(0, 5), (1, 5)], [⟨1, [some 1, some 10]⟩, ⟨2, [some 2, none]⟩]⟩),
            ([0, 2], ⟨[(0, 5), (2, 6)], [⟨1, [some 1, none]⟩, ⟨2, [some 2, some 7]⟩]⟩)] := by decide +kernel

example : (combinedMatcher (1 / 24) (some 1) threeSets 0 (some 3)).toOption
    = some [([0, 1, 2], ⟨[(0, 5), (1, 5), (2, 6)], [⟨1, [some 1, some 10, some 7]⟩, ⟨2, [some 2, some 10, some 7]⟩]⟩)] := by
  decide +kernel

example : ∀ e ∈ threeSets, WellFormed e.2 := by unfold WellFormed; decide +kernel

end

example := combinatory_matcher_missing (1 / 2) threeSets 9 2 (by decide)
end Verif.Matchers
