import Verif.Validation.More
import Verif.Matchers.Props

/-!
C75, C76: a validation with the temporal matchers of pytesmo: the data that reaches the metrics calculators, from the data as read.

`Verif.Matchers` and `Verif.Validation` represent data frames differently (lists of cells, functions of the column name); `toM` and `ofM`
convert.
-/

set_option linter.unusedSectionVars false
set_option synthInstance.maxSize 1000

namespace Verif.Validation

open DataManager (Col col)
open Matchers (combinatoryMatcher combinedMatcher RowAt IsJoin SomeValue AllValues joinColumns)

variable {α K : Type} [LinearOrder α] [_root_.Field K] [LinearOrder K] [IsStrictOrderedRing K]

/-- a frame as lists of cells. Used for validation.py:153-155. -/
def toM (d : DF α K K) : Matchers.DF α K := ⟨d.cols, d.rows.map (fun r => ⟨r.1, d.cols.map r.2⟩)⟩

/-- a matched frame as functions of the column. Used for validation.py:153-155. -/
def ofM (m : Matchers.DF (α × α) K) : MFrame α K K :=
  ⟨m.columns.map toLex, m.rows.map (fun r => (r.time, fun c => (((m.columns.map toLex).zip r.cells).lookup c).join))⟩

/-- a matcher of `Verif.Matchers` as a matcher of a validation. Used for validation.py:153-155. -/
def viaM (f : List (α × Matchers.DF α K) → Except Matchers.Err (List (List α × Matchers.DF (α × α) K))) (dfs : List (α × DF α K K)) :
    Except Exc (List (List α × MFrame α K K)) :=
  match f (dfs.map (fun e => (e.1, toM e.2))) with
  | .error _ => .error .other
  | .ok out => .ok (out.map (fun e => (e.1, ofM e.2)))

/-- validation.py:153-155: the default temporal matcher, `BasicTemporalMatching(window).combinatory_matcher`, called with `n` and `k` (606) -/
def basicMatcher (window : K) (dfs : List (α × DF α K K)) (ref : α) (n _k : ℕ) : Except Exc (List (List α × MFrame α K K)) :=
  viaM (fun d => combinatoryMatcher window d ref n) dfs

/-- `make_combined_temporal_matcher(window)` (temporal_matchers.py:180) as matcher of a validation -/
def oneMatcher (hour : K) (window : Option K) (dfs : List (α × DF α K K)) (ref : α) (n _k : ℕ) :
    Except Exc (List (List α × MFrame α K K)) :=
  viaM (fun d => combinedMatcher hour window d ref (some n)) dfs

/-! ### Specification -/

/-- `r` is the nearest row of `obs` in the window around `t`: the later one of two equally near, the first one listed of simultaneous
ones. -/
def NearestObs (obs : List (K × (α → Option K))) (window t : K) (r : K × (α → Option K)) : Prop :=
  |r.1 - t| ≤ window ∧ obs.find? (fun x => decide (x.1 = r.1)) = some r ∧
    ∀ x ∈ obs, |r.1 - t| ≤ |x.1 - t| ∧ (|x.1 - t| = |r.1 - t| → x.1 ≤ r.1)

/-- Column `c` of data set `d` has the value `v` at the time `t` of the temporal reference `tref`: the reference its own value, another data
set that of its nearest observation in the window, NaN if there is none. -/
def SeenAt (window : K) (dfs : List (α × DF α K K)) (tref : α) (t : K) (d c : α) (v : Option K) : Prop :=
  ∃ df, (d, df) ∈ dfs ∧
    ((d = tref ∧ ∃ r, df.rows.find? (fun x => decide (x.1 = t)) = some r ∧ v = r.2 c) ∨
     (d ≠ tref ∧ ((∃ r, NearestObs df.rows window t r ∧ v = r.2 c) ∨ ((∀ x ∈ df.rows, window < |x.1 - t|) ∧ v = none))))

/-- `data` is the matched data of the columns `sel`: one row for every time of the temporal reference at which all columns of `need` have a
value, with the values of the columns of `sel` at these times. -/
def IsMatchedData (window : K) (dfs : List (α × DF α K K)) (tref : α) (need : α → α → Prop) (sel : List (Col α)) (data : Frame α K K) :
    Prop :=
  data.index.Nodup ∧
  (∀ t, t ∈ data.index ↔ (∃ df, (tref, df) ∈ dfs ∧ ∃ r ∈ df.rows, r.1 = t) ∧
    ∀ d c, need d c → ∃ v, SeenAt window dfs tref t d c (some v)) ∧
  ∃ value : Col α → K → Option K, (∀ t ∈ data.index, ∀ x ∈ sel, SeenAt window dfs tref t (ofLex x).1 (ofLex x).2 (value x t)) ∧
    data.columns = sel.map (fun x => (.ds (ofLex x).1, data.index.map (value x)))

/-! ### Blocks of columns -/

theorem lookup_zip_map (cols : List α) (f : α → Option K) (c : α) (h : c ∈ cols) : (cols.zip (cols.map f)).lookup c = some (f c) := by
  induction cols with
  | nil => simp at h
  | cons a cols ih =>
    rw [List.map_cons, List.zip_cons_cons, List.lookup_cons]
    by_cases hc : c = a
    · simp [hc]
    · have : (c == a) = false := by simpa using hc
      rw [this]
      exact ih (by simpa [hc] using h)

theorem lookup_zip_replicate (cols : List α) (c : α) (h : c ∈ cols) :
    (cols.zip (List.replicate cols.length (none : Option K))).lookup c = some none := by
  have : List.replicate cols.length (none : Option K) = cols.map (fun _ => none) := by
    rw [List.map_const']
  rw [this]
  exact lookup_zip_map cols _ c h

theorem lookup_block (n : α) (cs : List α) (xs : List (Option K)) (c : α) :
    ((cs.map (fun c => toLex (n, c))).zip xs).lookup (toLex (n, c)) = (cs.zip xs).lookup c := by
  induction cs generalizing xs with
  | nil => rfl
  | cons a cs ih =>
    cases xs with
    | nil => rfl
    | cons x xs =>
      rw [List.map_cons, List.zip_cons_cons, List.zip_cons_cons, List.lookup_cons, List.lookup_cons, ih]
      have : (toLex (n, c) == toLex (n, a)) = (c == a) := by
        by_cases h : c = a
        · simp [h]
        · have : toLex (n, c) ≠ toLex (n, a) := fun hh => h (Prod.mk.inj (toLex.injective hh)).2
          rw [beq_eq_false_iff_ne.mpr this, beq_eq_false_iff_ne.mpr h]
      rw [this]

theorem lookup_other_block (n d : α) (hne : d ≠ n) (cs : List α) (xs : List (Option K)) (c : α) :
    ((cs.map (fun c => (toLex (n, c) : Col α))).zip xs).lookup (toLex (d, c)) = none := by
  induction cs generalizing xs with
  | nil => rfl
  | cons a cs ih =>
    cases xs with
    | nil => rfl
    | cons x xs =>
      rw [List.map_cons, List.zip_cons_cons, List.lookup_cons, ih]
      have : toLex (d, c) ≠ toLex (n, a) := fun hh => hne (Prod.mk.inj (toLex.injective hh)).1
      rw [beq_eq_false_iff_ne.mpr this]

theorem lookup_blocks (B : List (α × List α × List (Option K))) (hn : (B.map Prod.fst).Nodup)
    (hl : ∀ b ∈ B, b.2.1.length = b.2.2.length) (b : α × List α × List (Option K)) (hb : b ∈ B) (c : α) (hc : c ∈ b.2.1) :
    ((B.flatMap (fun b => b.2.1.map (fun c => (toLex (b.1, c) : Col α)))).zip (B.flatMap (fun b => b.2.2))).lookup (toLex (b.1, c)) =
      (b.2.1.zip b.2.2).lookup c := by
  induction B with
  | nil => simp at hb
  | cons a B ih =>
    rw [List.flatMap_cons, List.flatMap_cons, List.zip_append (by simpa using hl a (by simp)), List.lookup_append]
    rw [List.map_cons, List.nodup_cons] at hn
    rcases List.mem_cons.mp hb with rfl | hb
    · rw [lookup_block]
      have : ∃ x, (b.2.1.zip b.2.2).lookup c = some x := by
        have hlen := hl b (by simp)
        cases hlk : (b.2.1.zip b.2.2).lookup c with
        | some x => exact ⟨x, rfl⟩
        | none =>
          exfalso
          rw [List.lookup_eq_none_iff] at hlk
          obtain ⟨i, hi, rfl⟩ := List.getElem_of_mem hc
          have := hlk (b.2.1[i], b.2.2[i]'(hlen ▸ hi)) (by
            rw [List.mem_iff_getElem]
            exact ⟨i, by simp [hi, ← hlen], by simp⟩)
          simp at this
      obtain ⟨x, hx⟩ := this
      rw [hx]
      rfl
    · have hne : b.1 ≠ a.1 := fun h => hn.1 (h ▸ List.mem_map_of_mem hb)
      rw [lookup_other_block _ _ hne]
      exact ih hn.2 (fun b' hb' => hl b' (by simp [hb'])) hb

/-! ### The row of a join -/

theorem toM_wf (d : DF α K K) : Matchers.WellFormed (toM d) := by
  intro r hr
  obtain ⟨x, -, rfl⟩ := List.mem_map.mp hr
  simp [toM]

theorem toM_find (d : DF α K K) (t : K) :
    (toM d).rows.find? (fun x => decide (x.time = t)) =
      (d.rows.find? (fun x => decide (x.1 = t))).map (fun r => ⟨r.1, d.cols.map r.2⟩) := by
  unfold toM
  simp only [List.find?_map]
  rfl

theorem toM_nearest (d : DF α K K) (window t : K) (r : Collocation.Row K K) (h : Collocation.IsNearest (toM d).rows window t (some r)) :
    ∃ x, NearestObs d.rows window t x ∧ r = ⟨x.1, d.cols.map x.2⟩ := by
  obtain ⟨h1, h2, h3⟩ := h
  rw [toM_find] at h2
  obtain ⟨x, hx, hxr⟩ := Option.map_eq_some_iff.mp h2
  subst hxr
  refine ⟨x, ⟨h1, hx, ?_⟩, rfl⟩
  intro y hy
  exact h3 _ (List.mem_map_of_mem (f := fun r => (⟨r.1, d.cols.map r.2⟩ : Collocation.Row K K)) hy)

/-- the cells of a matched row, by column -/
theorem rowAt_cells (window : K) (tref : α) (ref : DF α K K) (others : List (α × DF α K K))
    (hn : (tref :: others.map Prod.fst).Nodup) (t : K) (cells : List (Option K))
    (h : RowAt window (toM ref) (others.map (fun e => toM e.2)) t cells) :
    (∀ e ∈ (tref, ref) :: others, ∀ c ∈ e.2.cols, ∃ v,
      ((((joinColumns (tref, toM ref) (others.map (fun e => (e.1, toM e.2)))).map toLex).zip cells).lookup (toLex (e.1, c))) = some v ∧
      SeenAt window ((tref, ref) :: others) tref t e.1 c v) ∧
    (∀ v ∈ cells, ∃ e ∈ (tref, ref) :: others, ∃ c ∈ e.2.cols, SeenAt window ((tref, ref) :: others) tref t e.1 c v) ∧
    ∃ r ∈ ref.rows, r.1 = t := by
  obtain ⟨r0, hr0, parts, hparts, rfl⟩ := h
  rw [toM_find] at hr0
  obtain ⟨r, hr, rfl⟩ := Option.map_eq_some_iff.mp hr0
  -- the blocks
  have hparts' : List.Forall₂ (fun (e : α × DF α K K) cs =>
      (∃ x, NearestObs e.2.rows window t x ∧ cs = e.2.cols.map x.2) ∨
      ((∀ x ∈ e.2.rows, window < |x.1 - t|) ∧ cs = List.replicate e.2.cols.length none)) others parts := by
    rw [List.forall₂_map_left_iff] at hparts
    refine hparts.imp ?_
    rintro e cs ⟨m, hm, rfl⟩
    cases m with
    | some m =>
      obtain ⟨x, hx, rfl⟩ := toM_nearest e.2 window t m hm
      exact .inl ⟨x, hx, rfl⟩
    | none =>
      refine .inr ⟨?_, rfl⟩
      intro x hx
      exact hm _ (List.mem_map_of_mem (f := fun r => (⟨r.1, e.2.cols.map r.2⟩ : Collocation.Row K K)) hx)
  set B : List (α × List α × List (Option K)) :=
    (tref, ref.cols, ref.cols.map r.2) :: (others.zip parts).map (fun p => (p.1.1, p.1.2.cols, p.2)) with hB
  have hlen : others.length = parts.length := hparts'.length_eq
  have hcols : (joinColumns (tref, toM ref) (others.map (fun e => (e.1, toM e.2)))).map toLex =
      B.flatMap (fun b => b.2.1.map (fun c => (toLex (b.1, c) : Col α))) := by
    rw [hB]
    unfold joinColumns
    rw [List.flatMap_cons, List.flatMap_cons, List.map_append, List.map_map]
    congr 1
    rw [List.flatMap_map, List.map_flatMap, List.flatMap_map]
    have : ∀ (os : List (α × DF α K K)) (ps : List (List (Option K))), os.length = ps.length →
        os.flatMap (fun e => ((toM e.2).columns.map (fun c => (e.1, c))).map (toLex : α × α → Col α)) =
          (os.zip ps).flatMap (fun p => p.1.2.cols.map (fun c => (toLex (p.1.1, c) : Col α))) := by
      intro os
      induction os with
      | nil => intro ps _; simp
      | cons o os ih =>
        intro ps hps
        cases ps with
        | nil => simp at hps
        | cons p ps =>
          rw [List.zip_cons_cons, List.flatMap_cons, List.flatMap_cons, ih ps (by simpa using hps), List.map_map]
          rfl
    exact this others parts hlen
  have hcells : ref.cols.map r.2 ++ parts.flatten = B.flatMap (fun b => b.2.2) := by
    rw [hB, List.flatMap_cons]
    congr 1
    rw [List.flatMap_map]
    have : ∀ (os : List (α × DF α K K)) (ps : List (List (Option K))), os.length = ps.length →
        ps.flatten = (os.zip ps).flatMap (fun p => p.2) := by
      intro os
      induction os with
      | nil => intro ps h; cases ps with
        | nil => rfl
        | cons p ps => simp at h
      | cons o os ih =>
        intro ps hps
        cases ps with
        | nil => simp at hps
        | cons p ps => rw [List.zip_cons_cons, List.flatMap_cons, List.flatten_cons, ih ps (by simpa using hps)]
    exact this others parts hlen
  have hBn : (B.map Prod.fst).Nodup := by
    rw [hB, List.map_cons, List.map_map]
    have : ((others.zip parts).map (Prod.fst ∘ fun p => (p.1.1, p.1.2.cols, p.2))) = others.map Prod.fst := by
      have h1 : (others.zip parts).map Prod.fst = others := List.map_fst_zip (by omega)
      conv_rhs => rw [← h1, List.map_map]
      rfl
    rw [this]
    exact hn
  have hBmem : ∀ b ∈ B, ∃ e ∈ (tref, ref) :: others, b.1 = e.1 ∧ b.2.1 = e.2.cols ∧
      ((e = (tref, ref) ∧ b.2.2 = ref.cols.map r.2) ∨ (e ∈ others ∧
        ((∃ x, NearestObs e.2.rows window t x ∧ b.2.2 = e.2.cols.map x.2) ∨
         ((∀ x ∈ e.2.rows, window < |x.1 - t|) ∧ b.2.2 = List.replicate e.2.cols.length none)))) := by
    intro b hb
    rcases List.mem_cons.mp hb with rfl | hb
    · exact ⟨(tref, ref), by simp, rfl, rfl, .inl ⟨rfl, rfl⟩⟩
    · obtain ⟨⟨e, cs⟩, hp, rfl⟩ := List.mem_map.mp hb
      have := (List.forall₂_iff_zip.mp hparts').2 hp
      exact ⟨e, by simp [(List.of_mem_zip hp).1], rfl, rfl, .inr ⟨(List.of_mem_zip hp).1, this⟩⟩
  have hBof : ∀ e ∈ (tref, ref) :: others, ∃ b ∈ B, b.1 = e.1 ∧ b.2.1 = e.2.cols := by
    intro e he
    rcases List.mem_cons.mp he with rfl | he
    · exact ⟨(tref, ref.cols, ref.cols.map r.2), by rw [hB]; simp, rfl, rfl⟩
    · obtain ⟨i, hi, rfl⟩ := List.getElem_of_mem he
      refine ⟨(others[i].1, others[i].2.cols, parts[i]'(hlen ▸ hi)), ?_, rfl, rfl⟩
      rw [hB]
      refine List.mem_cons_of_mem _ (List.mem_map.mpr ⟨(others[i], parts[i]'(hlen ▸ hi)), ?_, rfl⟩)
      rw [List.mem_iff_getElem]
      exact ⟨i, by simp [hi, ← hlen], by simp⟩
  have hBl : ∀ b ∈ B, b.2.1.length = b.2.2.length := by
    intro b hb
    obtain ⟨e, -, -, h2, h3⟩ := hBmem b hb
    rcases h3 with ⟨rfl, h⟩ | ⟨-, ⟨x, -, h⟩ | ⟨-, h⟩⟩ <;> rw [h2, h] <;> simp
  have huniq : ∀ e ∈ (tref, ref) :: others, ∀ e' ∈ (tref, ref) :: others, e.1 = e'.1 → e = e' := by
    intro e he e' he' hee
    have hnn : (((tref, ref) :: others).map Prod.fst).Nodup := hn
    exact List.inj_on_of_nodup_map hnn he he' hee
  -- the value of a cell of a block
  have hval : ∀ b ∈ B, ∀ e ∈ (tref, ref) :: others, b.1 = e.1 → ∀ c ∈ e.2.cols, ∃ v, (b.2.1.zip b.2.2).lookup c = some v ∧
      SeenAt window ((tref, ref) :: others) tref t e.1 c v := by
    intro b hb e he hbe c hc
    obtain ⟨e', he', h1, h2, h3⟩ := hBmem b hb
    obtain rfl := huniq e he e' he' (hbe.symm.trans h1)
    rw [h2]
    rcases h3 with ⟨rfl, h⟩ | ⟨ho, h⟩
    · refine ⟨r.2 c, by rw [h]; exact lookup_zip_map _ _ _ hc, ref, by simp, .inl ⟨rfl, r, hr, rfl⟩⟩
    · have hne : e.1 ≠ tref := by
        intro hh
        exact (List.nodup_cons.mp hn).1 (hh ▸ List.mem_map_of_mem ho)
      rcases h with ⟨x, hx, h⟩ | ⟨hx, h⟩
      · exact ⟨x.2 c, by rw [h]; exact lookup_zip_map _ _ _ hc, e.2, he, .inr ⟨hne, .inl ⟨x, hx, rfl⟩⟩⟩
      · exact ⟨none, by rw [h]; exact lookup_zip_replicate _ _ hc, e.2, he, .inr ⟨hne, .inr ⟨hx, rfl⟩⟩⟩
  refine ⟨?_, ?_, r, List.mem_of_find?_eq_some hr, by simpa using List.find?_some hr⟩
  · intro e he c hc
    obtain ⟨b, hb, h1, h2⟩ := hBof e he
    obtain ⟨v, hv, hs⟩ := hval b hb e he h1 c hc
    refine ⟨v, ?_, hs⟩
    rw [hcols, hcells, ← h1, lookup_blocks B hBn hBl b hb c (h2 ▸ hc)]
    exact hv
  · intro v hv
    rw [hcells, List.mem_flatMap] at hv
    obtain ⟨b, hb, hv⟩ := hv
    obtain ⟨e, he, h1, h2, h3⟩ := hBmem b hb
    rcases h3 with ⟨rfl, h⟩ | ⟨ho, h⟩
    · rw [h] at hv
      obtain ⟨c, hc, rfl⟩ := List.mem_map.mp hv
      exact ⟨_, he, c, hc, ref, by simp, .inl ⟨rfl, r, hr, rfl⟩⟩
    · have hne : e.1 ≠ tref := by
        intro hh
        exact (List.nodup_cons.mp hn).1 (hh ▸ List.mem_map_of_mem ho)
      rcases h with ⟨x, hx, h⟩ | ⟨hx, h⟩
      · rw [h] at hv
        obtain ⟨c, hc, rfl⟩ := List.mem_map.mp hv
        exact ⟨e, he, c, hc, e.2, he, .inr ⟨hne, .inl ⟨x, hx, rfl⟩⟩⟩
      · rw [h] at hv
        obtain ⟨hpos, rfl⟩ := List.mem_replicate.mp hv
        obtain ⟨c, hc⟩ := List.exists_mem_of_length_pos (Nat.pos_of_ne_zero hpos)
        exact ⟨e, he, c, hc, e.2, he, .inr ⟨hne, .inr ⟨hx, rfl⟩⟩⟩

theorem rowAt_exists (window : K) (ref : DF α K K) (others : List (DF α K K)) (t : K) (h : ∃ r ∈ ref.rows, r.1 = t) :
    ∃ cells, RowAt window (toM ref) (others.map toM) t cells := by
  obtain ⟨r, hr, rfl⟩ := h
  have : ∃ x, (toM ref).rows.find? (fun x => decide (x.time = r.1)) = some x := by
    cases hf : (toM ref).rows.find? (fun x => decide (x.time = r.1)) with
    | some x => exact ⟨x, rfl⟩
    | none =>
      rw [List.find?_eq_none] at hf
      have := hf _ (List.mem_map_of_mem (f := fun r => (⟨r.1, ref.cols.map r.2⟩ : Collocation.Row K K)) hr)
      simp at this
  obtain ⟨x, hx⟩ := this
  refine ⟨_, x, hx, (others.map toM).map (fun f => Collocation.shown f.columns.length (Collocation.nearestRow f.rows window r.1)), ?_, rfl⟩
  rw [List.forall₂_map_right_iff, List.forall₂_same]
  exact fun f _ => ⟨_, Collocation.nearestRow_isNearest f.rows window r.1, rfl⟩

theorem nearestObs_unique {obs : List (K × (α → Option K))} {window t : K} {r r' : K × (α → Option K)}
    (h : NearestObs obs window t r) (h' : NearestObs obs window t r') : r = r' := by
  obtain ⟨-, h2, h3⟩ := h
  obtain ⟨-, h2', h3'⟩ := h'
  have hm := List.mem_of_find?_eq_some h2
  have hm' := List.mem_of_find?_eq_some h2'
  have e : |r.1 - t| = |r'.1 - t| := le_antisymm (h3 r' hm').1 (h3' r hm).1
  have : r.1 = r'.1 := le_antisymm ((h3' r hm).2 e) ((h3 r' hm').2 e.symm)
  rw [this, h2'] at h2
  exact (Option.some.inj h2).symm

/-- a data set has one value at a time -/
theorem seenAt_unique {window : K} {dfs : List (α × DF α K K)} (hn : (dfs.map Prod.fst).Nodup) {tref : α} {t : K} {d c : α}
    {v v' : Option K} (h : SeenAt window dfs tref t d c v) (h' : SeenAt window dfs tref t d c v') : v = v' := by
  obtain ⟨df, hd, h⟩ := h
  obtain ⟨df', hd', h'⟩ := h'
  obtain rfl : df = df' := (Prod.mk.inj (List.inj_on_of_nodup_map hn hd hd' rfl)).2
  rcases h with ⟨e, r, hr, rfl⟩ | ⟨e, h⟩
  · rcases h' with ⟨-, r', hr', rfl⟩ | ⟨e', -⟩
    · rw [hr] at hr'
      rw [Option.some.inj hr']
    · exact absurd e e'
  · rcases h' with ⟨e', -⟩ | ⟨-, h'⟩
    · exact absurd e' e
    · rcases h with ⟨r, hr, rfl⟩ | ⟨hr, rfl⟩ <;> rcases h' with ⟨r', hr', rfl⟩ | ⟨hr', rfl⟩
      · rw [nearestObs_unique hr hr']
      · exact absurd hr.1 (not_le.mpr (hr' r (List.mem_of_find?_eq_some hr.2.1)))
      · exact absurd hr'.1 (not_le.mpr (hr r' (List.mem_of_find?_eq_some hr'.2.1)))
      · rfl

theorem find?_time_of_nodup (rows : List (Collocation.Row K K)) (h : (rows.map Collocation.Row.time).Nodup) (r : Collocation.Row K K)
    (hr : r ∈ rows) : rows.find? (fun x => decide (x.time = r.time)) = some r := by
  cases hf : rows.find? (fun x => decide (x.time = r.time)) with
  | none =>
    rw [List.find?_eq_none] at hf
    have := hf r hr
    simp at this
  | some x =>
    have h1 := List.mem_of_find?_eq_some hf
    have h2 : x.time = r.time := by simpa using List.find?_some hf
    rw [List.inj_on_of_nodup_map h h1 hr h2]

/-- the data selected from a matched frame -/
theorem join_data (window : K) (tref : α) (ref : DF α K K) (others : List (α × DF α K K)) (hn : (tref :: others.map Prod.fst).Nodup)
    (keep : List (Option K) → Prop) (rows : List (Collocation.Row K K))
    (hj : IsJoin keep window (toM ref) (others.map (fun e => toM e.2)) rows) (need : α → α → Prop) (sel : List (Col α))
    (hsel : ∀ x ∈ sel, ∃ e ∈ (tref, ref) :: others, e.1 = (ofLex x).1 ∧ (ofLex x).2 ∈ e.2.cols)
    (hsub : ∀ x ∈ sel, need (ofLex x).1 (ofLex x).2)
    (hkeep : ∀ t cells, RowAt window (toM ref) (others.map (fun e => toM e.2)) t cells →
      (∀ x ∈ sel, ∃ v, SeenAt window ((tref, ref) :: others) tref t (ofLex x).1 (ofLex x).2 (some v)) →
      (keep cells ↔ ∀ d c, need d c → ∃ v, SeenAt window ((tref, ref) :: others) tref t d c (some v))) :
    ∃ data, select (ofM ⟨joinColumns (tref, toM ref) (others.map (fun e => (e.1, toM e.2))), rows⟩) sel = .ok data ∧
      IsMatchedData window ((tref, ref) :: others) tref need sel data := by
  have hnn : (((tref, ref) :: others).map Prod.fst).Nodup := hn
  obtain ⟨hnod, hmem⟩ := hj
  set cols : List (Col α) := (joinColumns (tref, toM ref) (others.map (fun e => (e.1, toM e.2)))).map toLex with hcols
  have hin : ∀ x ∈ sel, x ∈ cols := by
    intro x hx
    obtain ⟨e, he, h1, h2⟩ := hsel x hx
    rw [hcols]
    refine List.mem_map.mpr ⟨ofLex x, ?_, rfl⟩
    unfold joinColumns
    rw [List.mem_flatMap]
    refine ⟨(e.1, toM e.2), ?_, ?_⟩
    · rcases List.mem_cons.mp he with rfl | he
      · simp
      · exact List.mem_cons_of_mem _ (List.mem_map.mpr ⟨e, he, rfl⟩)
    · exact List.mem_map.mpr ⟨(ofLex x).2, h2, by rw [h1]⟩
  -- the value of a cell
  let val : Collocation.Row K K → Col α → Option K := fun r c => ((cols.zip r.cells).lookup c).join
  have hval : ∀ r ∈ rows, ∀ x ∈ sel, SeenAt window ((tref, ref) :: others) tref r.time (ofLex x).1 (ofLex x).2 (val r x) := by
    intro r hr x hx
    obtain ⟨e, he, h1, h2⟩ := hsel x hx
    obtain ⟨v, hv, hs⟩ := (rowAt_cells window tref ref others hn r.time r.cells ((hmem r.time r.cells).mp hr).1).1 e he _ h2
    have hx' : (toLex (e.1, (ofLex x).2) : Col α) = x := by rw [h1]; rfl
    rw [hx'] at hv
    have : val r x = v := by
      show ((cols.zip r.cells).lookup x).join = v
      rw [hv]
      rfl
    rw [this, ← h1]
    exact hs
  set sub := rows.filter (fun r => sel.all (fun c => (val r c).isSome)) with hsubdef
  have hrows : (ofM ⟨joinColumns (tref, toM ref) (others.map (fun e => (e.1, toM e.2))), rows⟩).rows.filter
      (fun r => sel.all (fun c => (r.2 c).isSome)) = sub.map (fun r => (r.time, val r)) := by
    unfold ofM
    rw [hsubdef, List.filter_map]
    rfl
  have hsubn : (sub.map Collocation.Row.time).Nodup := hnod.sublist (List.filter_sublist.map _)
  have hidx : (sub.map (fun r => (r.time, val r))).map Prod.fst = sub.map Collocation.Row.time := by
    rw [List.map_map]
    rfl
  refine ⟨⟨sub.map Collocation.Row.time, sel.map (fun c => (.ds (ofLex c).1, sub.map (fun r => val r c)))⟩, ?_, hsubn, ?_, ?_⟩
  · unfold select
    rw [if_pos (by
      rw [List.all_eq_true]
      intro x hx
      exact decide_eq_true (hin x hx))]
    rw [hrows]
    simp only [hidx, List.map_map]
    rfl
  · intro t
    constructor
    · intro ht
      obtain ⟨r, hr, rfl⟩ := List.mem_map.mp ht
      obtain ⟨hr1, hr2⟩ := List.mem_filter.mp hr
      obtain ⟨hrow, hk⟩ := (hmem r.time r.cells).mp hr1
      obtain ⟨-, -, hh⟩ := rowAt_cells window tref ref others hn r.time r.cells hrow
      refine ⟨⟨ref, by simp, hh⟩, ?_⟩
      refine (hkeep r.time r.cells hrow ?_).mp hk
      intro x hx
      have hs := hval r hr1 x hx
      have := List.all_eq_true.mp hr2 x hx
      obtain ⟨v, hv⟩ := Option.isSome_iff_exists.mp this
      exact ⟨v, hv ▸ hs⟩
    · rintro ⟨⟨df, hdf, hr⟩, hall⟩
      obtain rfl : df = ref := (Prod.mk.inj (List.inj_on_of_nodup_map hnn hdf (by simp : (tref, ref) ∈ (tref, ref) :: others) rfl)).2
      obtain ⟨cells, hrow⟩ := rowAt_exists window df (others.map Prod.snd) t hr
      rw [List.map_map] at hrow
      have hrow' : RowAt window (toM df) (others.map (fun e => toM e.2)) t cells := hrow
      have hk := (hkeep t cells hrow' (fun x hx => hall _ _ (hsub x hx))).mpr hall
      have hr1 := (hmem t cells).mpr ⟨hrow', hk⟩
      refine List.mem_map.mpr ⟨⟨t, cells⟩, List.mem_filter.mpr ⟨hr1, ?_⟩, rfl⟩
      rw [List.all_eq_true]
      intro x hx
      obtain ⟨v, hv⟩ := hall _ _ (hsub x hx)
      rw [seenAt_unique hnn (hval _ hr1 x hx) hv]
      rfl
  · refine ⟨fun x t => ((rows.find? (fun r => decide (r.time = t))).map (fun r => val r x)).join, ?_, ?_⟩
    · intro t ht x hx
      obtain ⟨r, hr, rfl⟩ := List.mem_map.mp ht
      have hr1 := List.mem_of_mem_filter hr
      beta_reduce
      rw [find?_time_of_nodup rows hnod r hr1]
      exact hval r hr1 x hx
    · refine List.map_congr_left ?_
      intro x _
      rw [List.map_map]
      refine congrArg (Prod.mk _) (List.map_congr_left ?_)
      intro r hr
      simp only [Function.comp_apply]
      rw [find?_time_of_nodup rows hnod r (List.mem_of_mem_filter hr)]
      rfl

theorem mem_of_lookup_zip {A : Type} [BEq A] (as : List A) (xs : List (Option K)) (a : A) (x : Option K)
    (h : (as.zip xs).lookup a = some x) : x ∈ xs := by
  induction as generalizing xs with
  | nil => simp at h
  | cons b as ih =>
    cases xs with
    | nil => simp at h
    | cons y xs =>
      rw [List.zip_cons_cons, List.lookup_cons] at h
      cases hb : (a == b) with
      | true =>
        rw [hb] at h
        obtain rfl := Option.some.inj h
        simp
      | false =>
        rw [hb] at h
        exact List.mem_cons_of_mem _ (ih xs h)

theorem isMatchedData_congr {window : K} {dfs dfs' : List (α × DF α K K)} {tref : α} {need : α → α → Prop} {sel : List (Col α)}
    {data : Frame α K K} (he : ∀ e, e ∈ dfs ↔ e ∈ dfs') (h : IsMatchedData window dfs tref need sel data) :
    IsMatchedData window dfs' tref need sel data := by
  have hs : ∀ t d c v, SeenAt window dfs tref t d c v ↔ SeenAt window dfs' tref t d c v := by
    intro t d c v
    unfold SeenAt
    simp only [he]
  unfold IsMatchedData at h ⊢
  simpa only [hs, he] using h

/-- the only matched frame is selected -/
theorem single_frame (tref : α) (names : List α) (F : MFrame α K K) (sel : List (Col α)) (hsel : (dsNames sel).Nodup)
    (hn : (tref :: names).Nodup) (hsub : ∀ x ∈ sel, (ofLex x).1 ∈ tref :: names) :
    getDataForResultTuple tref [(tref :: names, F)] sel = select F sel := by
  unfold getDataForResultTuple
  simp only
  by_cases hl : (tref :: names).length = sel.length
  · rw [if_pos hl]
    have hsp : (dsNames sel).Subperm (tref :: names) := by
      refine List.subperm_of_subset hsel ?_
      intro a ha
      obtain ⟨x, hx, rfl⟩ := List.mem_map.mp ha
      exact hsub x hx
    have hp : (dsNames sel).Perm (tref :: names) := hsp.perm_of_length_le (by rw [hl]; simp [dsNames])
    have he : (dsNames sel).insertionSort (· ≤ ·) = (tref :: names).insertionSort (· ≤ ·) := by
      refine List.Perm.eq_of_pairwise (le := (· ≤ ·)) (fun a b _ _ h1 h2 => le_antisymm h1 h2)
        (List.pairwise_insertionSort _ _) (List.pairwise_insertionSort _ _) ?_
      exact ((List.perm_insertionSort _ _).trans hp).trans (List.perm_insertionSort _ _).symm
    simp [he]
  · rw [if_neg hl]
    simp

variable {W Info : Type}

/-- **C75.** With the default temporal matcher on `n` = all data sets that were read, the data of a result consist of one row for every
time of the temporal reference at which every column of the result (and of the scaling reference, if it was added) has a value: the
reference at that time, every other data set in its nearest observation in the window. No other row, no row twice. Nothing is
returned (`matched` is empty) only if no column has a value at any time of the temporal reference. -/
theorem basic_matched_data_partial (window : K) (hw : 0 ≤ window) (dfs : List (α × DF α K K)) (hdfs : (dfs.map Prod.fst).Nodup) (tref : α)
    (ref : DF α K K) (href : (tref, ref) ∈ dfs) (k : ℕ) (matched : List (List α × MFrame α K K))
    (h : basicMatcher window dfs tref dfs.length k = .ok matched) :
    (matched = [] → ∀ t d c v, (∃ r ∈ ref.rows, r.1 = t) → (∃ df, (d, df) ∈ dfs ∧ c ∈ df.cols) → SeenAt window dfs tref t d c v → v = none) ∧
    (matched ≠ [] → ∀ sel : List (Col α), sel ≠ [] → (dsNames sel).Nodup →
      (∀ x ∈ sel, ∃ df, ((ofLex x).1, df) ∈ dfs ∧ (ofLex x).2 ∈ df.cols) →
      ∃ data, getDataForResultTuple tref matched sel = .ok data ∧
        IsMatchedData window dfs tref (fun d c => toLex (d, c) ∈ sel) sel data) := by
  set others := dfs.filter (fun e => decide (e.1 ≠ tref)) with hothers
  have hmem : ∀ e, e ∈ (tref, ref) :: others ↔ e ∈ dfs := by
    intro e
    rw [List.mem_cons, hothers, List.mem_filter]
    constructor
    · rintro (rfl | h)
      · exact href
      · exact h.1
    · intro he
      by_cases h : e.1 = tref
      · exact .inl (List.inj_on_of_nodup_map hdfs he href h)
      · exact .inr ⟨he, by simpa using h⟩
  have hn : (tref :: others.map Prod.fst).Nodup := by
    rw [List.nodup_cons]
    refine ⟨?_, hdfs.sublist (List.filter_sublist.map _)⟩
    intro hh
    obtain ⟨e, he, h1⟩ := List.mem_map.mp hh
    have := (List.mem_filter.mp he).2
    simp [h1] at this
  have hnn : (((tref, ref) :: others).map Prod.fst).Nodup := hn
  have hlen : others.length + 1 = dfs.length := by
    have hp : ((tref, ref) :: others).Perm dfs :=
      (List.perm_ext_iff_of_nodup hnn.of_map hdfs.of_map).mpr hmem
    simpa using hp.length_eq
  have hs : ∀ t d c v, SeenAt window ((tref, ref) :: others) tref t d c v ↔ SeenAt window dfs tref t d c v := by
    intro t d c v
    unfold SeenAt
    simp only [hmem]
  unfold basicMatcher viaM at h
  beta_reduce at h
  set dict := dfs.map (fun e => (e.1, toM e.2)) with hdict
  have hdn : (dict.map Prod.fst).Nodup := by
    rw [hdict, List.map_map]
    exact hdfs
  have hdf : dict.filter (fun e => decide (e.1 ≠ tref)) = others.map (fun e => (e.1, toM e.2)) := by
    rw [hdict, hothers, List.filter_map]
    rfl
  cases hc : combinatoryMatcher window dict tref dfs.length with
  | error e => rw [hc] at h; cases h
  | ok out =>
    rw [hc] at h
    obtain rfl := Except.ok.inj h
    obtain ⟨c1, c2, c3⟩ := Matchers.combinatory_matcher window hw dict hdn tref (toM ref)
      (List.mem_map.mpr ⟨(tref, ref), href, rfl⟩) dfs.length (by
        intro e he
        obtain ⟨x, -, rfl⟩ := List.mem_map.mp he
        exact toM_wf x.2) out hc
    rw [hdf] at c2 c3
    obtain ⟨rows, hrows, hcase⟩ := c3 _ (List.Sublist.refl _) (by simpa using hlen)
    rw [List.map_map] at hrows
    have hj : IsJoin SomeValue window (toM ref) (others.map (fun e => toM e.2)) rows := hrows
    have hkeys : ∀ e ∈ out, e.1 = tref :: (others.map Prod.fst).insertionSort (· ≤ ·) := by
      intro e he
      obtain ⟨S, hS, hSl, hSe⟩ := c2 e he
      have : S = others.map (fun e => (e.1, toM e.2)) := hS.eq_of_length (by simp; omega)
      rw [hSe, this, List.map_map]
      rfl
    have hone : ∀ e ∈ out, ∀ e' ∈ out, e = e' := fun e he e' he' =>
      List.inj_on_of_nodup_map c1 he he' ((hkeys e he).trans (hkeys e' he').symm)
    constructor
    · intro hnil t d c v ht hdc hv
      have hout : out = [] := List.map_eq_nil_iff.mp hnil
      have hr : rows = [] := by
        rcases hcase with ⟨-, hin⟩ | ⟨hr, -⟩
        · rw [hout] at hin
          simp at hin
        · exact hr
      subst hr
      obtain ⟨cells, hrow⟩ := rowAt_exists window ref (others.map Prod.snd) t ht
      rw [List.map_map] at hrow
      have hrow' : RowAt window (toM ref) (others.map (fun e => toM e.2)) t cells := hrow
      have hno : ¬ SomeValue cells := fun hk => by
        have := (hj.2 t cells).mpr ⟨hrow', hk⟩
        simp at this
      obtain ⟨df, hdf, hcc⟩ := hdc
      obtain ⟨v', hv', hsv⟩ := (rowAt_cells window tref ref others hn t cells hrow').1 (d, df) ((hmem _).mpr hdf) c hcc
      rw [seenAt_unique hnn ((hs _ _ _ _).mpr hv) hsv]
      by_contra hne
      exact hno ⟨v', mem_of_lookup_zip _ _ _ _ hv', hne⟩
    · intro hne sel hsne hseln hsel
      have hin : (tref :: (others.map Prod.fst).insertionSort (· ≤ ·),
          (⟨joinColumns (tref, toM ref) (others.map (fun e => (e.1, toM e.2))), rows⟩ : Matchers.DF (α × α) K)) ∈ out := by
        have hmm : (others.map (fun e => (e.1, toM e.2))).map Prod.fst = others.map Prod.fst := by
          rw [List.map_map]
          rfl
        rw [hmm] at hcase
        rcases hcase with ⟨-, hin⟩ | ⟨-, hnot⟩
        · exact hin
        · exfalso
          obtain ⟨e, es, hee⟩ := List.exists_cons_of_ne_nil (fun hh : out = [] => hne (by rw [hh]; rfl))
          refine hnot (List.mem_map.mpr ⟨e, by rw [hee]; simp, ?_⟩)
          exact hkeys e (by rw [hee]; simp)
      have hout : out = [(tref :: (others.map Prod.fst).insertionSort (· ≤ ·),
          (⟨joinColumns (tref, toM ref) (others.map (fun e => (e.1, toM e.2))), rows⟩ : Matchers.DF (α × α) K))] := by
        cases out with
        | nil => simp at hin
        | cons e es =>
          cases es with
          | nil => rw [hone _ hin e (by simp)]
          | cons e' es =>
            rw [hone e (by simp) e' (by simp)] at c1
            simp at c1
      rw [hout, List.map_cons, List.map_nil]
      have hperm := List.perm_insertionSort (· ≤ ·) (others.map Prod.fst)
      rw [single_frame tref _ _ sel hseln ((hperm.cons tref).nodup_iff.mpr hn) (by
        intro x hx
        obtain ⟨df, hdf, -⟩ := hsel x hx
        refine (hperm.cons tref).mem_iff.mpr ?_
        have := List.mem_map_of_mem (f := Prod.fst) ((hmem _).mpr hdf)
        exact this)]
      obtain ⟨data, hd, hm⟩ := join_data window tref ref others hn SomeValue rows hj (fun d c => toLex (d, c) ∈ sel) sel
        (by
          intro x hx
          obtain ⟨df, hdf, hcc⟩ := hsel x hx
          exact ⟨((ofLex x).1, df), (hmem _).mpr hdf, rfl, hcc⟩)
        (fun x hx => hx)
        (by
          intro t cells hrow hv
          refine ⟨fun _ d c hdc => hv _ hdc, fun _ => ?_⟩
          obtain ⟨x, xs, rfl⟩ := List.exists_cons_of_ne_nil hsne
          obtain ⟨df, hdf, hcc⟩ := hsel x (by simp)
          obtain ⟨v, hvv⟩ := hv x (by simp)
          obtain ⟨v', hv', hsv⟩ := (rowAt_cells window tref ref others hn t cells hrow).1 ((ofLex x).1, df) ((hmem _).mpr hdf) _ hcc
          refine ⟨v', mem_of_lookup_zip _ _ _ _ hv', ?_⟩
          rw [seenAt_unique hnn hsv hvv]
          simp)
      exact ⟨data, hd, isMatchedData_congr hmem hm⟩

/-- **C76.** With `make_combined_temporal_matcher` on `n` = all data sets that were read, the data of a result consist of one row for every
time of the temporal reference at which every column of every data set has a value, also those that are no part of the
result. -/
theorem combined_matched_data_partial (hour : K) (window : Option K) (hw : 0 ≤ window.getD hour) (dfs : List (α × DF α K K))
    (hdfs : (dfs.map Prod.fst).Nodup) (tref : α) (ref : DF α K K) (href : (tref, ref) ∈ dfs) (k : ℕ)
    (matched : List (List α × MFrame α K K)) (h : oneMatcher hour window dfs tref dfs.length k = .ok matched)
    (sel : List (Col α)) (hseln : (dsNames sel).Nodup) (hsel : ∀ x ∈ sel, ∃ df, ((ofLex x).1, df) ∈ dfs ∧ (ofLex x).2 ∈ df.cols) :
    ∃ data, getDataForResultTuple tref matched sel = .ok data ∧
      IsMatchedData (window.getD hour) dfs tref (fun d c => ∃ df, (d, df) ∈ dfs ∧ c ∈ df.cols) sel data := by
  set others := dfs.filter (fun e => decide (e.1 ≠ tref)) with hothers
  have hmem : ∀ e, e ∈ (tref, ref) :: others ↔ e ∈ dfs := by
    intro e
    rw [List.mem_cons, hothers, List.mem_filter]
    constructor
    · rintro (rfl | h)
      · exact href
      · exact h.1
    · intro he
      by_cases h : e.1 = tref
      · exact .inl (List.inj_on_of_nodup_map hdfs he href h)
      · exact .inr ⟨he, by simpa using h⟩
  have hn : (tref :: others.map Prod.fst).Nodup := by
    rw [List.nodup_cons]
    refine ⟨?_, hdfs.sublist (List.filter_sublist.map _)⟩
    intro hh
    obtain ⟨e, he, h1⟩ := List.mem_map.mp hh
    have := (List.mem_filter.mp he).2
    simp [h1] at this
  have hnn : (((tref, ref) :: others).map Prod.fst).Nodup := hn
  unfold oneMatcher viaM at h
  beta_reduce at h
  set dict := dfs.map (fun e => (e.1, toM e.2)) with hdict
  have hdn : (dict.map Prod.fst).Nodup := by
    rw [hdict, List.map_map]
    exact hdfs
  have hdf : dict.filter (fun e => decide (e.1 ≠ tref)) = others.map (fun e => (e.1, toM e.2)) := by
    rw [hdict, hothers, List.filter_map]
    rfl
  cases hc : combinedMatcher hour window dict tref (some dfs.length) with
  | error e => rw [hc] at h; cases h
  | ok out =>
    rw [hc] at h
    obtain rfl := Except.ok.inj h
    obtain ⟨S, rfl, rows, rfl, hj⟩ := Matchers.combined_matcher hour window hw dict hdn tref (toM ref)
      (List.mem_map.mpr ⟨(tref, ref), href, rfl⟩) (some dfs.length) (.inr (by rw [hdict]; simp)) (by
        intro e he
        obtain ⟨x, -, rfl⟩ := List.mem_map.mp he
        exact toM_wf x.2) out hc
    rw [hdf, List.map_map] at hj
    have hj' : IsJoin AllValues (window.getD hour) (toM ref) (others.map (fun e => toM e.2)) rows := hj
    rw [hdf, List.map_cons, List.map_nil]
    have hmm : (others.map (fun e => (e.1, toM e.2))).map Prod.fst = others.map Prod.fst := by
      rw [List.map_map]
      rfl
    simp only [hmm]
    rw [single_frame tref _ _ sel hseln hn (by
      intro x hx
      obtain ⟨df, hdf, -⟩ := hsel x hx
      have := List.mem_map_of_mem (f := Prod.fst) ((hmem _).mpr hdf)
      exact this)]
    obtain ⟨data, hd, hm⟩ := join_data (window.getD hour) tref ref others hn AllValues rows hj'
      (fun d c => ∃ df, (d, df) ∈ dfs ∧ c ∈ df.cols) sel
      (by
        intro x hx
        obtain ⟨df, hdf, hcc⟩ := hsel x hx
        exact ⟨((ofLex x).1, df), (hmem _).mpr hdf, rfl, hcc⟩)
      hsel
      (by
        intro t cells hrow _
        obtain ⟨r1, r2, -⟩ := rowAt_cells (window.getD hour) tref ref others hn t cells hrow
        constructor
        · rintro hall d c ⟨df, hdf, hcc⟩
          obtain ⟨v', hv', hsv⟩ := r1 (d, df) ((hmem _).mpr hdf) c hcc
          obtain ⟨w, hw⟩ := Option.ne_none_iff_exists'.mp (hall v' (mem_of_lookup_zip _ _ _ _ hv'))
          exact ⟨w, hw ▸ hsv⟩
        · intro hall v hv
          obtain ⟨e, he, c, hcc, hsv⟩ := r2 v hv
          obtain ⟨w, hw⟩ := hall e.1 c ⟨e.2, (hmem _).mp he, hcc⟩
          rw [seenAt_unique hnn hsv hw]
          simp)
    exact ⟨data, hd, isMatchedData_congr hmem hm⟩

/-! ### Data sets without data -/

/-- Negation for C75 and C76: if the number of data sets that could be read is smaller than `n` of a calculator, there is no matched data, for
the result keys of the data sets that were read neither: the location fails with NO_TEMP_MATCHED_DATA (the default matcher) -/
theorem basic_missing_data (window : K) (dfs : List (α × DF α K K)) (hdfs : (dfs.map Prod.fst).Nodup) (tref : α)
    (href : tref ∈ dfs.map Prod.fst) (n k : ℕ) (hn : dfs.length < n) : basicMatcher window dfs tref n k = .ok [] := by
  unfold basicMatcher viaM
  beta_reduce
  have : combinatoryMatcher window (dfs.map (fun e => (e.1, toM e.2))) tref n = .ok [] := by
    unfold combinatoryMatcher
    have hlk : ∃ ref, (dfs.map (fun e => (e.1, toM e.2))).lookup tref = some ref := by
      cases h : (dfs.map (fun e => (e.1, toM e.2))).lookup tref with
      | some r => exact ⟨r, rfl⟩
      | none =>
        rw [List.lookup_eq_none_iff] at h
        obtain ⟨e, he, h1⟩ := List.mem_map.1 href
        exact absurd (h _ (List.mem_map_of_mem he)) (by simp [h1])
    obtain ⟨ref, hlk⟩ := hlk
    rw [hlk]
    simp only
    rw [if_neg (by omega)]
    have hnil : DfMetrics.combinations (n - 1) ((dfs.map (fun e => (e.1, toM e.2))).filter (fun e => decide (e.1 ≠ tref))) = [] := by
      rw [List.eq_nil_iff_forall_not_mem]
      intro S hS
      obtain ⟨h1, h2⟩ := (DfMetrics.mem_combinations _ _ _).1 hS
      have h3 := h2.length_le
      have h4 : ((dfs.map (fun e => (e.1, toM e.2))).filter (fun e => decide (e.1 ≠ tref))).length < dfs.length := by
        have := List.length_filter_lt_length_iff_exists (l := dfs.map (fun e => (e.1, toM e.2))) (p := fun e => decide (e.1 ≠ tref))
        rw [List.length_map] at this
        rw [this]
        obtain ⟨e, he, h1⟩ := List.mem_map.1 href
        exact ⟨_, List.mem_map_of_mem he, by simp [h1]⟩
      omega
    rw [hnil]
    rfl
  rw [this]
  rfl

/-- the same for the combined matcher, for every other number of data sets -/
theorem combined_missing_data (hour : K) (window : Option K) (dfs : List (α × DF α K K)) (tref : α) (n k : ℕ) (hn : n ≠ dfs.length) :
    oneMatcher hour window dfs tref n k = .ok [] := by
  unfold oneMatcher viaM
  beta_reduce
  rw [Matchers.combined_matcher_other_number hour window _ tref n (by simpa using hn)]
  rfl

theorem mapM_exists {A B E : Type} (f : A → Except E B) (l : List A) (h : ∀ a ∈ l, ∃ b, f a = .ok b) : ∃ bs, l.mapM f = .ok bs := by
  induction l with
  | nil => exact ⟨[], rfl⟩
  | cons a l ih =>
    obtain ⟨b, hb⟩ := h a (by simp)
    obtain ⟨bs, hbs⟩ := ih (fun x hx => h x (by simp [hx]))
    refine ⟨b :: bs, ?_⟩
    rw [List.mapM_cons, hb]
    simp only [bind, Except.bind, hbs]
    rfl

/-- Negation for C75: a calculator without matched data ends the validation of the location, whatever the results of the others would be. -/
theorem missing_data_no_result (S : Setup α K K W Info) (raising : Bool) (info : Info) (dfs dfs' : List (α × DF α K K))
    (hm : masked S info dfs = .ok (some dfs')) (dfs'' : List (α × DF α K K)) (ho : onlyColumns S dfs' = .ok dfs'')
    (c : (ℕ × ℕ) × (Frame α K K → Info → Except Exc (Metrics W))) (cs : List ((ℕ × ℕ) × (Frame α K K → Info → Except Exc (Metrics W))))
    (hcalcs : S.calcs = c :: cs) (hmatch : S.matcher dfs'' S.temporalRef c.1.1 c.1.2 = .ok [])
    (hrest : ∀ c' ∈ cs, ∃ m, S.matcher dfs'' S.temporalRef c'.1.1 c'.1.2 = .ok m) :
    performValidation S raising info dfs = .error (.validation NO_TEMP_MATCHED_DATA) := by
  obtain ⟨ms, hms⟩ := mapM_exists (fun c => S.matcher dfs'' S.temporalRef c.1.1 c.1.2) cs hrest
  unfold performValidation
  rw [hm]
  simp only [bind, Except.bind]
  rw [ho]
  simp only
  have hall : matchAll S dfs'' = .ok ([] :: ms) := by
    unfold matchAll
    rw [hcalcs, List.mapM_cons, hmatch]
    simp only [bind, Except.bind, hms]
    rfl
  rw [hall]
  simp only
  rw [hcalcs, List.zip_cons_cons]
  rfl

/-- Negation for C76: with the combined matcher and two or more masking data sets with data (or none), masking always raises. -/
theorem mask_combined_raises (hour : K) (window : Option K) (M : Masking α K K Info)
    (hmat : M.matcher = fun dfs ref n => oneMatcher hour window dfs ref n 2) (tref : α) (ref : DF α K K) (info : Info)
    (others : List (α × DF α K K)) (ho : M.getOther info = .ok others) (hlen : others.length ≠ 1) (names : List (Key α))
    (hn : DataManager.getResultNames M.ds M.refName 2 = .ok names) (hne : names ≠ []) :
    maskDataset M tref ref info = .error .other :=
  mask_no_match_raises M tref ref info others ho (by
    rw [hmat]
    exact combined_missing_data hour window _ _ 2 2 (by simp; omega)) names hn hne

/-! ### Cases -/

/-- reference `0` with columns `5`, other data sets `1` (column `6`) and `2` (column `7`) -/
def readData : List (ℕ × DF ℕ ℚ ℚ) :=
  [(1, ⟨[6], [(1, fun _ => some 10), (5, fun _ => some 50)]⟩), (2, ⟨[7], [(1, fun _ => none), (2, fun _ => some 200), (5, fun _ => some 500)]⟩),
   (0, ⟨[5], [(1, fun _ => some 1), (2, fun _ => some 2), (5, fun _ => some 5)]⟩)]

example : ((basicMatcher (1 / 2) readData 0 3 2).toOption.bind (fun m => (getDataForResultTuple 0 m [col 0 5, col 1 6]).toOption)).map
    (fun d => (d.index, d.columns)) =
    some ([1, 5], [(.ds 0, [some 1, some 5]), (.ds 1, [some 10, some 50])]) := by decide +kernel

example : ((oneMatcher (1 / 24) (some (1 / 2)) readData 0 3 2).toOption.bind (fun m => (getDataForResultTuple 0 m [col 0 5, col 1 6]).toOption)).map
    (fun d => (d.index, d.columns)) =
    some ([5], [(.ds 0, [some 5]), (.ds 1, [some 50])]) := by decide +kernel

example : (readData.map Prod.fst).Nodup ∧ readData.length = 3 := by decide

example := basic_missing_data (1 / 2) readData (by decide) 0 (by decide) 4 2 (by decide)
/-- a calculator asks for four data sets, only three have data -/
example (S : Setup ℕ ℚ ℚ ℤ ℕ) (hmask : S.mask = none) (hds : S.ds = [(0, [5]), (1, [6]), (2, [7]), (3, [8])]) (hm : S.matcher = basicMatcher (1 / 2)) (ht : S.temporalRef = 0)
    (cal : Frame ℕ ℚ ℚ → ℕ → Except Exc (Metrics ℤ)) (hc : S.calcs = [((4, 2), cal)]) (dfs') (hms : masked S 0 readData = .ok (some dfs'))
    (dfs'') (ho : onlyColumns S dfs' = .ok dfs'') (hr : dfs'' = readData) : performValidation S false 0 readData = .error (.validation NO_TEMP_MATCHED_DATA) :=
  missing_data_no_result S false 0 readData dfs' hms dfs'' ho ((4, 2), cal) [] hc
    (by rw [hm, ht, hr]; exact basic_missing_data (1 / 2) readData (by decide) 0 (by decide) 4 2 (by decide)) (by simp)

end Verif.Validation
