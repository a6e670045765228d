import Verif.Upscaling.Model
import Verif.Collocation.Props
import Verif.Common.ListAux
import Mathlib.Tactic.Linarith
import Mathlib.Tactic.FieldSimp
import Mathlib.Tactic.Ring
import Mathlib.Data.List.Forall2
import Mathlib.Data.List.GetD

/-! C37: what `get_upscaled_ts` returns. -/

set_option linter.unusedSectionVars false

namespace Verif.Upscaling

open Verif.Collocation (Row Frame combinedCollocation IsNearest shown cell IsDistinctOf Contributes combined_collocation)

/-! ### Specification -/

section Spec
variable {N K : Type} [Field K] [LinearOrder K]

/-- `v` is the arithmetic mean of the values that are present, missing if there is none -/
def Average (vals : List (Option K)) (v : Option K) : Prop :=
  (v = none ↔ ∀ x ∈ vals, x = none) ∧ ∀ m, v = some m → m * ((vals.filter Option.isSome).length : K) = (vals.map (·.getD 0)).sum

/-- the observations of one variable of a frame -/
def observations (target : N) (f : PF N K) : List (Row K K) := f.rows.map (fun r => ⟨r.1, [r.2 target]⟩)

/-- the value that the point contributes at time `t`: that of the nearest observation in the window -/
def NearestValue (target : N) (window t : K) (f : PF N K) (x : Option K) : Prop :=
  ∃ m, IsNearest (observations target f) window t m ∧ x = cell m 0

/-- number of values of the variable -/
def values (target : N) (f : PF N K) : ℕ := (f.rows.filter (fun r => (r.2 target).isSome)).length

end Spec

variable {N K : Type} [DecidableEq N] [Field K] [LinearOrder K]

theorem filterMap_sum (l : List (Option K)) : (l.filterMap id).sum = (l.map (·.getD 0)).sum := by
  induction l with
  | nil => rfl
  | cons a l ih => cases a <;> simpa using ih

theorem filterMap_length {A : Type} (l : List (Option A)) : (l.filterMap id).length = (l.filter Option.isSome).length := by
  induction l with
  | nil => rfl
  | cons a l ih => cases a <;> simpa using ih

theorem rowMean_none (l : List (Option K)) : rowMean l = none ↔ ∀ x ∈ l, x = none := by
  unfold rowMean
  constructor
  · intro h x hx
    cases x with
    | none => rfl
    | some v =>
      have : v ∈ l.filterMap id := List.mem_filterMap.mpr ⟨some v, hx, rfl⟩
      split at h
      · rename_i h0; rw [h0] at this; simp at this
      · simp at h
  · intro h
    have : l.filterMap id = [] := by
      rw [List.filterMap_eq_nil_iff]
      intro x hx
      rw [h x hx]; rfl
    rw [this]

theorem rowMean_congr {l l' : List (Option K)} (h : l.filterMap id = l'.filterMap id) : rowMean l = rowMean l' := by
  unfold rowMean
  rw [h]

section Ordered
variable [IsStrictOrderedRing K]

/-- the row mean is the average -/
theorem rowMean_average (l : List (Option K)) : Average l (rowMean l) := by
  refine ⟨rowMean_none l, ?_⟩
  intro m hm
  unfold rowMean at hm
  split at hm
  · simp at hm
  · rename_i v vs hv
    obtain rfl := Option.some.inj hm
    rw [← hv, filterMap_length, filterMap_sum]
    have : ((l.filter Option.isSome).length : K) ≠ 0 := by
      rw [← filterMap_length, hv]
      simp only [List.length_cons]
      exact Nat.cast_ne_zero.mpr (Nat.succ_ne_zero vs.length)
    field_simp

/-- **C37.** The average lies between the smallest and the largest of the values. -/
theorem average_between (l : List (Option K)) (m : K) (h : Average l (some m)) :
    (∃ a, some a ∈ l ∧ a ≤ m) ∧ ∃ b, some b ∈ l ∧ m ≤ b := by
  obtain ⟨h1, h2⟩ := h
  have h2 := h2 m rfl
  have hne : ∃ x ∈ l, x ≠ none := by
    by_contra hc
    push Not at hc
    have := h1.mpr hc
    simp at this
  rw [← filterMap_length, ← filterMap_sum] at h2
  obtain ⟨x, hx, hx'⟩ := hne
  obtain ⟨v, rfl⟩ := Option.ne_none_iff_exists'.mp hx'
  have hv : v ∈ l.filterMap id := List.mem_filterMap.mpr ⟨some v, hx, rfl⟩
  have hmem : ∀ y, y ∈ l.filterMap id → some y ∈ l := by
    intro y hy
    obtain ⟨z, hz, hz'⟩ := List.mem_filterMap.mp hy
    simp only [id_eq] at hz'
    rwa [← hz']
  have key : ∀ l' : List K, (∀ y ∈ l', m < y) → l' ≠ [] → m * (l'.length : K) < l'.sum := by
    intro l' hl hn
    induction l' with
    | nil => exact absurd rfl hn
    | cons a l' ih =>
      rcases l' with _ | ⟨b, l'⟩
      · simpa using hl a (by simp)
      · have h3 := ih (fun y hy => hl y (List.mem_cons_of_mem _ hy)) (by simp)
        have h4 := hl a (by simp)
        rw [List.length_cons, List.sum_cons]
        push_cast at h3 ⊢
        linarith
  have key' : ∀ l' : List K, (∀ y ∈ l', y < m) → l' ≠ [] → l'.sum < m * (l'.length : K) := by
    intro l' hl hn
    induction l' with
    | nil => exact absurd rfl hn
    | cons a l' ih =>
      rcases l' with _ | ⟨b, l'⟩
      · simpa using hl a (by simp)
      · have h3 := ih (fun y hy => hl y (List.mem_cons_of_mem _ hy)) (by simp)
        have h4 := hl a (by simp)
        rw [List.length_cons, List.sum_cons]
        push_cast at h3 ⊢
        linarith
  have hn : l.filterMap id ≠ [] := List.ne_nil_of_mem hv
  constructor
  · by_contra hc
    push Not at hc
    have := key _ (fun y hy => hc y (hmem y hy)) hn
    linarith
  · by_contra hc
    push Not at hc
    have := key' _ (fun y hy => hc y (hmem y hy)) hn
    linarith

end Ordered

/-! ### Columns -/

/-- `m` consists of the columns `m.cols` of the full table -/
def Rep (n : ℕ) (full : List (Row K K)) (m : Matched K) : Prop :=
  m.cols.Sublist (List.range n) ∧ m.rows = full.map (fun r => ⟨r.time, m.cols.map (at' r.cells)⟩)

theorem map_getD_sublist (cols : List ℕ) (keep : ℕ → Bool) :
    ((List.range cols.length).filter keep |>.map (fun i => cols.getD i 0)).Sublist cols := by
  have h : (List.range cols.length).map (fun i => cols.getD i 0) = cols := by
    apply List.ext_getElem
    · simp
    · intro i h1 h2
      simp only [List.getElem_map, List.getElem_range]
      exact List.getD_eq_getElem _ _ h2
  conv_rhs => rw [← h]
  exact List.filter_sublist.map _

theorem rep_select (n : ℕ) (full : List (Row K K)) (m : Matched K) (keep : ℕ → Bool) (h : Rep n full m) : Rep n full (selectCols keep m) := by
  refine ⟨(map_getD_sublist m.cols keep).trans h.1, ?_⟩
  simp only [selectCols, h.2, List.map_map]
  apply List.map_congr_left
  intro r _
  simp only [Function.comp_apply, Row.mk.injEq, true_and]
  apply List.map_congr_left
  intro i hi
  rw [List.mem_filter, List.mem_range] at hi
  simp only [Function.comp_apply]
  conv_lhs => rw [at']
  rw [List.getElem?_map, List.getElem?_eq_getElem hi.1, List.getD_eq_getElem _ _ hi.1]
  rfl

theorem map_at'_range (cells : List (Option K)) : (List.range cells.length).map (at' cells) = cells := by
  apply List.ext_getElem
  · simp
  · intro i h1 h2
    simp [at', h2]

theorem filterMap_filter_none {A B : Type} (l : List A) (p : A → Bool) (f : A → Option B) (h : ∀ a ∈ l, p a = false → f a = none) :
    (l.filter p).filterMap f = l.filterMap f := by
  induction l with
  | nil => rfl
  | cons a l ih =>
    have ih := ih (fun b hb => h b (List.mem_cons_of_mem _ hb))
    rw [List.filter_cons]
    cases hp : p a with
    | true => simp only [if_true, List.filterMap_cons, ih]
    | false => simp only [Bool.false_eq_true, if_false, List.filterMap_cons, ih, h a List.mem_cons_self hp]

/-- dropping columns without values does not change the values present in a row -/
theorem dropEmpty_rows (n : ℕ) (full : List (Row K K)) (hlen : ∀ r ∈ full, r.cells.length = n) :
    Rep n full (dropEmptyCols ⟨List.range n, full⟩) ∧
      ∀ r ∈ full, ((dropEmptyCols ⟨List.range n, full⟩ : Matched K).cols.map (at' r.cells)).filterMap id = r.cells.filterMap id := by
  constructor
  · apply rep_select
    refine ⟨List.Sublist.refl _, ?_⟩
    simp only
    conv_lhs => rw [← List.map_id full]
    apply List.map_congr_left
    intro r hr
    rw [← hlen r hr, map_at'_range]
    rfl
  · intro r hr
    have hcols : (dropEmptyCols ⟨List.range n, full⟩ : Matched K).cols =
        (List.range n).filter (fun i => full.any (fun r => (at' r.cells i).isSome)) := by
      simp only [dropEmptyCols, selectCols, List.length_range]
      conv_rhs => rw [← List.map_id ((List.range n).filter _)]
      apply List.map_congr_left
      intro i hi
      rw [List.mem_filter, List.mem_range] at hi
      rw [List.getD_eq_getElem _ _ (by simpa using hi.1)]
      simp
    rw [hcols, List.filterMap_map, filterMap_filter_none]
    · conv_rhs => rw [← map_at'_range r.cells, hlen r hr, List.filterMap_map]
    · intro i _ hp
      rw [List.any_eq_false] at hp
      simpa using hp r hr

/-! ### The reference series -/

theorem pickRef_spec (ref : Frame K K) (l : List (Frame K K)) :
    (pickRef ref l = ref ∨ pickRef ref l ∈ l) ∧ count ref ≤ count (pickRef ref l) ∧ ∀ f ∈ l, count f ≤ count (pickRef ref l) := by
  induction l generalizing ref with
  | nil => exact ⟨.inl rfl, le_refl _, by simp⟩
  | cons f l ih =>
    unfold pickRef
    split
    · rename_i h
      obtain ⟨h1, h2, h3⟩ := ih ref
      refine ⟨h1.imp_right (List.mem_cons_of_mem _), h2, ?_⟩
      intro g hg
      rcases List.mem_cons.mp hg with rfl | hg
      · exact le_trans h h2
      · exact h3 g hg
    · rename_i h
      obtain ⟨h1, h2, h3⟩ := ih f
      refine ⟨.inr ?_, by omega, ?_⟩
      · rcases h1 with h1 | h1
        · rw [h1]; exact List.mem_cons_self
        · exact List.mem_cons_of_mem _ h1
      · intro g hg
        rcases List.mem_cons.mp hg with rfl | hg
        · exact h2
        · exact h3 g hg

theorem count_toMatch (target : N) (f : PF N K) : count (⟨1, observations target f⟩ : Frame K K) = values target f := by
  unfold count values observations
  simp only [List.filter_map, List.length_map]
  congr 1

theorem toMatch_ok (target : N) (tss : List (PF N K)) (frames : List (Frame K K)) (h : tss.mapM (toMatch target) = .ok frames) :
    frames = tss.map (fun f => ⟨1, observations target f⟩) := by
  have hf := mapM_except_ok h
  clear h
  induction hf with
  | nil => rfl
  | cons h1 _ ih =>
    rw [List.map_cons, ← ih]
    congr 1
    unfold toMatch at h1
    split at h1
    · exact (Except.ok.inj h1).symm
    · simp at h1

theorem parts_values (target : N) (window t : K) (tss : List (PF N K)) (parts : List (List (Option K)))
    (h : List.Forall₂ (fun f cells => Contributes f window t cells) (tss.map (fun f => (⟨1, observations target f⟩ : Frame K K))) parts) :
    parts.flatten.length = tss.length ∧ List.Forall₂ (NearestValue target window t) tss parts.flatten := by
  induction tss generalizing parts with
  | nil =>
    cases h
    exact ⟨rfl, .nil⟩
  | cons f tss ih =>
    cases h with
    | cons h1 h2 =>
      rename_i p ps
      obtain ⟨i1, i2⟩ := ih ps h2
      obtain ⟨m, hm, rfl⟩ := h1
      have hs : shown 1 m = [cell m 0] := by
        cases m with
        | none => rfl
        | some r =>
          obtain ⟨_, hfind, _⟩ := hm
          have hr : r ∈ observations target f := List.mem_of_find?_eq_some hfind
          unfold observations at hr
          obtain ⟨x, _, rfl⟩ := List.mem_map.mp hr
          rfl
      simp only at hs hm ⊢
      rw [List.flatten_cons, hs]
      refine ⟨by simp [i1], ?_⟩
      exact .cons ⟨m, hm, rfl⟩ i2

/-- the stages after matching keep the times and use a selection of the columns -/
theorem stability_rep (regr : List (Option K) → List (Option K) → Except Err (Option K × Option K)) (rMin seeMax : K) (minN n : ℕ)
    (full : List (Row K K)) (m m' : Matched K) (h : Rep n full m) (hok : tstabilityFilter regr rMin seeMax minN m = .ok m') : Rep n full m' := by
  unfold tstabilityFilter at hok
  split at hok
  · rw [← Except.ok.inj hok]; exact h
  · simp only [bind, Except.bind] at hok
    split at hok
    · simp at hok
    · rw [← Except.ok.inj hok]
      exact rep_select n full m _ h

theorem nearestValue_unique (target : N) (window t : K) [IsStrictOrderedRing K] (tss : List (PF N K)) (v v' : List (Option K))
    (h : List.Forall₂ (NearestValue target window t) tss v) (h' : List.Forall₂ (NearestValue target window t) tss v') : v = v' := by
  induction h generalizing v' with
  | nil => cases h'; rfl
  | cons h1 _ ih =>
    cases h' with
    | cons h1' h2' =>
      rw [ih _ h2']
      congr 1
      obtain ⟨m, hm, rfl⟩ := h1
      obtain ⟨m', hm', rfl⟩ := h1'
      rw [Collocation.isNearest_unique hm hm']

/-- **C37.** Whenever `get_upscaled_ts` returns a series, it comes from the points in the look-up table that have data (at least two). The times
are those of a point with the most values; with `drop_missing` only those at which all points have a value in the window. At each time the
result is the average over a fixed selection of the points, of the values nearest in time inside the window; without the stability filter
over all points. -/
theorem upscaled_series [IsStrictOrderedRing K] (regr : List (Option K) → List (Option K) → Except Err (Option K × Option K)) (a : Args K) (target : N)
    (lut : List (ℕ × List ℕ)) (read : ℕ → Except Err (Option (PF N K))) (gpi : ℕ) (out : List (K × Option K)) (hw : 0 ≤ a.hours)
    (h : getUpscaledTs regr a target lut read gpi = .ok (some (.series out))) :
    ∃ points all, lut.lookup gpi = some points ∧ List.Forall₂ (fun p o => read p = .ok o) points all ∧
      2 ≤ (all.filterMap id).length ∧ ∃ ref ∈ all.filterMap id, (∀ f ∈ all.filterMap id, values target f ≤ values target ref) ∧
      (out.map Prod.fst).Nodup ∧
      (∀ t, t ∈ out.map Prod.fst ↔ t ∈ ref.rows.map Prod.fst ∧ (a.dropMissing = false ∨
        ∃ vals, List.Forall₂ (NearestValue target a.hours t) (all.filterMap id) vals ∧ ∀ x ∈ vals, x ≠ none)) ∧
      (a.dropMissing = false → IsDistinctOf (out.map Prod.fst) (ref.rows.map Prod.fst)) ∧
      ∃ sel : List ℕ, sel.Sublist (List.range (all.filterMap id).length) ∧
        ∀ e ∈ out, ∃ vals, List.Forall₂ (NearestValue target a.hours e.1) (all.filterMap id) vals ∧
          Average (sel.map (fun j => (vals[j]?).join)) e.2 ∧ (a.stability = false → Average vals e.2) := by
  unfold getUpscaledTs at h
  cases hl : lut.lookup gpi with
  | none => rw [hl] at h; simp at h
  | some points =>
  rw [hl] at h
  simp only [bind, Except.bind] at h
  cases hr : points.mapM read with
  | error e => rw [hr] at h; simp at h
  | ok all =>
  rw [hr] at h
  simp only at h
  refine ⟨points, all, rfl, mapM_except_ok hr, ?_⟩
  generalize all.filterMap id = tss at h ⊢
  rcases tss with _ | ⟨f0, _ | ⟨f1, fs⟩⟩
  · simp at h
  · simp at h
  simp only at h
  cases hfr : (f0 :: f1 :: fs).mapM (toMatch target) with
  | error e => rw [hfr] at h; simp at h
  | ok frames =>
  rw [hfr] at h
  simp only at h
  have hframes := toMatch_ok target _ _ hfr
  refine ⟨by simp, ?_⟩
  generalize htss : f0 :: f1 :: fs = tss at hframes ⊢
  cases htm : temporalMatch a.hours a.dropMissing frames with
  | error e => rw [htm] at h; simp at h
  | ok m =>
  rw [htm] at h
  simp only at h
  -- the matched table
  obtain ⟨g, gs, hgs⟩ : ∃ g gs, frames = g :: gs := by rw [hframes, ← htss]; exact ⟨_, _, rfl⟩
  unfold temporalMatch at htm
  rw [hgs] at htm
  simp only at htm
  cases hcc : combinedCollocation {} (if a.dropMissing = true then .any else .no) false (pickRef g (g :: gs)) (g :: gs) a.hours with
  | error e => rw [hcc] at htm; simp at htm
  | ok rows =>
  rw [hcc] at htm
  simp only [Except.ok.injEq] at htm
  rw [← hgs] at hcc htm
  obtain ⟨p1, _, p3⟩ := pickRef_spec g (g :: gs)
  have hpm : pickRef g (g :: gs) ∈ frames := by
    rw [hgs]
    rcases p1 with p1 | p1
    · rw [p1]; exact List.mem_cons_self
    · exact p1
  rw [← hgs] at p3
  rw [hframes] at hpm
  obtain ⟨ref, hrefm, href⟩ := List.mem_map.mp hpm
  rw [← hgs] at href
  rw [← href] at hcc p3
  obtain ⟨full, c1, c2, c3, c4, c5⟩ := combined_collocation {} _ false _ frames a.hours hw rfl rfl
    (by
      intro f hf r hrr
      rw [hframes] at hf
      obtain ⟨x, _, rfl⟩ := List.mem_map.mp hf
      obtain ⟨y, _, rfl⟩ := List.mem_map.mp hrr
      rfl) (.inl rfl) rows hcc
  have hreft : (observations target ref).map Row.time = ref.rows.map Prod.fst := by
    unfold observations; rw [List.map_map]; rfl
  simp only [hreft] at c3 c4
  have hval : ∀ r ∈ full, r.cells.length = tss.length ∧ List.Forall₂ (NearestValue target a.hours r.time) tss r.cells := by
    intro r hrr
    obtain ⟨parts, h1, h2⟩ := c5 r hrr
    rw [hframes] at h1
    simp only [Bool.false_eq_true, if_false, List.nil_append] at h2
    rw [h2]
    exact parts_values target a.hours r.time tss parts h1
  have hrows : ∀ r ∈ rows, r ∈ full ∧ (a.dropMissing = true → ∀ c ∈ r.cells, c ≠ none) := by
    intro r hrr
    rw [c1, List.mem_filter] at hrr
    refine ⟨hrr.1, ?_⟩
    intro hd
    have := hrr.2
    rw [hd] at this
    simpa using this
  have hrows' : ∀ r ∈ full, (a.dropMissing = true → ∀ c ∈ r.cells, c ≠ none) → r ∈ rows := by
    intro r hrr hd
    rw [c1, List.mem_filter]
    refine ⟨hrr, ?_⟩
    cases hdm : a.dropMissing with
    | false => simp
    | true => simpa using hd hdm
  have hlenf : frames.length = tss.length := by rw [hframes, List.length_map]
  obtain ⟨hrep, hsame⟩ := dropEmpty_rows tss.length rows (fun r hrr => (hval r (hrows r hrr).1).1)
  rw [hlenf] at htm
  rw [htm] at hrep hsame
  -- the stability filter
  have hm' : ∃ m', Rep tss.length rows m' ∧ (a.stability = false → m' = m) ∧ upscale a.method m' = .ok out := by
    cases hs : a.stability with
    | false =>
      rw [hs] at h
      simp only [Bool.false_eq_true, if_false] at h
      cases hu : upscale a.method m with
      | error e => rw [hu] at h; simp at h
      | ok s =>
        rw [hu] at h
        simp only [Except.ok.injEq, Option.some.injEq, Up.series.injEq] at h
        exact ⟨m, hrep, fun _ => rfl, by rw [← h, hu]⟩
    | true =>
      rw [hs] at h
      simp only [if_true] at h
      cases hts : tstabilityFilter regr a.rMin a.seeMax a.minN m with
      | error e => rw [hts] at h; simp at h
      | ok m' =>
        rw [hts] at h
        simp only at h
        cases hu : upscale a.method m' with
        | error e => rw [hu] at h; simp at h
        | ok s =>
          rw [hu] at h
          simp only [Except.ok.injEq, Option.some.injEq, Up.series.injEq] at h
          exact ⟨m', stability_rep regr _ _ _ _ rows m m' hrep hts, fun hc => by simp at hc, by rw [← h, hu]⟩
  obtain ⟨m', hrep', hmm, hup⟩ := hm'
  unfold upscale at hup
  split at hup
  swap
  · simp at hup
  have hout : out = rows.map (fun r => (r.time, rowMean (m'.cols.map (at' r.cells)))) := by
    rw [← Except.ok.inj hup, hrep'.2, List.map_map]; rfl
  have htimes : out.map Prod.fst = rows.map Row.time := by rw [hout, List.map_map]; rfl
  refine ⟨ref, hrefm, ?_, ?_, ?_, ?_, m'.cols, hrep'.1, ?_⟩
  · intro f hf
    have := p3 ⟨1, observations target f⟩ (by rw [hframes]; exact List.mem_map_of_mem hf)
    rwa [count_toMatch, count_toMatch] at this
  · rw [htimes, c1]
    exact c2.sublist (List.filter_sublist.map _)
  · intro t
    rw [htimes, List.mem_map]
    constructor
    · rintro ⟨r, hrr, rfl⟩
      obtain ⟨g1, g2⟩ := hrows r hrr
      refine ⟨((c3 r.time).mp (List.mem_map_of_mem g1)).1, ?_⟩
      cases hdm : a.dropMissing with
      | false => exact .inl rfl
      | true => exact .inr ⟨r.cells, (hval r g1).2, g2 hdm⟩
    · rintro ⟨g1, g2⟩
      obtain ⟨r, hrr, rfl⟩ := List.mem_map.mp ((c3 t).mpr ⟨g1, .inr (.inl trivial)⟩)
      refine ⟨r, hrows' r hrr ?_, rfl⟩
      intro hdm
      rcases g2 with g2 | ⟨vals, g2, g3⟩
      · rw [hdm] at g2; simp at g2
      · rw [nearestValue_unique target _ _ tss _ _ (hval r hrr).2 g2]
        exact g3
  · intro hdm
    have : rows = full := by
      rw [c1, hdm]
      simp
    rw [htimes, this]
    exact c4 trivial
  · intro e he
    rw [hout] at he
    obtain ⟨r, hrr, rfl⟩ := List.mem_map.mp he
    obtain ⟨g1, g2⟩ := hval r (hrows r hrr).1
    refine ⟨r.cells, g2, ?_, ?_⟩
    · exact rowMean_average _
    · intro hs
      have := hmm hs
      rw [this]
      simp only
      rw [rowMean_congr (hsame r hrr)]
      exact rowMean_average _

/-- **C37.** `tstability_filter` on fewer than `min_n` series changes nothing; otherwise it keeps, in order and with all their values, exactly
the series whose regression on the average of all series has neither a correlation below `r_min` nor an error above `see_max`. -/
theorem stability_filter [IsStrictOrderedRing K] (regr : List (Option K) → List (Option K) → Except Err (Option K × Option K)) (rMin seeMax : K) (minN : ℕ) (m m' : Matched K)
    (hok : tstabilityFilter regr rMin seeMax minN m = .ok m') :
    (m.cols.length < minN → m' = m) ∧
    (minN ≤ m.cols.length → ∃ pos : List ℕ, pos.Sublist (List.range m.cols.length) ∧
      m'.cols = pos.map (fun i => m.cols.getD i 0) ∧ m'.rows = m.rows.map (fun r => ⟨r.time, pos.map (fun i => (r.cells[i]?).join)⟩) ∧
      ∀ i, i < m.cols.length → ∃ est r se, List.Forall₂ (fun (row : Row K K) e => Average row.cells e) m.rows est ∧
        regr est (m.rows.map (fun row => (row.cells[i]?).join)) = .ok (r, se) ∧
        (i ∈ pos ↔ ¬ ((∃ x, r = some x ∧ x < rMin) ∨ ∃ x, se = some x ∧ seeMax < x))) := by
  unfold tstabilityFilter at hok
  split at hok
  · rename_i hlt
    exact ⟨fun _ => (Except.ok.inj hok).symm, fun h => absurd h (by omega)⟩
  · rename_i hge
    refine ⟨fun h => absurd h hge, fun _ => ?_⟩
    simp only [bind, Except.bind] at hok
    split at hok
    · simp at hok
    · rename_i stats hst
      have hf := mapM_except_ok hst
      have hlen : stats.length = m.cols.length := by rw [← hf.length_eq, List.length_range]
      rw [← Except.ok.inj hok]
      refine ⟨_, List.filter_sublist, rfl, rfl, ?_⟩
      intro i hi
      have hi' : i < stats.length := by omega
      have hget := List.Forall₂.get hf (by simpa using hi) hi'
      simp only [List.get_eq_getElem, List.getElem_range] at hget
      refine ⟨m.rows.map (fun r => rowMean r.cells), stats[i].1, stats[i].2, ?_, hget, ?_⟩
      · rw [List.forall₂_map_right_iff]
        exact List.forall₂_same.mpr (fun _ _ => rowMean_average _)
      · rw [List.mem_filter, List.mem_range, List.getElem?_eq_getElem hi']
        simp only [hi, true_and, Bool.not_eq_true', Bool.or_eq_false_iff, not_or]
        have h1 : ltN stats[i].1 rMin = false ↔ ¬ ∃ x, stats[i].1 = some x ∧ x < rMin := by
          cases stats[i].1 <;> simp [ltN]
        have h2 : gtN stats[i].2 seeMax = false ↔ ¬ ∃ x, stats[i].2 = some x ∧ seeMax < x := by
          cases stats[i].2 <;> simp [gtN]
        rw [h1, h2]

/-- **C37, observation.** `linregress` gives NaN for series with a missing value; such a series is therefore never removed. -/
theorem gap_never_filtered [IsStrictOrderedRing K] (regr : List (Option K) → List (Option K) → Except Err (Option K × Option K))
    (hnan : ∀ x y, none ∈ y → regr x y = .ok (none, none)) (rMin seeMax : K) (minN : ℕ) (m m' : Matched K)
    (hok : tstabilityFilter regr rMin seeMax minN m = .ok m') (i : ℕ) (hi : i < m.cols.length)
    (hgap : ∃ r ∈ m.rows, (r.cells[i]?).join = none) : m.cols.getD i 0 ∈ m'.cols := by
  obtain ⟨h1, h2⟩ := stability_filter regr rMin seeMax minN m m' hok
  by_cases hlt : m.cols.length < minN
  · rw [h1 hlt, List.getD_eq_getElem _ _ hi]
    exact List.getElem_mem _
  · obtain ⟨pos, _, p2, _, p4⟩ := h2 (by omega)
    obtain ⟨est, r, se, _, q2, q3⟩ := p4 i hi
    obtain ⟨row, hrow, hnone⟩ := hgap
    rw [hnan _ _ (by rw [← hnone]; exact List.mem_map_of_mem hrow)] at q2
    obtain ⟨rfl, rfl⟩ := Prod.mk.inj (Except.ok.inj q2)
    rw [p2]
    exact List.mem_map_of_mem (q3.mpr (by simp))

/-- **C37.** A location that is not in the table, or has no point with data, gives `None`; a single point with data is returned as it is
(with its own times and all of its columns); an unknown method is rejected. -/
theorem upscaled_special (regr : List (Option K) → List (Option K) → Except Err (Option K × Option K)) (a : Args K) (target : N)
    (lut : List (ℕ × List ℕ)) (read : ℕ → Except Err (Option (PF N K))) (gpi : ℕ) :
    (lut.lookup gpi = none → getUpscaledTs regr a target lut read gpi = .ok none) ∧
    (∀ points all, lut.lookup gpi = some points → points.mapM read = .ok all → (∀ x ∈ all, x = none) →
      getUpscaledTs regr a target lut read gpi = .ok none) ∧
    (∀ points all f l l', lut.lookup gpi = some points → points.mapM read = .ok all → all = l ++ some f :: l' → (∀ x ∈ l ++ l', x = none) →
      getUpscaledTs regr a target lut read gpi = .ok (some (.frame f))) ∧
    (a.method ≠ "average" → ∀ out, getUpscaledTs regr a target lut read gpi ≠ .ok (some (.series out))) := by
  refine ⟨?_, ?_, ?_, ?_⟩
  · intro h; unfold getUpscaledTs; rw [h]
  · intro points all h1 h2 h3
    unfold getUpscaledTs
    rw [h1]
    simp only [bind, Except.bind, h2]
    have : all.filterMap id = [] := by
      rw [List.filterMap_eq_nil_iff]; intro x hx; rw [h3 x hx]; rfl
    rw [this]
  · intro points all f l l' h1 h2 h3 h4
    unfold getUpscaledTs
    rw [h1]
    simp only [bind, Except.bind, h2]
    have hnil : ∀ l'' : List (Option (PF N K)), (∀ x ∈ l'', x = none) → l''.filterMap id = [] := by
      intro l'' h
      rw [List.filterMap_eq_nil_iff]; intro x hx; rw [h x hx]; rfl
    have : all.filterMap id = [f] := by
      rw [h3, List.filterMap_append, show (some f :: l').filterMap id = f :: l'.filterMap id from rfl, hnil l (fun x hx => h4 x (List.mem_append_left _ hx)), hnil l' (fun x hx => h4 x (List.mem_append_right _ hx))]
      rfl
    rw [this]
  · intro hm out h
    unfold getUpscaledTs at h
    split at h
    · simp at h
    · simp only [bind, Except.bind] at h
      split at h
      · simp at h
      · split at h
        · simp at h
        · simp at h
        · have hu : ∀ m : Matched K, upscale a.method m = .error .keyError := by intro m; unfold upscale; rw [if_neg hm]
          simp only [hu] at h
          split at h
          · simp at h
          · split at h
            · simp at h
            · split at h
              · split at h <;> contradiction
              · contradiction

/-- three points: the second has the most values and is the reference, the third has no data -/
def exRead : ℕ → Except Err (Option (PF String ℚ))
  | 1 => .ok (some ⟨["sm"], [(1, fun _ => some 10), (5, fun _ => some 20)]⟩)
  | 2 => .ok (some ⟨["sm"], [(2, fun _ => some 30), (4, fun _ => some 40), (20, fun _ => some 50)]⟩)
  | 3 => .ok none
  | _ => .error .read

def exArgs : Args ℚ := { hours := 6, rMin := 3/5, seeMax := 1/20 }

def seriesOf : Except Err (Option (Up String ℚ)) → Option (List (ℚ × Option ℚ))
  | .ok (some (.series l)) => some l
  | _ => none

example : seriesOf (getUpscaledTs (fun _ _ => .error .regression) exArgs "sm" [(7, [1, 2, 3])] exRead 7) =
    some [(2, some 20), (4, some 30), (20, some 50)] := by decide +kernel

example : seriesOf (getUpscaledTs (fun _ _ => .error .regression) { exArgs with dropMissing := true } "sm" [(7, [1, 2, 3])] exRead 7) =
    some [(2, some 20), (4, some 30)] := by decide +kernel

/-- **C37, observation.** The stability filter may remove every series: then all values are missing (here with a regression that finds no
correlation). -/
theorem all_series_filtered :
    seriesOf (getUpscaledTs (fun _ _ => .ok (some 0, some 0)) { exArgs with stability := true, minN := 2 } "sm" [(7, [1, 2, 3])] exRead 7) =
      some [(2, none), (4, none), (20, none)] := by decide +kernel

/-- **C37, observation.** With `drop_missing` one series without any value in the window removes all times, although the series itself is
dropped afterwards. -/
theorem far_series_removes_all :
    seriesOf (getUpscaledTs (fun _ _ => .error .regression) { exArgs with dropMissing := true } "sm" [(7, [1, 2, 4])]
      (fun p => if p = 4 then .ok (some ⟨["sm"], [(1000, fun _ => some 1)]⟩) else exRead p) 7) = some [] := by decide +kernel

/-- the theorems applied to the points above -/
example := average_between [some 1, none, some (4 : ℚ)] (5 / 2) ⟨by simp, by norm_num⟩
example (out) (h : getUpscaledTs (fun _ _ => .error .regression) exArgs "sm" [(7, [1, 2, 3])] exRead 7 = .ok (some (.series out))) :=
  upscaled_series (fun _ _ => .error .regression) exArgs "sm" [(7, [1, 2, 3])] exRead 7 out (by norm_num [exArgs]) h
example := upscaled_special (fun _ _ => .error .regression) exArgs "sm" [(7, [1, 2, 3])] exRead 7
example (m' : Matched ℚ) (h : tstabilityFilter (fun _ y => if none ∈ y then .ok (none, none) else .ok (some 0, some 0)) (3 / 5) (1 / 20) 2
    ⟨[0, 1], [⟨1, [some 1, none]⟩, ⟨2, [some 2, some 3]⟩, ⟨3, [some 2, some 5]⟩]⟩ = .ok m') :=
  gap_never_filtered _ (by intro x y hy; exact if_pos hy) (3 / 5) (1 / 20) 2 ⟨[0, 1], [⟨1, [some 1, none]⟩, ⟨2, [some 2, some 3]⟩, ⟨3, [some 2, some 5]⟩]⟩ m' h 1 (by decide)
    ⟨⟨1, [some 1, none]⟩, by simp, rfl⟩

end Verif.Upscaling
