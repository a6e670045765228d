import Verif.DfMatch.Model
import Verif.Common.ListAux
import Mathlib.Tactic.Linarith
import Mathlib.Data.List.Forall2
import Mathlib.Algebra.Order.Ring.Rat
import Mathlib.Algebra.Field.Rat

/-! C49 and C62: the deprecated matching functions. -/

namespace Verif.DfMatch
set_option linter.unusedSectionVars false

open Verif.Collocation (Row)

section
variable {K V : Type} [Field K] [LinearOrder K] [IsStrictOrderedRing K]

/-- the search returns the position of a nearest time -/
def NearestSearch (query : List K → K → ℕ) : Prop :=
  ∀ ts t, ts ≠ [] → ∃ x, ts[query ts t]? = some x ∧ ∀ y ∈ ts, |x - t| ≤ |y - t|

/-- the difference `d` to the reference time lies in the window: both ends included, only the later end (`<=`) or only the earlier
end (`>=`) -/
def InWindow : Asym → K → K → Prop
  | .le, w, d => -w < d ∧ d ≤ w
  | .ge, w, d => -w ≤ d ∧ d < w
  | _, w, d => |d| ≤ w

theorem validDist_iff (asym : Asym) (h : asym ≠ .other) (w d : K) (hw : 0 < w) : validDist asym w d = true ↔ InWindow asym w d := by
  unfold validDist InWindow
  cases asym with
  | none => simp
  | le =>
    simp only [Bool.or_eq_true, Bool.and_eq_true, decide_eq_true_eq]
    constructor
    · rintro (⟨h1, h2⟩ | ⟨h1, h2⟩)
      · exact ⟨by linarith, h2⟩
      · exact ⟨h2, by linarith⟩
    · rintro ⟨h1, h2⟩
      rcases le_total 0 d with h | h
      · exact Or.inl ⟨h, h2⟩
      · exact Or.inr ⟨h, h1⟩
  | ge =>
    simp only [Bool.or_eq_true, Bool.and_eq_true, decide_eq_true_eq]
    constructor
    · rintro (⟨h1, h2⟩ | ⟨h1, h2⟩)
      · exact ⟨by linarith, h2⟩
      · exact ⟨h2, by linarith⟩
    · rintro ⟨h1, h2⟩
      rcases le_total 0 d with h | h
      · exact Or.inl ⟨h, h2⟩
      · exact Or.inr ⟨h, h1⟩
  | other => exact absurd rfl h

/-- `r` is what has to be reported for the reference time `r.1`: the position, distance and data of a nearest row, or nothing if that is not in the window -/
def IsMatch (window : Option K) (asym : Asym) (rows : List (Row K V)) (r : MRow K V) : Prop :=
  ∃ (j : ℕ) (x : Row K V), rows[j]? = some x ∧ (∀ y ∈ rows, |x.time - r.1| ≤ |y.time - r.1|) ∧
    ((r.2 = some ⟨j, x.time - r.1, x.time, x.cells⟩ ∧ ∀ w, window = some w → InWindow asym w (x.time - r.1)) ∨
      (r.2 = none ∧ ∃ w, window = some w ∧ ¬ InWindow asym w (x.time - r.1)))

theorem nearestRows_ok {query : List K → K → ℕ} (hq : NearestSearch query) (ref : List K) {rows : List (Row K V)} (hr : rows ≠ []) :
    ∃ out, nearestRows query ref rows = .ok out ∧ out.map Prod.fst = ref ∧ ∀ r ∈ out, IsMatch none .none rows r := by
  unfold nearestRows
  induction ref with
  | nil => exact ⟨[], rfl, rfl, by simp⟩
  | cons t ts ih =>
    obtain ⟨out, e1, e2, e3⟩ := ih
    obtain ⟨x, hx, hmin⟩ := hq (rows.map Row.time) t (by simpa using hr)
    rw [List.getElem?_map] at hx
    obtain ⟨y, hy, rfl⟩ := Option.map_eq_some_iff.1 hx
    refine ⟨(t, some ⟨query (rows.map Row.time) t, y.time - t, y.time, y.cells⟩) :: out, ?_, by rw [List.map_cons, e2], ?_⟩
    · rw [List.mapM_cons, hy, e1]; rfl
    · intro r hr
      rcases List.mem_cons.1 hr with rfl | hr
      · exact ⟨query (rows.map Row.time) t, y, hy, fun z hz => hmin z.time (List.mem_map_of_mem hz), Or.inl ⟨rfl, by simp⟩⟩
      · exact e3 r hr

theorem isMatch_mask {w : K} (hw : 0 < w) {asym : Asym} (ha : asym ≠ .other) {rows : List (Row K V)} {r : MRow K V}
    (h : IsMatch none .none rows r) : IsMatch (some w) asym rows (maskRow asym w r) := by
  obtain ⟨j, x, hx, hmin, hc⟩ := h
  obtain ⟨e, -⟩ := hc.resolve_right (fun h => by obtain ⟨-, w, hw, -⟩ := h; cases hw)
  refine ⟨j, x, hx, hmin, ?_⟩
  unfold maskRow
  simp only [e, Option.bind_some]
  by_cases hv : validDist asym w (x.time - r.1) = true
  · rw [if_pos hv]
    refine Or.inl ⟨rfl, fun w' hw' => ?_⟩
    cases hw'
    exact (validDist_iff asym ha w _ hw).1 hv
  · rw [if_neg hv]
    exact Or.inr ⟨rfl, w, rfl, fun h => hv ((validDist_iff asym ha w _ hw).2 h)⟩

/-- the rows before the optional steps -/
theorem base_ok {query : List K → K → ℕ} (hq : NearestSearch query) (window : Option K) (hw : ∀ w, window = some w → 0 < w)
    (asym : Asym) (ha : asym ≠ .other) (ref : List K) {rows : List (Row K V)} (hr : rows ≠ []) :
    ∃ out, (∀ dropna dropdup, matchOne query window asym dropna dropdup ref rows =
        .ok (if dropdup then dropDup (if dropna then out.filter (fun r => r.2.isSome) else out)
          else (if dropna then out.filter (fun r => r.2.isSome) else out))) ∧
      (out.map Prod.fst).Perm ref ∧ (out.map Prod.fst).Pairwise (· ≤ ·) ∧ ∀ r ∈ out, IsMatch window asym rows r := by
  obtain ⟨base, e1, e2, e3⟩ := nearestRows_ok hq ref hr
  have hperm := List.perm_insertionSort (fun a b : MRow K V => a.1 ≤ b.1) base
  have hsort : (base.insertionSort (fun a b : MRow K V => a.1 ≤ b.1)).Pairwise (fun a b => a.1 ≤ b.1) := by
    haveI : Std.Total (fun a b : MRow K V => a.1 ≤ b.1) := ⟨fun a b => le_total a.1 b.1⟩
    haveI : IsTrans (MRow K V) (fun a b => a.1 ≤ b.1) := ⟨fun a b c => le_trans⟩
    exact List.pairwise_insertionSort _ base
  cases window with
  | none =>
    refine ⟨base.insertionSort (fun a b : MRow K V => a.1 ≤ b.1), ?_, ?_, ?_, ?_⟩
    · intro dropna dropdup
      unfold matchOne
      rw [e1]
      rfl
    · rw [← e2]; exact hperm.map _
    · rw [List.pairwise_map]; exact hsort
    · intro r hr
      obtain ⟨j, x, h1, h2, h3⟩ := e3 r (hperm.mem_iff.1 hr)
      obtain ⟨h4, -⟩ := h3.resolve_right (fun h => by obtain ⟨-, w, hw, -⟩ := h; cases hw)
      exact ⟨j, x, h1, h2, Or.inl ⟨h4, by simp⟩⟩
  | some w =>
    refine ⟨(base.insertionSort (fun a b : MRow K V => a.1 ≤ b.1)).map (maskRow asym w), ?_, ?_, ?_, ?_⟩
    · intro dropna dropdup
      unfold matchOne applyWindow
      rw [e1]
      simp only [bind, Except.bind, if_neg ha]
      rfl
    · rw [List.map_map, ← e2]; exact hperm.map _
    · rw [List.map_map, List.pairwise_map]; exact hsort
    · intro r hr
      obtain ⟨r0, h0, rfl⟩ := List.mem_map.1 hr
      exact isMatch_mask (hw w rfl) ha (e3 r0 (hperm.mem_iff.1 h0))

/-- **C49**, without `dropduplicates`: `df_match` returns, in temporal order, one row for each reference row with the position,
distance and data of a nearest row of the frame, or NaN if that is not in the window. With `dropna` the latter are left out. -/
theorem df_match_nearest {query : List K → K → ℕ} (hq : NearestSearch query) (window : Option K)
    (hw : ∀ w, window = some w → 0 < w) (asym : Asym) (ha : asym ≠ .other) (ref : List K) {rows : List (Row K V)} (hr : rows ≠ []) :
    ∃ out, matchOne query window asym false false ref rows = .ok out ∧
      matchOne query window asym true false ref rows = .ok (out.filter (fun r => r.2.isSome)) ∧
      (out.map Prod.fst).Perm ref ∧ (out.map Prod.fst).Pairwise (· ≤ ·) ∧ ∀ r ∈ out, IsMatch window asym rows r := by
  obtain ⟨out, e1, e2, e3, e4⟩ := base_ok hq window hw asym ha ref hr
  exact ⟨out, e1 false false, e1 true false, e2, e3, e4⟩

/-- with a symmetric window a reference row is without match exactly if no row of the frame is in the window -/
theorem isMatch_symmetric {w : K} {rows : List (Row K V)} {r : MRow K V} (h : IsMatch (some w) .none rows r) :
    r.2 = none ↔ ∀ y ∈ rows, w < |y.time - r.1| := by
  obtain ⟨j, x, hx, hmin, hc⟩ := h
  constructor
  · intro hn y hy
    obtain ⟨-, w', hw', hnot⟩ := hc.resolve_left (fun h => by rw [hn] at h; cases h.1)
    cases hw'
    have := not_le.1 hnot
    linarith [hmin y hy]
  · intro hall
    rcases hc with ⟨-, hin⟩ | ⟨hn, -⟩
    · have h1 : |x.time - r.1| ≤ w := hin w rfl
      have := hall x (List.mem_of_getElem? hx)
      linarith
    · exact hn

/-! ### dropduplicates -/

theorem idxmin_spec (g : List (K × Match K V)) (hg : g ≠ []) :
    ∃ t m, idxmin g = some t ∧ (t, m) ∈ g ∧ ∀ x ∈ g, |m.distance| ≤ |x.2.distance| := by
  cases g with
  | nil => exact absurd rfl hg
  | cons r rs =>
    have : ∀ (rs : List (K × Match K V)) (b : K × Match K V),
        (rs.foldl (fun (b : K × Match K V) x => if |x.2.distance| < |b.2.distance| then x else b) b) ∈ b :: rs ∧
        ∀ x ∈ b :: rs, |(rs.foldl (fun (b : K × Match K V) x => if |x.2.distance| < |b.2.distance| then x else b) b).2.distance|
          ≤ |x.2.distance| := by
      intro rs
      induction rs with
      | nil => intro b; exact ⟨by simp, by simp⟩
      | cons y ys ih =>
        intro b
        rw [List.foldl_cons]
        obtain ⟨h1, h2⟩ := ih (if |y.2.distance| < |b.2.distance| then y else b)
        by_cases hlt : |y.2.distance| < |b.2.distance|
        · rw [if_pos hlt] at h1 h2 ⊢
          refine ⟨by simp only [List.mem_cons] at h1 ⊢; tauto, fun x hx => ?_⟩
          rcases List.mem_cons.1 hx with rfl | hx
          · exact (h2 y (by simp)).trans hlt.le
          · exact h2 x hx
        · rw [if_neg hlt] at h1 h2 ⊢
          refine ⟨by simp only [List.mem_cons] at h1 ⊢; tauto, fun x hx => ?_⟩
          rcases List.mem_cons.1 hx with rfl | hx
          · exact h2 x (by simp)
          · rcases List.mem_cons.1 hx with rfl | hx
            · exact (h2 b (by simp)).trans (not_lt.1 hlt)
            · exact h2 x (by simp [hx])
    obtain ⟨h1, h2⟩ := this rs r
    exact ⟨_, _, rfl, h1, h2⟩

theorem mem_validRows {rows : List (MRow K V)} {t : K} {m : Match K V} : (t, m) ∈ validRows rows ↔ (t, some m) ∈ rows := by
  unfold validRows
  rw [List.mem_filterMap]
  constructor
  · rintro ⟨⟨t', m'⟩, h, e⟩
    cases m' with
    | none => simp at e
    | some m' => simp at e; obtain ⟨rfl, rfl⟩ := e; exact h
  · intro h
    exact ⟨_, h, rfl⟩

theorem validRows_labels (rows : List (MRow K V)) : ((validRows rows).map Prod.fst).Sublist (rows.map Prod.fst) := by
  unfold validRows
  induction rows with
  | nil => simp
  | cons r rs ih =>
    obtain ⟨t, m⟩ := r
    cases m with
    | none => simpa using ih.cons t
    | some m => simpa using ih

theorem filter_label {l : List (K × Match K V)} (hl : (l.map Prod.fst).Nodup) {t : K} {m : Match K V} (h : (t, m) ∈ l) :
    l.filter (fun r => decide (r.1 = t)) = [(t, m)] := by
  induction l with
  | nil => simp at h
  | cons r rs ih =>
    rw [List.map_cons, List.nodup_cons] at hl
    rcases List.mem_cons.1 h with rfl | h
    · rw [List.filter_cons_of_pos (by simp)]
      congr 1
      rw [List.filter_eq_nil_iff]
      intro x hx he
      exact hl.1 (List.mem_map.2 ⟨x, hx, by simpa using he⟩)
    · have : r.1 ≠ t := fun he => hl.1 (List.mem_map.2 ⟨(t, m), h, he.symm⟩)
      rw [List.filter_cons_of_neg (by simpa using this)]
      exact ih hl.2 h

theorem dropDup_spec {rows : List (MRow K V)} (hl : (rows.map Prod.fst).Nodup) :
    (∀ r ∈ dropDup rows, r ∈ rows ∧ r.2.isSome) ∧
    (∃ keys : List ℕ, (dropDup rows).map (fun r => r.2.map Match.key) = keys.map some ∧ keys.Pairwise (· < ·)) ∧
    ∀ t m, (t, some m) ∈ rows → ∃ t' m', (t', some m') ∈ dropDup rows ∧ m'.key = m.key ∧ |m'.distance| ≤ |m.distance| := by
  have hlab : ((validRows rows).map Prod.fst).Nodup := hl.sublist (validRows_labels rows)
  set keys := (((validRows rows).map (fun r => r.2.key)).dedup).insertionSort (· ≤ ·) with hkeys
  have hd : dropDup rows = keys.flatMap (dropDupPart (validRows rows)) := rfl
  have hmem : ∀ k, k ∈ keys ↔ k ∈ (validRows rows).map (fun r => r.2.key) := by
    intro k
    rw [hkeys, (List.perm_insertionSort _ _).mem_iff, List.mem_dedup]
  have hp : ∀ k ∈ keys, ∃ t m, dropDupPart (validRows rows) k = [(t, some m)] ∧ (t, some m) ∈ rows ∧ m.key = k ∧
      ∀ t' m', (t', some m') ∈ rows → m'.key = k → |m.distance| ≤ |m'.distance| := by
    intro k hk
    obtain ⟨r, hr, rfl⟩ := List.mem_map.1 ((hmem k).1 hk)
    have hne : (validRows rows).filter (fun r' => decide (r'.2.key = r.2.key)) ≠ [] := by
      intro h0
      exact (List.filter_eq_nil_iff.1 h0) r hr (by simp)
    obtain ⟨t, m, e, hm, hmin⟩ := idxmin_spec _ hne
    obtain ⟨h1, h2⟩ := List.mem_filter.1 hm
    refine ⟨t, m, ?_, mem_validRows.1 h1, by simpa using h2, ?_⟩
    · unfold dropDupPart
      rw [e]
      simp only
      rw [filter_label hlab h1]
      rfl
    · intro t' m' h' hk'
      exact hmin (t', m') (List.mem_filter.2 ⟨mem_validRows.2 h', by simpa using hk'⟩)
  refine ⟨?_, ⟨keys, ?_, ?_⟩, ?_⟩
  · intro r hr
    rw [hd, List.mem_flatMap] at hr
    obtain ⟨k, hk, hr⟩ := hr
    obtain ⟨t, m, e, h1, -, -⟩ := hp k hk
    rw [e, List.mem_singleton] at hr
    subst hr
    exact ⟨h1, rfl⟩
  · rw [hd]
    clear hd hmem
    clear_value keys
    clear hkeys
    induction keys with
    | nil => rfl
    | cons k ks ih =>
      obtain ⟨t, m, e, -, h2, -⟩ := hp k (by simp)
      rw [List.flatMap_cons, List.map_append, ih (fun k' hk' => hp k' (by simp [hk'])), e]
      simp [h2]
  · have hs : keys.Pairwise (· ≤ ·) := List.pairwise_insertionSort _ _
    have hn : keys.Nodup := (List.perm_insertionSort _ _).nodup_iff.2 (List.nodup_dedup _)
    exact List.Pairwise.imp₂ (fun a b h1 h2 => lt_of_le_of_ne h1 h2) hs hn
  · intro t m h
    have hk : m.key ∈ keys := (hmem _).2 (List.mem_map.2 ⟨(t, m), mem_validRows.2 h, rfl⟩)
    obtain ⟨t', m', e, h1, h2, h3⟩ := hp m.key hk
    refine ⟨t', m', ?_, h2, h3 t m h rfl⟩
    rw [hd, List.mem_flatMap]
    exact ⟨m.key, hk, by rw [e]; simp⟩

/-- **C49**, with `dropduplicates`, proved for references without repeated times: the rows are some of those without it, without NaN rows,
ordered by the position of the matched row; no row of the frame is used twice, and each one that was matched is kept for a reference time that is closest to
it among the reference times it was matched to. Missing: repeated reference times, for which rows are used twice
(`df_match_duplicates_stay`). -/
theorem df_match_dropduplicates_partial {query : List K → K → ℕ} (hq : NearestSearch query) (window : Option K)
    (hw : ∀ w, window = some w → 0 < w) (asym : Asym) (ha : asym ≠ .other) (ref : List K) (href : ref.Nodup)
    {rows : List (Row K V)} (hr : rows ≠ []) (dropna : Bool) :
    ∃ all out, matchOne query window asym false false ref rows = .ok all ∧ matchOne query window asym dropna true ref rows = .ok out ∧
      (∀ r ∈ out, r ∈ all ∧ r.2.isSome) ∧
      (∃ keys : List ℕ, out.map (fun r => r.2.map Match.key) = keys.map some ∧ keys.Pairwise (· < ·)) ∧
      ∀ t m, (t, some m) ∈ all → ∃ t' m', (t', some m') ∈ out ∧ m'.key = m.key ∧ |m'.distance| ≤ |m.distance| := by
  obtain ⟨all, e1, e2, e3, e4⟩ := base_ok hq window hw asym ha ref hr
  have hn : (all.map Prod.fst).Nodup := e2.nodup_iff.2 href
  refine ⟨all, _, e1 false false, e1 dropna true, ?_⟩
  rw [if_pos rfl]
  cases dropna with
  | false =>
    simp only [Bool.false_eq_true, if_false]
    exact dropDup_spec hn
  | true =>
    rw [if_pos rfl]
    obtain ⟨h1, h2, h3⟩ := dropDup_spec (rows := all.filter (fun r => r.2.isSome)) (hn.sublist (List.filter_sublist.map _))
    exact ⟨fun r hr => ⟨List.mem_of_mem_filter (h1 r hr).1, (h1 r hr).2⟩, h2,
      fun t m h => h3 t m (List.mem_filter.2 ⟨h, rfl⟩)⟩

/-- an empty reference is an IndexError, also without frames -/
theorem df_match_empty (query : List K → K → ℕ) (window : Option K) (asym : Asym) (dropna dropdup : Bool) (args : List (List (Row K V))) :
    dfMatch query window asym dropna dropdup [] args = .error .indexError := by
  unfold dfMatch; rw [if_pos rfl]

/-- an unknown `asym_window` is an error as soon as a window is given -/
theorem df_match_unknown_window {query : List K → K → ℕ} (hq : NearestSearch query) (w : K) (dropna dropdup : Bool) (ref : List K)
    {rows : List (Row K V)} (hr : rows ≠ []) : matchOne query (some w) .other dropna dropdup ref rows = .error .unboundLocal := by
  obtain ⟨base, e1, -, -⟩ := nearestRows_ok hq ref hr
  unfold matchOne applyWindow
  rw [e1]
  rfl

end

/-! ### matching -/

section
variable {K V : Type} [Field K] [LinearOrder K] [IsStrictOrderedRing K]

theorem matchOne_dup {query : List K → K → ℕ} (hq : NearestSearch query) (window : Option K)
    (hw : ∀ w, window = some w → 0 < w) (asym : Asym) (ha : asym ≠ .other) (ref : List K) (href : ref.Nodup)
    {rows : List (Row K V)} (hr : rows ≠ []) :
    ∃ out, matchOne query window asym true true ref rows = .ok out ∧
      (∀ t x, (t, some x) ∈ out → ∃ y, rows[x.key]? = some y ∧ y = ⟨x.index, x.cells⟩ ∧ (∀ z ∈ rows, |y.time - t| ≤ |z.time - t|) ∧
        ∀ w, window = some w → InWindow asym w (y.time - t)) ∧
      ∀ t x t' x', (t, some x) ∈ out → (t', some x') ∈ out → x.key = x'.key → t = t' := by
  obtain ⟨all, e1, e2, e3, e4⟩ := base_ok hq window hw asym ha ref hr
  have hn : (all.map Prod.fst).Nodup := e2.nodup_iff.2 href
  obtain ⟨h1, ⟨keys, h2, h3⟩, -⟩ := dropDup_spec (rows := all.filter (fun r => r.2.isSome)) (hn.sublist (List.filter_sublist.map _))
  refine ⟨_, e1 true true, ?_, ?_⟩
  · intro t x hx
    simp only [if_true] at hx
    obtain ⟨j, y, hy, hmin, hc⟩ := e4 _ (List.mem_of_mem_filter (h1 _ hx).1)
    rcases hc with ⟨h, hin⟩ | ⟨h, -⟩
    · have h' : x = ⟨j, y.time - t, y.time, y.cells⟩ := Option.some.inj h
      subst h'
      exact ⟨y, hy, rfl, hmin, hin⟩
    · cases h
  · intro t x t' x' hx hx' hk
    simp only [if_true] at hx hx'
    have hnd : ((dropDup (all.filter (fun r => r.2.isSome))).map (fun r => r.2.map Match.key)).Nodup := by
      rw [h2]
      exact List.Nodup.map (fun a b h => Option.some.inj h) (h3.imp (fun h => ne_of_lt h) : keys.Nodup)
    have := List.inj_on_of_nodup_map hnd hx hx' (by simp [hk])
    exact congrArg Prod.fst this

/-- the position and the row that `matching` takes for the reference time `t` from a frame with matches `m` -/
def usedRow (m : List (MRow K V)) (t : K) : ℕ × Row K V :=
  match m.find? (fun r => decide (r.1 = t)) with
  | some (_, some x) => (x.key, ⟨x.index, x.cells⟩)
  | _ => (0, ⟨t, []⟩)

theorem joinCells_used (width : ℕ) (hw : 0 < width) (m : List (MRow K V)) (t : K) (h : ∀ c ∈ joinCells width m t, c ≠ none) :
    ∃ x, (t, some x) ∈ m ∧ usedRow m t = (x.key, ⟨x.index, x.cells⟩) ∧ joinCells width m t = x.cells := by
  unfold joinCells usedRow at *
  cases hf : m.find? (fun r => decide (r.1 = t)) with
  | none =>
    rw [hf] at h
    exact absurd rfl (h none (by simp; omega))
  | some r =>
    obtain ⟨t', o⟩ := r
    rw [hf] at h
    have ht : t' = t := by simpa using List.find?_some hf
    subst ht
    cases o with
    | none => exact absurd rfl (h none (by simp; omega))
    | some x => exact ⟨x, List.mem_of_find?_eq_some hf, rfl, rfl⟩

/-- `p` is a row of the frame and its position; it is nearest to `t` and in the window -/
def TakenFrom (window : Option K) (asym : Asym) (t : K) (a : ℕ × List (Row K V)) (p : ℕ × Row K V) : Prop :=
  a.2[p.1]? = some p.2 ∧ (∀ y ∈ a.2, |p.2.time - t| ≤ |y.time - t|) ∧ ∀ w, window = some w → InWindow asym w (p.2.time - t)

/-- **C62**, for references without repeated times and frames with at least one column: `matching` returns some of the reference rows in
their order, each followed by the data of one row of every frame; that row is a nearest one and in the window. There is no NaN in the result,
and no row of a frame is used for two reference rows. -/
theorem matching_rows {query : List K → K → ℕ} (hq : NearestSearch query) (window : Option K)
    (hw : ∀ w, window = some w → 0 < w) (asym : Asym) (ha : asym ≠ .other) (ref : List (Row K V)) (hne : ref ≠ [])
    (href : (ref.map Row.time).Nodup) (args : List (ℕ × List (Row K V))) (hargs : ∀ a ∈ args, a.2 ≠ [] ∧ 0 < a.1) :
    ∃ out, matching query window asym ref args = .ok out ∧ (out.map Row.time).Sublist (ref.map Row.time) ∧
      (∀ r ∈ out, ∀ c ∈ r.cells, c ≠ none) ∧
      ∃ used : K → List (ℕ × Row K V),
        (∀ r ∈ out, ∃ r0 ∈ ref, r0.time = r.time ∧ List.Forall₂ (TakenFrom window asym r.time) args (used r.time) ∧
          r.cells = r0.cells ++ (used r.time).flatMap (fun p => p.2.cells)) ∧
        ∀ r ∈ out, ∀ r' ∈ out, r.time ≠ r'.time → ∀ (i : ℕ) p p', (used r.time)[i]? = some p → (used r'.time)[i]? = some p' →
          p.1 ≠ p'.1 := by
  have hms : ∃ ms, (args.map Prod.snd).mapM (matchOne query window asym true true (ref.map Row.time)) = .ok ms ∧
      List.Forall₂ (fun (a : ℕ × List (Row K V)) (m : List (MRow K V)) => 0 < a.1 ∧
        (∀ t x, (t, some x) ∈ m → ∃ y, a.2[x.key]? = some y ∧ y = ⟨x.index, x.cells⟩ ∧ (∀ z ∈ a.2, |y.time - t| ≤ |z.time - t|) ∧
          ∀ w, window = some w → InWindow asym w (y.time - t)) ∧
        ∀ t x t' x', (t, some x) ∈ m → (t', some x') ∈ m → x.key = x'.key → t = t') args ms := by
    induction args with
    | nil => exact ⟨[], rfl, .nil⟩
    | cons a args ih =>
      obtain ⟨ms, e, hF⟩ := ih (fun a ha => hargs a (by simp [ha]))
      obtain ⟨m, e1, h1, h2⟩ := matchOne_dup hq window hw asym ha (ref.map Row.time) href (hargs a (by simp)).1
      refine ⟨m :: ms, ?_, .cons ⟨(hargs a (by simp)).2, h1, h2⟩ hF⟩
      rw [List.map_cons, List.mapM_cons, e1, e]; rfl
  obtain ⟨ms, e, hF⟩ := hms
  refine ⟨(ref.map (fun r => (⟨r.time, r.cells ++ ((args.map Prod.fst).zip ms).flatMap (fun p => joinCells p.1 p.2 r.time)⟩ : Row K V))).filter
    (fun r => r.cells.all Option.isSome), ?_, ?_, ?_, fun t => ms.map (fun m => usedRow m t), ?_, ?_⟩
  · unfold matching dfMatch
    rw [if_neg (by simpa using hne), e]
    rfl
  · have h1 := (List.filter_sublist (p := fun r : Row K V => r.cells.all Option.isSome)
      (l := ref.map (fun r => (⟨r.time, r.cells ++ ((args.map Prod.fst).zip ms).flatMap (fun p => joinCells p.1 p.2 r.time)⟩ : Row K V)))).map Row.time
    rw [List.map_map] at h1
    exact h1
  · intro r hr c hc
    have := (List.mem_filter.1 hr).2
    rw [List.all_eq_true] at this
    exact Option.isSome_iff_ne_none.1 (this c hc)
  · intro r hr
    obtain ⟨h1, h2⟩ := List.mem_filter.1 hr
    obtain ⟨r0, h0, rfl⟩ := List.mem_map.1 h1
    rw [List.all_eq_true] at h2
    refine ⟨r0, h0, rfl, ?_, ?_⟩
    · have hs : ∀ c ∈ ((args.map Prod.fst).zip ms).flatMap (fun p => joinCells p.1 p.2 r0.time), c ≠ none := fun c hc =>
        Option.isSome_iff_ne_none.1 (h2 c (by simp only [List.mem_append]; exact Or.inr hc))
      clear h1 hr e h2 hargs
      simp only
      induction hF with
      | nil => exact .nil
      | cons hh _ ih =>
        simp only [List.map_cons, List.zip_cons_cons, List.flatMap_cons, List.mem_append] at hs
        refine .cons ?_ (ih (fun c hc => hs c (Or.inr hc)))
        obtain ⟨x, hx, hu, -⟩ := joinCells_used _ hh.1 _ _ (fun c hc => hs c (Or.inl hc))
        obtain ⟨y, g1, rfl, g2, g3⟩ := hh.2.1 _ _ hx
        simp only [hu]
        exact ⟨g1, g2, g3⟩
    · have hs : ∀ c ∈ ((args.map Prod.fst).zip ms).flatMap (fun p => joinCells p.1 p.2 r0.time), c ≠ none := fun c hc =>
        Option.isSome_iff_ne_none.1 (h2 c (by simp only [List.mem_append]; exact Or.inr hc))
      clear h1 hr e h2 hargs
      simp only
      congr 1
      induction hF with
      | nil => rfl
      | cons hh _ ih =>
        simp only [List.map_cons, List.zip_cons_cons, List.flatMap_cons, List.mem_append] at hs ⊢
        rw [ih (fun c hc => hs c (Or.inr hc))]
        obtain ⟨x, hx, hu, hc⟩ := joinCells_used _ hh.1 _ _ (fun c hc => hs c (Or.inl hc))
        rw [hu, hc]
  · intro r hr r' hr' hne i p p' hp hp'
    have hs : ∀ r ∈ (ref.map (fun r => (⟨r.time, r.cells ++ ((args.map Prod.fst).zip ms).flatMap (fun p => joinCells p.1 p.2 r.time)⟩ : Row K V))).filter
        (fun r => r.cells.all Option.isSome),
        ∀ c ∈ ((args.map Prod.fst).zip ms).flatMap (fun p => joinCells p.1 p.2 r.time), c ≠ none := by
      intro r hr c hc
      obtain ⟨h1, h2⟩ := List.mem_filter.1 hr
      obtain ⟨r0, h0, rfl⟩ := List.mem_map.1 h1
      rw [List.all_eq_true] at h2
      exact Option.isSome_iff_ne_none.1 (h2 c (by simp only [List.mem_append]; exact Or.inr hc))
    have s1 := hs r hr
    have s2 := hs r' hr'
    clear hs hr hr' e hargs
    simp only at hp hp'
    induction hF generalizing i with
    | nil => simp at hp
    | cons hh _ ih =>
      simp only [List.map_cons, List.zip_cons_cons, List.flatMap_cons, List.mem_append] at s1 s2
      cases i with
      | zero =>
        obtain ⟨x, hx, hu, -⟩ := joinCells_used _ hh.1 _ _ (fun c hc => s1 c (Or.inl hc))
        obtain ⟨x', hx', hu', -⟩ := joinCells_used _ hh.1 _ _ (fun c hc => s2 c (Or.inl hc))
        simp only [List.map_cons, List.getElem?_cons_zero, Option.some.injEq] at hp hp'
        rw [← hp, ← hp', hu, hu']
        exact fun he => hne (hh.2.2 _ _ _ _ hx hx' he)
      | succ i =>
        exact ih i (by simpa using hp) (by simpa using hp') (fun c hc => s1 c (Or.inr hc)) (fun c hc => s2 c (Or.inr hc))

end

/-- the position of the first nearest time -/
def firstNearest (ts : List ℚ) (t : ℚ) : ℕ := ts.findIdx (fun x => ts.all (fun y => decide (|x - t| ≤ |y - t|)))

/-- the assumption about the search can be satisfied -/
theorem firstNearest_search : NearestSearch firstNearest := by
  intro ts t hts
  have hex : ∃ x ∈ ts, ∀ y ∈ ts, |x - t| ≤ |y - t| := by
    induction ts with
    | nil => exact absurd rfl hts
    | cons a l ih =>
      cases l with
      | nil => exact ⟨a, by simp, by simp⟩
      | cons b l =>
        obtain ⟨x, hx, hmin⟩ := ih (by simp)
        rcases le_total |a - t| |x - t| with h | h
        · refine ⟨a, by simp, fun y hy => ?_⟩
          rcases List.mem_cons.1 hy with rfl | hy
          · exact le_refl _
          · exact h.trans (hmin y hy)
        · refine ⟨x, List.mem_cons_of_mem _ hx, fun y hy => ?_⟩
          rcases List.mem_cons.1 hy with rfl | hy
          · exact h
          · exact hmin y hy
  have hlt : firstNearest ts t < ts.length := by
    unfold firstNearest
    rw [List.findIdx_lt_length]
    obtain ⟨x, hx, h⟩ := hex
    exact ⟨x, hx, by simpa using h⟩
  refine ⟨ts[firstNearest ts t], List.getElem?_eq_getElem hlt, ?_⟩
  have := List.findIdx_getElem (p := fun x => ts.all (fun y => decide (|x - t| ≤ |y - t|))) (xs := ts) (w := hlt)
  rw [List.all_eq_true] at this
  exact fun y hy => of_decide_eq_true (this y hy)

example : (matchOne firstNearest (some 1) .none false false [1, 2, 5] [⟨1, [some 10]⟩, ⟨2, [some 20]⟩, (⟨3, [some 30]⟩ : Row ℚ ℕ)]).toOption
    = some [(1, some ⟨0, 0, 1, [some 10]⟩), (2, some ⟨1, 0, 2, [some 20]⟩), (5, none)] := by decide +kernel

example : (matchOne firstNearest (some 1) .none true true [1, 3 / 2, 5] [⟨1, [some 10]⟩, (⟨5, [some 30]⟩ : Row ℚ ℕ)]).toOption
    = some [(1, some ⟨0, 0, 1, [some 10]⟩), (5, some ⟨1, 0, 5, [some 30]⟩)] := by decide +kernel

example : (matching firstNearest (some 1) .none [⟨1, [some 7]⟩, ⟨3 / 2, [some 8]⟩, ⟨5, [some 9]⟩, ⟨6, [none]⟩]
    [(1, [⟨1, [some 10]⟩, (⟨5, [some 30]⟩ : Row ℚ ℕ)]), (1, [⟨1, [some 11]⟩, ⟨4, [some 31]⟩])]).toOption
    = some [⟨1, [some 7, some 10, some 11]⟩, ⟨5, [some 9, some 30, some 31]⟩] := by decide +kernel

/-- Negation for C49: with repeated reference times a row of the frame is used twice in spite of `dropduplicates` -/
theorem df_match_duplicates_stay :
    (matchOne firstNearest (some 1) .none true true [1, 1] [(⟨1, [some 10]⟩ : Row ℚ ℕ)]).toOption
      = some [(1, some ⟨0, 0, 1, [some 10]⟩), (1, some ⟨0, 0, 1, [some 10]⟩)] := by decide +kernel

/-- Negation for C49: with an asymmetric window a match can be missed. Of two rows at the same distance the search may
choose the one that is excluded, here at 0 for the window `(0, 2]` around 1. -/
theorem df_match_asymmetric_misses :
    (matchOne firstNearest (some 1) .le false false [1] [⟨0, [some 10]⟩, (⟨2, [some 20]⟩ : Row ℚ ℕ)]).toOption = some [(1, none)] ∧
      InWindow .le (1 : ℚ) (2 - 1) := by
  refine ⟨by decide +kernel, ?_⟩
  unfold InWindow
  norm_num

/-- the theorems applied to the search for the first nearest time -/
example := df_match_nearest firstNearest_search (some 1) (by norm_num) .none (by simp) [1, 2, 5] (rows := [⟨1, [some 10]⟩, ⟨2, [some 20]⟩, (⟨3, [some 30]⟩ : Row ℚ ℕ)])
  (by simp)
example := df_match_dropduplicates_partial firstNearest_search (some 1) (by norm_num) .none (by simp) [1, 3 / 2, 5] (by norm_num)
  (rows := [⟨1, [some 10]⟩, (⟨5, [some 30]⟩ : Row ℚ ℕ)]) (by simp) true
example := df_match_empty firstNearest (some 1) .none false false [[(⟨1, [some 10]⟩ : Row ℚ ℕ)]]
example := df_match_unknown_window firstNearest_search 1 false false [1, 2] (rows := [(⟨1, [some 10]⟩ : Row ℚ ℕ)]) (by simp)
example := matching_rows firstNearest_search (some 1) (by norm_num) .none (by simp) [⟨1, [some 7]⟩, ⟨3 / 2, [some 8]⟩, ⟨5, [some 9]⟩] (by simp) (by norm_num)
  [(1, [⟨1, [some 10]⟩, (⟨5, [some 30]⟩ : Row ℚ ℕ)]), (1, [⟨1, [some 11]⟩, ⟨4, [some 31]⟩])] (by simp)
example (out) (h : matchOne firstNearest (some 1) .none false false [1, 5] [(⟨1, [some 10]⟩ : Row ℚ ℕ)] = .ok out)
    (hm : ∀ r ∈ out, IsMatch (some 1) .none [(⟨1, [some 10]⟩ : Row ℚ ℕ)] r) : ∀ r ∈ out, r.2 = none ↔ ∀ y ∈ [(⟨1, [some 10]⟩ : Row ℚ ℕ)], 1 < |y.time - r.1| :=
  fun r hr => isMatch_symmetric (hm r hr)

end Verif.DfMatch
