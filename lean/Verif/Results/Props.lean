import Verif.Results.Lemmas
import Mathlib.Data.List.Nodup

/-! C33 Stored results can be read back. -/

set_option linter.unusedSectionVars false

namespace Verif.Results

variable {V : Type}

/-- what a call writes along the locations -/
def esLoc (ts : List Name) (r : Rec V) : List (String × List V) :=
  ("lon", [r.lon]) :: ("lat", [r.lat]) :: (metricsOf ts r).map (fun d => (varName d.1, d.2))

/-- what a call writes along the observations -/
def esObs (ts : List Name) (r : Rec V) : List (String × List V) :=
  if tsOf ts r = [] then [] else ("time", r.times.getD []) :: (tsOf ts r).map (fun d => (varName d.1, d.2))

def rowLen (ts : List Name) (r : Rec V) : ℕ := if tsOf ts r = [] then 0 else (r.times.getD []).length

/-- the column of a variable that one call contributes -/
def tsCol (ts : List Name) (x : String) (r : Rec V) : List (Option V) :=
  match (esObs ts r).lookup x with
  | some d => d.map some
  | none => List.replicate (rowLen ts r) none

def LocName (ts : List Name) (H : List (Rec V)) (x : String) : Prop := x = "lon" ∨ x = "lat" ∨ ∃ r ∈ H, x ∈ (esLoc ts r).map Prod.fst
def ObsName (ts : List Name) (H : List (Rec V)) (x : String) : Prop := x = "time" ∨ ∃ r ∈ H, x ∈ (esObs ts r).map Prod.fst

structure Inv (ts : List Name) (H : List (Rec V)) (f : File V) : Prop where
  idx : f.idx = List.range H.length
  rows : f.rowSize = H.map (rowLen ts)
  nodup : (f.vars.map Prod.fst).Nodup
  dimLoc : ∀ x, dimOf f.vars x = some .loc ↔ LocName ts H x
  dimObs : ∀ x, dimOf f.vars x = some .obs ↔ ObsName ts H x
  valLoc : ∀ x, ¬ObsName ts H x → ∀ i, valueAt f.vars x i = (H[i]?).bind (fun r => ((esLoc ts r).lookup x).bind List.head?)
  valObs : ∀ x, ¬LocName ts H x → ∀ p, valueAt f.vars x p = readAt (H.flatMap (tsCol ts x)) p

theorem mem_locNames {ts : List Name} {r : Rec V} {x : String} :
    x ∈ (esLoc ts r).map Prod.fst ↔ x = "lon" ∨ x = "lat" ∨ ∃ d ∈ r.data, d.1 ∉ ts ∧ varName d.1 = x := by
  unfold esLoc metricsOf
  simp only [List.map_cons, List.map_map, List.mem_cons, List.mem_map, List.mem_filter, Function.comp_apply, Bool.not_eq_true',
    decide_eq_false_iff_not]
  constructor
  · rintro (h | h | ⟨d, ⟨h1, h2⟩, h3⟩)
    · exact .inl h
    · exact .inr (.inl h)
    · exact .inr (.inr ⟨d, h1, h2, h3⟩)
  · rintro (h | h | ⟨d, h1, h2, h3⟩)
    · exact .inl h
    · exact .inr (.inl h)
    · exact .inr (.inr ⟨d, ⟨h1, h2⟩, h3⟩)

theorem mem_obsNames {ts : List Name} {r : Rec V} {x : String} :
    x ∈ (esObs ts r).map Prod.fst ↔ (x = "time" ∧ tsOf ts r ≠ []) ∨ ∃ d ∈ r.data, d.1 ∈ ts ∧ varName d.1 = x := by
  have hmem : (∃ d ∈ r.data, d.1 ∈ ts ∧ varName d.1 = x) ↔ x ∈ (tsOf ts r).map (fun d => varName d.1) := by
    unfold tsOf
    simp only [List.mem_map, List.mem_filter, decide_eq_true_eq]
    constructor
    · rintro ⟨d, h1, h2, h3⟩; exact ⟨d, ⟨h1, h2⟩, h3⟩
    · rintro ⟨d, ⟨h1, h2⟩, h3⟩; exact ⟨d, h1, h2, h3⟩
  rw [hmem]
  unfold esObs
  split
  · rename_i h
    simp [h]
  · rename_i h
    simp [h, Function.comp_def]

theorem nodup_locNames {ts : List Name} {r : Rec V} (h : GoodRec ts r) : ((esLoc ts r).map Prod.fst).Nodup := by
  unfold esLoc
  have hsub : ((metricsOf ts r).map (fun d => varName d.1)).Nodup :=
    h.distinct.sublist (List.Sublist.map _ List.filter_sublist)
  have hfree : ∀ x ∈ (metricsOf ts r).map (fun d => varName d.1), x ∉ reserved := by
    intro x hx
    obtain ⟨d, hd, rfl⟩ := List.mem_map.mp hx
    exact h.free d (List.mem_of_mem_filter hd)
  simp only [List.map_cons, List.map_map, Function.comp_def, List.nodup_cons, List.mem_cons]
  refine ⟨?_, ?_, hsub⟩
  · rintro (hc | hc)
    · exact absurd hc (by decide)
    · exact hfree _ hc (by decide)
  · exact fun hc => hfree _ hc (by decide)

theorem nodup_obsNames {ts : List Name} {r : Rec V} (h : GoodRec ts r) : ((esObs ts r).map Prod.fst).Nodup := by
  unfold esObs
  split
  · simp
  have hsub : ((tsOf ts r).map (fun d => varName d.1)).Nodup := h.distinct.sublist (List.Sublist.map _ List.filter_sublist)
  simp only [List.map_cons, List.map_map, Function.comp_def, List.nodup_cons]
  refine ⟨?_, hsub⟩
  intro hx
  obtain ⟨d, hd, hd'⟩ := List.mem_map.mp hx
  exact h.free d (List.mem_of_mem_filter hd) (by rw [hd']; decide)

theorem lookup_mem {es : List (String × List V)} {x : String} {d : List V} (h : es.lookup x = some d) : (x, d) ∈ es :=
  Validation.mem_of_lookup _ h

theorem lookup_none_iff {es : List (String × List V)} {x : String} : es.lookup x = none ↔ x ∉ es.map Prod.fst := by
  rw [List.lookup_eq_none_iff]
  simp only [List.mem_map, not_exists, not_and]
  constructor
  · intro h p hp hx
    have := h p hp
    simp [hx] at this
  · intro h p hp
    have := h p hp
    simp only [bne_iff_ne, ne_eq]
    exact fun hc => this hc.symm

theorem length_obs {ts : List Name} {r : Rec V} (h : GoodRec ts r) {x : String} {d : List V} (hd : (x, d) ∈ esObs ts r) :
    d.length = rowLen ts r := by
  unfold esObs at hd
  unfold rowLen
  split at hd
  · simp at hd
  rename_i hne
  rw [if_neg hne]
  rw [List.mem_cons, List.mem_map] at hd
  rcases hd with hd | ⟨e, he, hd⟩
  · rw [Prod.mk.injEq] at hd
    rw [hd.2]
  · rw [Prod.mk.injEq] at hd
    unfold tsOf at he
    rw [List.mem_filter, decide_eq_true_eq] at he
    obtain ⟨t, ht, hl⟩ := h.series e he.1 he.2
    rw [← hd.2, hl, ht]
    rfl

theorem length_tsCol {ts : List Name} {r : Rec V} (h : GoodRec ts r) (x : String) : (tsCol ts x r).length = rowLen ts r := by
  unfold tsCol
  split
  · rename_i d hd
    rw [List.length_map]
    exact length_obs h (lookup_mem hd)
  · simp

theorem length_loc {ts : List Name} {r : Rec V} (h : GoodRec ts r) {x : String} {d : List V} (hd : (x, d) ∈ esLoc ts r) :
    ∃ v, d = [v] := by
  unfold esLoc at hd
  simp only [List.mem_cons, Prod.mk.injEq, List.mem_map] at hd
  rcases hd with ⟨-, rfl⟩ | ⟨-, rfl⟩ | ⟨e, he, -, rfl⟩
  · exact ⟨_, rfl⟩
  · exact ⟨_, rfl⟩
  · unfold metricsOf at he
    rw [List.mem_filter] at he
    exact List.length_eq_one_iff.mp (h.metric e he.1 (by simpa using he.2))

/-- the state after one call -/
theorem addResult_eq (ts : List Name) (H : List (Rec V)) (f : File V) (hI : Inv ts H f) (r : Rec V) (hr : GoodRec ts r) :
    addResult ts f r = .ok ⟨List.range (H.length + 1), H.map (rowLen ts) ++ [rowLen ts r],
      (esObs ts r).foldl (putVar .obs (H.map (rowLen ts)).sum) ((esLoc ts r).foldl (putVar .loc H.length) f.vars)⟩ := by
  have hidx : nextIndex f.idx = H.length := by
    unfold nextIndex
    rw [hI.idx]
    cases hn : H.length with
    | zero => rfl
    | succ n => rw [List.range_succ, List.getLast?_concat]
  have hlen : ∀ d ∈ metricsOf ts r, d.2.length = 1 := by
    intro d hd
    unfold metricsOf at hd
    rw [List.mem_filter] at hd
    exact hr.metric d hd.1 (by simpa using hd.2)
  have hadd : addMetrics f [r.lon] [r.lat] (metricsOf ts r) =
      .ok (⟨List.range (H.length + 1), H.map (rowLen ts) ++ [0], (esLoc ts r).foldl (putVar .loc H.length) f.vars⟩, [H.length]) := by
    unfold addMetrics
    simp only [List.length_cons, List.length_nil, Nat.zero_add, true_and]
    rw [if_pos]
    · simp only [hidx]
      have h1 : f.idx.take H.length = List.range H.length := by rw [hI.idx, List.take_of_length_le (by simp)]
      have h2 : f.rowSize.take H.length = H.map (rowLen ts) := by rw [hI.rows, List.take_of_length_le (by simp)]
      rw [h1, h2]
      have hlon : dimOf f.vars "lon" ≠ none := by
        rw [(hI.dimLoc "lon").mpr (.inl rfl)]; simp
      have hlat : dimOf (putVar .loc H.length f.vars ("lon", [r.lon])) "lat" ≠ none := by
        rw [dimOf_putVar, (hI.dimLoc "lat").mpr (.inr (.inl rfl))]; simp
      rw [setVar_eq_putVar .loc H.length f.vars ("lon", [r.lon]) hlon,
        setVar_eq_putVar .loc H.length _ ("lat", [r.lat]) hlat]
      congr 2
      · congr 1
        · simp [List.range_succ]
        · unfold esLoc
          rw [List.foldl_cons, List.foldl_cons, List.foldl_map]
    · rw [List.all_eq_true]
      intro d hd
      simpa using hlen d hd
  have hts : ∀ f' : File V, f'.idx = List.range (H.length + 1) → f'.rowSize = H.map (rowLen ts) ++ [0] → ∀ times,
      addTs f' H.length times ((tsOf ts r).map (fun d => (varName d.1, d.2))) = 
      ⟨f'.idx, H.map (rowLen ts) ++ [times.length], ((tsOf ts r).map (fun d => (varName d.1, d.2))).foldl (putVar .obs (H.map (rowLen ts)).sum)
        (setVar f'.vars "time" (H.map (rowLen ts)).sum times)⟩ := by
    intro f' h1 h2 times
    unfold addTs
    have h3 : f'.rowSize.take H.length = H.map (rowLen ts) := by
      rw [h2, List.take_append_of_le_length (by simp), List.take_of_length_le (by simp)]
    simp only [h3]
    congr 1
    rw [h2, List.set_append_right _ _ (by simp)]
    simp
  unfold addResult
  cases hto : tsOf ts r with
  | nil =>
    have he : esObs ts r = [] := by unfold esObs; rw [if_pos hto]
    have hl : rowLen ts r = 0 := by unfold rowLen; rw [if_pos hto]
    cases ht : r.times with
    | none =>
      simp only [bind, Except.bind, hadd, he, hl, List.foldl_nil]
    | some t =>
      simp only [bind, Except.bind, hadd, he, hl, List.foldl_nil]
  | cons e es =>
    have hmem : e ∈ tsOf ts r := by rw [hto]; exact List.mem_cons_self
    unfold tsOf at hmem
    rw [List.mem_filter, decide_eq_true_eq] at hmem
    obtain ⟨t, ht, -⟩ := hr.series e hmem.1 hmem.2
    have hne : tsOf ts r ≠ [] := by rw [hto]; simp
    have he : esObs ts r = ("time", t) :: (tsOf ts r).map (fun d => (varName d.1, d.2)) := by
      unfold esObs; rw [if_neg hne, ht]; rfl
    have hl : rowLen ts r = t.length := by unfold rowLen; rw [if_neg hne, ht]; rfl
    rw [ht]
    simp only [bind, Except.bind, hadd, Option.getD_some]
    rw [← hto, hts _ rfl rfl t, he, hl, List.foldl_cons]
    simp only
    have hd : dimOf ((esLoc ts r).foldl (putVar .loc H.length) f.vars) "time" ≠ none := by
      rw [dimOf_putVars, (hI.dimObs "time").mpr (.inl rfl)]; simp
    rw [setVar_eq_putVar .obs _ _ ("time", t) hd]

theorem readAt_flatMap_append (ts : List Name) (x : String) (H : List (Rec V)) (hH : ∀ r ∈ H, GoodRec ts r) (r : Rec V) (p : ℕ) :
    readAt ((H ++ [r]).flatMap (tsCol ts x)) p =
      if p < (H.map (rowLen ts)).sum then readAt (H.flatMap (tsCol ts x)) p
      else readAt (tsCol ts x r) (p - (H.map (rowLen ts)).sum) := by
  have hlen : (H.flatMap (tsCol ts x)).length = (H.map (rowLen ts)).sum := by
    rw [List.length_flatMap]
    congr 1
    apply List.map_congr_left
    intro r' hr'
    exact length_tsCol (hH r' hr') x
  rw [List.flatMap_append, List.flatMap_singleton]
  unfold readAt
  split
  · rw [List.getElem?_append_left (by omega)]
  · rw [List.getElem?_append_right (by omega), hlen]

theorem inv_step (ts : List Name) (H : List (Rec V)) (f : File V) (r : Rec V) (hA : Aligned ts (H ++ [r])) (hI : Inv ts H f) :
    ∃ f', addResult ts f r = .ok f' ∧ Inv ts (H ++ [r]) f' := by
  have hrm : r ∈ H ++ [r] := by simp
  have hHm : ∀ r' ∈ H, r' ∈ H ++ [r] := fun r' h => by simp [h]
  have hr := hA.good r hrm
  have hH : ∀ r' ∈ H, GoodRec ts r' := fun r' h => hA.good r' (hHm r' h)
  refine ⟨_, addResult_eq ts H f hI r hr, ?_⟩
  have hdis : ∀ x, LocName ts (H ++ [r]) x → ¬ObsName ts (H ++ [r]) x := by
    intro x hl ho
    have hl' : x = "lon" ∨ x = "lat" ∨ ∃ r' ∈ H ++ [r], ∃ d ∈ r'.data, d.1 ∉ ts ∧ varName d.1 = x := by
      rcases hl with h | h | ⟨r', h1, h2⟩
      · exact .inl h
      · exact .inr (.inl h)
      · rcases mem_locNames.mp h2 with h | h | ⟨d, h3, h4, h5⟩
        · exact .inl h
        · exact .inr (.inl h)
        · exact .inr (.inr ⟨r', h1, d, h3, h4, h5⟩)
    have ho' : x = "time" ∨ ∃ r' ∈ H ++ [r], ∃ d ∈ r'.data, d.1 ∈ ts ∧ varName d.1 = x := by
      rcases ho with h | ⟨r', h1, h2⟩
      · exact .inl h
      · rcases mem_obsNames.mp h2 with ⟨h, -⟩ | ⟨d, h3, h4, h5⟩
        · exact .inl h
        · exact .inr ⟨r', h1, d, h3, h4, h5⟩
    rcases hl' with h | h | ⟨r1, h1, d1, h2, h3, h4⟩
    · rcases ho' with h' | ⟨r2, g1, d2, g2, g3, g4⟩
      · rw [h] at h'; exact absurd h' (by decide)
      · exact (hA.good r2 g1).free d2 g2 (by rw [g4, h]; decide)
    · rcases ho' with h' | ⟨r2, g1, d2, g2, g3, g4⟩
      · rw [h] at h'; exact absurd h' (by decide)
      · exact (hA.good r2 g1).free d2 g2 (by rw [g4, h]; decide)
    · rcases ho' with h' | ⟨r2, g1, d2, g2, g3, g4⟩
      · exact (hA.good r1 h1).free d1 h2 (by rw [h4, h']; decide)
      · exact h3 ((hA.kind r1 h1 r2 g1 d1 h2 d2 g2 (by rw [h4, g4])).mpr g3)
  have hLmono : ∀ x, LocName ts (H ++ [r]) x ↔ LocName ts H x ∨ x ∈ (esLoc ts r).map Prod.fst := by
    intro x
    unfold LocName
    constructor
    · rintro (h | h | ⟨r', h1, h2⟩)
      · exact .inl (.inl h)
      · exact .inl (.inr (.inl h))
      · rw [List.mem_append, List.mem_singleton] at h1
        rcases h1 with h1 | rfl
        · exact .inl (.inr (.inr ⟨r', h1, h2⟩))
        · exact .inr h2
    · rintro ((h | h | ⟨r', h1, h2⟩) | h)
      · exact .inl h
      · exact .inr (.inl h)
      · exact .inr (.inr ⟨r', hHm r' h1, h2⟩)
      · exact .inr (.inr ⟨r, hrm, h⟩)
  have hOmono : ∀ x, ObsName ts (H ++ [r]) x ↔ ObsName ts H x ∨ x ∈ (esObs ts r).map Prod.fst := by
    intro x
    unfold ObsName
    constructor
    · rintro (h | ⟨r', h1, h2⟩)
      · exact .inl (.inl h)
      · rw [List.mem_append, List.mem_singleton] at h1
        rcases h1 with h1 | rfl
        · exact .inl (.inr ⟨r', h1, h2⟩)
        · exact .inr h2
    · rintro ((h | ⟨r', h1, h2⟩) | h)
      · exact .inl h
      · exact .inr ⟨r', hHm r' h1, h2⟩
      · exact .inr ⟨r, hrm, h⟩
  -- dimensions
  have hdim : ∀ x, dimOf ((esObs ts r).foldl (putVar .obs (H.map (rowLen ts)).sum) ((esLoc ts r).foldl (putVar .loc H.length) f.vars)) x =
      ((dimOf f.vars x).or (if x ∈ (esLoc ts r).map Prod.fst then some .loc else none)).or
        (if x ∈ (esObs ts r).map Prod.fst then some .obs else none) := by
    intro x
    rw [dimOf_putVars, dimOf_putVars]
  have hcase : ∀ x, (dimOf f.vars x = some .loc ∧ LocName ts H x ∧ ¬ObsName ts H x) ∨
      (dimOf f.vars x = some .obs ∧ ObsName ts H x ∧ ¬LocName ts H x) ∨ (dimOf f.vars x = none ∧ ¬LocName ts H x ∧ ¬ObsName ts H x) := by
    intro x
    have h1 := hI.dimLoc x
    have h2 := hI.dimObs x
    cases hd : dimOf f.vars x with
    | none =>
      rw [hd] at h1 h2
      exact .inr (.inr ⟨rfl, fun h => by simpa using h1.mpr h, fun h => by simpa using h2.mpr h⟩)
    | some d =>
      rw [hd] at h1 h2
      cases d with
      | loc => exact .inl ⟨rfl, h1.mp rfl, fun h => by simpa using h2.mpr h⟩
      | obs => exact .inr (.inl ⟨rfl, h2.mp rfl, fun h => by simpa using h1.mpr h⟩)
  -- positions of new variables
  have hnewL : ∀ e ∈ esLoc ts r, dimOf f.vars e.1 = none → H.length = 0 := by
    intro e he hd
    have hx : e.1 ∈ (esLoc ts r).map Prod.fst := List.mem_map_of_mem he
    have hnot : ¬LocName ts H e.1 := by
      intro h
      rw [(hI.dimLoc e.1).mpr h] at hd; simp at hd
    rcases mem_locNames.mp hx with h | h | ⟨d, h1, h2, h3⟩
    · exact absurd (.inl h) hnot
    · exact absurd (.inr (.inl h)) hnot
    · rcases hA.metrics H r [] rfl d h1 h2 with h | ⟨r', h4, d', h5, h6⟩
      · rw [h]; rfl
      · have hk := hA.kind r hrm r' (hHm r' h4) d h1 d' h5 h6.symm
        exact absurd (.inr (.inr ⟨r', h4, mem_locNames.mpr (.inr (.inr ⟨d', h5, fun hc => h2 (hk.mpr hc), by rw [h6, h3]⟩))⟩)) hnot
  have hnewO : ∀ e ∈ esObs ts r, dimOf ((esLoc ts r).foldl (putVar .loc H.length) f.vars) e.1 = none → (H.map (rowLen ts)).sum = 0 := by
    intro e he hd
    have hx : e.1 ∈ (esObs ts r).map Prod.fst := List.mem_map_of_mem he
    rw [dimOf_putVars] at hd
    have hd' := (Option.or_eq_none_iff.mp hd).1
    have hnot : ¬ObsName ts H e.1 := by
      intro h
      rw [(hI.dimObs e.1).mpr h] at hd'; simp at hd'
    rcases mem_obsNames.mp hx with ⟨h, -⟩ | ⟨d, h1, h2, h3⟩
    · exact absurd (.inl h) hnot
    · rcases hA.series H r [] rfl d h1 h2 with h | ⟨r', h4, d', h5, h6⟩
      · rw [List.sum_eq_zero_iff]
        intro n hn
        obtain ⟨r', hr', rfl⟩ := List.mem_map.mp hn
        unfold rowLen
        split
        · rfl
        · rename_i hne
          obtain ⟨d', hd'⟩ := List.exists_mem_of_ne_nil _ hne
          unfold tsOf at hd'
          rw [List.mem_filter, decide_eq_true_eq] at hd'
          obtain ⟨t, ht, hl⟩ := (hH r' hr').series d' hd'.1 hd'.2
          rw [h r' hr' d' hd'.1 hd'.2] at hl
          rw [ht, Option.getD_some]
          simpa using hl.symm
      · have hk := hA.kind r hrm r' (hHm r' h4) d h1 d' h5 h6.symm
        exact absurd (.inr ⟨r', h4, mem_obsNames.mpr (.inr ⟨d', h5, hk.mp h2, by rw [h6, h3]⟩)⟩) hnot
  constructor
  · simp
  · simp
  · exact keys_putVars _ _ _ _ (keys_putVars _ _ _ _ hI.nodup)
  · intro x
    simp only
    rw [hdim, hLmono]
    have hdx := hdis x
    rw [hLmono, hOmono] at hdx
    by_cases h1 : x ∈ (esLoc ts r).map Prod.fst
    · have h2 : x ∉ (esObs ts r).map Prod.fst := fun h => hdx (.inr h1) (.inr h)
      rcases hcase x with ⟨h, -, -⟩ | ⟨h, h', -⟩ | ⟨h, -, -⟩
      · rw [h]; simp [h1]
      · exact absurd (.inl h') (hdx (.inr h1))
      · rw [h, if_pos h1]; simp [h1]
    · rw [if_neg h1]
      rcases hcase x with ⟨h, h', -⟩ | ⟨h, h', h''⟩ | ⟨h, h', -⟩
      · rw [h]; simp [h']
      · rw [h]; simp [h'', h1]
      · rw [h]
        simp only [Option.or_none, Option.none_or, h', h1, or_self, iff_false]
        split <;> simp
  · intro x
    simp only
    rw [hdim, hOmono]
    have hdx := hdis x
    rw [hLmono, hOmono] at hdx
    by_cases h1 : x ∈ (esObs ts r).map Prod.fst
    · have h2 : x ∉ (esLoc ts r).map Prod.fst := fun h => hdx (.inr h) (.inr h1)
      rcases hcase x with ⟨h, h', -⟩ | ⟨h, h', -⟩ | ⟨h, -, -⟩
      · exact absurd (.inr h1) (hdx (.inl h'))
      · rw [h]; simp [h']
      · rw [h, if_neg h2, if_pos h1]; simp [h1]
    · rw [if_neg h1]
      rcases hcase x with ⟨h, h', h''⟩ | ⟨h, h', h''⟩ | ⟨h, -, h'⟩
      · rw [h]; simp [h'', h1]
      · rw [h]; simp [h']
      · rw [h]
        simp only [Option.or_none, Option.none_or, h', h1, or_self, iff_false]
        split <;> simp
  · intro x hx i
    simp only
    rw [hOmono, not_or] at hx
    rw [valueAt_putVars _ _ _ _ (nodup_obsNames hr) hnewO, lookup_none_iff.mpr hx.2]
    simp only
    rw [valueAt_putVars _ _ _ _ (nodup_locNames hr) hnewL, hI.valLoc x hx.1 i]
    rcases Nat.lt_trichotomy i H.length with hi | hi | hi
    · rw [List.getElem?_append_left hi]
      cases hl : (esLoc ts r).lookup x with
      | none => rfl
      | some d =>
        simp only
        rw [if_neg (by omega)]
    · subst hi
      rw [List.getElem?_eq_none (le_refl _), List.getElem?_append_right (le_refl _)]
      simp only [Option.bind_none, Nat.sub_self, List.getElem?_cons_zero, Option.bind_some]
      cases hl : (esLoc ts r).lookup x with
      | none => rfl
      | some d =>
        obtain ⟨v, rfl⟩ := length_loc hr (lookup_mem hl)
        simp
    · rw [List.getElem?_eq_none (by omega : H.length ≤ i), List.getElem?_eq_none (by simp; omega)]
      cases hl : (esLoc ts r).lookup x with
      | none => rfl
      | some d =>
        obtain ⟨v, rfl⟩ := length_loc hr (lookup_mem hl)
        simp only [List.length_cons, List.length_nil]
        rw [if_neg (by omega)]
  · intro x hx p
    simp only
    rw [hLmono, not_or] at hx
    rw [valueAt_putVars _ _ _ _ (nodup_obsNames hr) hnewO, readAt_flatMap_append ts x H hH r]
    have hval : valueAt ((esLoc ts r).foldl (putVar .loc H.length) f.vars) x p = readAt (H.flatMap (tsCol ts x)) p := by
      rw [valueAt_putVars _ _ _ _ (nodup_locNames hr) hnewL, lookup_none_iff.mpr hx.2]
      exact hI.valObs x hx.1 p
    have hlen : (H.flatMap (tsCol ts x)).length = (H.map (rowLen ts)).sum := by
      rw [List.length_flatMap]
      congr 1
      apply List.map_congr_left
      intro r' hr'
      exact length_tsCol (hH r' hr') x
    have hbeyond : (H.map (rowLen ts)).sum ≤ p → readAt (H.flatMap (tsCol ts x)) p = none := by
      intro h
      unfold readAt
      rw [List.getElem?_eq_none (by omega)]
      rfl
    rw [hval]
    by_cases hp : p < (H.map (rowLen ts)).sum
    · rw [if_pos hp]
      cases hl : (esObs ts r).lookup x with
      | none => rfl
      | some d =>
        simp only
        rw [if_neg (by omega)]
    · rw [if_neg hp, hbeyond (by omega)]
      cases hl : (esObs ts r).lookup x with
      | none =>
        unfold tsCol readAt
        rw [hl]
        simp only
        rw [List.getElem?_replicate]
        split <;> rfl
      | some d =>
        unfold tsCol readAt
        rw [hl]
        simp only
        rw [List.getElem?_map]
        by_cases h3 : p < (H.map (rowLen ts)).sum + d.length
        · rw [if_pos ⟨by omega, h3⟩, List.getElem?_eq_getElem (by omega)]
          rfl
        · rw [if_neg (by omega), List.getElem?_eq_none (by omega)]
          rfl

theorem inv_new (ts : List Name) : Inv ts [] (newFile V) where
  idx := rfl
  rows := rfl
  nodup := by simp only [newFile, List.map_cons, List.map_nil]; decide
  dimLoc := by
    intro x
    unfold dimOf newFile LocName
    simp only [List.lookup_cons, List.lookup_nil]
    by_cases h1 : x = "lon"
    · simp [h1]
    · by_cases h2 : x = "lat"
      · simp [h2]
      · by_cases h3 : x = "time"
        · simp [h3]
        · simp [beq_eq_false_iff_ne.mpr h1, beq_eq_false_iff_ne.mpr h2, beq_eq_false_iff_ne.mpr h3, h1, h2]
  dimObs := by
    intro x
    unfold dimOf newFile ObsName
    simp only [List.lookup_cons, List.lookup_nil]
    by_cases h1 : x = "lon"
    · simp [h1]
    · by_cases h2 : x = "lat"
      · simp [h2]
      · by_cases h3 : x = "time"
        · simp [h3]
        · simp [beq_eq_false_iff_ne.mpr h1, beq_eq_false_iff_ne.mpr h2, beq_eq_false_iff_ne.mpr h3, h3]
  valLoc := by
    intro x _ i
    unfold valueAt newFile
    simp only [List.lookup_cons, List.lookup_nil]
    by_cases h1 : x = "lon"
    · simp [h1, readAt]
    · by_cases h2 : x = "lat"
      · simp [h2, readAt]
      · by_cases h3 : x = "time"
        · simp [h3, readAt]
        · simp [beq_eq_false_iff_ne.mpr h1, beq_eq_false_iff_ne.mpr h2, beq_eq_false_iff_ne.mpr h3]
  valObs := by
    intro x _ i
    unfold valueAt newFile
    simp only [List.lookup_cons, List.lookup_nil]
    by_cases h1 : x = "lon"
    · simp [h1, readAt]
    · by_cases h2 : x = "lat"
      · simp [h2, readAt]
      · by_cases h3 : x = "time"
        · simp [h3, readAt]
        · simp [beq_eq_false_iff_ne.mpr h1, beq_eq_false_iff_ne.mpr h2, beq_eq_false_iff_ne.mpr h3, readAt]

theorem aligned_prefix {ts : List Name} {H : List (Rec V)} {r : Rec V} (h : Aligned ts (H ++ [r])) : Aligned ts H where
  good := fun r' h' => h.good r' (by simp [h'])
  kind := fun r1 h1 r2 h2 => h.kind r1 (by simp [h1]) r2 (by simp [h2])
  metrics := fun pre r' post he => h.metrics pre r' (post ++ [r]) (by rw [he]; simp)
  series := fun pre r' post he => h.series pre r' (post ++ [r]) (by rw [he]; simp)

theorem inv_history (ts : List Name) (H : List (Rec V)) (hA : Aligned ts H) :
    ∃ f, H.foldlM (addResult ts) (newFile V) = .ok f ∧ Inv ts H f := by
  induction H using List.reverseRecOn with
  | nil => exact ⟨_, rfl, inv_new ts⟩
  | append_singleton H r ih =>
    obtain ⟨f, h1, h2⟩ := ih (aligned_prefix hA)
    obtain ⟨f', h3, h4⟩ := inv_step ts H f r hA h2
    refine ⟨f', ?_, h4⟩
    rw [List.foldlM_append, h1]
    simp only [bind, Except.bind, List.foldlM_cons, List.foldlM_nil, pure, Except.pure, h3]

theorem lookup_of_mem_vars {vars : List (String × Dim × List (Option V))} (hnd : (vars.map Prod.fst).Nodup) {v} (hv : v ∈ vars) :
    vars.lookup v.1 = some v.2 := Validation.lookup_of_mem _ hnd hv

theorem mem_of_dim {vars : List (String × Dim × List (Option V))} {x : String} {d : Dim} (h : dimOf vars x = some d) :
    ∃ c, (x, d, c) ∈ vars ∧ vars.lookup x = some (d, c) := by
  unfold dimOf at h
  cases hl : vars.lookup x with
  | none => rw [hl] at h; simp at h
  | some v =>
    rw [hl] at h
    simp only [Option.map_some, Option.some.injEq] at h
    subst h
    exact ⟨v.2, Validation.mem_of_lookup _ hl, rfl⟩

/-- a variable along the locations is read by `read_loc` -/
theorem mem_readLoc {ts : List Name} {H : List (Rec V)} {f : File V} (hI : Inv ts H f) {x : String} (hx : LocName ts H x)
    (hres : x ∉ ["time", "idx", "_row_size"]) (i : ℕ) : (x, valueAt f.vars x i) ∈ readLoc f i := by
  obtain ⟨c, hc, hl⟩ := mem_of_dim ((hI.dimLoc x).mpr hx)
  unfold readLoc valueAt
  rw [hl, List.mem_map]
  refine ⟨(x, .loc, c), ?_, rfl⟩
  rw [List.mem_filter]
  refine ⟨hc, ?_⟩
  simp only [decide_eq_false hres]
  rfl

theorem mem_readTs {ts : List Name} {H : List (Rec V)} {f : File V} (hI : Inv ts H f) {x : String} (hx : ObsName ts H x)
    (hres : x ∉ ["time", "idx", "_row_size"]) (i : ℕ) :
    (x, ((List.range (f.rowSize.getD i 0)).map (fun k => valueAt f.vars x ((f.rowSize.take i).sum + k)))) ∈ (readTs f i).2 := by
  obtain ⟨c, hc, hl⟩ := mem_of_dim ((hI.dimObs x).mpr hx)
  unfold readTs valueAt
  simp only
  rw [hl, List.mem_map]
  refine ⟨(x, .obs, c), ?_, ?_⟩
  · rw [List.mem_filter]
    refine ⟨hc, ?_⟩
    simp only [decide_eq_false hres]
    rfl
  · rw [List.map_map]
    rfl

/-- the rows of one call in the concatenated column -/
theorem rows_of_call (ts : List Name) (H : List (Rec V)) (hH : ∀ r ∈ H, GoodRec ts r) (x : String) (i : ℕ) (r : Rec V) (hi : H[i]? = some r)
    (k : ℕ) (hk : k < rowLen ts r) :
    readAt (H.flatMap (tsCol ts x)) (((H.map (rowLen ts)).take i).sum + k) = readAt (tsCol ts x r) k := by
  induction H generalizing i with
  | nil => simp at hi
  | cons r' H ih =>
    have hlen := length_tsCol (hH r' List.mem_cons_self) x
    unfold readAt at ih ⊢
    rw [List.flatMap_cons]
    cases i with
    | zero =>
      simp only [List.getElem?_cons_zero, Option.some.injEq] at hi
      subst hi
      simp only [List.take_zero, List.sum_nil, Nat.zero_add]
      rw [List.getElem?_append_left (by omega)]
    | succ i =>
      simp only [List.getElem?_cons_succ] at hi
      simp only [List.map_cons, List.take_succ_cons, List.sum_cons]
      rw [List.getElem?_append_right (by omega), hlen]
      rw [show rowLen ts r' + ((H.map (rowLen ts)).take i).sum + k - rowLen ts r' = ((H.map (rowLen ts)).take i).sum + k by omega]
      exact ih (fun r hr => hH r (List.mem_cons_of_mem _ hr)) i hi

/-- **C33.** After any aligned history of `add_result` calls, reading the location of call `i` gives exactly what was added in it: longitude,
latitude, every metric; variables not given are missing. Partial: a metric that appears first in a later call is misaligned
(`late_metric_misaligned`). -/
theorem results_read_loc_partial (ts : List Name) (H : List (Rec V)) (hA : Aligned ts H) :
    ∃ f, H.foldlM (addResult ts) (newFile V) = .ok f ∧ ∀ i r, H[i]? = some r →
      ("lon", some r.lon) ∈ readLoc f i ∧ ("lat", some r.lat) ∈ readLoc f i ∧
      (∀ d ∈ r.data, d.1 ∉ ts → ∀ v, d.2 = [v] → (varName d.1, some v) ∈ readLoc f i) ∧
      (∀ e ∈ readLoc f i, e.1 = "lon" ∨ e.1 = "lat" ∨ (∃ d ∈ r.data, d.1 ∉ ts ∧ varName d.1 = e.1) ∨ e.2 = none) ∧
      ((readLoc f i).map Prod.fst).Nodup := by
  obtain ⟨f, h1, hI⟩ := inv_history ts H hA
  refine ⟨f, h1, ?_⟩
  intro i r hi
  have hrm : r ∈ H := List.mem_of_getElem? hi
  have hr := hA.good r hrm
  have hnotObs : ∀ x, LocName ts H x → ¬ObsName ts H x := by
    intro x hl ho
    have h1 := (hI.dimLoc x).mpr hl
    rw [(hI.dimObs x).mpr ho] at h1
    simp at h1
  have hval : ∀ x, LocName ts H x → valueAt f.vars x i = ((esLoc ts r).lookup x).bind List.head? := by
    intro x hx
    rw [hI.valLoc x (hnotObs x hx) i, hi]
    rfl
  have hres : ∀ d ∈ r.data, varName d.1 ∉ ["time", "idx", "_row_size"] := by
    intro d hd hc
    refine hr.free d hd ?_
    revert hc
    unfold reserved
    simp only [List.mem_cons, List.not_mem_nil, or_false]
    tauto
  refine ⟨?_, ?_, ?_, ?_, ?_⟩
  · have := mem_readLoc hI (x := "lon") (.inl rfl) (by decide) i
    rw [hval "lon" (.inl rfl)] at this
    exact this
  · have := mem_readLoc hI (x := "lat") (.inr (.inl rfl)) (by decide) i
    rw [hval "lat" (.inr (.inl rfl))] at this
    exact this
  · intro d hd hts v hv
    have hL : LocName ts H (varName d.1) := .inr (.inr ⟨r, hrm, mem_locNames.mpr (.inr (.inr ⟨d, hd, hts, rfl⟩))⟩)
    have := mem_readLoc hI hL (hres d hd) i
    rw [hval _ hL] at this
    have hlook : (esLoc ts r).lookup (varName d.1) = some d.2 := by
      refine Validation.lookup_of_mem _ (nodup_locNames hr) ?_
      unfold esLoc metricsOf
      refine List.mem_cons_of_mem _ (List.mem_cons_of_mem _ (List.mem_map.mpr ⟨d, ?_, rfl⟩))
      rw [List.mem_filter]
      exact ⟨hd, by simpa using hts⟩
    rw [hlook, hv] at this
    exact this
  · intro e he
    unfold readLoc at he
    rw [List.mem_map] at he
    obtain ⟨v, hv, rfl⟩ := he
    rw [List.mem_filter] at hv
    simp only
    have hlook := lookup_of_mem_vars hI.nodup hv.1
    have hdim : v.2.1 = .loc := by
      have := hv.2
      cases hd : v.2.1 with
      | loc => rfl
      | obs => rw [hd] at this; simp at this
    have hL : LocName ts H v.1 := (hI.dimLoc v.1).mp (by unfold dimOf; rw [hlook, Option.map_some, hdim])
    have hvv : readAt v.2.2 i = valueAt f.vars v.1 i := by unfold valueAt; rw [hlook]; rfl
    rw [hvv, hval _ hL]
    cases hl : (esLoc ts r).lookup v.1 with
    | none => exact .inr (.inr (.inr rfl))
    | some d =>
      have hm : v.1 ∈ (esLoc ts r).map Prod.fst := List.mem_map.mpr ⟨_, lookup_mem hl, rfl⟩
      rcases mem_locNames.mp hm with h | h | h
      · exact .inl h
      · exact .inr (.inl h)
      · exact .inr (.inr (.inl h))
  · unfold readLoc
    rw [List.map_map]
    exact hI.nodup.sublist (List.Sublist.map _ List.filter_sublist)

/-- **C33.** After any aligned history, reading the time series of call `i` gives the times and the series added in it; series not given
are missing. A call without series has no rows. -/
theorem results_read_ts_partial (ts : List Name) (H : List (Rec V)) (hA : Aligned ts H) :
    ∃ f, H.foldlM (addResult ts) (newFile V) = .ok f ∧ ∀ i r, H[i]? = some r →
      ((∃ d ∈ r.data, d.1 ∈ ts) → ∀ t, r.times = some t → (readTs f i).1 = t.map some) ∧
      ((∀ d ∈ r.data, d.1 ∉ ts) → (readTs f i).1 = []) ∧
      (∀ d ∈ r.data, d.1 ∈ ts → (varName d.1, d.2.map some) ∈ (readTs f i).2) ∧
      (∀ e ∈ (readTs f i).2, (∃ d ∈ r.data, d.1 ∈ ts ∧ varName d.1 = e.1) ∨ ∀ v ∈ e.2, v = none) := by
  obtain ⟨f, h1, hI⟩ := inv_history ts H hA
  refine ⟨f, h1, ?_⟩
  intro i r hi
  have hrm : r ∈ H := List.mem_of_getElem? hi
  have hr := hA.good r hrm
  have hnotLoc : ∀ x, ObsName ts H x → ¬LocName ts H x := by
    intro x ho hl
    have h1 := (hI.dimLoc x).mpr hl
    rw [(hI.dimObs x).mpr ho] at h1
    simp at h1
  have hlt : i < H.length := (List.getElem?_eq_some_iff.mp hi).1
  have hsize : f.rowSize.getD i 0 = rowLen ts r := by
    rw [hI.rows, List.getD_eq_getElem?_getD, List.getElem?_map, hi]
    rfl
  have hval : ∀ x, ObsName ts H x →
      (List.range (f.rowSize.getD i 0)).map (fun k => valueAt f.vars x ((f.rowSize.take i).sum + k)) = tsCol ts x r := by
    intro x hx
    rw [hsize]
    apply List.ext_getElem
    · rw [List.length_map, List.length_range, length_tsCol hr]
    · intro k hk1 hk2
      have hk : k < rowLen ts r := by simpa using hk1
      rw [List.getElem_map, List.getElem_range, hI.valObs x (hnotLoc x hx), hI.rows, rows_of_call ts H hA.good x i r hi k hk]
      unfold readAt
      rw [List.getElem?_eq_getElem hk2]
      rfl
  have hres : ∀ d ∈ r.data, varName d.1 ∉ ["time", "idx", "_row_size"] := by
    intro d hd hc
    refine hr.free d hd ?_
    revert hc
    unfold reserved
    simp only [List.mem_cons, List.not_mem_nil, or_false]
    tauto
  have htime : (readTs f i).1 = tsCol ts "time" r := by
    rw [← hval "time" (.inl rfl)]
    obtain ⟨c, -, hl⟩ := mem_of_dim ((hI.dimObs "time").mpr (.inl rfl))
    unfold readTs valueAt
    simp only [hl, Option.map_some, Option.getD_some, List.map_map]
    rfl
  have hts : ∀ d ∈ r.data, d.1 ∈ ts → tsOf ts r ≠ [] := by
    intro d hd hdt
    refine List.ne_nil_of_mem (a := d) ?_
    unfold tsOf
    rw [List.mem_filter]
    exact ⟨hd, by simpa using hdt⟩
  refine ⟨?_, ?_, ?_, ?_⟩
  · rintro ⟨d, hd, hdt⟩ t ht
    rw [htime]
    unfold tsCol esObs
    rw [if_neg (hts d hd hdt), ht]
    rfl
  · intro hno
    rw [htime]
    have : tsOf ts r = [] := by
      unfold tsOf
      rw [List.filter_eq_nil_iff]
      intro d hd
      simpa using hno d hd
    unfold tsCol esObs rowLen
    rw [if_pos this, if_pos this]
    rfl
  · intro d hd hdt
    have hO : ObsName ts H (varName d.1) := .inr ⟨r, hrm, mem_obsNames.mpr (.inr ⟨d, hd, hdt, rfl⟩)⟩
    have := mem_readTs hI hO (hres d hd) i
    rw [hval _ hO] at this
    have hlook : (esObs ts r).lookup (varName d.1) = some d.2 := by
      refine Validation.lookup_of_mem _ (nodup_obsNames hr) ?_
      unfold esObs
      rw [if_neg (hts d hd hdt)]
      refine List.mem_cons_of_mem _ (List.mem_map.mpr ⟨d, ?_, rfl⟩)
      unfold tsOf
      rw [List.mem_filter]
      exact ⟨hd, by simpa using hdt⟩
    unfold tsCol at this
    rw [hlook] at this
    exact this
  · intro e he
    unfold readTs at he
    simp only at he
    rw [List.mem_map] at he
    obtain ⟨v, hv, rfl⟩ := he
    rw [List.mem_filter] at hv
    simp only
    have hlook := lookup_of_mem_vars hI.nodup hv.1
    have hv2 := hv.2
    rw [Bool.and_eq_true, decide_eq_true_eq] at hv2
    have hO : ObsName ts H v.1 := (hI.dimObs v.1).mp (by unfold dimOf; rw [hlook, Option.map_some, hv2.2])
    have hcol : ((List.range (f.rowSize.getD i 0)).map ((f.rowSize.take i).sum + ·)).map (readAt v.2.2) = tsCol ts v.1 r := by
      rw [← hval _ hO, List.map_map]
      unfold valueAt
      rw [hlook]
      rfl
    rw [hcol]
    cases hl : (esObs ts r).lookup v.1 with
    | none =>
      right
      intro w hw
      unfold tsCol at hw
      rw [hl] at hw
      exact List.eq_of_mem_replicate hw
    | some d =>
      left
      have hm : v.1 ∈ (esObs ts r).map Prod.fst := List.mem_map.mpr ⟨_, lookup_mem hl, rfl⟩
      rcases mem_obsNames.mp hm with ⟨h, -⟩ | h
      · exfalso
        have h3 := hv2.1
        rw [h] at h3
        simp at h3
      · exact h

end Verif.Results
