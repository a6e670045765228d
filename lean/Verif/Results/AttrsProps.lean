import Verif.Results.Attrs
import Verif.Results.Props

/-! C86: attributes of the stored variables, locations by coordinates. -/

set_option linter.unusedSectionVars false

namespace Verif.Results

theorem selAttr_fst (attr : List (String × Attr)) (name : String) :
    (selAttr attr name false).1 = expected (attr.lookup name) "idx lat lon" := by
  unfold selAttr expected
  by_cases h : "coordinates" ∈ ((attr.lookup name).getD []).map Prod.fst
  · have h' : ((attr.lookup name).getD []).any (fun e => decide (e.1 = "coordinates")) = true := by
      rw [List.any_eq_true]
      obtain ⟨e, he, heq⟩ := List.mem_map.mp h
      exact ⟨e, he, by simpa using heq⟩
    simp only [h', if_true, if_pos h]
  · have h' : ((attr.lookup name).getD []).any (fun e => decide (e.1 = "coordinates")) = false := by
      rw [List.any_eq_false]
      intro e he hd
      exact h (List.mem_map.mpr ⟨e, he, by simpa using hd⟩)
    simp [h', if_neg h]

theorem selAttr_snd (attr : List (String × Attr)) (hnd : (attr.map Prod.fst).Nodup) (name : String) :
    (selAttr attr name false).2 = attr.map (fun e => if e.1 = name then (e.1, expected (some e.2) "idx lat lon") else e) := by
  have hl : ∀ e ∈ attr, e.1 = name → attr.lookup name = some e.2 := by
    intro e he h
    rw [← h]
    exact Validation.lookup_of_mem _ hnd he
  unfold selAttr expected
  by_cases h : "coordinates" ∈ ((attr.lookup name).getD []).map Prod.fst
  · have h' : ((attr.lookup name).getD []).any (fun e => decide (e.1 = "coordinates")) = true := by
      rw [List.any_eq_true]
      obtain ⟨e, he, heq⟩ := List.mem_map.mp h
      exact ⟨e, he, by simpa using heq⟩
    simp only [h', if_true]
    conv_lhs => rw [← List.map_id attr]
    apply List.map_congr_left
    intro e he
    by_cases hn : e.1 = name
    · rw [if_pos hn, Option.getD_some, if_pos (by rw [hl e he hn] at h; exact h)]
      rfl
    · rw [if_neg hn]; rfl
  · have h' : ((attr.lookup name).getD []).any (fun e => decide (e.1 = "coordinates")) = false := by
      rw [List.any_eq_false]
      intro e he hd
      exact h (List.mem_map.mpr ⟨e, he, by simpa using hd⟩)
    simp only [h', Bool.false_eq_true, if_false]
    apply List.map_congr_left
    intro e he
    by_cases hn : e.1 = name
    · rw [if_pos hn, if_pos hn, Option.getD_some, if_neg (by rw [hl e he hn] at h; exact h), hl e he hn]
      rfl
    · rw [if_neg hn, if_neg hn]

/-- the dictionary of the user after variables `S` have been created -/
def touched (S : List String) (attr : List (String × Attr)) : List (String × Attr) :=
  attr.map (fun e => if e.1 ∈ S then (e.1, expected (some e.2) "idx lat lon") else e)

theorem touched_fst (S : List String) (attr : List (String × Attr)) : (touched S attr).map Prod.fst = attr.map Prod.fst := by
  unfold touched
  rw [List.map_map]
  apply List.map_congr_left
  intro e _
  simp only [Function.comp]
  split <;> rfl

theorem lookup_touched (S : List String) (attr : List (String × Attr)) (x : String) (hx : x ∉ S) :
    (touched S attr).lookup x = attr.lookup x := by
  induction attr with
  | nil => rfl
  | cons e attr ih =>
    unfold touched at ih ⊢
    rw [List.map_cons]
    by_cases h : x = e.1
    · subst h
      rw [if_neg hx]
      simp [List.lookup]
    · have hb : (x == e.1) = false := by simpa using h
      obtain ⟨a, b⟩ := e
      simp only at hb
      by_cases hS : a ∈ S
      · simp only [hS, if_true, List.lookup, hb]
        exact ih
      · simp only [hS, if_false, List.lookup, hb]
        exact ih

/-- what has happened after the variables `S` were asked for: attributes of the file and dictionary of the user -/
structure AInv (f : AttrFile) (attr : List (String × Attr)) (S : List String) (st : AttrFile × List (String × Attr)) : Prop where
  file : ∀ x, st.1.lookup x = match f.lookup x with
    | some a => some a
    | none => if x ∈ S then some (expected (attr.lookup x) "idx lat lon") else none
  user : st.2 = touched (S.filter (fun x => decide (x ∉ f.map Prod.fst))) attr

theorem lookup_isSome_iff (f : AttrFile) (x : String) : x ∈ f.map Prod.fst ↔ f.lookup x ≠ none := by
  rw [Ne, List.lookup_eq_none_iff]
  constructor
  · intro h hc
    obtain ⟨e, he, rfl⟩ := List.mem_map.mp h
    have := hc e he
    simp at this
  · intro h
    by_contra hc
    apply h
    intro p hp
    have : x ≠ p.1 := by rintro rfl; exact hc (List.mem_map_of_mem hp)
    simpa using this

theorem touched_append (S : List String) (x : String) (attr : List (String × Attr)) (hx : x ∉ S) :
    (touched S attr).map (fun e => if e.1 = x then (e.1, expected (some e.2) "idx lat lon") else e) = touched (S ++ [x]) attr := by
  unfold touched
  rw [List.map_map]
  apply List.map_congr_left
  intro e _
  simp only [Function.comp, List.mem_append, List.mem_singleton]
  by_cases h1 : e.1 ∈ S
  · have : e.1 ≠ x := by rintro h; exact hx (h ▸ h1)
    simp [h1, this]
  · by_cases h2 : e.1 = x
    · simp [h2, hx]
    · simp [h1, h2]

theorem ainv_step (f : AttrFile) (attr : List (String × Attr)) (hnd : (attr.map Prod.fst).Nodup) (S : List String)
    (st : AttrFile × List (String × Attr)) (h : AInv f attr S st) (x : String) : AInv f attr (S ++ [x]) (putAttr st x) := by
  have hmem : x ∈ st.1.map Prod.fst ↔ x ∈ f.map Prod.fst ∨ x ∈ S := by
    rw [lookup_isSome_iff, h.file x, lookup_isSome_iff]
    cases f.lookup x with
    | some a => simp
    | none => by_cases hS : x ∈ S <;> simp [hS]
  unfold putAttr
  by_cases hx : x ∈ st.1.map Prod.fst
  · rw [if_pos hx]
    constructor
    · intro y
      rw [h.file y]
      cases hfy : f.lookup y with
      | some a => rfl
      | none =>
        simp only
        by_cases hy : y = x
        · subst hy
          have : y ∈ S := by
            rcases hmem.mp hx with h' | h'
            · exact absurd hfy ((lookup_isSome_iff f y).mp h')
            · exact h'
          simp [this]
        · simp [hy]
    · rw [h.user, List.filter_append]
      by_cases hf : x ∈ f.map Prod.fst
      · rw [List.filter_cons_of_neg (by simpa using hf)]
        simp
      · have hS : x ∈ S := (hmem.mp hx).resolve_left hf
        unfold touched
        apply List.map_congr_left
        intro e _
        have : e.1 ∈ S.filter (fun x => decide (x ∉ f.map Prod.fst)) ++ [x].filter (fun x => decide (x ∉ f.map Prod.fst)) ↔
            e.1 ∈ S.filter (fun x => decide (x ∉ f.map Prod.fst)) := by
          rw [List.mem_append]
          constructor
          · rintro (h' | h')
            · exact h'
            · have h' := List.mem_filter.mp h'
              rw [List.mem_singleton] at h'
              rw [List.mem_filter, h'.1]
              exact ⟨hS, by simpa using hf⟩
          · exact .inl
        by_cases h1 : e.1 ∈ S.filter (fun x => decide (x ∉ f.map Prod.fst))
        · rw [if_pos h1, if_pos (this.mpr h1)]
        · rw [if_neg h1, if_neg (fun h' => h1 (this.mp h'))]
  · rw [if_neg hx]
    have hfx : x ∉ f.map Prod.fst := fun h' => hx (hmem.mpr (.inl h'))
    have hS : x ∉ S := fun h' => hx (hmem.mpr (.inr h'))
    have hSf : x ∉ S.filter (fun x => decide (x ∉ f.map Prod.fst)) := fun h' => hS (List.mem_of_mem_filter h')
    constructor
    · intro y
      by_cases hy : y = x
      · subst hy
        have hnone : f.lookup y = none := by
          by_contra hc
          exact hfx ((lookup_isSome_iff f y).mpr hc)
        simp only [List.lookup, beq_self_eq_true, hnone, List.mem_append, List.mem_singleton, or_true, if_true]
        rw [selAttr_fst, h.user, lookup_touched _ _ _ hSf]
      · have hb : (y == x) = false := by simpa using hy
        simp only [List.lookup, hb]
        rw [h.file y]
        cases f.lookup y with
        | some a => rfl
        | none => simp [hy]
    · simp only
      rw [h.user, selAttr_snd _ (by rw [touched_fst]; exact hnd), touched_append _ _ _ hSf, List.filter_append,
        List.filter_cons_of_pos (by simpa using hfx)]
      rfl

theorem ainv_foldl (f : AttrFile) (attr : List (String × Attr)) (hnd : (attr.map Prod.fst).Nodup) (names : List String) (S : List String)
    (st : AttrFile × List (String × Attr)) (h : AInv f attr S st) : AInv f attr (S ++ names) (names.foldl putAttr st) := by
  induction names generalizing S st with
  | nil => simpa using h
  | cons x names ih =>
    rw [List.foldl_cons]
    have := ih (S ++ [x]) (putAttr st x) (ainv_step f attr hnd S st h x)
    simpa using this

theorem ainv_all (f : AttrFile) (attr : List (String × Attr)) (hnd : (attr.map Prod.fst).Nodup) (calls : List (List String)) :
    ∀ (S : List String) (st : AttrFile × List (String × Attr)), AInv f attr S st →
      AInv f attr (S ++ calls.flatten) (addAllAttrs st.1 st.2 calls) := by
  induction calls with
  | nil => intro S st h; simpa [addAllAttrs] using h
  | cons names calls ih =>
    intro S st h
    have := ih (S ++ names) (addAttrs st.1 (some st.2) names) (ainv_foldl f attr hnd names S st h)
    simpa [addAllAttrs] using this

theorem ainv_start (f : AttrFile) (attr : List (String × Attr)) : AInv f attr [] (f, attr) where
  file := by intro x; cases f.lookup x <;> simp
  user := by simp [touched]

/-- **C86.** After any sequence of calls with the same dictionary of attributes, a variable that was in the file has its attributes as before;
a variable that was stored since has the attributes given for it, and the coordinates "idx lat lon" unless others were given. -/
theorem attributes_written_partial (f : AttrFile) (attr : List (String × Attr)) (hnd : (attr.map Prod.fst).Nodup) (calls : List (List String))
    (x : String) :
    (addAllAttrs f attr calls).1.lookup x = match f.lookup x with
      | some a => some a
      | none => if ∃ names ∈ calls, x ∈ names then some (expected (attr.lookup x) "idx lat lon") else none := by
  have h := (ainv_all f attr hnd calls [] (f, attr) (ainv_start f attr)).file x
  rw [h]
  cases f.lookup x with
  | some a => rfl
  | none => simp [List.mem_flatten]

/-- **C86.** The dictionary of the user afterwards: the entries of the variables created in the calls have got coordinates, all others are as
before. -/
theorem attributes_of_user (f : AttrFile) (attr : List (String × Attr)) (hnd : (attr.map Prod.fst).Nodup) (calls : List (List String)) :
    (addAllAttrs f attr calls).2 = attr.map (fun e =>
      if e.1 ∉ f.map Prod.fst ∧ ∃ names ∈ calls, e.1 ∈ names then (e.1, expected (some e.2) "idx lat lon") else e) := by
  rw [(ainv_all f attr hnd calls [] (f, attr) (ainv_start f attr)).user]
  unfold touched
  apply List.map_congr_left
  intro e _
  have : e.1 ∈ ([] ++ calls.flatten).filter (fun x => decide (x ∉ f.map Prod.fst)) ↔ e.1 ∉ f.map Prod.fst ∧ ∃ names ∈ calls, e.1 ∈ names := by
    rw [List.mem_filter, List.nil_append, List.mem_flatten, decide_eq_true_eq]
    exact ⟨fun h => ⟨h.2, h.1⟩, fun h => ⟨h.2, h.1⟩⟩
  by_cases h : e.1 ∉ f.map Prod.fst ∧ ∃ names ∈ calls, e.1 ∈ names
  · rw [if_pos h, if_pos (this.mpr h)]
  · rw [if_neg h, if_neg (fun h' => h (this.mp h'))]

example := attributes_of_user (newAttrs (fun _ => [])) [("n", [("long_name", "number")]), ("R", [("long_name", "correlation")])] (by decide) [["n"], ["n", "R"]]

/-- **C86, negation.** The dictionary of the user is changed: `{"R": {"units": "1"}}` gets an entry "coordinates". -/
theorem attributes_of_user_changed :
    (addAllAttrs (newAttrs (fun _ => [])) [("R", [("units", "1")])] [["R"]]).2 = [("R", [("units", "1"), ("coordinates", "idx lat lon")])] := by
  decide +kernel

/-- **C86.** Using the changed dictionary for another file gives the attributes of the original dictionary. -/
theorem attributes_reused (f g : AttrFile) (attr : List (String × Attr)) (hnd : (attr.map Prod.fst).Nodup) (calls calls' : List (List String))
    (x : String) :
    (addAllAttrs g (addAllAttrs f attr calls).2 calls').1.lookup x = (addAllAttrs g attr calls').1.lookup x := by
  have hid : ∀ a, expected (some (expected (some a) "idx lat lon")) "idx lat lon" = expected (some a) "idx lat lon" := by
    intro a
    unfold expected
    by_cases h : "coordinates" ∈ a.map Prod.fst
    · simp [h]
    · simp [h]
  have hu := (ainv_all f attr hnd calls [] (f, attr) (ainv_start f attr)).user
  rw [attributes_written_partial g _ (by rw [hu, touched_fst]; exact hnd), attributes_written_partial g attr hnd]
  cases g.lookup x with
  | some a => rfl
  | none =>
    simp only
    split
    · congr 1
      rw [hu]
      generalize ([] ++ calls.flatten).filter (fun x => decide (x ∉ f.map Prod.fst)) = S
      clear hu hnd
      induction attr with
      | nil => rfl
      | cons e attr ih =>
        obtain ⟨k, a⟩ := e
        unfold touched at ih ⊢
        rw [List.map_cons]
        by_cases h : x = k
        · subst h
          by_cases hS : x ∈ S
          · simp only [hS, if_true, List.lookup, beq_self_eq_true]
            exact hid a
          · simp only [hS, if_false, List.lookup, beq_self_eq_true]
        · have hb : (x == k) = false := by simpa using h
          by_cases hS : k ∈ S
          · simp only [hS, if_true, List.lookup, hb]
            exact ih
          · simp only [hS, if_false, List.lookup, hb]
            exact ih
    · rfl

example := attributes_reused (newAttrs (fun _ => [])) (newAttrs (fun _ => [])) [("n", [("long_name", "number")])] (by decide) [["n"]] [["R", "n"]] "n"

/-- **C86, negation.** A time series gets the coordinates of a metric, without the time: `add_ts_results` asks for them with `time=False`. -/
theorem series_without_time_coordinate (attr : List (String × Attr)) (hnd : (attr.map Prod.fst).Nodup) (own : String → Attr) (x : String)
    (hx : x ∉ ["lon", "lat", "idx", "_row_size", "time"]) (h : attr.lookup x = none) :
    (addAllAttrs (newAttrs own) attr [[x]]).1.lookup x = some [("coordinates", "idx lat lon")] := by
  rw [attributes_written_partial _ attr hnd]
  have : (newAttrs own).lookup x = none := by
    by_contra hc
    apply hx
    have := (lookup_isSome_iff (newAttrs own) x).mpr hc
    unfold newAttrs at this
    rw [List.map_map] at this
    simpa using this
  rw [this, h]
  simp [expected]

example := series_without_time_coordinate [("n", [("long_name", "number")])] (by decide) (fun _ => []) "roll" (by decide) (by decide)

/-- **C86.** The indices found for coordinates are exactly those of the locations with these coordinates, in increasing order. -/
theorem lonlat_search {V : Type} [DecidableEq V] (f : File V) (lon lat : V) (i : ℕ) :
    (i ∈ lonlat2idx f lon lat ↔ idx2lonlat f i = (some lon, some lat)) ∧ (lonlat2idx f lon lat).Pairwise (· < ·) := by
  constructor
  · unfold lonlat2idx idx2lonlat
    simp only [List.mem_filter, List.mem_range, Bool.and_eq_true, decide_eq_true_eq, Prod.mk.injEq]
    constructor
    · exact fun h => h.2
    · intro h
      refine ⟨?_, h⟩
      have hb : ∀ (l : List (Option V)) (v : V), readAt l i = some v → i < l.length := by
        intro l v hv
        by_contra hc
        unfold readAt at hv
        rw [List.getElem?_eq_none (by omega)] at hv
        simp at hv
      exact lt_min (hb _ _ h.1) (hb _ _ h.2)
  · exact List.Pairwise.filter _ (by simpa using List.pairwise_lt_range)

/-- **C86.** After any aligned history of `add_result` calls: the indices found for coordinates are those of the calls with these
coordinates. -/
theorem lonlat_search_history {V : Type} [DecidableEq V] (ts : List Name) (H : List (Rec V)) (hA : Aligned ts H) :
    ∃ f, H.foldlM (addResult ts) (newFile V) = .ok f ∧
      ∀ lon lat i, i ∈ lonlat2idx f lon lat ↔ ∃ r, H[i]? = some r ∧ r.lon = lon ∧ r.lat = lat := by
  obtain ⟨f, h1, hI⟩ := inv_history ts H hA
  refine ⟨f, h1, ?_⟩
  intro lon lat i
  have hval : ∀ x, LocName ts H x → ∀ i, valueAt f.vars x i = (H[i]?).bind (fun r => ((esLoc ts r).lookup x).bind List.head?) := by
    intro x hl i
    refine hI.valLoc x ?_ i
    intro ho
    have h1 := (hI.dimLoc x).mpr hl
    rw [(hI.dimObs x).mpr ho] at h1
    simp at h1
  have hlon := hval "lon" (by unfold LocName; simp) i
  have hlat := hval "lat" (by unfold LocName; simp) i
  rw [(lonlat_search f lon lat i).1]
  have he : idx2lonlat f i = (valueAt f.vars "lon" i, valueAt f.vars "lat" i) := by
    unfold idx2lonlat valueAt readAt
    cases f.vars.lookup "lon" <;> cases f.vars.lookup "lat" <;> simp
  rw [he, hlon, hlat]
  cases hH : H[i]? with
  | none => simp
  | some r => simp [esLoc, List.lookup]

/-- two locations with the same coordinates are both found -/
example : (([⟨1, 2, [(.plain "R", [5])], none⟩, ⟨3, 2, [(.plain "R", [6])], none⟩, ⟨1, 2, [(.plain "R", [7])], none⟩] : List (Rec ℕ)).foldlM
    (addResult []) (newFile ℕ)).toOption.map (fun f => lonlat2idx f 1 2) = some [0, 2] := by decide +kernel

example : ((addAllAttrs (newAttrs (fun _ => [])) [("R", [("coordinates", "x")]), ("bias", [("units", "m")])] [["R"], ["bias", "R"]]).1.lookup "bias",
    (addAllAttrs (newAttrs (fun _ => [])) [("R", [("coordinates", "x")]), ("bias", [("units", "m")])] [["R"], ["bias", "R"]]).1.lookup "R") =
    (some [("units", "m"), ("coordinates", "idx lat lon")], some [("coordinates", "x")]) := by decide +kernel

end Verif.Results
