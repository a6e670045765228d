import Verif.Calculators.Model

/-! Specification of a result and lemmas about the dictionaries of the metrics calculators. -/

set_option linter.unusedSectionVars false

namespace Verif.Calculators

variable {K : Type}

/-! ### Specification -/

/-- the entries every result has -/
def reserved : List Key := [key "gpi", key "lon", key "lat", key "status"]

/-- the metadata fields asked for are distinct from each other and from all other entries of a result -/
structure FieldsOk (fields : Dict K) (names : List Key) : Prop where
  nodup : (fields.map Prod.fst).Nodup
  fresh : ∀ k ∈ fields.map Prod.fst, k ∉ reserved ∧ k ∉ names

/-- the job provides all metadata fields asked for -/
def Provides (info : Info K) (fields : Dict K) : Prop := fields = [] ∨ ∃ md, info.md = some md ∧ ∀ e ∈ fields, (md.lookup e.1).isSome

/-- The result `d` of a job: the location, the metadata of the job, the status and the values `vals`; nothing else. -/
structure Reports (fields : Dict K) (info : Info K) (status : Val K) (vals : List (Key × Val K)) (d : Dict K) : Prop where
  gpi : d.lookup (key "gpi") = some (.int info.gpi)
  lon : d.lookup (key "lon") = some (.num (some info.lon))
  lat : d.lookup (key "lat") = some (.num (some info.lat))
  status : d.lookup (key "status") = some status
  metadata : ∀ e ∈ fields, d.lookup e.1 = info.md.bind (List.lookup e.1)
  values : ∀ e ∈ vals, d.lookup e.1 = some e.2
  keys : ∀ k, k ∈ d.map Prod.fst ↔ k ∈ reserved ∨ k ∈ fields.map Prod.fst ∨ k ∈ vals.map Prod.fst
  nodup : (d.map Prod.fst).Nodup

/-! ### Dictionaries -/

theorem lookup_map_replace (d : Dict K) (k : Key) (v : Val K) (x : Key) :
    (d.map (fun e => if e.1 = k then (k, v) else e)).lookup x = if x = k then (d.lookup x).map (fun _ => v) else d.lookup x := by
  induction d with
  | nil => simp
  | cons e d ih =>
    obtain ⟨a, b⟩ := e
    rw [List.map_cons]
    by_cases ha : a = k
    · subst ha
      simp only [if_true, List.lookup_cons, ih]
      by_cases hx : x = a
      · simp [hx]
      · have : (x == a) = false := by simpa using hx
        simp [this, hx]
    · simp only [if_neg ha, List.lookup_cons, ih]
      by_cases hx : x = a
      · subst hx; simp [ha]
      · have : (x == a) = false := by simpa using hx
        simp [this]

theorem lookup_isSome_iff (d : Dict K) (k : Key) : (d.lookup k).isSome ↔ k ∈ d.map Prod.fst := by
  induction d with
  | nil => simp
  | cons e d ih =>
    obtain ⟨a, b⟩ := e
    rw [List.lookup_cons, List.map_cons, List.mem_cons]
    by_cases h : k = a
    · simp [h]
    · have : (k == a) = false := by simpa using h
      simp only [this, ih, h, false_or]

theorem lookup_none_iff (d : Dict K) (k : Key) : d.lookup k = none ↔ k ∉ d.map Prod.fst := by
  rw [← lookup_isSome_iff]
  cases d.lookup k <;> simp

theorem lookup_append (a b : Dict K) (k : Key) : (a ++ b).lookup k = (a.lookup k).or (b.lookup k) := by
  induction a with
  | nil => simp
  | cons e a ih =>
    obtain ⟨x, v⟩ := e
    rw [List.cons_append, List.lookup_cons, List.lookup_cons]
    cases h : k == x <;> simp [ih]

theorem lookup_of_nodup (d : Dict K) (hn : (d.map Prod.fst).Nodup) (e : Key × Val K) (he : e ∈ d) : d.lookup e.1 = some e.2 := by
  induction d with
  | nil => simp at he
  | cons f d ih =>
    obtain ⟨x, v⟩ := f
    rw [List.map_cons, List.nodup_cons] at hn
    rw [List.lookup_cons]
    rcases List.mem_cons.mp he with rfl | h
    · simp
    · have : e.1 ≠ x := by
        intro hx
        exact hn.1 (hx ▸ List.mem_map.mpr ⟨e, h, rfl⟩)
      have hb : (e.1 == x) = false := by simpa using this
      rw [hb]
      exact ih hn.2 h

theorem lookup_reverse (d : Dict K) (hn : (d.map Prod.fst).Nodup) (k : Key) : d.reverse.lookup k = d.lookup k := by
  have hr : (d.reverse.map Prod.fst).Nodup := by rw [List.map_reverse]; exact List.nodup_reverse.mpr hn
  by_cases h : k ∈ d.map Prod.fst
  · obtain ⟨e, he, rfl⟩ := List.mem_map.mp h
    rw [lookup_of_nodup d hn e he, lookup_of_nodup d.reverse hr e (by simpa using he)]
  · rw [(lookup_none_iff d k).mpr h, (lookup_none_iff d.reverse k).mpr (by rwa [List.map_reverse, List.mem_reverse])]

theorem lookup_put (d : Dict K) (k : Key) (v : Val K) (x : Key) : (put d k v).lookup x = if x = k then some v else d.lookup x := by
  unfold put
  split
  · rename_i h
    rw [lookup_map_replace]
    split
    · rename_i hx
      subst hx
      obtain ⟨w, hw⟩ := Option.isSome_iff_exists.mp ((lookup_isSome_iff d x).mpr h)
      rw [hw]; rfl
    · rfl
  · rename_i h
    rw [lookup_append]
    by_cases hx : x = k
    · subst hx
      rw [(lookup_none_iff d x).mpr h]; simp
    · have : (x == k) = false := by simpa using hx
      simp [hx, List.lookup_cons, this]

theorem keys_put (d : Dict K) (k : Key) (v : Val K) :
    (put d k v).map Prod.fst = if k ∈ d.map Prod.fst then d.map Prod.fst else d.map Prod.fst ++ [k] := by
  unfold put
  split
  · rw [List.map_map]
    apply List.map_congr_left
    intro e _
    simp only [Function.comp]
    split
    · rename_i h; exact h.symm
    · rfl
  · simp

theorem nodup_put (d : Dict K) (k : Key) (v : Val K) (h : (d.map Prod.fst).Nodup) : ((put d k v).map Prod.fst).Nodup := by
  rw [keys_put]
  split
  · exact h
  · rename_i hk
    rw [List.nodup_append]
    refine ⟨h, by simp, ?_⟩
    intro a ha b hb
    rw [List.mem_singleton] at hb
    subst hb
    exact fun e => hk (e ▸ ha)

theorem lookup_update (d e : Dict K) (x : Key) : (update d e).lookup x = (e.reverse.lookup x).or (d.lookup x) := by
  induction e generalizing d with
  | nil => simp [update]
  | cons f e ih =>
    unfold update at ih ⊢
    rw [List.foldl_cons, ih, lookup_put, List.reverse_cons, lookup_append]
    cases h : e.reverse.lookup x with
    | some v => simp
    | none =>
      obtain ⟨k, v⟩ := f
      simp only [Option.none_or, List.lookup_cons]
      by_cases hx : x = k
      · simp [hx]
      · have : (x == k) = false := by simpa using hx
        simp [hx, this]

theorem mem_keys_update (d e : Dict K) (x : Key) : x ∈ (update d e).map Prod.fst ↔ x ∈ d.map Prod.fst ∨ x ∈ e.map Prod.fst := by
  rw [← lookup_isSome_iff, lookup_update, Option.isSome_or, Bool.or_eq_true, lookup_isSome_iff, lookup_isSome_iff, List.map_reverse,
    List.mem_reverse, or_comm]

theorem nodup_update (d e : Dict K) (h : (d.map Prod.fst).Nodup) : ((update d e).map Prod.fst).Nodup := by
  induction e generalizing d with
  | nil => exact h
  | cons f e ih =>
    unfold update at ih ⊢
    rw [List.foldl_cons]
    exact ih _ (nodup_put d f.1 f.2 h)

theorem set_ok (d : Dict K) (kv : Key × Val K) (h : kv.1 ∈ d.map Prod.fst) : set d kv = .ok (put d kv.1 kv.2) := if_pos h

theorem keys_put_mem (d : Dict K) (k : Key) (v : Val K) (h : k ∈ d.map Prod.fst) : (put d k v).map Prod.fst = d.map Prod.fst := by
  rw [keys_put, if_pos h]

/-- assignments to existing keys -/
theorem setAll_ok (d : Dict K) (ws : List (Key × Val K)) (h : ∀ w ∈ ws, w.1 ∈ d.map Prod.fst) :
    ∃ d', setAll d ws = .ok d' ∧ d'.map Prod.fst = d.map Prod.fst ∧ ∀ x, d'.lookup x = (ws.reverse.lookup x).or (d.lookup x) := by
  induction ws generalizing d with
  | nil => exact ⟨d, rfl, rfl, fun x => by simp⟩
  | cons w ws ih =>
    have hw := h w (by simp)
    have hk := keys_put_mem d w.1 w.2 hw
    obtain ⟨d', h1, h2, h3⟩ := ih (put d w.1 w.2) (fun v hv => by rw [hk]; exact h v (by simp [hv]))
    refine ⟨d', ?_, h2.trans hk, ?_⟩
    · unfold setAll at h1 ⊢
      rw [List.foldlM_cons, set_ok d w hw]
      exact h1
    · intro x
      rw [h3, lookup_put, List.reverse_cons, lookup_append]
      cases hx : ws.reverse.lookup x with
      | some v => simp
      | none =>
        obtain ⟨k, v⟩ := w
        simp only [Option.none_or, List.lookup_cons]
        by_cases hxk : x = k
        · simp [hxk]
        · have : (x == k) = false := by simpa using hxk
          simp [hxk, this]

theorem setAll_append (d : Dict K) (a b : List (Key × Val K)) : setAll d (a ++ b) = (setAll d a).bind (fun d => setAll d b) := by
  unfold setAll
  rw [List.foldlM_append]
  rfl

/-! ### Location and metadata -/

theorem fields_ok (info : Info K) (fields : Dict K) (d : Dict K) (hd : ∀ e ∈ fields, e.1 ∈ d.map Prod.fst) (hp : Provides info fields) :
    ∃ d', fields.foldlM (setField info) d = .ok d' ∧ d'.map Prod.fst = d.map Prod.fst ∧
      (∀ x, x ∉ fields.map Prod.fst → d'.lookup x = d.lookup x) ∧
      (∀ e ∈ fields, d'.lookup e.1 = info.md.bind (List.lookup e.1)) := by
  induction fields generalizing d with
  | nil => exact ⟨d, rfl, rfl, fun x _ => rfl, fun e he => by simp at he⟩
  | cons f fields ih =>
    obtain hp | ⟨md, hmd, hall⟩ := hp
    · simp at hp
    · obtain ⟨v, hv⟩ := Option.isSome_iff_exists.mp (hall f (by simp))
      have hf := hd f (by simp)
      have hk := keys_put_mem d f.1 v hf
      obtain ⟨d', h1, h2, h3, h4⟩ := ih (put d f.1 v) (fun e he => by rw [hk]; exact hd e (by simp [he]))
        (Or.inr ⟨md, hmd, fun e he => hall e (by simp [he])⟩)
      have hstep : setField info d f = .ok (put d f.1 v) := by
        unfold setField
        rw [hmd]
        simp only [hv]
        exact set_ok d (f.1, v) hf
      refine ⟨d', ?_, h2.trans hk, ?_, ?_⟩
      · rw [List.foldlM_cons, hstep]; exact h1
      · intro x hx
        rw [List.map_cons, List.mem_cons, not_or] at hx
        rw [h3 x hx.2, lookup_put, if_neg hx.1]
      · intro e he
        by_cases hin : e.1 ∈ fields.map Prod.fst
        · obtain ⟨e', he', heq⟩ := List.mem_map.mp hin
          rw [← heq]; exact h4 e' he'
        · rcases List.mem_cons.mp he with rfl | he'
          · rw [h3 _ hin, lookup_put, if_pos rfl, hmd]
            exact hv.symm
          · exact absurd (List.mem_map.mpr ⟨e, he', rfl⟩) hin

theorem keys_metadataTemplate (mt : Option (Dict K)) (k : Key) :
    k ∈ (metadataTemplate mt).map Prod.fst ↔ k ∈ reserved ∨ k ∈ (mt.getD []).map Prod.fst := by
  unfold metadataTemplate
  rw [mem_keys_update]
  rfl

theorem nodup_reserved : reserved.Nodup := by decide

theorem nodup_metadataTemplate (mt : Option (Dict K)) : ((metadataTemplate mt).map Prod.fst).Nodup := by
  unfold metadataTemplate
  exact nodup_update _ _ nodup_reserved

/-- **The location and metadata part of all calculators**, for a template with the entries `t` in addition. -/
theorem metadataCalc_ok (mt : Option (Dict K)) (t : Dict K) (hn : (t.map Prod.fst).Nodup) (hr : ∀ k ∈ t.map Prod.fst, k ∉ reserved)
    (hf : FieldsOk (mt.getD []) (t.map Prod.fst)) (info : Info K) (hp : Provides info (mt.getD [])) :
    ∃ d, metadataCalc (update (metadataTemplate mt) t) mt info = .ok d ∧ Reports (mt.getD []) info (.int uncaught) t d := by
  set T := update (metadataTemplate mt) t with hT
  have hkT : ∀ k, k ∈ T.map Prod.fst ↔ (k ∈ reserved ∨ k ∈ (mt.getD []).map Prod.fst) ∨ k ∈ t.map Prod.fst := by
    intro k; rw [hT, mem_keys_update, keys_metadataTemplate]
  have hres : ∀ k ∈ reserved, k ∈ T.map Prod.fst := fun k hk => (hkT k).mpr (Or.inl (Or.inl hk))
  obtain ⟨d1, e1, e2, e3⟩ := setAll_ok T [(key "gpi", .int info.gpi), (key "lon", .num (some info.lon)), (key "lat", .num (some info.lat))]
    (by intro w hw; apply hres; fin_cases hw <;> simp [reserved])
  obtain ⟨d2, f1, f2, f3, f4⟩ := fields_ok info (mt.getD []) d1 (by
    intro e he
    rw [e2]
    exact (hkT e.1).mpr (Or.inl (Or.inr (List.mem_map.mpr ⟨e, he, rfl⟩)))) hp
  refine ⟨d2, ?_, ?_⟩
  · unfold metadataCalc
    rw [e1]
    exact f1
  · have hnf : ∀ k ∈ reserved, k ∉ (mt.getD []).map Prod.fst := fun k hk hm => (hf.fresh k hm).1 hk
    have hlook : ∀ x, x ∉ (mt.getD []).map Prod.fst →
        d2.lookup x = (List.lookup x [(key "lat", Val.num (some info.lat)), (key "lon", .num (some info.lon)), (key "gpi", .int info.gpi)]).or
          (T.lookup x) := by
      intro x hx
      rw [f3 x hx, e3 x]
      rfl
    refine ⟨?_, ?_, ?_, ?_, f4, ?_, ?_, ?_⟩
    · rw [hlook _ (hnf _ (by decide))]; rfl
    · rw [hlook _ (hnf _ (by decide))]; rfl
    · rw [hlook _ (hnf _ (by decide))]; rfl
    · rw [hlook _ (hnf _ (by decide)), hT, lookup_update]
      have h1 : t.reverse.lookup (key "status") = none := by
        rw [lookup_none_iff, List.map_reverse, List.mem_reverse]
        exact fun h => hr _ h (by decide)
      rw [h1]
      unfold metadataTemplate
      rw [lookup_update]
      have h2 : (mt.getD []).reverse.lookup (key "status") = none := by
        rw [lookup_none_iff, List.map_reverse, List.mem_reverse]
        exact hnf _ (by decide)
      rw [h2]
      rfl
    · intro e he
      have hmem : e.1 ∈ t.map Prod.fst := List.mem_map.mpr ⟨e, he, rfl⟩
      rw [hlook e.1 (fun hm => (hf.fresh e.1 hm).2 hmem)]
      have h1 : List.lookup e.1 [(key "lat", Val.num (some info.lat)), (key "lon", .num (some info.lon)), (key "gpi", .int info.gpi)] = none := by
        rw [lookup_none_iff]
        intro h
        apply hr _ hmem
        simp only [List.map_cons, List.map_nil, List.mem_cons, List.not_mem_nil, or_false] at h
        rcases h with h | h | h <;> rw [h] <;> decide
      rw [h1, Option.none_or, hT, lookup_update, lookup_reverse t hn, lookup_of_nodup t hn e he]
      rfl
    · intro k
      rw [f2, e2, hkT, or_assoc]
    · rw [f2, e2, hT]
      exact nodup_update _ _ (nodup_metadataTemplate mt)

/-- Without metadata in the job, all calculators with metadata fields fail. -/
theorem metadataCalc_missing (mt : Option (Dict K)) (t : Dict K) (info : Info K) (hf : mt.getD [] ≠ []) (hm : info.md = none) :
    metadataCalc (update (metadataTemplate mt) t) mt info = .error .noMetadata := by
  obtain ⟨d1, e1, -⟩ := setAll_ok (update (metadataTemplate mt) t)
    [(key "gpi", .int info.gpi), (key "lon", .num (some info.lon)), (key "lat", .num (some info.lat))]
    (by
      intro w hw
      rw [mem_keys_update, keys_metadataTemplate]
      left; left
      fin_cases hw <;> simp [reserved])
  unfold metadataCalc
  rw [e1]
  show (mt.getD []).foldlM (setField info) d1 = _
  cases h : mt.getD [] with
  | nil => exact absurd h hf
  | cons f fs =>
    rw [List.foldlM_cons]
    unfold setField
    rw [hm]
    rfl

example := metadataCalc_missing (K := ℚ) (some [(key "network", .int 0)]) [] ⟨1, 2, 3, none⟩ (by simp) rfl

/-- Metadata in which a field is missing: KeyError. -/
theorem fields_missing (info : Info K) (md : Dict K) (hmd : info.md = some md) (fields d : Dict K) (hd : ∀ e ∈ fields, e.1 ∈ d.map Prod.fst)
    (hm : ∃ e ∈ fields, md.lookup e.1 = none) : fields.foldlM (setField info) d = .error .keyError := by
  induction fields generalizing d with
  | nil => simp at hm
  | cons f fields ih =>
    rw [List.foldlM_cons]
    cases hv : md.lookup f.1 with
    | none =>
      unfold setField
      rw [hmd]
      simp only [hv]
      rfl
    | some v =>
      have hstep : setField info d f = .ok (put d f.1 v) := by
        unfold setField
        rw [hmd]
        simp only [hv]
        exact set_ok d (f.1, v) (hd f (by simp))
      rw [hstep]
      refine ih (put d f.1 v) (fun e he => by rw [keys_put_mem d f.1 v (hd f (by simp))]; exact hd e (by simp [he])) ?_
      obtain ⟨e, he, hn⟩ := hm
      rcases List.mem_cons.mp he with rfl | he
      · rw [hv] at hn; simp at hn
      · exact ⟨e, he, hn⟩

/-- A calculator with a metadata field that the metadata of the job do not have fails with KeyError. -/
theorem metadataCalc_incomplete (mt : Option (Dict K)) (t : Dict K) (info : Info K) (md : Dict K) (hmd : info.md = some md)
    (hm : ∃ e ∈ mt.getD [], md.lookup e.1 = none) : metadataCalc (update (metadataTemplate mt) t) mt info = .error .keyError := by
  obtain ⟨d1, e1, e2, -⟩ := setAll_ok (update (metadataTemplate mt) t)
    [(key "gpi", .int info.gpi), (key "lon", .num (some info.lon)), (key "lat", .num (some info.lat))]
    (by
      intro w hw
      rw [mem_keys_update, keys_metadataTemplate]
      left; left
      fin_cases hw <;> simp [reserved])
  unfold metadataCalc
  rw [e1]
  show (mt.getD []).foldlM (setField info) d1 = _
  refine fields_missing info md hmd _ d1 ?_ hm
  intro e he
  rw [e2, mem_keys_update, keys_metadataTemplate]
  left; right
  exact List.mem_map_of_mem he

example := metadataCalc_incomplete (some [(key "depth", Val.num none), (key "network", .int 0)]) [] (⟨1, 2, 3, some [(key "depth", .num (some 5))]⟩ : Info ℚ)
  [(key "depth", .num (some 5))] rfl ⟨(key "network", .int 0), by simp, by decide⟩

/-- Assignments to the status and to entries of the template change exactly these. -/
theorem setAll_reports (fields : Dict K) (info : Info K) (s : Val K) (t : Dict K) (hr : ∀ k ∈ t.map Prod.fst, k ∉ reserved)
    (hf : FieldsOk fields (t.map Prod.fst)) (d : Dict K) (hd : Reports fields info s t d) (ws : List (Key × Val K)) (s' : Val K) (vals : Dict K)
    (hws : ∀ w ∈ ws, w.1 = key "status" ∨ w.1 ∈ t.map Prod.fst)
    (hs' : (ws.reverse.lookup (key "status")).getD s = s')
    (hkeys : vals.map Prod.fst = t.map Prod.fst)
    (hvals : ∀ e ∈ vals, (ws.reverse.lookup e.1).or (t.lookup e.1) = some e.2) :
    ∃ d', setAll d ws = .ok d' ∧ Reports fields info s' vals d' := by
  obtain ⟨d', e1, e2, e3⟩ := setAll_ok d ws (by
    intro w hw
    rw [hd.keys]
    rcases hws w hw with h | h
    · left; rw [h]; decide
    · right; right; exact h)
  have hno : ∀ k, k ≠ key "status" → k ∉ t.map Prod.fst → d'.lookup k = d.lookup k := by
    intro k h1 h2
    rw [e3]
    have : ws.reverse.lookup k = none := by
      rw [lookup_none_iff, List.map_reverse, List.mem_reverse]
      intro h
      obtain ⟨w, hw, rfl⟩ := List.mem_map.mp h
      rcases hws w hw with h | h
      · exact h1 h
      · exact h2 h
    rw [this, Option.none_or]
  have hrt : ∀ k ∈ reserved, k ∉ t.map Prod.fst := fun k hk hm => hr k hm hk
  refine ⟨d', e1, ⟨?_, ?_, ?_, ?_, ?_, ?_, ?_, ?_⟩⟩
  · rw [hno _ (by decide) (hrt _ (by decide))]; exact hd.gpi
  · rw [hno _ (by decide) (hrt _ (by decide))]; exact hd.lon
  · rw [hno _ (by decide) (hrt _ (by decide))]; exact hd.lat
  · rw [e3, hd.status, ← hs']
    cases ws.reverse.lookup (key "status") <;> rfl
  · intro e he
    have hm : e.1 ∈ fields.map Prod.fst := List.mem_map.mpr ⟨e, he, rfl⟩
    rw [hno _ (fun h => (hf.fresh _ hm).1 (by rw [h]; decide)) (hf.fresh _ hm).2]
    exact hd.metadata e he
  · intro e he
    have hm : e.1 ∈ t.map Prod.fst := hkeys ▸ List.mem_map.mpr ⟨e, he, rfl⟩
    obtain ⟨e', he', heq⟩ := List.mem_map.mp hm
    rw [e3, ← hvals e he]
    have h1 := hd.values e' he'
    rw [heq] at h1
    cases h : ws.reverse.lookup e.1 with
    | some v => rfl
    | none =>
      have h2 := hvals e he
      rw [h, Option.none_or] at h2
      simp only [Option.none_or]
      rw [h2, h1]
      -- the first entry of a key decides, and all entries of `d` agree with it
      obtain ⟨w, hw⟩ : ∃ w, w ∈ t ∧ w.1 = e.1 ∧ w.2 = e.2 := by
        clear * - h2
        induction t with
        | nil => simp at h2
        | cons f t ih =>
          obtain ⟨a, b⟩ := f
          rw [List.lookup_cons] at h2
          by_cases hx : e.1 = a
          · simp only [hx, beq_self_eq_true] at h2
            exact ⟨(a, b), by simp, hx.symm, by simpa using h2⟩
          · have hb : (e.1 == a) = false := by simpa using hx
            rw [hb] at h2
            obtain ⟨w, h1, h3⟩ := ih h2
            exact ⟨w, by simp [h1], h3⟩
      have h3 := hd.values w hw.1
      rw [hw.2.1, h1] at h3
      rw [h3, hw.2.2]
  · intro k
    rw [e2, hd.keys, hkeys]
  · rw [e2]; exact hd.nodup

end Verif.Calculators
