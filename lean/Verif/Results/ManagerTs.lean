import Verif.Results.ManagerProps

/-! C78: `netcdf_results_manager` with time series (`ts_vars`). -/

set_option linter.unusedSectionVars false
set_option synthInstance.maxSize 1000

namespace Verif.Results

variable {V : Type}

/-! ### Specification -/

/-- the entry has the values `v` at location `i`; a number counts as array of length one -/
def EntryAt (c : Column V) (i : ℕ) (v : List V) : Prop :=
  match c with
  | .scalars l => ∃ x, l[i]? = some x ∧ v = [x]
  | .series l => l[i]? = some v

/-- The dictionary holds the given locations: coordinates, an entry "time" with the time stamps, names which are strings. -/
structure TsRes (res : Res V) (recs : List (Rec V)) : Prop where
  lon : res.lookup (.plain "lon") = some (.scalars (recs.map (fun r => r.lon)))
  lat : res.lookup (.plain "lat") = some (.scalars (recs.map (fun r => r.lat)))
  time : ∃ c, res.lookup (.plain "time") = some c ∧ ∀ i r, recs[i]? = some r → ∃ t, EntryAt c i t ∧ r.times = some t
  strings : ∀ e ∈ res, ∃ s, e.1 = .plain s ∧ (s.toLower = "time" → s = "time")
  data : ∀ i r, recs[i]? = some r → List.Forall₂ (fun e d => e.1 = d.1 ∧ EntryAt e.2 i d.2)
    (res.filter (fun e => !decide (e.1 ∈ [Name.plain "lon", .plain "lat", .plain "time"]))) r.data

variable {κ : Type}

/-- the locations of a key, in the order in which they are stored -/
def history [DecidableEq κ] (jobs : List (List (κ × List (Rec V)))) (k : κ) : List (Rec V) :=
  ((jobs.flatten.filter (fun e => decide (e.1 = k))).map Prod.snd).flatten

/-! ### One result -/

theorem item_of_entryAt {c : Column V} {i : ℕ} {v : List V} (h : EntryAt c i v) : c.item i = some v := by
  cases c with
  | scalars l =>
    obtain ⟨x, h1, h2⟩ := h
    show (l[i]?).map (fun x => [x]) = some v
    rw [h1, h2]
    rfl
  | series l => exact h

theorem itemsOf_good (res : Res V) (i : ℕ) (c : Column V) (t : List V) (hlook : res.lookup (.plain "time") = some c) (ht : c.item i = some t)
    (L : Res V) (data : List (Name × List V)) (time : Option (List V))
    (hs : ∀ e ∈ L, ∃ s, e.1 = .plain s ∧ (s.toLower = "time" → s = "time"))
    (hd : List.Forall₂ (fun e d => e.1 = d.1 ∧ EntryAt e.2 i d.2) (L.filter (fun e => !decide (e.1 = Name.plain "time"))) data)
    (htime : time = some t ∨ ∃ e ∈ L, e.1 = .plain "time") : itemsOf res i L time = .ok (data, some t) := by
  induction L generalizing data time with
  | nil =>
    rw [List.filter_nil, List.forall₂_nil_left_iff] at hd
    subst hd
    rcases htime with h | ⟨e, he, -⟩
    · rw [h]; rfl
    · simp at he
  | cons e L ih =>
    obtain ⟨n, v⟩ := e
    obtain ⟨s, hn, hlow⟩ := hs _ (List.mem_cons_self ..)
    simp only at hn
    subst hn
    unfold itemsOf
    by_cases h : s.toLower = "time"
    · obtain rfl := hlow h
      rw [if_pos h, hlook]
      simp only [ht]
      refine ih data (some t) (fun e he => hs e (List.mem_cons_of_mem _ he)) ?_ (.inl rfl)
      rw [List.filter_cons] at hd
      simpa using hd
    · have hne : s ≠ "time" := by
        rintro rfl
        exact h (by decide +kernel)
      rw [if_neg h]
      rw [List.filter_cons] at hd
      have hkeep : (!decide (Name.plain s = Name.plain "time")) = true := by simpa using hne
      simp only [hkeep, if_true] at hd
      cases hd with
      | @cons _ d _ data h1 h2 =>
        obtain ⟨h3, h4⟩ := h1
        rw [item_of_entryAt h4]
        simp only
        rw [ih data time (fun e he => hs e (List.mem_cons_of_mem _ he)) h2 (by
          rcases htime with h | ⟨e, he, h5⟩
          · exact .inl h
          · rcases List.mem_cons.mp he with rfl | he
            · exact absurd (Name.plain.inj h5) hne
            · exact .inr ⟨e, he, h5⟩)]
        simp only [bind, Except.bind]
        obtain ⟨dn, dv⟩ := d
        simp only at h3
        rw [← h3]

/-- the loop over the locations stores them one after the other -/
theorem tsLoop_good (ts : List Name) (res : Res V) (recs : List (Rec V)) (i0 : ℕ)
    (hitems : ∀ i r, recs[i]? = some r → ∀ time, ∃ t, r.times = some t ∧ itemsOf res (i0 + i) res time = .ok (r.data, some t))
    (f f' : File V) (time : Option (List V)) (h : recs.foldlM (addResult ts) f = .ok f') :
    ∃ time', tsLoop ts res ((((recs.map (fun r => r.lon)).zip (recs.map (fun r => r.lat))).zipIdx i0).map (fun p => (p.2, p.1))) f time = ((f', time'), none) := by
  induction recs generalizing i0 f time with
  | nil =>
    simp only [List.foldlM_nil, pure, Except.pure, Except.ok.injEq] at h
    exact ⟨time, by rw [h]; rfl⟩
  | cons r recs ih =>
    rw [List.foldlM_cons] at h
    cases ha : addResult ts f r with
    | error e => rw [ha] at h; simp [bind, Except.bind] at h
    | ok f1 =>
      rw [ha] at h
      simp only [bind, Except.bind] at h
      obtain ⟨t, h1, h2⟩ := hitems 0 r rfl time
      obtain ⟨time', h3⟩ := ih (i0 + 1) (fun i r' hr' time => by
        have := hitems (i + 1) r' (by simpa using hr') time
        rw [show i0 + 1 + i = i0 + (i + 1) by omega]
        exact this) f1 (some t) h
      refine ⟨time', ?_⟩
      rw [List.map_cons, List.map_cons, List.zip_cons_cons, List.zipIdx_cons, List.map_cons]
      unfold tsLoop
      simp only
      rw [Nat.add_zero] at h2
      rw [h2]
      simp only
      rw [show (⟨r.lon, r.lat, r.data, some t⟩ : Rec V) = r by rw [← h1], ha]
      exact h3

theorem writeResult_ts (ts : List Name) (f f' : File V) (res : Res V) (recs : List (Rec V)) (time : Option (List V)) (hr : TsRes res recs)
    (h : recs.foldlM (addResult ts) f = .ok f') :
    (writeResult (some ts) f res time).1.1 = f' ∧ (writeResult (some ts) f res time).2 = none := by
  set res1 := res.filter (fun e => !decide (e.1 = Name.plain "lon")) with hres1
  set res2 := res1.filter (fun e => !decide (e.1 = Name.plain "lat")) with hres2
  have h1 : pop res "lon" = some (.scalars (recs.map (fun r => r.lon)), res1) := by
    unfold pop
    rw [hr.lon]
    rfl
  have h2 : pop res1 "lat" = some (.scalars (recs.map (fun r => r.lat)), res2) := by
    unfold pop
    rw [hres1, lookup_filter_ne _ _ _ (by decide), hr.lat]
    rfl
  obtain ⟨c, hc, hct⟩ := hr.time
  have hc2 : res2.lookup (.plain "time") = some c := by
    rw [hres2, lookup_filter_ne _ _ _ (by decide), hres1, lookup_filter_ne _ _ _ (by decide), hc]
  have hsub : ∀ e ∈ res2, e ∈ res := fun e he => List.mem_of_mem_filter (List.mem_of_mem_filter he)
  obtain ⟨time', h3⟩ := tsLoop_good ts res2 recs 0 (by
    intro i r hi time
    obtain ⟨t, h4, h5⟩ := hct i r hi
    refine ⟨t, h5, ?_⟩
    rw [Nat.zero_add]
    refine itemsOf_good res2 i c t hc2 (item_of_entryAt h4) res2 r.data time (fun e he => hr.strings e (hsub e he)) ?_ ?_
    · have := hr.data i r hi
      rw [hres2, hres1, List.filter_filter, List.filter_filter]
      refine (List.filter_congr ?_) ▸ this
      intro e _
      simp only [List.mem_cons, List.not_mem_nil, or_false]
      by_cases a1 : e.1 = Name.plain "lon" <;> by_cases a2 : e.1 = Name.plain "lat" <;> by_cases a3 : e.1 = Name.plain "time" <;> simp [a1, a2, a3]
    · right
      exact ⟨_, Validation.mem_of_lookup _ hc2, rfl⟩) f f' time h
  have h6 : writeResult (some ts) f res time =
      (((tsLoop ts res2 (((recs.map (fun r => r.lon)).zip (recs.map (fun r => r.lat))).zipIdx.map (fun p => (p.2, p.1))) f time).1.1, res2,
        (tsLoop ts res2 (((recs.map (fun r => r.lon)).zip (recs.map (fun r => r.lat))).zipIdx.map (fun p => (p.2, p.1))) f time).1.2),
        (tsLoop ts res2 (((recs.map (fun r => r.lon)).zip (recs.map (fun r => r.lat))).zipIdx.map (fun p => (p.2, p.1))) f time).2) := by
    unfold writeResult
    rw [h1]
    simp only
    rw [h2]
  rw [h6, h3]
  exact ⟨rfl, rfl⟩

/-! ### All jobs -/

variable [DecidableEq κ]

def histOf (W : List (κ × List (Rec V))) (k : κ) : List (Rec V) := ((W.filter (fun e => decide (e.1 = k))).map Prod.snd).flatten

theorem histOf_append (W : List (κ × List (Rec V))) (k : κ) (recs : List (Rec V)) (k' : κ) :
    histOf (W ++ [(k, recs)]) k' = if k = k' then histOf W k' ++ recs else histOf W k' := by
  unfold histOf
  rw [List.filter_append, List.map_append]
  by_cases h : k = k'
  · simp [h]
  · simp [h]

theorem histOf_prefix (W W' : List (κ × List (Rec V))) (k : κ) : histOf (W ++ W') k = histOf W k ++ histOf W' k := by
  unfold histOf
  rw [List.filter_append, List.map_append, List.flatten_append]

theorem aligned_left {ts : List Name} {A B : List (Rec V)} (h : Aligned ts (A ++ B)) : Aligned ts A where
  good := fun r hr => h.good r (by simp [hr])
  kind := fun r hr r' hr' => h.kind r (by simp [hr]) r' (by simp [hr'])
  metrics := fun pre r post he => h.metrics pre r (post ++ B) (by rw [he]; simp)
  series := fun pre r post he => h.series pre r (post ++ B) (by rw [he]; simp)

/-- the state of the directory after the results `W` -/
structure TInv (fname : κ → List Char) (ts : List Name) (W : List (κ × List (Rec V))) (d : Disk V) : Prop where
  file : ∀ k, (histOf W k).foldlM (addResult ts) (newFile V) = .ok (openFile d (fname k))
  only : ∀ x, (d.lookup x).isSome ↔ ∃ e ∈ W, x = fname e.1

theorem tinv_step (fname : κ → List Char) (hinj : Function.Injective fname) (ts : List Name) (W : List (κ × List (Rec V))) (d : Disk V) (k : κ)
    (recs : List (Rec V)) (res : Res V) (hI : TInv fname ts W d) (hr : TsRes res recs) (hA : Aligned ts (histOf (W ++ [(k, recs)]) k))
    (time : Option (List V)) :
    (writeResult (some ts) (openFile d (fname k)) res time).2 = none ∧
      TInv fname ts (W ++ [(k, recs)]) (saveFile d (fname k) (writeResult (some ts) (openFile d (fname k)) res time).1.1) := by
  rw [histOf_append, if_pos rfl] at hA
  obtain ⟨f', h1, -⟩ := inv_history ts _ hA
  have h2 : recs.foldlM (addResult ts) (openFile d (fname k)) = .ok f' := by
    rw [List.foldlM_append, hI.file k] at h1
    exact h1
  obtain ⟨h3, h4⟩ := writeResult_ts ts _ f' res recs time hr h2
  rw [h3]
  refine ⟨h4, ?_, ?_⟩
  · intro k'
    rw [histOf_append]
    have hopen : openFile (saveFile d (fname k) f') (fname k') = if k = k' then f' else openFile d (fname k') := by
      unfold openFile
      rw [lookup_saveFile]
      by_cases h : k = k'
      · rw [if_pos h, if_pos (by rw [h])]
        rfl
      · rw [if_neg h, if_neg (fun hh => h (hinj hh).symm)]
    rw [hopen]
    by_cases h : k = k'
    · subst h
      rw [if_pos rfl, if_pos rfl]
      exact h1
    · rw [if_neg h, if_neg h]
      exact hI.file k'
  · intro x
    rw [lookup_saveFile]
    by_cases h : x = fname k
    · rw [if_pos h]
      refine ⟨fun _ => ⟨(k, recs), by simp, h⟩, fun _ => rfl⟩
    · rw [if_neg h, hI.only x]
      constructor
      · rintro ⟨e, he, h5⟩
        exact ⟨e, by simp [he], h5⟩
      · rintro ⟨e, he, h5⟩
        rcases List.mem_append.mp he with he | he
        · exact ⟨e, he, h5⟩
        · rw [List.mem_singleton.mp he] at h5
          exact absurd h5 h

theorem manager_ts (fname : κ → List Char) (hinj : Function.Injective fname) (ts : List Name) (job : List (κ × Res V)) (bs : List (κ × List (Rec V)))
    (hjob : List.Forall₂ (fun r b => r.1 = b.1 ∧ TsRes r.2 b.2) job bs) (W : List (κ × List (Rec V))) (d : Disk V)
    (hI : TInv fname ts W d) (hA : ∀ k, Aligned ts (histOf (W ++ bs) k)) (time : Option (List V)) :
    (resultsManager (fun k => some (fname k)) (some ts) d job time).2 = none ∧
      TInv fname ts (W ++ bs) (resultsManager (fun k => some (fname k)) (some ts) d job time).1.1 := by
  induction hjob generalizing W d time with
  | nil => exact ⟨rfl, by rw [List.append_nil]; exact hI⟩
  | @cons r b job bs hr _ ih =>
    obtain ⟨k, res⟩ := r
    obtain ⟨k', b⟩ := b
    obtain ⟨rfl, hres⟩ := hr
    have happ : W ++ (k, b) :: bs = (W ++ [(k, b)]) ++ bs := by simp
    rw [happ] at hA ⊢
    have hk := hA k
    rw [histOf_prefix] at hk
    obtain ⟨h1, h2⟩ := tinv_step fname hinj ts W d k b res hI hres (aligned_left hk) time
    rw [manager_cons (fun k => some (fname k)) (some ts) d k res job time (fname k) rfl h1]
    exact ih (W ++ [(k, b)]) _ h2 hA _

theorem jobs_ts (fname : κ → List Char) (hinj : Function.Injective fname) (ts : List Name) (jobs : List (List (κ × Res V)))
    (bss : List (List (κ × List (Rec V)))) (hjobs : List.Forall₂ (List.Forall₂ (fun r b => r.1 = b.1 ∧ TsRes r.2 b.2)) jobs bss)
    (W : List (κ × List (Rec V))) (d : Disk V) (hI : TInv fname ts W d) (hA : ∀ k, Aligned ts (histOf (W ++ bss.flatten) k)) :
    ∃ D, storeJobs (fun k => some (fname k)) (some ts) d jobs = (D, none) ∧ TInv fname ts (W ++ bss.flatten) D := by
  induction hjobs generalizing W d with
  | nil => exact ⟨d, rfl, by simpa using hI⟩
  | @cons job bs jobs bss hj _ ih =>
    rw [List.flatten_cons, ← List.append_assoc] at hA ⊢
    obtain ⟨h1, h2⟩ := manager_ts fname hinj ts job bs hj W d hI (fun k => by
      have hk := hA k
      rw [histOf_prefix] at hk
      exact aligned_left hk) none
    obtain ⟨D, h3, h4⟩ := ih (W ++ bs) _ h2 hA
    refine ⟨D, ?_, h4⟩
    unfold storeJobs
    have heq : resultsManager (fun k => some (fname k)) (some ts) d job none =
        (((resultsManager (fun k => some (fname k)) (some ts) d job none).1.1, (resultsManager (fun k => some (fname k)) (some ts) d job none).1.2), none) :=
      Prod.ext rfl h1
    rw [heq]
    exact h3

/-- **C77 with time series.** The results of any number of jobs with metrics and time series, stored in an empty directory: every key has
one file, and location `i` of it reads back the coordinates, metrics, times and series of the `i`-th location of the key; what a
location does not have is missing. -/
theorem ts_results_of_jobs_partial (fname : κ → List Char) (hinj : Function.Injective fname) (ts : List Name) (jobs : List (List (κ × Res V)))
    (bss : List (List (κ × List (Rec V)))) (hjobs : List.Forall₂ (List.Forall₂ (fun r b => r.1 = b.1 ∧ TsRes r.2 b.2)) jobs bss)
    (hA : ∀ k, Aligned ts (history bss k)) :
    ∃ D, storeJobs (fun k => some (fname k)) (some ts) [] jobs = (D, none) ∧
      (∀ x, (D.lookup x).isSome ↔ ∃ e ∈ bss.flatten, x = fname e.1) ∧
      ∀ k f, D.lookup (fname k) = some f → ∀ i r, (history bss k)[i]? = some r →
        (("lon", some r.lon) ∈ readLoc f i ∧ ("lat", some r.lat) ∈ readLoc f i ∧
          (∀ d ∈ r.data, d.1 ∉ ts → ∀ v, d.2 = [v] → (varName d.1, some v) ∈ readLoc f i) ∧
          (∀ e ∈ readLoc f i, e.1 = "lon" ∨ e.1 = "lat" ∨ (∃ d ∈ r.data, d.1 ∉ ts ∧ varName d.1 = e.1) ∨ e.2 = none)) ∧
        ((∃ d ∈ r.data, d.1 ∈ ts) → ∀ t, r.times = some t → (readTs f i).1 = t.map some) ∧
        ((∀ d ∈ r.data, d.1 ∉ ts) → (readTs f i).1 = []) ∧
        (∀ d ∈ r.data, d.1 ∈ ts → (varName d.1, d.2.map some) ∈ (readTs f i).2) ∧
        (∀ e ∈ (readTs f i).2, (∃ d ∈ r.data, d.1 ∈ ts ∧ varName d.1 = e.1) ∨ ∀ v ∈ e.2, v = none) := by
  obtain ⟨D, h1, h2⟩ := jobs_ts fname hinj ts jobs bss hjobs [] [] ⟨fun k => rfl, by simp⟩ (fun k => by
    rw [List.nil_append]
    exact hA k)
  rw [List.nil_append] at h2
  refine ⟨D, h1, h2.only, ?_⟩
  intro k f hf i r hi
  have h3 := h2.file k
  unfold openFile at h3
  rw [hf] at h3
  obtain ⟨f1, h4, h5⟩ := results_read_loc_partial ts _ (hA k)
  obtain ⟨f2, h6, h7⟩ := results_read_ts_partial ts _ (hA k)
  obtain rfl : f1 = f := Except.ok.inj (h4.symm.trans h3)
  obtain rfl : f2 = f1 := Except.ok.inj (h6.symm.trans h3)
  obtain ⟨a1, a2, a3, a4, -⟩ := h5 i r hi
  exact ⟨⟨a1, a2, a3, a4⟩, h7 i r hi⟩

/-! Example: a key with two locations in one job and one in the next. -/

def exTsJobs : List (List (Unit × Res ℕ)) :=
  [[((), [(.plain "lon", .scalars [10, 11]), (.plain "lat", .scalars [50, 51]), (.plain "n", .scalars [3, 4]),
      (.plain "roll", .series [[1, 2], [5]]), (.plain "time", .series [[100, 101], [102]])])],
   [((), [(.plain "time", .series [[103]]), (.plain "lon", .scalars [12]), (.plain "lat", .scalars [52]), (.plain "n", .scalars [6]),
      (.plain "roll", .series [[7]])])]]

def exTsRecs : List (List (Unit × List (Rec ℕ))) :=
  [[((), [⟨10, 50, [(.plain "n", [3]), (.plain "roll", [1, 2])], some [100, 101]⟩, ⟨11, 51, [(.plain "n", [4]), (.plain "roll", [5])], some [102]⟩])],
   [((), [⟨12, 52, [(.plain "n", [6]), (.plain "roll", [7])], some [103]⟩])]]

theorem exTs_good : List.Forall₂ (List.Forall₂ (fun r b => r.1 = b.1 ∧ TsRes r.2 b.2)) exTsJobs exTsRecs := by
  have hlow : ∀ e : Name × Column ℕ, e ∈ exTsJobs.flatten.flatMap Prod.snd → ∃ s, e.1 = .plain s ∧ (s.toLower = "time" → s = "time") := by
    intro e he
    have h : ∀ e ∈ exTsJobs.flatten.flatMap Prod.snd, e.1 = .plain "lon" ∨ e.1 = .plain "lat" ∨ e.1 = .plain "n" ∨ e.1 = .plain "roll" ∨
        e.1 = .plain "time" := by decide +kernel
    rcases h e he with h | h | h | h | h <;> exact ⟨_, h, by decide +kernel⟩
  refine .cons (.cons ⟨rfl, ?_⟩ .nil) (.cons (.cons ⟨rfl, ?_⟩ .nil) .nil)
  · refine ⟨by decide +kernel, by decide +kernel, ⟨.series [[100, 101], [102]], by decide +kernel, ?_⟩, fun e he => hlow e (by
      simp only [exTsJobs, List.flatten_cons, List.flatten_nil, List.flatMap_append, List.flatMap_cons, List.flatMap_nil, List.append_nil, List.mem_append]
      exact .inl he), ?_⟩
    · rintro (_ | _ | i) r h
      · obtain rfl := Option.some.inj h
        exact ⟨_, rfl, rfl⟩
      · obtain rfl := Option.some.inj h
        exact ⟨_, rfl, rfl⟩
      · simp at h
    · rintro (_ | _ | i) r h
      · obtain rfl := Option.some.inj h
        exact .cons ⟨rfl, _, rfl, rfl⟩ (.cons ⟨rfl, rfl⟩ .nil)
      · obtain rfl := Option.some.inj h
        exact .cons ⟨rfl, _, rfl, rfl⟩ (.cons ⟨rfl, rfl⟩ .nil)
      · simp at h
  · refine ⟨by decide +kernel, by decide +kernel, ⟨.series [[103]], by decide +kernel, ?_⟩, fun e he => hlow e (by
      simp only [exTsJobs, List.flatten_cons, List.flatten_nil, List.flatMap_append, List.flatMap_cons, List.flatMap_nil, List.append_nil, List.mem_append]
      exact .inr he), ?_⟩
    · rintro (_ | i) r h
      · obtain rfl := Option.some.inj h
        exact ⟨_, rfl, rfl⟩
      · simp at h
    · rintro (_ | i) r h
      · obtain rfl := Option.some.inj h
        exact .cons ⟨rfl, _, rfl, rfl⟩ (.cons ⟨rfl, rfl⟩ .nil)
      · simp at h

theorem exTs_aligned : ∀ k, Aligned [.plain "roll"] (history exTsRecs k) := by
  rintro ⟨⟩
  have hH : history exTsRecs () = [⟨10, 50, [(.plain "n", [3]), (.plain "roll", [1, 2])], some [100, 101]⟩,
      ⟨11, 51, [(.plain "n", [4]), (.plain "roll", [5])], some [102]⟩, ⟨12, 52, [(.plain "n", [6]), (.plain "roll", [7])], some [103]⟩] := rfl
  constructor
  · intro r hr
    have h1 : ∀ r ∈ history exTsRecs (), (r.data.map (fun d => varName d.1)).Nodup := by decide +kernel
    have h2 : ∀ r ∈ history exTsRecs (), ∀ d ∈ r.data, varName d.1 ∉ reserved := by decide +kernel
    have h3 : ∀ r ∈ history exTsRecs (), ∀ d ∈ r.data, d.1 ∉ [Name.plain "roll"] → d.2.length = 1 := by decide +kernel
    have h4 : ∀ r ∈ history exTsRecs (), ∀ d ∈ r.data, d.1 ∈ [Name.plain "roll"] → r.times.isSome ∧ d.2.length = (r.times.getD []).length := by
      decide +kernel
    refine ⟨h1 r hr, h2 r hr, h3 r hr, ?_⟩
    intro d hd ht
    obtain ⟨h5, h6⟩ := h4 r hr d hd ht
    obtain ⟨t, ht'⟩ := Option.isSome_iff_exists.mp h5
    exact ⟨t, ht', by rw [h6, ht']; rfl⟩
  · decide +kernel
  · intro pre r post h
    rw [hH] at h
    rcases splits3 h with ⟨rfl, rfl⟩ | ⟨rfl, rfl⟩ | ⟨rfl, rfl⟩
    · exact fun _ _ _ => .inl rfl
    · decide +kernel
    · decide +kernel
  · intro pre r post h
    rw [hH] at h
    rcases splits3 h with ⟨rfl, rfl⟩ | ⟨rfl, rfl⟩ | ⟨rfl, rfl⟩
    · decide +kernel
    · decide +kernel
    · decide +kernel

example : ((storeJobs (fun _ : Unit => some "a.nc".toList) (some [.plain "roll"]) [] exTsJobs).1.lookup "a.nc".toList).map
    (fun f => (readLoc f 1, readTs f 0, readTs f 2)) =
    some ([("lon", some 11), ("lat", some 51), ("n", some 4)], ([some 100, some 101], [("roll", [some 1, some 2])]), ([some 103], [("roll", [some 7])])) := by
  decide +kernel

/-! ### What goes wrong -/

/-- Results without an entry "time" cannot be stored once `ts_vars` is given, although none of them is a time series: UnboundLocalError. -/
theorem no_time_unbound (ts : List Name) (f : File V) (lon lat : V) (lons lats : List V) (data : List (String × List V))
    (hdata : ∀ d ∈ data, d.1.toLower ≠ "time" ∧ d.1 ≠ "lon" ∧ d.1 ≠ "lat" ∧ d.2 ≠ []) :
    (writeResult (some ts) f ((.plain "lon", .scalars (lon :: lons)) :: (.plain "lat", .scalars (lat :: lats)) ::
      data.map (fun d => (.plain d.1, .scalars d.2))) none).2 = some .unboundLocal := by
  have hkeep : ∀ k : String, (k = "lon" ∨ k = "lat") → (data.map (fun d => ((Name.plain d.1, Column.scalars d.2) : Name × Column V))).filter
      (fun e => !decide (e.1 = Name.plain k)) = data.map (fun d => (Name.plain d.1, Column.scalars d.2)) := by
    intro k hk
    rw [List.filter_eq_self]
    intro e he
    obtain ⟨d, hd, rfl⟩ := List.mem_map.mp he
    obtain ⟨-, h2, h3, -⟩ := hdata d hd
    rcases hk with rfl | rfl
    · simpa using h2
    · simpa using h3
  have h1 : pop ((.plain "lon", .scalars (lon :: lons)) :: (.plain "lat", .scalars (lat :: lats)) ::
      data.map (fun d => (Name.plain d.1, Column.scalars d.2))) "lon" =
      some (.scalars (lon :: lons), (.plain "lat", .scalars (lat :: lats)) :: data.map (fun d => (Name.plain d.1, Column.scalars d.2))) := by
    unfold pop
    rw [List.filter_cons, List.filter_cons, hkeep "lon" (.inl rfl)]
    rfl
  have h2 : pop ((.plain "lat", .scalars (lat :: lats)) :: data.map (fun d => (Name.plain d.1, Column.scalars d.2))) "lat" =
      some (.scalars (lat :: lats), data.map (fun d => (Name.plain d.1, Column.scalars d.2))) := by
    unfold pop
    rw [List.filter_cons, hkeep "lat" (.inr rfl)]
    rfl
  have h3 : ∀ (res : Res V) (data : List (String × List V)), (∀ d ∈ data, d.1.toLower ≠ "time" ∧ d.1 ≠ "lon" ∧ d.1 ≠ "lat" ∧ d.2 ≠ []) →
      ∃ x, itemsOf res 0 (data.map (fun d => (Name.plain d.1, Column.scalars d.2))) none = .ok (x, none) := by
    intro res data hdata
    induction data with
    | nil => exact ⟨[], rfl⟩
    | cons d data ih =>
      obtain ⟨x, hx⟩ := ih (fun d' hd' => hdata d' (List.mem_cons_of_mem _ hd'))
      obtain ⟨a1, -, -, a4⟩ := hdata d (List.mem_cons_self ..)
      obtain ⟨s, v⟩ := d
      cases v with
      | nil => exact absurd rfl a4
      | cons v vs =>
        refine ⟨(.plain s, [v]) :: x, ?_⟩
        rw [List.map_cons]
        unfold itemsOf
        rw [if_neg a1]
        simp only [Column.item, List.getElem?_cons_zero, Option.map_some]
        rw [hx]
        rfl
  obtain ⟨x, hx⟩ := h3 (data.map (fun d => (Name.plain d.1, Column.scalars d.2))) data hdata
  unfold writeResult
  rw [h1]
  simp only
  rw [h2]
  simp only [List.zip_cons_cons, List.zipIdx_cons, List.map_cons]
  unfold tsLoop
  rw [hx]

/-- The time stamps of another key: the first key has an entry "time", the second has none and gets those of the first. -/
theorem time_of_other_key :
    ((resultsManager (fun k : Bool => some (exName k)) (some [.plain "roll"]) []
      [(true, [(.plain "lon", .scalars [10]), (.plain "lat", .scalars [50]), (.plain "roll", .series [[1, 2]]), (.plain "time", .series [[100, 101]])]),
       (false, [(.plain "lon", .scalars [10]), (.plain "lat", .scalars [50]), (.plain "roll", .series [[5, 6]])])] none).1.1.map
        (fun f => readTs f.2 0)) = [([some 100, some 101], [("roll", [some 1, some 2])]), ([some 100, some 101], [("roll", [some 5, some 6])])] := by
  decide +kernel

/-- Metrics whose name is a tuple (as those of the seasonal and other subset calculators) cannot be stored once `ts_vars` is given. -/
theorem tuple_name_raises (ts : List Name) (f : File V) (lon lat : V) (lons lats : List V) (l : List String) (v : Column V) (res : Res V)
    (time : Option (List V)) :
    (writeResult (some ts) f ((.plain "lon", .scalars (lon :: lons)) :: (.plain "lat", .scalars (lat :: lats)) :: (.tup l, v) :: res) time).2 =
      some .attributeError := by
  rfl

/-- Any spelling of "time" counts as the time stamps, but they are read from the entry "time". -/
theorem spelled_time_raises :
    (writeResult (some [.plain "roll"]) (newFile ℕ)
      [(.plain "lon", .scalars [10]), (.plain "lat", .scalars [50]), (.plain "roll", .series [[1, 2]]), (.plain "Time", .series [[100, 101]])] none).2 =
      some .keyError := by
  decide +kernel

/-- the theorems applied to the three locations above -/
example := ts_results_of_jobs_partial (fun _ : Unit => "a.nc".toList) (fun _ _ _ => rfl) [.plain "roll"] exTsJobs exTsRecs exTs_good exTs_aligned
example : (writeResult (some [.plain "roll"]) (newFile ℕ) [(.plain "lon", .scalars [10]), (.plain "lat", .scalars [50]), (.plain "n", .scalars [3])] none).2 =
    some .unboundLocal :=
  no_time_unbound [.plain "roll"] (newFile ℕ) 10 50 [] [] [("n", [3])] (by decide +kernel)

end Verif.Results
