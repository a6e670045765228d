import Mathlib.Tactic.FinCases
import Mathlib.Tactic.Ring
import Mathlib.Data.List.Perm.Basic
import Verif.Calculators.Props
import Verif.Tcol.Model

/-! C54, C56: `TripleCollocationMetrics`. -/

set_option linter.unusedSectionVars false
set_option synthInstance.maxSize 1000

namespace Verif.Calculators

variable {K : Type}

/-! ### Reports determine the result -/

theorem reports_same (fields : Dict K) (info : Info K) (s : Val K) (vals vals' : Dict K) (d d' : Dict K) (h : Reports fields info s vals d)
    (h' : Reports fields info s vals' d') (hv : ∀ e, e ∈ vals ↔ e ∈ vals') (k : Key) : d.lookup k = d'.lookup k := by
  by_cases hk : k ∈ d.map Prod.fst
  · rcases (h.keys k).mp hk with hr | hf | hm
    · simp only [reserved, List.mem_cons, List.not_mem_nil, or_false] at hr
      rcases hr with rfl | rfl | rfl | rfl
      · rw [h.gpi, h'.gpi]
      · rw [h.lon, h'.lon]
      · rw [h.lat, h'.lat]
      · rw [h.status, h'.status]
    · obtain ⟨e, he, rfl⟩ := List.mem_map.mp hf
      rw [h.metadata e he, h'.metadata e he]
    · obtain ⟨e, he, rfl⟩ := List.mem_map.mp hm
      rw [h.values e he, h'.values e ((hv e).mp he)]
  · have hk' : k ∉ d'.map Prod.fst := by
      intro hk'
      apply hk
      rw [h.keys]
      rcases (h'.keys k).mp hk' with hr | hf | hm
      · exact Or.inl hr
      · exact Or.inr (Or.inl hf)
      · obtain ⟨e, he, rfl⟩ := List.mem_map.mp hm
        exact Or.inr (Or.inr (List.mem_map.mpr ⟨e, (hv e).mpr he, rfl⟩))
    rw [(lookup_none_iff d k).mpr hk, (lookup_none_iff d' k).mpr hk']

theorem update_reports (fields : Dict K) (info : Info K) (s : Val K) (vals t d : Dict K) (h : Reports fields info s vals d)
    (hn : (t.map Prod.fst).Nodup) (hr : ∀ k ∈ t.map Prod.fst, k ∉ reserved) (hf : ∀ k ∈ fields.map Prod.fst, k ∉ t.map Prod.fst)
    (hv : ∀ k ∈ vals.map Prod.fst, k ∉ t.map Prod.fst) : Reports fields info s (vals ++ t) (update d t) := by
  have hl : ∀ k, k ∉ t.map Prod.fst → (update d t).lookup k = d.lookup k := by
    intro k hk
    rw [lookup_update, lookup_reverse t hn, (lookup_none_iff t k).mpr hk, Option.none_or]
  have hres : ∀ k ∈ reserved, k ∉ t.map Prod.fst := fun k h1 h2 => hr k h2 h1
  refine ⟨?_, ?_, ?_, ?_, ?_, ?_, ?_, ?_⟩
  · rw [hl _ (hres _ (by decide))]; exact h.gpi
  · rw [hl _ (hres _ (by decide))]; exact h.lon
  · rw [hl _ (hres _ (by decide))]; exact h.lat
  · rw [hl _ (hres _ (by decide))]; exact h.status
  · intro e he
    rw [hl _ (hf _ (List.mem_map.mpr ⟨e, he, rfl⟩))]; exact h.metadata e he
  · intro e he
    rcases List.mem_append.mp he with he | he
    · rw [hl _ (hv _ (List.mem_map.mpr ⟨e, he, rfl⟩))]; exact h.values e he
    · rw [lookup_update, lookup_reverse t hn, lookup_of_nodup t hn e he]; rfl
  · intro k
    rw [mem_keys_update, h.keys, List.map_append, List.mem_append]
    tauto
  · exact nodup_update _ _ h.nodup

/-- a value found is in the dictionary -/
theorem mem_of_lookup (k : Key) (v : Val K) (d : Dict K) (h : d.lookup k = some v) : (k, v) ∈ d := by
  induction d with
  | nil => simp at h
  | cons f d ih =>
    obtain ⟨x, w⟩ := f
    rw [List.lookup_cons] at h
    by_cases hx : k = x
    · subst hx
      rw [beq_self_eq_true] at h
      cases h
      simp
    · have : (k == x) = false := by simpa using hx
      rw [this] at h
      exact List.mem_cons_of_mem _ (ih h)

/-! ### Specification -/

/-- a metric of the reference and the two other data sets -/
def perDataset (m : String) (f : ℕ → Option K) (r a b : Name) : Dict K :=
  [(.pair m.toList r, .num (f 0)), (.pair m.toList a, .num (f 1)), (.pair m.toList b, .num (f 2))]

/-- SNR, error standard deviation and beta of the data sets `r`, `a`, `b`, numbered in this order -/
def tcValues (t : Tc K) (r a b : Name) : Dict K := perDataset "snr" t.snr r a b ++ perDataset "err_std" t.errStd r a b ++ perDataset "beta" t.beta r a b

/-- bounds of all values -/
def tcBounds (lo hi : Tc K) (r a b : Name) : Dict K :=
  perDataset "snr_ci_lower" lo.snr r a b ++ perDataset "snr_ci_upper" hi.snr r a b ++ perDataset "err_std_ci_lower" lo.errStd r a b
  ++ perDataset "err_std_ci_upper" hi.errStd r a b ++ perDataset "beta_ci_lower" lo.beta r a b ++ perDataset "beta_ci_upper" hi.beta r a b

/-- nothing known -/
def noTc : Tc K := ⟨fun _ => none, fun _ => none, fun _ => none⟩

/-- the entries for the number of rows and triple collocation -/
def tcAll (bootstrap : Bool) (n : ℕ) (t : Tc K × Tc K × Tc K) (r a b : Name) : Dict K :=
  (key "n_obs", .int n) :: (tcValues t.1 r a b ++ if bootstrap then tcBounds t.2.1 t.2.2 r a b else [])

/-- the names of the metrics -/
def tcMetricNames (bootstrap : Bool) : List Name :=
  (["snr", "err_std", "beta"] ++ if bootstrap then
    ["snr_ci_lower", "snr_ci_upper", "err_std_ci_lower", "err_std_ci_upper", "beta_ci_lower", "beta_ci_upper"] else []).map String.toList

/-! ### Proofs -/

theorem tcMetricNames_nodup (bootstrap : Bool) : (tcMetricNames bootstrap).Nodup := by revert bootstrap; decide

theorem tcAll_keys (bootstrap : Bool) (n : ℕ) (t : Tc K × Tc K × Tc K) (r a b : Name) :
    (tcAll bootstrap n t r a b).map Prod.fst = key "n_obs" :: (tcMetricNames bootstrap).flatMap (fun m => [.pair m r, .pair m a, .pair m b]) := by
  cases bootstrap <;> rfl

theorem pairs_nodup (ms : List Name) (hm : ms.Nodup) (r a b : Name) (hn : [r, a, b].Nodup) :
    (ms.flatMap (fun m => [Key.pair m r, Key.pair m a, Key.pair m b])).Nodup := by
  induction ms with
  | nil => exact List.nodup_nil
  | cons m ms ih =>
    rw [List.nodup_cons] at hm
    rw [List.flatMap_cons, List.nodup_append]
    refine ⟨?_, ih hm.2, ?_⟩
    · simp only [List.nodup_cons, List.mem_cons, List.not_mem_nil, or_false, not_or, Key.pair.injEq, true_and, List.nodup_nil, and_true,
        not_false_eq_true] at hn ⊢
      tauto
    · intro x hx y hy
      obtain ⟨m', hm', hy'⟩ := List.mem_flatMap.mp hy
      have hne : m ≠ m' := fun h => hm.1 (h ▸ hm')
      simp only [List.mem_cons, List.not_mem_nil, or_false] at hx hy'
      rcases hx with rfl | rfl | rfl <;> rcases hy' with rfl | rfl | rfl <;> simp [hne]

theorem mem_pairs_ne (ms : List Name) (r a b : Name) (s : String) (k : Key)
    (hk : k ∈ ms.flatMap (fun m => [Key.pair m r, Key.pair m a, Key.pair m b])) : k ≠ key s := by
  obtain ⟨m, _, h⟩ := List.mem_flatMap.mp hk
  simp only [List.mem_cons, List.not_mem_nil, or_false] at h
  rcases h with rfl | rfl | rfl <;> simp [key]

theorem tcAll_nodup (bootstrap : Bool) (n : ℕ) (t : Tc K × Tc K × Tc K) (r a b : Name) (hn : [r, a, b].Nodup) :
    ((tcAll bootstrap n t r a b).map Prod.fst).Nodup := by
  rw [tcAll_keys, List.nodup_cons]
  exact ⟨fun h => mem_pairs_ne _ _ _ _ "n_obs" _ h rfl, pairs_nodup _ (tcMetricNames_nodup bootstrap) r a b hn⟩

theorem tcAll_fresh (bootstrap : Bool) (n : ℕ) (t : Tc K × Tc K × Tc K) (r a b : Name) :
    ∀ k ∈ (tcAll bootstrap n t r a b).map Prod.fst, k ∉ reserved := by
  rw [tcAll_keys]
  intro k hk
  rcases List.mem_cons.mp hk with rfl | hk
  · decide
  · have := fun s => mem_pairs_ne _ _ _ _ s k hk
    simp only [reserved, List.mem_cons, List.not_mem_nil, or_false, not_or]
    exact ⟨this "gpi", this "lon", this "lat", this "status"⟩

theorem tcTemplate_eq (mt : Option (Dict K)) : tcTemplate mt = .ok (update (metadataTemplate mt) [(key "n_obs", .int 0)]) := by
  unfold tcTemplate
  have : (metricTemplate ["n_obs"] : Except Err (Dict K)) = .ok [(key "n_obs", .int 0)] := by
    unfold metricTemplate
    rw [if_pos (by decide)]
    rfl
  rw [this]
  rfl

/-- the template for three names, metric by metric -/
theorem tcNames_keys (bootstrap : Bool) (r a b : Name) (k : Key) :
    k ∈ (tcNamesTemplate bootstrap [r, a, b] : Dict K).map Prod.fst ↔ k ∈ (tcMetricNames bootstrap).flatMap (fun m => [.pair m r, .pair m a, .pair m b]) := by
  unfold tcNamesTemplate
  cases bootstrap with
  | false =>
    simp only [Bool.false_eq_true, if_false]
    rw [mem_keys_update]
    simp [tcMetricTemplate, tcMetricNames]
  | true =>
    simp only [if_true]
    rw [mem_keys_update, mem_keys_update]
    have e1 : ("snr" ++ "_ci_lower" : String).toList = "snr_ci_lower".toList := rfl
    have e2 : ("snr" ++ "_ci_upper" : String).toList = "snr_ci_upper".toList := rfl
    have e3 : ("err_std" ++ "_ci_lower" : String).toList = "err_std_ci_lower".toList := rfl
    have e4 : ("err_std" ++ "_ci_upper" : String).toList = "err_std_ci_upper".toList := rfl
    have e5 : ("beta" ++ "_ci_lower" : String).toList = "beta_ci_lower".toList := rfl
    have e6 : ("beta" ++ "_ci_upper" : String).toList = "beta_ci_upper".toList := rfl
    simp only [tcMetricTemplate, tcMetricNames, List.flatMap_cons, List.flatMap_nil, List.map_cons, List.map_nil, List.cons_append, List.nil_append,
      e1, e2, e3, e4, e5, e6, List.mem_cons, List.not_mem_nil, or_false, false_or, List.append_nil, if_true]
    constructor <;>
    · intro h
      casesm* _ ∨ _ <;> simp [*]

theorem tcNames_lookup (bootstrap : Bool) (r a b : Name) (k : Key) (hk : k ∈ (tcNamesTemplate bootstrap [r, a, b] : Dict K).map Prod.fst) :
    (tcNamesTemplate bootstrap [r, a, b] : Dict K).lookup k = some (.num none) := by
  have hall : ∀ (d e : Dict K), (∀ x ∈ d, x.2 = .num none) → (∀ x ∈ e, x.2 = .num none) → ∀ x ∈ update d e, x.2 = .num none := by
    intro d e hd he
    induction e generalizing d with
    | nil => exact hd
    | cons f e ih =>
      unfold update at ih ⊢
      rw [List.foldl_cons]
      apply ih
      · intro x hx
        unfold put at hx
        split at hx
        · obtain ⟨y, hy, rfl⟩ := List.mem_map.mp hx
          split
          · exact he f (by simp)
          · exact hd y hy
        · rcases List.mem_append.mp hx with hx | hx
          · exact hd x hx
          · rw [List.mem_singleton] at hx; subst hx; exact he f (by simp)
      · exact fun x hx => he x (by simp [hx])
  have h1 : ∀ x ∈ (tcMetricTemplate [r, a, b] : Dict K), x.2 = .num none := by
    intro x hx
    simp only [tcMetricTemplate, List.mem_flatMap, List.mem_map] at hx
    obtain ⟨_, _, _, _, rfl⟩ := hx
    rfl
  have h2 : ∀ x ∈ (tcNamesTemplate bootstrap [r, a, b] : Dict K), x.2 = .num none := by
    unfold tcNamesTemplate
    cases bootstrap with
    | false => exact hall _ _ (by simp) h1
    | true =>
      refine hall _ _ (hall _ _ (by simp) h1) ?_
      intro x hx
      simp only [List.mem_flatMap, List.mem_cons, List.not_mem_nil, or_false] at hx
      obtain ⟨_, _, _, _, rfl | rfl⟩ := hx <;> rfl
  obtain ⟨v, hv⟩ := Option.isSome_iff_exists.mp ((lookup_isSome_iff _ k).mpr hk)
  rw [hv]
  exact congrArg some (h2 _ (mem_of_lookup k v _ hv))

/-- After location, number of rows and template of the triple: all values missing. -/
theorem tc_prepared (bootstrap : Bool) (mt : Option (Dict K)) (info : Info K) (n : ℕ) (r a b : Name) (hn : [r, a, b].Nodup)
    (hf : FieldsOk (mt.getD []) (key "n_obs" :: (tcMetricNames bootstrap).flatMap (fun m => [.pair m r, .pair m a, .pair m b])))
    (hp : Provides info (mt.getD [])) :
    ∃ d0 d1, metadataCalc (update (metadataTemplate mt) [(key "n_obs", .int 0)]) mt info = .ok d0 ∧ set d0 (key "n_obs", .int n) = .ok d1 ∧
      Reports (mt.getD []) info (.int uncaught) (tcAll bootstrap n (noTc, noTc, noTc) r a b) (update d1 (tcNamesTemplate bootstrap [r, a, b])) := by
  have hfr : ∀ k ∈ ([(key "n_obs", .int 0)] : Dict K).map Prod.fst, k ∉ reserved := by
    show ∀ k ∈ [key "n_obs"], k ∉ reserved
    decide
  have hf1 : FieldsOk (mt.getD []) (([(key "n_obs", .int 0)] : Dict K).map Prod.fst) :=
    ⟨hf.nodup, fun k hk => ⟨(hf.fresh k hk).1, fun h => (hf.fresh k hk).2 (by
      simp only [List.map_cons, List.map_nil, List.mem_singleton] at h
      rw [h]; simp)⟩⟩
  obtain ⟨d0, m1, m2⟩ := metadataCalc_ok mt [(key "n_obs", .int 0)] (by simp) hfr hf1 info hp
  obtain ⟨d1, e1, e2⟩ := setAll_reports _ info _ _ hfr hf1 d0 m2 (ws := [(key "n_obs", .int n)]) (s' := .int uncaught) (vals := [(key "n_obs", .int n)])
    (by intro w hw; right; rw [List.mem_singleton] at hw; subst hw; simp) rfl rfl
    (by intro e he; rw [List.mem_singleton] at he; subst he; rfl)
  rw [setAll_one] at e1
  refine ⟨d0, d1, m1, e1, ?_⟩
  set t : Dict K := tcNamesTemplate bootstrap [r, a, b] with ht
  have hkt : ∀ k, k ∈ t.map Prod.fst ↔ k ∈ (tcMetricNames bootstrap).flatMap (fun m => [.pair m r, .pair m a, .pair m b]) :=
    tcNames_keys bootstrap r a b
  have hnt : (t.map Prod.fst).Nodup := by
    rw [ht]
    unfold tcNamesTemplate
    split
    · exact nodup_update _ _ (nodup_update _ _ List.nodup_nil)
    · exact nodup_update _ _ List.nodup_nil
  have hu := update_reports _ info _ [(key "n_obs", .int n)] t d1 e2 hnt
    (by
      intro k hk
      have := fun s => mem_pairs_ne _ _ _ _ s k ((hkt k).mp hk)
      simp only [reserved, List.mem_cons, List.not_mem_nil, or_false, not_or]
      exact ⟨this "gpi", this "lon", this "lat", this "status"⟩)
    (by
      intro k hk hm
      exact (hf.fresh k hk).2 (List.mem_cons_of_mem _ ((hkt k).mp hm)))
    (by
      intro k hk hm
      simp only [List.map_cons, List.map_nil, List.mem_singleton] at hk
      exact mem_pairs_ne _ _ _ _ "n_obs" k ((hkt k).mp hm) hk)
  refine ⟨hu.gpi, hu.lon, hu.lat, hu.status, hu.metadata, ?_, ?_, hu.nodup⟩
  · intro e he
    have hke : e.1 ∈ key "n_obs" :: (tcMetricNames bootstrap).flatMap (fun m => [.pair m r, .pair m a, .pair m b]) := by
      rw [← tcAll_keys bootstrap n (noTc, noTc, noTc) r a b]
      exact List.mem_map.mpr ⟨e, he, rfl⟩
    rcases List.mem_cons.mp he with rfl | he'
    · exact hu.values _ (by simp)
    · have hin : e.1 ∈ (tcMetricNames bootstrap).flatMap (fun m => [.pair m r, .pair m a, .pair m b]) := by
        rcases List.mem_cons.mp hke with h | h
        · exfalso
          have hnd := tcAll_nodup bootstrap n ((noTc, noTc, noTc) : Tc K × Tc K × Tc K) r a b hn
          unfold tcAll at hnd
          rw [List.map_cons, List.nodup_cons] at hnd
          exact hnd.1 (h ▸ List.mem_map.mpr ⟨e, he', rfl⟩)
        · exact h
      have h1 := tcNames_lookup (K := K) bootstrap r a b e.1 ((hkt _).mpr hin)
      have h2 : e.2 = .num none := by
        cases bootstrap
        · simp only [tcValues, tcBounds, perDataset, noTc, List.cons_append, List.nil_append, List.mem_cons, List.not_mem_nil, or_false,
            Bool.false_eq_true, if_false, List.append_nil] at he'
          rcases he' with rfl | rfl | rfl | rfl | rfl | rfl | rfl | rfl | rfl <;> rfl
        · have : ∀ x ∈ (tcValues noTc r a b ++ tcBounds noTc noTc r a b : Dict K), x.2 = .num none := by
            intro x hx
            simp only [tcValues, tcBounds, perDataset, noTc, List.mem_append, List.mem_cons, List.not_mem_nil, or_false] at hx
            rcases hx with ((h | h) | h) | (((((h | h) | h) | h) | h) | h) <;> rcases h with rfl | rfl | rfl <;> rfl
          exact this e he'
      rw [lookup_update, lookup_reverse t hnt, h1, h2]
      rfl
  · intro k
    rw [hu.keys, tcAll_keys]
    simp only [List.map_append, List.map_cons, List.map_nil, List.mem_append, List.mem_cons, List.not_mem_nil, or_false, hkt]

theorem removeName_ok (l : List Name) (r a b : Name) (hr : r ∈ l) (he : l.erase r = [a, b]) : removeName l r = .ok [a, b] := by
  unfold removeName
  rw [if_pos hr, he]

/-- **C54.** `TripleCollocationMetrics` with fewer rows than `min_obs`: INSUFFICIENT_DATA, the number of rows, all metrics missing. -/
theorem tc_insufficient (F : TcFuncs K) (bootstrap : Bool) (minObs : ℕ) (mt : Option (Dict K)) (data : Frame K) (info : Info K)
    (r a b : Name) (hr : r ∈ data.cols) (he : data.cols.erase r = [a, b]) (hn : [r, a, b].Nodup)
    (hf : FieldsOk (mt.getD []) (key "n_obs" :: (tcMetricNames bootstrap).flatMap (fun m => [.pair m r, .pair m a, .pair m b])))
    (hp : Provides info (mt.getD [])) (hlen : data.rows.length < minObs) :
    ∃ T d, tcTemplate mt = .ok T ∧ tcCalc F r bootstrap minObs T mt data info = .ok d ∧
      Reports (mt.getD []) info (.int 1) (tcAll bootstrap data.rows.length (noTc, noTc, noTc) r a b) d := by
  obtain ⟨d0, d1, h1, h2, h3⟩ := tc_prepared bootstrap mt info data.rows.length r a b hn hf hp
  have hfr := tcAll_fresh bootstrap data.rows.length ((noTc, noTc, noTc) : Tc K × Tc K × Tc K) r a b
  have hnd := tcAll_nodup bootstrap data.rows.length ((noTc, noTc, noTc) : Tc K × Tc K × Tc K) r a b hn
  obtain ⟨d, e1, e2⟩ := setAll_reports _ info _ _ hfr (by rw [tcAll_keys]; exact hf) _ h3
    (ws := [(key "status", .int insufficientData)]) (s' := .int 1) (vals := tcAll bootstrap data.rows.length (noTc, noTc, noTc) r a b)
    (by intro w hw; left; rw [List.mem_singleton] at hw; rw [hw]) rfl rfl
    (by
      intro e he
      have : List.lookup e.1 [(key "status", Val.int insufficientData)].reverse = (none : Option (Val K)) := by
        rw [lookup_none_iff]
        intro h
        apply hfr e.1 (List.mem_map.mpr ⟨e, he, rfl⟩)
        simp only [List.reverse_singleton, List.map_cons, List.map_nil, List.mem_singleton] at h
        rw [h]; decide
      rw [this, Option.none_or]
      exact lookup_of_nodup _ hnd e he)
  refine ⟨_, d, tcTemplate_eq mt, ?_, e2⟩
  unfold tcCalc
  rw [h1]
  show (set d0 _).bind _ = _
  rw [h2]
  show (removeName data.cols r).bind _ = _
  rw [removeName_ok data.cols r a b hr he]
  show (if _ then _ else _) = _
  rw [if_pos hlen, ← setAll_one]
  exact e1

/-- the arrays of the reference and the two other data sets -/
def arrays3 (data : Frame K) (r a b : Name) : List (List (Option K)) :=
  [r, a, b].map (fun n => data.rows.map (fun row => entry row (data.cols.idxOf n)))

theorem arrays_ok (data : Frame K) (r a b : Name) (hr : r ∈ data.cols) (he : data.cols.erase r = [a, b]) :
    [r, a, b].mapM (column data) = .ok (arrays3 data r a b) := by
  have ha : a ∈ data.cols := List.mem_of_mem_erase (he ▸ (by simp : a ∈ [a, b]))
  have hb : b ∈ data.cols := List.mem_of_mem_erase (he ▸ (by simp : b ∈ [a, b]))
  simp only [List.mapM_cons, List.mapM_nil, column_ok data _ hr, column_ok data _ ha, column_ok data _ hb]
  rfl

theorem tc_calc_eq (F : TcFuncs K) (bootstrap : Bool) (minObs : ℕ) (mt : Option (Dict K)) (data : Frame K) (info : Info K)
    (r a b : Name) (hr : r ∈ data.cols) (he : data.cols.erase r = [a, b]) (hlen : minObs ≤ data.rows.length) (d0 d1 : Dict K)
    (h1 : metadataCalc (update (metadataTemplate mt) [(key "n_obs", .int 0)]) mt info = .ok d0)
    (h2 : set d0 (key "n_obs", .int data.rows.length) = .ok d1) :
    tcCalc F r bootstrap minObs (update (metadataTemplate mt) [(key "n_obs", .int 0)]) mt data info =
      tcFill F bootstrap [r, a, b] (arrays3 data r a b) (update d1 (tcNamesTemplate bootstrap [r, a, b])) := by
  unfold tcCalc
  rw [h1]
  show (set d0 _).bind _ = _
  rw [h2]
  show (removeName data.cols r).bind _ = _
  rw [removeName_ok data.cols r a b hr he]
  show (if _ then _ else _) = _
  rw [if_neg (by omega)]
  show ([r, a, b].mapM (column data)).bind _ = _
  rw [arrays_ok data r a b hr he]
  rfl

/-- the assignments are the values of the specification, up to order -/
theorem tc_writes (bootstrap : Bool) (n : ℕ) (t : Tc K × Tc K × Tc K) (r a b : Name) (x : Key × Val K) :
    x ∈ tcAll bootstrap n t r a b ↔ x = (key "n_obs", .int n) ∨
      x ∈ (if bootstrap then tcBootWrites [r, a, b] t else tcWrites [r, a, b] t.1) := by
  have e1 : ("snr" ++ "_ci_lower" : String).toList = "snr_ci_lower".toList := rfl
  have e2 : ("snr" ++ "_ci_upper" : String).toList = "snr_ci_upper".toList := rfl
  have e3 : ("err_std" ++ "_ci_lower" : String).toList = "err_std_ci_lower".toList := rfl
  have e4 : ("err_std" ++ "_ci_upper" : String).toList = "err_std_ci_upper".toList := rfl
  have e5 : ("beta" ++ "_ci_lower" : String).toList = "beta_ci_lower".toList := rfl
  have e6 : ("beta" ++ "_ci_upper" : String).toList = "beta_ci_upper".toList := rfl
  cases bootstrap with
  | false =>
    simp only [tcAll, tcValues, perDataset, tcWrites, Tc.metric, Bool.false_eq_true, if_false, List.zipIdx_cons, List.zipIdx_nil, List.flatMap_cons,
      List.flatMap_nil, List.map_cons, List.map_nil, List.cons_append, List.nil_append, List.append_nil, List.mem_cons, List.not_mem_nil, or_false]
    constructor
    · rintro (h | h | h | h | h | h | h | h | h | h) <;> simp [h]
    · rintro (h | h | h | h | h | h | h | h | h | h) <;> simp [h]
  | true =>
    simp only [tcAll, tcValues, tcBounds, perDataset, tcBootWrites, Tc.metric, if_true, List.zipIdx_cons, List.zipIdx_nil, List.flatMap_cons,
      List.flatMap_nil, List.map_cons, List.map_nil, List.cons_append, List.nil_append, List.append_nil, List.mem_cons, List.not_mem_nil, or_false,
      List.zip_cons_cons, List.zip_nil_right, e1, e2, e3, e4, e5, e6]
    constructor <;>
    · intro h
      casesm* _ ∨ _ <;> simp [*]

/-- **C56.** With enough rows, every metric is stored with the name of the data set it belongs to: entry `(metric, name)` is the value
`tcol_metrics` gives for this data set when called with the reference first. -/
theorem tc_result (F : TcFuncs K) (bootstrap : Bool) (minObs : ℕ) (mt : Option (Dict K)) (data : Frame K) (info : Info K)
    (r a b : Name) (hr : r ∈ data.cols) (he : data.cols.erase r = [a, b]) (hn : [r, a, b].Nodup)
    (hf : FieldsOk (mt.getD []) (key "n_obs" :: (tcMetricNames bootstrap).flatMap (fun m => [.pair m r, .pair m a, .pair m b])))
    (hp : Provides info (mt.getD [])) (hlen : minObs ≤ data.rows.length) (t : Tc K × Tc K × Tc K)
    (h0 : bootstrap = false → F.tcol (arrays3 data r a b) = .ok t.1) (hb : bootstrap = true → F.boot (arrays3 data r a b) = .ok t) :
    ∃ T d, tcTemplate mt = .ok T ∧ tcCalc F r bootstrap minObs T mt data info = .ok d ∧
      Reports (mt.getD []) info (.int 0) (tcAll bootstrap data.rows.length t r a b) d := by
  obtain ⟨d0, d1, h1, h2, h3⟩ := tc_prepared bootstrap mt info data.rows.length r a b hn hf hp
  have hfr := tcAll_fresh bootstrap data.rows.length ((noTc, noTc, noTc) : Tc K × Tc K × Tc K) r a b
  have hnd0 := tcAll_nodup bootstrap data.rows.length ((noTc, noTc, noTc) : Tc K × Tc K × Tc K) r a b hn
  set W := (if bootstrap then tcBootWrites [r, a, b] t else tcWrites [r, a, b] t.1) with hW
  have hw := tc_writes bootstrap data.rows.length t r a b
  have hfill : tcFill F bootstrap [r, a, b] (arrays3 data r a b) (update d1 (tcNamesTemplate bootstrap [r, a, b])) =
      setAll (update d1 (tcNamesTemplate bootstrap [r, a, b])) (W ++ [(key "status", .int ok)]) := by
    unfold tcFill
    cases bootstrap with
    | false => simp only [Bool.false_eq_true, if_false, h0 rfl, Except.map]; rfl
    | true => simp only [if_true, hb rfl, Except.map]; rfl
  have hmem : ∀ e ∈ tcAll bootstrap data.rows.length t r a b, e ∈ W ∨ e = (key "n_obs", .int data.rows.length) := fun e he => ((hw e).mp he).symm
  have hall := tcAll_nodup bootstrap data.rows.length t r a b hn
  have hWk : ∀ w ∈ W, w.1 ∈ (tcMetricNames bootstrap).flatMap (fun m => [.pair m r, .pair m a, .pair m b]) := by
    intro w hw'
    rw [hW] at hw'
    cases bootstrap with
    | false =>
      simp only [tcWrites, Tc.metric, Bool.false_eq_true, if_false, List.zipIdx_cons, List.zipIdx_nil, List.flatMap_cons,
        List.flatMap_nil, List.map_cons, List.map_nil, List.cons_append, List.nil_append, List.append_nil, List.mem_cons, List.not_mem_nil,
        or_false] at hw'
      rcases hw' with rfl | rfl | rfl | rfl | rfl | rfl | rfl | rfl | rfl <;> simp [tcMetricNames]
    | true =>
      have h4 : w.1 ∈ (tcAll true data.rows.length t r a b).map Prod.fst := List.mem_map.mpr ⟨w, (hw w).mpr (Or.inr hw'), rfl⟩
      rw [tcAll_keys] at h4
      rcases List.mem_cons.mp h4 with h5 | h5
      · exfalso
        simp only [if_true, tcBootWrites, List.mem_flatMap, List.mem_cons, List.not_mem_nil, or_false] at hw'
        obtain ⟨_, _, _, _, rfl | rfl | rfl⟩ := hw' <;> simp [key] at h5
      · exact h5
  have hlookW : ∀ e ∈ W, (W ++ [(key "status", Val.int ok)]).reverse.lookup e.1 = some e.2 := by
    intro e he'
    rw [List.reverse_append, List.reverse_singleton, List.singleton_append, List.lookup_cons]
    have hne : (e.1 == key "status") = false := by simpa using mem_pairs_ne _ _ _ _ "status" _ (hWk e he')
    rw [hne]
    have hex : (W.reverse.lookup e.1).isSome := (lookup_isSome_iff _ _).mpr (List.mem_map.mpr ⟨e, by simpa using he', rfl⟩)
    obtain ⟨v, hv⟩ := Option.isSome_iff_exists.mp hex
    have hvm : (e.1, v) ∈ W := by
      simpa using mem_of_lookup e.1 v _ hv
    have k1 := lookup_of_nodup _ hall e ((hw e).mpr (Or.inr he'))
    have k2 := lookup_of_nodup _ hall (e.1, v) ((hw _).mpr (Or.inr hvm))
    rw [hv]
    rw [k1] at k2
    exact k2.symm
  obtain ⟨d, e1, e2⟩ := setAll_reports _ info _ _ hfr (by rw [tcAll_keys]; exact hf) _ h3
    (ws := W ++ [(key "status", .int ok)]) (s' := .int 0) (vals := tcAll bootstrap data.rows.length t r a b)
    (by
      intro w hw'
      rcases List.mem_append.mp hw' with h | h
      · right
        rw [tcAll_keys]
        exact List.mem_cons_of_mem _ (hWk w h)
      · left; rw [List.mem_singleton] at h; rw [h])
    (by rw [List.reverse_append]; rfl)
    (by rw [tcAll_keys, tcAll_keys])
    (by
      intro e he'
      rcases hmem e he' with h | h
      · rw [hlookW e h]; rfl
      · subst h
        have : (W ++ [(key "status", Val.int ok)]).reverse.lookup (key "n_obs") = none := by
          rw [lookup_none_iff, List.map_reverse, List.mem_reverse, List.map_append, List.mem_append]
          rintro (h | h)
          · obtain ⟨w, hw', hwk⟩ := List.mem_map.mp h
            exact mem_pairs_ne _ _ _ _ "n_obs" _ (hWk w hw') hwk
          · exact absurd h (by simp [key])
        rw [this, Option.none_or]
        exact lookup_of_nodup _ hnd0 _ (by simp [tcAll]))
  refine ⟨_, d, tcTemplate_eq mt, ?_, e2⟩
  rw [tc_calc_eq F bootstrap minObs mt data info r a b hr he hlen d0 d1 h1 h2, hfill]
  exact e1

/-- **C54.** If the calculation raises a ValueError (e.g. not enough rows for the bootstrap), the metrics are missing and the status says so; but
the status is then a bare number, not an array as in all other cases. -/
theorem tc_failed_partial (F : TcFuncs K) (bootstrap : Bool) (minObs : ℕ) (mt : Option (Dict K)) (data : Frame K) (info : Info K)
    (r a b : Name) (hr : r ∈ data.cols) (he : data.cols.erase r = [a, b]) (hn : [r, a, b].Nodup)
    (hf : FieldsOk (mt.getD []) (key "n_obs" :: (tcMetricNames bootstrap).flatMap (fun m => [.pair m r, .pair m a, .pair m b])))
    (hp : Provides info (mt.getD [])) (hlen : minObs ≤ data.rows.length)
    (h0 : bootstrap = false → F.tcol (arrays3 data r a b) = .error .valueError)
    (hb : bootstrap = true → F.boot (arrays3 data r a b) = .error .valueError) :
    ∃ T d, tcTemplate mt = .ok T ∧ tcCalc F r bootstrap minObs T mt data info = .ok d ∧
      Reports (mt.getD []) info (.bare 2) (tcAll bootstrap data.rows.length (noTc, noTc, noTc) r a b) d := by
  obtain ⟨d0, d1, h1, h2, h3⟩ := tc_prepared bootstrap mt info data.rows.length r a b hn hf hp
  have hfr := tcAll_fresh bootstrap data.rows.length ((noTc, noTc, noTc) : Tc K × Tc K × Tc K) r a b
  have hnd := tcAll_nodup bootstrap data.rows.length ((noTc, noTc, noTc) : Tc K × Tc K × Tc K) r a b hn
  obtain ⟨d, e1, e2⟩ := setAll_reports _ info _ _ hfr (by rw [tcAll_keys]; exact hf) _ h3
    (ws := [(key "status", .bare metricsFailed)]) (s' := .bare 2) (vals := tcAll bootstrap data.rows.length (noTc, noTc, noTc) r a b)
    (by intro w hw; left; rw [List.mem_singleton] at hw; rw [hw]) rfl rfl
    (by
      intro e he
      have : List.lookup e.1 [(key "status", Val.bare metricsFailed)].reverse = (none : Option (Val K)) := by
        rw [lookup_none_iff]
        intro h
        apply hfr e.1 (List.mem_map.mpr ⟨e, he, rfl⟩)
        simp only [List.reverse_singleton, List.map_cons, List.map_nil, List.mem_singleton] at h
        rw [h]; decide
      rw [this, Option.none_or]
      exact lookup_of_nodup _ hnd e he)
  refine ⟨_, d, tcTemplate_eq mt, ?_, e2⟩
  rw [tc_calc_eq F bootstrap minObs mt data info r a b hr he hlen d0 d1 h1 h2]
  rw [setAll_one, set_ok _ _ (by rw [h3.keys]; left; show key "status" ∈ reserved; decide)] at e1
  rw [← e1]
  unfold tcFill
  cases bootstrap with
  | false => simp only [Bool.false_eq_true, if_false, h0 rfl, Except.map]
  | true => simp only [if_true, hb rfl, Except.map]

/-- **C56.** A frame without the reference column is refused. -/
theorem tc_no_reference (F : TcFuncs K) (bootstrap : Bool) (minObs : ℕ) (mt : Option (Dict K)) (data : Frame K) (info : Info K) (r : Name)
    (hr : r ∉ data.cols) (hf : FieldsOk (mt.getD []) [key "n_obs"]) (hp : Provides info (mt.getD [])) :
    ∃ T, tcTemplate mt = .ok T ∧ tcCalc F r bootstrap minObs T mt data info = .error .valueError := by
  obtain ⟨d0, m1, m2⟩ := metadataCalc_ok mt [(key "n_obs", .int 0)] (by simp) (by show ∀ k ∈ [key "n_obs"], k ∉ reserved; decide) hf info hp
  refine ⟨_, tcTemplate_eq mt, ?_⟩
  unfold tcCalc
  rw [m1]
  show (set d0 _).bind _ = _
  rw [set_ok d0 _ (by rw [m2.keys]; right; right; simp)]
  show (removeName data.cols r).bind _ = _
  unfold removeName
  rw [if_neg hr]
  rfl

/-- the triple with the second and third data set exchanged -/
def Tc.swap (t : Tc K) : Tc K :=
  let σ : ℕ → ℕ := fun i => if i = 1 then 2 else if i = 2 then 1 else i
  ⟨fun i => t.snr (σ i), fun i => t.errStd (σ i), fun i => t.beta (σ i)⟩

/-- **C56.** The result does not depend on the order of the columns, if the triple collocation itself treats the two other data sets alike. -/
theorem tc_column_order (F : TcFuncs K) (minObs : ℕ) (mt : Option (Dict K)) (data data' : Frame K) (info : Info K)
    (r a b : Name) (hr : r ∈ data.cols) (he : data.cols.erase r = [a, b]) (hn : [r, a, b].Nodup)
    (hperm : data'.cols.Perm data.cols) (hrows : data'.rows.length = data.rows.length)
    (hcol : ∀ n ∈ data.cols, data'.rows.map (fun row => entry row (data'.cols.idxOf n)) = data.rows.map (fun row => entry row (data.cols.idxOf n)))
    (hf : FieldsOk (mt.getD []) (key "n_obs" :: (tcMetricNames false).flatMap (fun m => [.pair m r, .pair m a, .pair m b])))
    (hp : Provides info (mt.getD [])) (hlen : minObs ≤ data.rows.length) (t : Tc K)
    (h0 : F.tcol (arrays3 data r a b) = .ok t) (hsym : ∀ x y z t, F.tcol [x, y, z] = .ok t → F.tcol [x, z, y] = .ok t.swap) :
    ∃ T d d', tcTemplate mt = .ok T ∧ tcCalc F r false minObs T mt data info = .ok d ∧ tcCalc F r false minObs T mt data' info = .ok d' ∧
      ∀ k, d.lookup k = d'.lookup k := by
  obtain ⟨T, d, t1, t2, t3⟩ := tc_result F false minObs mt data info r a b hr he hn hf hp hlen (t, noTc, noTc) (fun _ => h0) (by simp)
  have ha : a ∈ data.cols := List.mem_of_mem_erase (he ▸ (by simp : a ∈ [a, b]))
  have hb : b ∈ data.cols := List.mem_of_mem_erase (he ▸ (by simp : b ∈ [a, b]))
  have hr' : r ∈ data'.cols := hperm.mem_iff.mpr hr
  have hpe : (data'.cols.erase r).Perm [a, b] := he ▸ hperm.erase r
  have harr : ∀ x y, x ∈ data.cols → y ∈ data.cols → arrays3 data' r x y = arrays3 data r x y := by
    intro x y hx hy
    unfold arrays3
    simp only [List.map_cons, List.map_nil]
    rw [hcol r hr, hcol x hx, hcol y hy]
  have hcases : data'.cols.erase r = [a, b] ∨ data'.cols.erase r = [b, a] := by
    match h : data'.cols.erase r with
    | [] => rw [h] at hpe; exact absurd hpe.length_eq (by simp)
    | [x] => rw [h] at hpe; exact absurd hpe.length_eq (by simp)
    | x :: y :: z :: w => rw [h] at hpe; exact absurd hpe.length_eq (by simp)
    | [x, y] =>
      rw [h] at hpe
      have hx : x ∈ [a, b] := hpe.mem_iff.mp (by simp)
      have hy : y ∈ [a, b] := hpe.mem_iff.mp (by simp)
      have hxy : x ≠ y := by
        have : [x, y].Nodup := hpe.nodup_iff.mpr (List.nodup_cons.mp hn).2
        intro h
        simp [h] at this
      simp only [List.mem_cons, List.not_mem_nil, or_false] at hx hy
      rcases hx with rfl | rfl <;> rcases hy with rfl | rfl
      · exact absurd rfl hxy
      · left; rfl
      · right; rfl
      · exact absurd rfl hxy
  rcases hcases with h | h
  · obtain ⟨T', d', u1, u2, u3⟩ := tc_result F false minObs mt data' info r a b hr' h hn hf hp (by omega) (t, noTc, noTc)
      (fun _ => by rw [harr a b ha hb]; exact h0) (by simp)
    rw [t1] at u1
    cases u1
    refine ⟨T, d, d', t1, t2, u2, reports_same _ info _ _ _ d d' t3 u3 ?_⟩
    intro e; rw [hrows]
  · have hn' : [r, b, a].Nodup := by
      simp only [List.nodup_cons, List.mem_cons, List.not_mem_nil, or_false, not_or, List.nodup_nil, and_true, not_false_eq_true] at hn ⊢
      tauto
    obtain ⟨T', d', u1, u2, u3⟩ := tc_result F false minObs mt data' info r b a hr' h hn'
      ⟨hf.nodup, fun k hk => ⟨(hf.fresh k hk).1, fun hm => (hf.fresh k hk).2 (by
        simp only [tcMetricNames, List.mem_cons, List.mem_flatMap, List.not_mem_nil, or_false] at hm ⊢
        rcases hm with h | ⟨m, h1, h2⟩
        · exact Or.inl h
        · exact Or.inr ⟨m, h1, by tauto⟩)⟩⟩ hp (by omega) (t.swap, noTc, noTc)
      (fun _ => by rw [harr b a hb ha]; exact hsym _ _ _ _ h0) (by simp)
    rw [t1] at u1
    cases u1
    refine ⟨T, d, d', t1, t2, u2, reports_same _ info _ _ _ d d' t3 u3 ?_⟩
    intro e
    rw [hrows]
    simp only [tcAll, tcValues, perDataset, Tc.swap, List.cons_append, List.nil_append, List.mem_cons, List.not_mem_nil, or_false, Bool.false_eq_true,
      if_false, List.append_nil]
    constructor
    · rintro (h | h | h | h | h | h | h | h | h | h) <;> simp [h]
    · rintro (h | h | h | h | h | h | h | h | h | h) <;> simp [h]

/-- exchange of the second and third data set -/
def exchange (i : Fin 3) : Fin 3 := if i = 1 then 2 else if i = 2 then 1 else i

/-- **C56.** `tcol_metrics` treats the two data sets which are not the reference alike: exchanging them exchanges their results. -/
theorem tcol_exchange (rows : List Tcol.Row) (i : Fin 3) :
    (Tcol.tcolMetrics (rows.map (fun r j => r (exchange j))) 0).snr i = (Tcol.tcolMetrics rows 0).snr (exchange i) ∧
    (Tcol.tcolMetrics (rows.map (fun r j => r (exchange j))) 0).errStd i = (Tcol.tcolMetrics rows 0).errStd (exchange i) ∧
    (Tcol.tcolMetrics (rows.map (fun r j => r (exchange j))) 0).beta i = (Tcol.tcolMetrics rows 0).beta (exchange i) := by
  have hcov : Tcol.npCov (rows.map (fun r j => r (exchange j))) = fun i j => Tcol.npCov rows (exchange i) (exchange j) := by
    funext i j
    simp only [Tcol.npCov, Tcol.avg, List.map_map, List.length_map, Function.comp_def]
  have hsym : ∀ i j, Tcol.npCov rows i j = Tcol.npCov rows j i := by
    intro i j
    unfold Tcol.npCov
    congr 2
    apply List.map_congr_left
    intro r _
    ring
  unfold Tcol.tcolMetrics
  rw [hcov]
  generalize Tcol.npCov rows = cov at hsym
  have o1 : Tcol.otherInd 0 1 = 2 := by decide
  have o2 : Tcol.otherInd 0 2 = 1 := by decide
  have e0 : exchange 0 = 0 := by decide
  have e1 : exchange 1 = 2 := by decide
  have e2 : exchange 2 = 1 := by decide
  have a1 : (1 + 1 : Fin 3) = 2 := by decide
  have a2 : (1 + 2 : Fin 3) = 0 := by decide
  have a3 : (2 + 1 : Fin 3) = 0 := by decide
  have a4 : (2 + 2 : Fin 3) = 1 := by decide
  have n1 : (1 : Fin 3) ≠ 0 := by decide
  have n2 : (2 : Fin 3) ≠ 0 := by decide
  fin_cases i
  · simp only [Tcol.tcolMetricsFromCov, Fin.zero_eta, Fin.isValue, zero_add, e0, e1, e2, hsym 2 1, ne_eq, not_true_eq_false, if_false,
      mul_comm (cov 0 2) (cov 0 1), and_self]
  · simp only [Tcol.tcolMetricsFromCov, Fin.mk_one, Fin.isValue, e0, e1, e2, a1, a2, a3, a4, o1, o2, hsym 1 0, hsym 2 0, hsym 2 1, ne_eq, n1, n2,
      not_false_eq_true, if_true, mul_comm (cov 0 2) (cov 1 2), and_self]
  · have hi : (⟨2, by decide⟩ : Fin 3) = 2 := rfl
    simp only [Tcol.tcolMetricsFromCov, Fin.reduceFinMk, Fin.isValue, e0, e1, e2, a1, a2, a3, a4, o1, o2, hsym 1 0, hsym 2 0, hsym 2 1, ne_eq, n1, n2,
      not_false_eq_true, if_true, mul_comm (cov 1 2) (cov 0 1), and_self]

/-- non-trivial instance of `tc_result` and `tc_column_order`: the reference is the second column -/
def tcFrame : Frame ℚ where
  cols := ["k1".toList, "ref".toList, "k2".toList]
  rows := (List.range 10).map (fun i => (1 + i, [some (i : ℚ), some (2 * i : ℚ), some (i * i : ℚ)]))

/-- a stand-in for the triple collocation: the last value of every data set -/
def lastFuncs : TcFuncs ℚ where
  tcol := fun l => .ok ⟨fun i => ((l[i]?.getD []).getLast?).join, fun i => ((l[i]?.getD []).head?).join, fun _ => some 1⟩
  boot := fun _ => .error .valueError

example : ∃ T d, tcTemplate (none : Option (Dict ℚ)) = .ok T ∧ tcCalc lastFuncs "ref".toList false 10 T none tcFrame ⟨7, 1, 2, none⟩ = .ok d ∧
    Reports ((none : Option (Dict ℚ)).getD []) ⟨7, 1, 2, none⟩ (.int 0)
      (tcAll false 10 (⟨fun i => ([some 18, some 9, some 81])[i]?.join, fun i => ([some 0, some 0, some 0])[i]?.join, fun _ => some 1⟩, noTc, noTc)
        "ref".toList "k1".toList "k2".toList) d :=
  tc_result lastFuncs false 10 none tcFrame ⟨7, 1, 2, none⟩ _ _ _ (by decide) (by decide) (by decide) ⟨by simp, by simp⟩ (by simp [Provides])
    (by decide) _ (fun _ => by
      show Except.ok _ = Except.ok _
      congr 2
      · funext i
        match i with
        | 0 => decide +kernel
        | 1 => decide +kernel
        | 2 => decide +kernel
        | i + 3 => simp [arrays3]
      · funext i
        match i with
        | 0 => decide +kernel
        | 1 => decide +kernel
        | 2 => decide +kernel
        | i + 3 => simp [arrays3]) (by simp)

/-- the stand-in meets the symmetry hypothesis of `tc_column_order` -/
example (x y z : List (Option ℚ)) (t : Tc ℚ) (h : lastFuncs.tcol [x, y, z] = .ok t) : lastFuncs.tcol [x, z, y] = .ok t.swap := by
  cases h
  show Except.ok _ = Except.ok _
  congr 2
  · funext i
    match i with
    | 0 => rfl
    | 1 => rfl
    | 2 => rfl
    | i + 3 => rfl
  · funext i
    match i with
    | 0 => rfl
    | 1 => rfl
    | 2 => rfl
    | i + 3 => rfl

/-- **C54.** `RollingMetrics` ignores the name of the other data set it was created for: it always takes the first two columns. -/
theorem rolling_ignores_name : ∃ (data : Frame ℚ), data.cols = ["ref".toList, "k1".toList, "k2".toList] ∧
    (rollingArrays "k2".toList 1 data).map Prod.snd ≠ (column data "k2".toList).toOption :=
  ⟨⟨["ref".toList, "k1".toList, "k2".toList], [(1, [some 0, some 1, some 2])]⟩, rfl, by decide +kernel⟩

/-- With two columns, reference first, `RollingMetrics` works on these two. -/
theorem rolling_columns_partial (r o : Name) (hro : r ≠ o) (minObs : ℕ) (data : Frame K) (hc : data.cols = [r, o]) (hlen : minObs ≤ data.rows.length) :
    ∃ x y, rollingArrays o minObs data = some (x, y) ∧ column data r = .ok x ∧ column data o = .ok y := by
  have hi : data.cols.idxOf r = 0 := by rw [hc]; simp
  have hj : data.cols.idxOf o = 1 := by rw [hc]; simp [List.idxOf_cons, hro]
  refine ⟨_, _, by unfold rollingArrays; rw [if_neg (by omega)], ?_, ?_⟩
  · rw [column_ok data r (by rw [hc]; simp), hi]; rfl
  · rw [column_ok data o (by rw [hc]; simp), hj]; rfl

/-- a failing triple collocation; the bootstrap of the stand-in always fails -/
example := tc_failed_partial lastFuncs true 10 none tcFrame ⟨7, 1, 2, none⟩ "ref".toList "k1".toList "k2".toList (by decide) (by decide) (by decide)
  ⟨by simp, by simp⟩ (by simp [Provides]) (by decide) (by simp) (fun _ => rfl)
example := rolling_columns_partial "ref".toList "k1".toList (by decide) 1 (⟨["ref".toList, "k1".toList], [(1, [some 1, some 2]), (2, [none, some 3])]⟩ : Frame ℚ) rfl
  (by decide)

end Verif.Calculators
