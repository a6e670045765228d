import Verif.Climatology.Props
import Verif.Filters.Relations

/-!
C94, climatologies and anomalies in other units: the climatology of converted data is the converted climatology, anomalies are converted without the
offset. The series need not be sorted. `boxcar_filter` takes the value -999999 for a gap, so values must be larger than that before and after
the conversion.
-/

set_option linter.unusedSectionVars false

namespace Verif.Climatology

variable {K : Type} [Field K] [LinearOrder K] [IsStrictOrderedRing K]

/-! ### Specification -/

/-- observations in other units -/
def inUnits (a b : K) (ser : List (Obs K)) : List (Obs K) := ser.map (fun o => { o with value := o.value.map (fun v => a * v + b) })

/-- no number of the list is below `lo` -/
def AtLeast (lo : K) (l : List (Option K)) : Prop := ∀ x, some x ∈ l → lo ≤ x

/-- mean and median are of this kind: they follow a change of units and stay above a common lower bound -/
structure Aggregates (agg : List K → K) : Prop where
  units : ∀ (a b : K), 0 < a → ∀ vs, vs ≠ [] → agg (vs.map (fun v => a * v + b)) = a * agg vs + b
  bound : ∀ (lo : K) (vs : List K), vs ≠ [] → (∀ v ∈ vs, lo ≤ v) → lo ≤ agg vs

/-- a row of results in other units -/
def rowUnits (a b : K) (r : List (Option K)) : List (Option K) := r.map (Option.map (fun v => a * v + b))

/-! ### Moving average -/

theorem accumulate_ge (lo nan limit t0 : K) (obs : List (K × Option K)) (h : AtLeast lo (obs.map Prod.snd)) (s : K × ℕ)
    (hs : lo * (s.2 : K) ≤ s.1) :
    lo * ((Filters.accumulate nan limit t0 obs s).2 : K) ≤ (Filters.accumulate nan limit t0 obs s).1 := by
  induction obs generalizing s with
  | nil => exact hs
  | cons o obs ih =>
    have ih' := ih (fun x hx => h x (List.mem_cons_of_mem _ hx))
    unfold Filters.accumulate
    cases hu : Filters.usable nan o.2 with
    | none => exact ih' s hs
    | some v =>
      have hv : o.2 = some v := by
        unfold Filters.usable at hu
        cases e : o.2 with
        | none => simp [e] at hu
        | some w => rw [e] at hu; simp only at hu; split at hu <;> simp_all
      have : lo ≤ v := h v (by simp [hv])
      simp only
      split
      · refine ih' _ ?_
        push_cast
        linarith
      · exact hs

theorem boxcarLoop_ge (lo nan limit : K) (fillna : Bool) (minObs : Int) (before after : List (K × Option K))
    (h : AtLeast lo ((before ++ after).map Prod.snd)) : AtLeast lo (Filters.boxcarLoop nan limit fillna minObs before after) := by
  induction after generalizing before with
  | nil => intro x hx; simp [Filters.boxcarLoop] at hx
  | cons o after ih =>
    intro x hx
    simp only [Filters.boxcarLoop, List.mem_cons] at hx
    rcases hx with hx | hx
    · split at hx
      · have h1 := accumulate_ge lo nan limit o.1 (o :: after) (fun x hx => h x (by simp at hx ⊢; tauto)) (0, 0) (by simp)
        have h2 := accumulate_ge lo nan limit o.1 before (fun x hx => h x (by simp at hx ⊢; tauto)) _ h1
        unfold Filters.average at hx
        split at hx
        · split at hx
          · simp at hx
          · rename_i hn
            rw [Option.some.injEq] at hx
            rw [hx, le_div_iff₀ (by exact_mod_cast Nat.pos_of_ne_zero hn)]
            exact h2
        · simp at hx
      · simp at hx
    · exact ih (o :: before) (fun x hx => h x (by simp at hx ⊢; tauto)) x hx

theorem boxcarLoop_length (nan limit : K) (fillna : Bool) (minObs : Int) (before after : List (K × Option K)) :
    (Filters.boxcarLoop nan limit fillna minObs before after).length = after.length := by
  induction after generalizing before with
  | nil => rfl
  | cons o after ih => simp [Filters.boxcarLoop, ih]

theorem movingAverage_length (obs : List (K × Option K)) (w : K) (fillna : Bool) (minObs : Int) :
    (movingAverage obs w fillna minObs).length = obs.length := boxcarLoop_length _ _ _ _ _ _

theorem movingAverage_ge (lo : K) (obs : List (K × Option K)) (w : K) (fillna : Bool) (minObs : Int) (h : AtLeast lo (obs.map Prod.snd)) :
    AtLeast lo (movingAverage obs w fillna minObs) := boxcarLoop_ge lo _ _ _ _ [] obs h

/-- the values are kept apart from the no-data value by `lo`, before and after the conversion -/
structure Apart (a b lo : K) : Prop where
  pos : 0 < a
  before : (noData : K) < lo
  after : (noData : K) < a * lo + b

theorem movingAverage_units (a b lo : K) (hA : Apart a b lo) (obs : List (K × Option K)) (w : K) (fillna : Bool) (minObs : Int)
    (h : AtLeast lo (obs.map Prod.snd)) :
    movingAverage (Filters.inUnits a b obs) w fillna minObs = rowUnits a b (movingAverage obs w fillna minObs) := by
  unfold movingAverage rowUnits
  apply Filters.boxcar_units
  intro o ho v hv
  have hlo : lo ≤ v := h v (List.mem_map.mpr ⟨o, ho, hv⟩)
  have h1 : a * lo ≤ a * v := mul_le_mul_of_nonneg_left hlo hA.pos.le
  have h2 := hA.before
  have h3 := hA.after
  constructor
  · intro e; linarith
  · intro e; linarith

/-! ### Climatology -/

theorem unitValues_units (a b : K) (units : List (ℕ × Option K)) (u : ℕ) :
    unitValues (units.map (fun p => (p.1, p.2.map (fun v => a * v + b)))) u = (unitValues units u).map (fun v => a * v + b) := by
  unfold unitValues
  induction units with
  | nil => rfl
  | cons p l ih =>
    rw [List.map_cons]
    by_cases h : p.1 = u
    · rw [List.filter_cons_of_pos (by simpa using h), List.filter_cons_of_pos (by simpa using h), List.filterMap_cons, List.filterMap_cons, ih]
      cases p.2 <;> simp
    · rw [List.filter_cons_of_neg (by simpa using h), List.filter_cons_of_neg (by simpa using h), ih]

theorem unitRow_units (a b : K) (ha : 0 < a) (agg : List K → K) (hagg : Aggregates agg) (units : List (ℕ × Option K)) (u : ℕ) :
    unitRow agg none (units.map (fun p => (p.1, p.2.map (fun v => a * v + b)))) u = rowUnits a b (unitRow agg none units u) := by
  unfold unitRow rowUnits
  simp only [unitValues_units, List.map_eq_nil_iff, List.map_cons, List.map_nil]
  by_cases h : unitValues units u = []
  · simp [h]
  · simp only [if_neg h, Option.map_some, hagg.units a b ha _ h]

theorem unitRow_ge (lo : K) (agg : List K → K) (hagg : Aggregates agg) (units : List (ℕ × Option K)) (u : ℕ)
    (h : AtLeast lo (units.map Prod.snd)) : AtLeast lo (unitRow agg none units u) := by
  intro x hx
  unfold unitRow at hx
  simp only [List.mem_singleton] at hx
  by_cases hn : unitValues units u = []
  · simp [hn] at hx
  · rw [if_neg hn, Option.some.injEq] at hx
    rw [hx]
    refine hagg.bound lo _ hn (fun v hv => ?_)
    unfold unitValues at hv
    obtain ⟨p, hp, hpv⟩ := List.mem_filterMap.mp hv
    exact h v (List.mem_map.mpr ⟨p, (List.mem_filter.mp hp).1, hpv⟩)

theorem zipWith_units_right (a b : K) (ser : List (Obs K)) (sm : List (Option K)) (g g' : Obs K → ℕ) (f : Obs K → Obs K)
    (hg : ∀ o, g' (f o) = g o) :
    List.zipWith (fun o v => (g' o, v)) (ser.map f) (rowUnits a b sm) =
      (List.zipWith (fun o v => (g o, v)) ser sm).map (fun p => (p.1, p.2.map (fun v => a * v + b))) := by
  unfold rowUnits
  induction ser generalizing sm with
  | nil => simp
  | cons o ser ih =>
    cases sm with
    | nil => simp
    | cons v sm => simp only [List.map_cons, List.zipWith_cons_cons, ih, hg]

theorem longTerm_ge (A : Args K) (hsd : A.sd = none) (hagg : Aggregates A.agg) (respect : Bool) (n : ℕ) (lo : K) (ser : List (Obs K))
    (h : AtLeast lo (ser.map (·.value))) : ∀ r ∈ longTerm A respect n ser, AtLeast lo r ∧ r ≠ [] := by
  intro r hr
  unfold longTerm at hr
  simp only [hsd] at hr
  obtain ⟨u, _, rfl⟩ := List.mem_map.mp hr
  refine ⟨unitRow_ge lo A.agg hagg _ u ?_, by simp [unitRow]⟩
  intro x hx
  refine movingAverage_ge lo (ser.map (fun o => (o.jd, o.value))) A.movingAvgOrig A.fillna A.minObsOrig ?_ x ?_
  · rw [List.map_map]; exact h
  · obtain ⟨p, hp, hpx⟩ := List.mem_map.mp hx
    rw [List.mem_iff_getElem?] at hp
    obtain ⟨k, hk⟩ := hp
    rw [List.getElem?_zipWith] at hk
    generalize ser[k]? = so at hk
    cases hv : (movingAverage (ser.map (fun o => (o.jd, o.value))) A.movingAvgOrig A.fillna A.minObsOrig)[k]? with
    | none => rw [hv] at hk; cases so <;> simp at hk
    | some v =>
      rw [hv] at hk
      cases so with
      | none => simp at hk
      | some o =>
        simp only [Option.some.injEq] at hk
        rw [← hk] at hpx
        simp only at hpx
        exact List.mem_of_getElem? (by rw [hv, hpx])

theorem longTerm_units (A A' : Args K) (hA' : A' = { A with fill := A'.fill }) (hsd : A.sd = none) (hagg : Aggregates A.agg) (respect : Bool) (n : ℕ)
    (a b lo : K) (hap : Apart a b lo) (ser : List (Obs K)) (h : AtLeast lo (ser.map (·.value))) :
    longTerm A' respect n (inUnits a b ser) = (longTerm A respect n ser).map (rowUnits a b) := by
  rw [hA']
  unfold longTerm
  simp only [hsd, List.map_map]
  have e : (inUnits a b ser).map (fun o => (o.jd, o.value)) = Filters.inUnits a b (ser.map (fun o => (o.jd, o.value))) := by
    simp [inUnits, Filters.inUnits]
  rw [e, movingAverage_units a b lo hap _ _ _ _ (by rw [List.map_map]; exact h)]
  rw [show inUnits a b ser = ser.map (fun o => { o with value := o.value.map (fun v => a * v + b) }) from rfl,
    zipWith_units_right a b ser _ (indexUnit A.freq respect) _ _ (by intro o; unfold indexUnit; rfl)]
  exact List.map_congr_left (fun u _ => unitRow_units a b hap.pos A.agg hagg _ u)

theorem smoothFirst_units (a b lo : K) (hap : Apart a b lo) (w : K) (fillna : Bool) (minObs : Int) (idx : List ℕ) (rows : List (List (Option K)))
    (h : ∀ r ∈ rows, AtLeast lo r) :
    smoothFirst w fillna minObs idx (rows.map (rowUnits a b)) = (smoothFirst w fillna minObs idx rows).map (rowUnits a b) := by
  unfold smoothFirst
  simp only
  have e : List.zipWith (fun (i : ℕ) (r : List (Option K)) => ((i : K), r.headD none)) idx (rows.map (rowUnits a b)) =
      Filters.inUnits a b (List.zipWith (fun (i : ℕ) r => ((i : K), r.headD none)) idx rows) := by
    clear h
    unfold Filters.inUnits
    induction idx generalizing rows with
    | nil => simp
    | cons i idx ih =>
      cases rows with
      | nil => simp
      | cons r rows =>
        simp only [List.map_cons, List.zipWith_cons_cons, ih]
        cases r <;> simp [rowUnits]
  have hge : AtLeast lo ((List.zipWith (fun (i : ℕ) (r : List (Option K)) => ((i : K), r.headD none)) idx rows).map Prod.snd) := by
    intro x hx
    clear e
    induction idx generalizing rows with
    | nil => simp at hx
    | cons i idx ih =>
      cases rows with
      | nil => simp at hx
      | cons r rows =>
        simp only [List.zipWith_cons_cons, List.map_cons, List.mem_cons] at hx
        rcases hx with hx | hx
        · refine h r List.mem_cons_self x ?_
          cases r with
          | nil => simp at hx
          | cons y r => simp only [List.headD_cons] at hx; rw [hx]; exact List.mem_cons_self
        · exact ih rows (fun r hr => h r (List.mem_cons_of_mem _ hr)) hx
  rw [e, movingAverage_units a b lo hap _ _ _ _ hge]
  generalize movingAverage _ w fillna minObs = sm
  clear e hge h
  induction sm generalizing rows with
  | nil => simp [rowUnits]
  | cons v sm ih =>
    cases rows with
    | nil => simp [rowUnits]
    | cons r rows =>
      have ih' := ih rows
      simp only [rowUnits, List.map_cons, List.zipWith_cons_cons, List.map_drop] at ih' ⊢
      rw [ih']

theorem lastRows_map {α β : Type} (f : α → β) (m : ℕ) (l : List α) : lastRows m (l.map f) = (lastRows m l).map f := by
  unfold lastRows; split
  · rfl
  · rw [List.length_map, List.map_drop]

theorem inner_map {α β : Type} (f : α → β) (m : ℕ) (l : List α) : inner m (l.map f) = (inner m l).map f := by
  unfold inner; split
  · rfl
  · rw [List.length_map, List.map_take, List.map_drop]

theorem mem_lastRows {α : Type} (m : ℕ) (l : List α) (x : α) (h : x ∈ lastRows m l) : x ∈ l := by
  unfold lastRows at h; split at h
  · exact h
  · exact List.mem_of_mem_drop h

theorem smooth_units (A A' : Args K) (hA' : A' = { A with fill := A'.fill }) (m n : ℕ) (a b lo : K) (hap : Apart a b lo)
    (rows : List (List (Option K))) (h : ∀ r ∈ rows, AtLeast lo r) :
    smooth A' m n (rows.map (rowUnits a b)) = (smooth A m n rows).map (List.map (rowUnits a b)) := by
  rw [hA']
  unfold smooth
  simp only [lastRows_map, ← List.map_take, ← List.map_append]
  split
  · rw [smoothFirst_units a b lo hap, inner_map, List.length_map]
    · split <;> rfl
    · intro r hr
      simp only [List.mem_append] at hr
      rcases hr with (hr | hr) | hr
      · exact h r (mem_lastRows _ _ _ hr)
      · exact h r hr
      · exact h r (List.mem_of_mem_take hr)
  · rw [smoothFirst_units a b lo hap _ _ _ _ _ h]; rfl

theorem smoothFirst_nonempty (w : K) (fillna : Bool) (minObs : Int) (idx : List ℕ) (rows : List (List (Option K))) :
    ∀ r ∈ smoothFirst w fillna minObs idx rows, r ≠ [] := by
  intro r hr
  unfold smoothFirst at hr
  simp only at hr
  rw [List.mem_iff_getElem?] at hr
  obtain ⟨k, hk⟩ := hr
  rw [List.getElem?_zipWith] at hk
  split at hk
  · simp only [Option.some.injEq] at hk; rw [← hk]; simp
  · simp at hk

theorem smooth_shape (A : Args K) (m n : ℕ) (rows out : List (List (Option K))) (hn : rows.length = n) (h : smooth A m n rows = .ok out) :
    out.length = n ∧ ∀ r ∈ out, r ≠ [] := by
  unfold smooth at h
  split at h
  · simp only at h
    split at h
    · rename_i hl
      obtain rfl := Except.ok.inj h
      refine ⟨hl, fun r hr => ?_⟩
      unfold inner at hr
      split at hr
      · simp at hr
      · exact smoothFirst_nonempty _ _ _ _ _ r (List.mem_of_mem_drop (List.mem_of_mem_take hr))
    · cases h
  · obtain rfl := Except.ok.inj h
    refine ⟨?_, smoothFirst_nonempty _ _ _ _ _⟩
    unfold smoothFirst
    simp [movingAverage_length, index_length, hn]

theorem meanOfRows_units (a b : K) (x y : List (Option K)) (h : x ≠ []) :
    meanOfRows (rowUnits a b x) (rowUnits a b y) = (meanOfRows x y).map (fun v => a * v + b) := by
  unfold meanOfRows rowUnits
  rw [← List.map_append]
  have hne : x ++ y ≠ [] := by simp [h]
  generalize x ++ y = z at hne
  have hall : (z.map (Option.map (fun v => a * v + b))).all Option.isSome = z.all Option.isSome := by
    rw [List.all_map]; congr 1; funext o; cases o <;> rfl
  rw [hall]
  by_cases hz : z.all Option.isSome = true
  · rw [if_pos hz, if_pos hz, Option.map_some, Option.some.injEq, List.length_map]
    have hlen : (z.length : K) ≠ 0 := by
      have : z.length ≠ 0 := by simpa using hne
      exact_mod_cast this
    have hsum : ((z.map (Option.map (fun v => a * v + b))).filterMap id).sum = a * (z.filterMap id).sum + (z.length : K) * b := by
      clear hlen hall hne
      induction z with
      | nil => simp
      | cons o z ih =>
        simp only [List.all_cons, Bool.and_eq_true] at hz
        obtain ⟨v, rfl⟩ := Option.isSome_iff_exists.mp hz.1
        have ih' := ih hz.2
        simp only [List.map_cons, Option.map_some, List.filterMap_cons, id, List.sum_cons, List.length_cons] at ih' ⊢
        rw [ih']; push_cast; ring
    rw [hsum]
    field_simp
  · rw [if_neg hz, if_neg hz]; rfl

theorem interpolateRow_units (a b : K) (t p q : ℕ) (rows : List (List (Option K))) (hp : p - 1 < rows.length) (h : ∀ r ∈ rows, r ≠ []) :
    interpolateRow t p q (rows.map (rowUnits a b)) = (interpolateRow t p q rows).map (rowUnits a b) := by
  have hg : ∀ k, (rows.map (rowUnits a b)).getD k [] = rowUnits a b (rows.getD k []) := by
    intro k
    rw [List.getD_eq_getElem?_getD, List.getD_eq_getElem?_getD, List.getElem?_map]
    cases rows[k]? <;> rfl
  unfold interpolateRow
  simp only [hg]
  rw [meanOfRows_units, List.map_set]
  · congr 1
    unfold rowUnits
    rw [List.map_map, List.map_map]
    rfl
  · rw [List.getD_eq_getElem?_getD, List.getElem?_eq_getElem hp]
    exact h _ (List.getElem_mem hp)

/-- C94: the climatology of data in other units is the climatology in other units - including gaps, the value filled in for them and exceptions. -/
theorem climatology_units (A : Args K) (hsd : A.sd = none) (hagg : Aggregates A.agg) (a b lo : K) (hap : Apart a b lo)
    (ser : List (Obs K)) (h : AtLeast lo (ser.map (·.value))) :
    calcClimatology { A with fill := A.fill.map (fun v => a * v + b) } (inUnits a b ser) =
      (calcClimatology A ser).map (List.map (rowUnits a b)) := by
  have htr : ∀ span, truncate span (inUnits a b ser) = (truncate span ser).map (inUnits a b) := by
    intro span
    unfold truncate
    cases span with
    | none => rfl
    | some s =>
      have e1 : decide ((inUnits a b ser).Pairwise (fun o p => o.jd ≤ p.jd)) = decide (ser.Pairwise (fun o p => o.jd ≤ p.jd)) := by
        unfold inUnits; simp only [List.pairwise_map]
      have e2 : decide ((inUnits a b ser).Pairwise (fun o p => p.jd ≤ o.jd)) = decide (ser.Pairwise (fun o p => p.jd ≤ o.jd)) := by
        unfold inUnits; simp only [List.pairwise_map]
      simp only [e1, e2]
      split
      · rfl
      · split
        · unfold inUnits; rw [List.filter_map]; rfl
        · rfl
  have hsub : ∀ span ser', truncate span ser = .ok ser' → AtLeast lo (ser'.map (·.value)) := by
    intro span ser' hs x hx
    unfold truncate at hs
    split at hs
    · obtain rfl := Except.ok.inj hs; exact h x hx
    · split at hs
      · cases hs
      · split at hs
        · obtain rfl := Except.ok.inj hs
          obtain ⟨o, ho, hox⟩ := List.mem_map.mp hx
          exact h x (List.mem_map.mpr ⟨o, (List.mem_filter.mp ho).1, hox⟩)
        · cases hs
  unfold calcClimatology
  have hcw : climWindow { A with fill := A.fill.map (fun v => a * v + b) } = climWindow A := rfl
  rw [hcw]
  cases hm : climWindow A with
  | error e => rfl
  | ok m =>
    simp only [bind, Except.bind, htr]
    cases ht : truncate A.timespan ser with
    | error e => rfl
    | ok ser' =>
      simp only [Except.map]
      have hge := hsub _ _ ht
      have key : ∀ (isDay respect interpolate : Bool) (n : ℕ), (interpolate = true → n = 366) →
          (smooth { A with fill := A.fill.map (fun v => a * v + b) } m n
              (longTerm { A with fill := A.fill.map (fun v => a * v + b) } respect n (inUnits a b ser'))).bind
            (fun rows => (.ok ((leapday interpolate respect rows).map (fun r => r.map (fun v => v.orElse
                (fun _ => A.fill.map (fun v => a * v + b))))) : Except Err (List (List (Option K))))) =
          ((smooth A m n (longTerm A respect n ser')).bind
            (fun rows => (.ok ((leapday interpolate respect rows).map (fun r => r.map (fun v => v.orElse (fun _ => A.fill)))) :
              Except Err (List (List (Option K)))))).map (List.map (rowUnits a b)) := by
        intro isDay respect interpolate n hn
        rw [longTerm_units A _ rfl hsd hagg respect n a b lo hap ser' hge,
          smooth_units A _ rfl m n a b lo hap _ (fun r hr => (longTerm_ge A hsd hagg respect n lo ser' hge r hr).1)]
        cases hsm : smooth A m n (longTerm A respect n ser') with
        | error e => rfl
        | ok rows =>
          obtain ⟨hlen, hne⟩ := smooth_shape A m n _ rows (by simp [longTerm, index_length]) hsm
          simp only [Except.map, Except.bind]
          congr 1
          have hl : leapday interpolate respect (rows.map (rowUnits a b)) = (leapday interpolate respect rows).map (rowUnits a b) := by
            unfold leapday
            by_cases hi : interpolate = true
            · have := hn hi
              split
              · exact interpolateRow_units a b 60 59 61 rows (by omega) hne
              · split
                · exact interpolateRow_units a b 366 365 1 rows (by omega) hne
                · rfl
            · simp [hi]
          rw [hl, List.map_map, List.map_map]
          apply List.map_congr_left
          intro r _
          simp only [Function.comp, rowUnits, List.map_map]
          apply List.map_congr_left
          intro v _
          cases v <;> simp
      obtain ⟨_, _, _, _, _, _, _, _, _, _, _, _, freq⟩ := A
      cases freq with
      | day => exact key true _ _ 366 (fun _ => rfl)
      | month => exact key false _ _ 12 (fun k => by simp at k)
      | other => rfl

/-! ### Anomalies -/

/-- C94: anomalies from a climatology, data and climatology in other units: the offset is gone, the factor stays. -/
theorem anomaly_climatology_units (a b : K) (respect : Bool) (clim : List (ℕ × Option K)) (ser : List (Obs K)) :
    anomalyFromClimatology respect (clim.map (fun c => (c.1, c.2.map (fun v => a * v + b)))) (inUnits a b ser) =
      (anomalyFromClimatology respect clim ser).map (Option.map (fun v => a * v)) := by
  have hlk : ∀ d, (clim.map (fun c => (c.1, c.2.map (fun v => a * v + b)))).lookup d = (clim.lookup d).map (Option.map (fun v => a * v + b)) := by
    intro d
    induction clim with
    | nil => rfl
    | cons c clim ih =>
      obtain ⟨c1, c2⟩ := c
      simp only [List.map_cons, List.lookup, ih]
      cases d == c1 <;> rfl
  unfold anomalyFromClimatology inUnits
  rw [List.map_map, List.map_map]
  apply List.map_congr_left
  intro o _
  simp only [Function.comp, hlk]
  cases o.value with
  | none => simp [sub?]
  | some v =>
    cases clim.lookup (doy o.month o.day (if respect = true then some o.year else none)) with
    | none => simp [sub?]
    | some c =>
      cases c with
      | none => simp [sub?]
      | some c => simp [sub?]; ring

/-- C94: anomalies from the moving average: the offset is gone, the factor stays. -/
theorem anomaly_average_units (a b lo : K) (hap : Apart a b lo) (w : K) (ser : List (Obs K)) (h : AtLeast lo (ser.map (·.value))) :
    anomalyFromAverage w (inUnits a b ser) = (anomalyFromAverage w ser).map (Option.map (fun v => a * v)) := by
  unfold anomalyFromAverage
  have e : (inUnits a b ser).map (fun o => (o.jd, o.value)) = Filters.inUnits a b (ser.map (fun o => (o.jd, o.value))) := by
    simp [inUnits, Filters.inUnits]
  have e2 : (inUnits a b ser).map (·.value) = rowUnits a b (ser.map (·.value)) := by simp [inUnits, rowUnits]
  rw [e, e2, movingAverage_units a b lo hap _ _ _ _ (by rw [List.map_map]; exact h)]
  generalize ser.map (·.value) = x
  generalize movingAverage _ w false 1 = y
  unfold rowUnits
  induction x generalizing y with
  | nil => simp
  | cons v x ih =>
    cases y with
    | nil => simp
    | cons u y =>
      simp only [List.map_cons, List.zipWith_cons_cons, ih]
      congr 1
      cases v <;> cases u <;> simp [sub?]
      ring

/-! ### Concrete cases -/

/-- the mean is such an aggregation -/
theorem mean_aggregates : Aggregates (fun vs : List ℚ => vs.sum / (vs.length : ℚ)) where
  units a b _ vs h := by
    have hn : (vs.length : ℚ) ≠ 0 := by
      have : vs.length ≠ 0 := by simpa using h
      exact_mod_cast this
    have e : (vs.map (fun v => a * v + b)).sum = a * vs.sum + (vs.length : ℚ) * b := by
      clear h hn
      induction vs with
      | nil => simp
      | cons v vs ih => simp only [List.map_cons, List.sum_cons, ih, List.length_cons]; push_cast; ring
    rw [e, List.length_map]
    field_simp
  bound lo vs h hv := by
    have hn : (0 : ℚ) < (vs.length : ℚ) := by
      have : 0 < vs.length := List.length_pos_of_ne_nil h
      exact_mod_cast this
    rw [le_div_iff₀ hn]
    clear h hn
    induction vs with
    | nil => simp
    | cons v vs ih =>
      have h1 := ih (fun w hw => hv w (List.mem_cons_of_mem _ hw))
      have h2 := hv v List.mem_cons_self
      simp only [List.sum_cons, List.length_cons]; push_cast; linarith

/-- °C to °F above the absolute zero -/
example : Apart (9 / 5 : ℚ) 32 (-273) := ⟨by norm_num, by norm_num [noData], by norm_num [noData]⟩

/-- degrees Celsius to Fahrenheit, for the mean and two days of two years -/
example := climatology_units (⟨0, some 1, fun l => l.sum / l.length, none, none, none, true, true, false, true, 1, 1, .day⟩ : Args ℚ) rfl mean_aggregates
  (9 / 5) 32 (-273) ⟨by norm_num, by norm_num [noData], by norm_num [noData]⟩ [⟨0, 2021, 3, 1, some 1⟩, ⟨1, 2021, 3, 2, none⟩, ⟨365, 2022, 3, 1, some 3⟩]
  (by intro x hx; simp at hx; rcases hx with rfl | rfl <;> norm_num)

end Verif.Climatology
