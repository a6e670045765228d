import Verif.Adapters.Clim
import Verif.Adapters.Props
import Verif.Climatology.Props
import Mathlib.Tactic.IntervalCases

/-! C83: anomalies from the climatology of the same day. -/

set_option linter.unusedSectionVars false

namespace Verif.Adapters

variable {N T K : Type} [DecidableEq N] [Field K] [LinearOrder K] [IsStrictOrderedRing K]

theorem setColumn_new (d : DF N T K) (c : N) (v : List (Option K)) (hc : c ∉ d.cols) (hl : v.length = d.rows.length) :
    (setColumn d c v).cols = d.cols ++ [c] ∧ (setColumn d c v).rows.map Prod.fst = d.rows.map Prod.fst ∧
      column (setColumn d c v) c = v ∧ (∀ c', c' ≠ c → column (setColumn d c v) c' = column d c') := by
  refine ⟨if_neg hc, ?_, ?_, ?_⟩
  · simp only [setColumn, List.map_map]
    apply List.ext_getElem
    · simp [hl]
    · intro i _ _; simp
  · simp only [setColumn, column, List.map_map]
    apply List.ext_getElem
    · simp [hl]
    · intro i _ _; simp
  · intro c' hne
    simp only [setColumn, column, List.map_map]
    apply List.ext_getElem
    · simp [hl]
    · intro i _ _; simp [hne]

/-- what one turn of the loop writes -/
theorem writeClim_props (climName : N → N) (ret : Bool) (c : N) (d : DF N T K) (r : List (Option K) × List (Option K)) (hc : c ∈ d.cols)
    (hn : ret = true → climName c ∉ d.cols) (h1 : r.1.length = d.rows.length) (h2 : r.2.length = d.rows.length) :
    (writeClim climName ret c d r).cols = d.cols ++ (if ret then [climName c] else []) ∧
    (writeClim climName ret c d r).rows.map Prod.fst = d.rows.map Prod.fst ∧ column (writeClim climName ret c d r) c = r.1 ∧
    (ret = true → column (writeClim climName ret c d r) (climName c) = r.2) ∧
    ∀ c', c' ≠ c → (ret = true → c' ≠ climName c) → column (writeClim climName ret c d r) c' = column d c' := by
  obtain ⟨p1, p2, p3, p4⟩ := setColumn_props d c r.1 hc h1
  cases ret with
  | false => exact ⟨by simp [writeClim, p1], p2, p3, by simp, fun c' h _ => p4 c' h⟩
  | true =>
    have hlen : (setColumn d c r.1).rows.length = d.rows.length := by simpa using congrArg List.length p2
    obtain ⟨q1, q2, q3, q4⟩ := setColumn_new (setColumn d c r.1) (climName c) r.2 (by rw [p1]; exact hn rfl) (by rw [h2, hlen])
    have hne : c ≠ climName c := fun h => hn rfl (h ▸ hc)
    simp only [writeClim, if_true]
    refine ⟨by rw [q1, p1], by rw [q2, p2], by rw [q4 c hne]; exact p3, fun _ => q3, ?_⟩
    intro c' h h'
    rw [q4 c' (h' trivial)]
    exact p4 c' h

/-- **C83.** Column by column: the requested columns are replaced by their anomalies, for each of them one column with the climatology is
appended if asked for, nothing else changes. -/
theorem clim_adapter_columns (fn : List (T × Option K) → Except Err (List (Option K) × List (Option K))) (climName : N → N) (ret : Bool)
    (columns : Option (List N)) (d : DF N T K) (hc : ∀ c ∈ columns.getD d.cols, c ∈ d.cols) (hnd : (columns.getD d.cols).Nodup)
    (hfn : ∀ c ∈ columns.getD d.cols, ∃ r, fn (d.rows.map (fun x => (x.1, x.2 c))) = .ok r ∧ r.1.length = d.rows.length ∧
      r.2.length = d.rows.length)
    (hn : ret = true → (∀ c ∈ columns.getD d.cols, climName c ∉ d.cols) ∧ ((columns.getD d.cols).map climName).Nodup) :
    ∃ out, climAdaptWith fn climName ret columns (some d) = .ok out ∧ ClimResult fn climName ret (columns.getD d.cols) d out := by
  unfold climAdaptWith basicAdapt
  simp only [Option.getD_some]
  generalize columns.getD d.cols = cs at hc hnd hfn hn
  induction cs generalizing d with
  | nil => exact ⟨d, rfl, by cases ret <;> simp, rfl, by simp, fun _ _ _ => rfl⟩
  | cons c cs ih =>
    rw [List.nodup_cons] at hnd
    have hcc := hc c List.mem_cons_self
    obtain ⟨r, hr, hl1, hl2⟩ := hfn c List.mem_cons_self
    obtain ⟨p1, p2, p3, p4, p5⟩ := writeClim_props climName ret c d r hcc (fun h => (hn h).1 c List.mem_cons_self) hl1 hl2
    have hstep : climStep fn climName ret d c = .ok (writeClim climName ret c d r) := by
      unfold climStep
      rw [if_pos hcc, hr]
    rw [List.foldlM_cons, hstep]
    simp only [bind, Except.bind]
    have hlen : (writeClim climName ret c d r).rows.length = d.rows.length := by simpa using congrArg List.length p2
    have hself : ∀ c' ∈ cs, column (writeClim climName ret c d r) c' = column d c' := by
      intro c' h'
      refine p5 c' (by rintro rfl; exact hnd.1 h') (fun h => ?_)
      rintro rfl
      exact (hn h).1 c List.mem_cons_self (hc _ (List.mem_cons_of_mem _ h'))
    have hser : ∀ c' ∈ cs, (writeClim climName ret c d r).rows.map (fun x => (x.1, x.2 c')) = d.rows.map (fun x => (x.1, x.2 c')) :=
      fun c' h' => map_pair_eq _ d.rows c' p2 (hself c' h')
    obtain ⟨out, h1, q1, q2, q3, q4⟩ := ih (writeClim climName ret c d r)
      (fun c' h' => by rw [p1]; exact List.mem_append_left _ (hc c' (List.mem_cons_of_mem _ h'))) hnd.2
      (fun c' h' => by
        obtain ⟨r', a, b, e⟩ := hfn c' (List.mem_cons_of_mem _ h')
        exact ⟨r', by rw [hser c' h']; exact a, by rw [hlen]; exact b, by rw [hlen]; exact e⟩)
      (fun h => by
        obtain ⟨a, b⟩ := hn h
        rw [List.map_cons, List.nodup_cons] at b
        refine ⟨fun c' h' => ?_, b.2⟩
        rw [p1, if_pos h, List.mem_append, not_or]
        refine ⟨a c' (List.mem_cons_of_mem _ h'), ?_⟩
        rw [List.mem_singleton]
        intro he
        exact b.1 (he ▸ List.mem_map_of_mem h'))
    refine ⟨out, h1, ?_, q2.trans p2, ?_, ?_⟩
    · rw [q1, p1]
      cases ret <;> simp
    · intro c' h'
      rcases List.mem_cons.mp h' with rfl | hm
      · refine ⟨r, hr, ?_, ?_⟩
        · rw [q4 c' hnd.1 ?_, p3]
          intro h hmem
          obtain ⟨e, he, heq⟩ := List.mem_map.mp hmem
          exact (hn h).1 e (List.mem_cons_of_mem _ he) (heq ▸ hcc)
        · intro h
          obtain ⟨a, b⟩ := hn h
          rw [List.map_cons, List.nodup_cons] at b
          rw [q4 (climName c') (fun hm => a c' List.mem_cons_self (hc _ (List.mem_cons_of_mem _ hm))) (fun _ => b.1)]
          exact p4 h
      · obtain ⟨r', a, b, e⟩ := q3 c' hm
        exact ⟨r', by rw [← hser c' hm]; exact a, b, e⟩
    · intro c' h' h''
      simp only [List.mem_cons, not_or] at h'
      rw [q4 c' h'.2 (fun h hm => h'' h (List.mem_cons_of_mem _ hm)), p5 c' h'.1 (fun h he => h'' h (he ▸ List.mem_cons_self))]

/-! ### Which entry is subtracted -/

open Climatology in
/-- entry `i + 1` of a daily climatology with a window of `m` days, `Climatology.climatology_circular` -/
def climEntry (A : Args K) (m : ℕ) (ser : List (Obs K)) (i : ℕ) : Option K :=
  (withLeapday A.interpolateLeapday A.respectLeapYears
    (circularMean noData (longTermSpec A A.respectLeapYears (inSpan A ser)) 366 m A.fillna A.minObsClim) i).orElse (fun _ => A.fill)

open Climatology in
/-- entry `i + 1` of a monthly climatology with a window of `m` months -/
def climEntryMonth (A : Args K) (m : ℕ) (ser : List (Obs K)) (i : ℕ) : Option K :=
  (circularMean noData (longTermSpec A A.respectLeapYears (inSpan A ser)) 12 m A.fillna A.minObsClim i).orElse (fun _ => A.fill)

theorem lookup_index (n : ℕ) (f : ℕ → Option K) (k : ℕ) :
    ((Climatology.index n).zip ((List.range n).map f)).lookup k = if 1 ≤ k ∧ k ≤ n then some (f (k - 1)) else none := by
  unfold Climatology.index
  rw [List.zip_map']
  induction n with
  | zero => rw [if_neg (by omega)]; rfl
  | succ n ih =>
    rw [List.range_succ, List.map_append, List.lookup_append, ih]
    by_cases h : 1 ≤ k ∧ k ≤ n
    · rw [if_pos h, if_pos (by omega)]; rfl
    · rw [if_neg h]
      by_cases hk : k = n + 1
      · subst hk
        simp
      · rw [if_neg (by omega)]
        have : (k == n + 1) = false := by simpa using hk
        simp [List.lookup, this]

/-- days of existing dates are between 1 and 366 -/
theorem ownDay_range (respect : Bool) (t : Day K) (h : RealDate t) : 1 ≤ ownDay respect t ∧ ownDay respect t ≤ 366 := by
  obtain ⟨h1, h2, h3, h4⟩ := h
  unfold ownDay
  have hm : t.day ≤ Climatology.monthLength true t.month := by
    refine le_trans h4 ?_
    unfold Climatology.monthLength
    cases Climatology.isLeap t.year <;> split_ifs <;> simp_all
  clear h4
  obtain ⟨jd, y, mo, dd⟩ := t
  simp only at *
  generalize (if respect = true then Climatology.isLeap y else true) = b
  interval_cases mo <;> cases b <;>
    simp [Climatology.dayOfYear, Climatology.monthLength, List.range_succ] at * <;> omega

theorem validDate_of_real (x : Day K × Option K) (h : RealDate x.1) : Climatology.ValidDate (obsOf x) := ⟨h.1, h.2.1, h.2.2.1⟩

theorem doy_own (t : Day K) (h : RealDate t) : Climatology.doy t.month t.day (some t.year) = ownDay true t := by
  unfold ownDay
  rw [if_pos rfl]
  exact (Climatology.doy_correct t.month t.day h.1 h.2.1 t.year).2 h.2.2.1

/-- anomalies and climatology of a column when the climatology has the entries `f 0, …, f (n-1)` -/
theorem climAnomaly_of (A : Climatology.Args K) (s : List (Day K × Option K)) (n : ℕ) (f : ℕ → Option K) (hv : ∀ x ∈ s, RealDate x.1)
    (h : Climatology.calcClimatology A (s.map obsOf) = .ok ((List.range n).map (fun i => [f i]))) :
    climAnomaly A s = .ok (s.map (fun x => diff x.2 (if ownDay true x.1 ≤ n then f (ownDay true x.1 - 1) else none)),
      s.map (fun x => if ownDay true x.1 ≤ n then f (ownDay true x.1 - 1) else none)) := by
  have hcl : climSeries ((List.range n).map (fun i => [f i])) = (Climatology.index n).zip ((List.range n).map f) := by
    unfold climSeries
    rw [List.length_map, List.length_range, List.map_map]
    rfl
  have hlk : ∀ x ∈ s, (((Climatology.index n).zip ((List.range n).map f)).lookup
      (Climatology.doy (obsOf x).month (obsOf x).day (some (obsOf x).year))).getD none =
      if ownDay true x.1 ≤ n then f (ownDay true x.1 - 1) else none := by
    intro x hx
    have h1 := (ownDay_range true x.1 (hv x hx)).1
    have h2 : Climatology.doy (obsOf x).month (obsOf x).day (some (obsOf x).year) = ownDay true x.1 := doy_own x.1 (hv x hx)
    rw [h2, lookup_index]
    by_cases hn : ownDay true x.1 ≤ n
    · rw [if_pos ⟨h1, hn⟩, if_pos hn]; rfl
    · rw [if_neg (fun h => hn h.2), if_neg hn]; rfl
  unfold climAnomaly
  rw [h]
  simp only [hcl]
  refine congrArg Except.ok (Prod.ext ?_ ?_)
  · simp only [Climatology.anomalyFromClimatology, List.map_map]
    apply List.map_congr_left
    intro x hx
    simp only [Function.comp, if_true, hlk x hx]
    simp only [obsOf]
    unfold Climatology.sub? diff
    cases x.2 <;> cases (if ownDay true x.1 ≤ n then f (ownDay true x.1 - 1) else none) <;> rfl
  · simp only [climOf, List.map_map]
    apply List.map_congr_left
    intro x hx
    simp only [Function.comp, hlk x hx]

theorem climAnomaly_daily (A : Climatology.Args K) (m : ℕ) (s : List (Day K × Option K)) (hm : A.movingAvgClim = some m) (hf : A.freq = .day)
    (hsd : A.sd = none) (hw : A.wraparound = true) (h1 : 1 ≤ m) (h2 : m ≤ 366) (hs : s.Pairwise (fun x y => x.1.jd ≤ y.1.jd))
    (hv : ∀ x ∈ s, RealDate x.1) (hspan : ∀ p, A.timespan = some p → p.1 ≤ p.2) :
    climAnomaly A s = .ok (s.map (fun x => diff x.2 (climEntry A m (s.map obsOf) (ownDay true x.1 - 1))),
      s.map (fun x => climEntry A m (s.map obsOf) (ownDay true x.1 - 1))) := by
  have h := Climatology.climatology_circular A (s.map obsOf) m 366 hm (.inl ⟨hf, rfl⟩) hsd hw h1 h2 (by rw [List.pairwise_map]; exact hs)
    (by intro o ho; obtain ⟨x, hx, rfl⟩ := List.mem_map.mp ho; exact validDate_of_real x (hv x hx)) hspan
  simp only [decide_true, Bool.and_true] at h
  rw [climAnomaly_of A s 366 (climEntry A m (s.map obsOf)) hv h]
  refine congrArg Except.ok (Prod.ext ?_ ?_) <;> apply List.map_congr_left <;> intro x hx <;>
    simp only [if_pos (ownDay_range true x.1 (hv x hx)).2]

theorem climAnomaly_monthly (A : Climatology.Args K) (m : ℕ) (s : List (Day K × Option K)) (hm : A.movingAvgClim = some m)
    (hf : A.freq = .month) (hsd : A.sd = none) (hw : A.wraparound = true) (h1 : 1 ≤ m) (h2 : m ≤ 12)
    (hs : s.Pairwise (fun x y => x.1.jd ≤ y.1.jd)) (hv : ∀ x ∈ s, RealDate x.1) (hspan : ∀ p, A.timespan = some p → p.1 ≤ p.2) :
    climAnomaly A s = .ok (s.map (fun x => diff x.2 (if ownDay true x.1 ≤ 12 then climEntryMonth A m (s.map obsOf) (ownDay true x.1 - 1) else none)),
      s.map (fun x => if ownDay true x.1 ≤ 12 then climEntryMonth A m (s.map obsOf) (ownDay true x.1 - 1) else none)) := by
  have h := Climatology.climatology_circular A (s.map obsOf) m 12 hm (.inr ⟨hf, rfl⟩) hsd hw h1 h2 (by rw [List.pairwise_map]; exact hs)
    (by intro o ho; obtain ⟨x, hx, rfl⟩ := List.mem_map.mp ho; exact validDate_of_real x (hv x hx)) hspan
  have h0 : ∀ c : ℕ → Option K, ∀ i, Climatology.withLeapday (A.interpolateLeapday && decide ((12 : ℕ) = 366)) A.respectLeapYears c i = c i := by
    intro c i
    simp [Climatology.withLeapday]
  simp only [h0] at h
  exact climAnomaly_of A s 12 (climEntryMonth A m (s.map obsOf)) hv h

/-- the series of a column -/
def seriesOf (d : DF N T K) (c : N) : List (T × Option K) := d.rows.map (fun x => (x.1, x.2 c))

/-- usual conditions for an adapted frame: sorted by time, existing dates; the requested columns exist, once each, and the names of the
added columns are new -/
structure ClimReady (climName : N → N) (ret : Bool) (cs : List N) (d : DF N (Day K) K) : Prop where
  sorted : d.rows.Pairwise (fun x y => x.1.jd ≤ y.1.jd)
  dates : ∀ x ∈ d.rows, RealDate x.1
  exist : ∀ c ∈ cs, c ∈ d.cols
  once : cs.Nodup
  new : ret = true → (∀ c ∈ cs, climName c ∉ d.cols) ∧ (cs.map climName).Nodup

/-- **C83.** For a daily climatology, each requested column holds, at each time, the observation minus the entry of the climatology of that
column for the day of the year the observation belongs to; the added column holds that entry. This needs `respect_leap_years=True`
among the arguments of the adapter, or only observations from leap years or from before March. -/
theorem clim_adapter_same_day_partial (A : Climatology.Args K) (m : ℕ) (climName : N → N) (ret : Bool) (columns : Option (List N))
    (d : DF N (Day K) K) (hd : ClimReady climName ret (columns.getD d.cols) d) (hm : A.movingAvgClim = some m) (hf : A.freq = .day)
    (hsd : A.sd = none) (hw : A.wraparound = true) (h1 : 1 ≤ m) (h2 : m ≤ 366) (hspan : ∀ p, A.timespan = some p → p.1 ≤ p.2)
    (hleap : A.respectLeapYears = true ∨ ∀ x ∈ d.rows, x.1.month ≤ 2 ∨ Climatology.isLeap x.1.year = true) :
    ∃ out, climAdapt A climName ret columns (some d) = .ok out ∧
      out.cols = d.cols ++ (if ret then (columns.getD d.cols).map climName else []) ∧
      out.rows.map Prod.fst = d.rows.map Prod.fst ∧
      (∀ c ∈ columns.getD d.cols, column out c = d.rows.map (fun x =>
        diff (x.2 c) (climEntry A m ((seriesOf d c).map obsOf) (ownDay A.respectLeapYears x.1 - 1)))) ∧
      (ret = true → ∀ c ∈ columns.getD d.cols, column out (climName c) = d.rows.map (fun x =>
        climEntry A m ((seriesOf d c).map obsOf) (ownDay A.respectLeapYears x.1 - 1))) ∧
      ∀ c ∉ columns.getD d.cols, (ret = true → c ∉ (columns.getD d.cols).map climName) → column out c = column d c := by
  have hday : ∀ x ∈ d.rows, ownDay true x.1 = ownDay A.respectLeapYears x.1 := by
    intro x hx
    rcases hleap with h | h
    · rw [h]
    · unfold ownDay
      rcases h x hx with h | h
      · cases hr : A.respectLeapYears with
        | true => rfl
        | false =>
          obtain ⟨g1, -⟩ := hd.dates x hx
          rcases (by omega : x.1.month = 1 ∨ x.1.month = 2) with e | e <;> rw [e] <;> simp [Climatology.dayOfYear, Climatology.monthLength]
      · rw [h]; simp
  have hfn : ∀ c, climAnomaly A (seriesOf d c) = .ok
      (d.rows.map (fun x => diff (x.2 c) (climEntry A m ((seriesOf d c).map obsOf) (ownDay A.respectLeapYears x.1 - 1))),
        d.rows.map (fun x => climEntry A m ((seriesOf d c).map obsOf) (ownDay A.respectLeapYears x.1 - 1))) := by
    intro c
    rw [climAnomaly_daily A m (seriesOf d c) hm hf hsd hw h1 h2 (by unfold seriesOf; rw [List.pairwise_map]; exact hd.sorted)
      (by intro x hx; obtain ⟨y, hy, rfl⟩ := List.mem_map.mp hx; exact hd.dates y hy) hspan]
    refine congrArg Except.ok (Prod.ext ?_ ?_) <;> simp only [seriesOf, List.map_map] <;> apply List.map_congr_left <;> intro x hx <;>
      simp only [Function.comp, hday x hx]
  obtain ⟨out, ho, hr⟩ := clim_adapter_columns (climAnomaly A) climName ret columns d hd.exist hd.once
    (fun c _ => ⟨_, hfn c, by simp, by simp⟩) hd.new
  refine ⟨out, ho, hr.cols, hr.index, ?_, ?_, hr.others⟩
  · intro c hc
    obtain ⟨r, e1, e2, -⟩ := hr.requested c hc
    have := (hfn c).symm.trans e1
    rw [e2, ← Except.ok.inj this]
  · intro hret c hc
    obtain ⟨r, e1, -, e2⟩ := hr.requested c hc
    have := (hfn c).symm.trans e1
    rw [e2 hret, ← Except.ok.inj this]

/-- **C83, negation.** By default the adapter compares an observation made after February in an ordinary year with the entry of the day
before: the climatology numbers the days as in a leap year, the lookup as in the year of the observation. -/
theorem clim_adapter_day_before (A : Climatology.Args K) (m : ℕ) (climName : N → N) (columns : Option (List N))
    (d : DF N (Day K) K) (hd : ClimReady climName false (columns.getD d.cols) d) (hm : A.movingAvgClim = some m) (hf : A.freq = .day)
    (hsd : A.sd = none) (hw : A.wraparound = true) (h1 : 1 ≤ m) (h2 : m ≤ 366) (hspan : ∀ p, A.timespan = some p → p.1 ≤ p.2)
    (hr : A.respectLeapYears = false) (hl : ∀ x ∈ d.rows, 2 < x.1.month ∧ Climatology.isLeap x.1.year = false) :
    ∃ out, climAdapt A climName false columns (some d) = .ok out ∧
      ∀ c ∈ columns.getD d.cols, column out c = d.rows.map (fun x =>
        diff (x.2 c) (climEntry A m ((seriesOf d c).map obsOf) (ownDay A.respectLeapYears x.1 - 1 - 1))) := by
  have hday : ∀ x ∈ d.rows, ownDay true x.1 = ownDay A.respectLeapYears x.1 - 1 := by
    intro x hx
    rw [hr, ← doy_own x.1 (hd.dates x hx)]
    have h := (Climatology.doy_correct x.1.month x.1.day (hd.dates x hx).1 (hd.dates x hx).2.1 x.1.year).1
    have h3 : Climatology.doy x.1.month x.1.day (some x.1.year) = Climatology.dayOfYear true x.1.month x.1.day - 1 := by
      rw [← h]
      unfold Climatology.doy
      simp only
      rw [if_pos (hl x hx)]
    rw [h3]
    rfl
  have hfn : ∀ c, climAnomaly A (seriesOf d c) = .ok
      (d.rows.map (fun x => diff (x.2 c) (climEntry A m ((seriesOf d c).map obsOf) (ownDay A.respectLeapYears x.1 - 1 - 1))),
        d.rows.map (fun x => climEntry A m ((seriesOf d c).map obsOf) (ownDay A.respectLeapYears x.1 - 1 - 1))) := by
    intro c
    rw [climAnomaly_daily A m (seriesOf d c) hm hf hsd hw h1 h2 (by unfold seriesOf; rw [List.pairwise_map]; exact hd.sorted)
      (by intro x hx; obtain ⟨y, hy, rfl⟩ := List.mem_map.mp hx; exact hd.dates y hy) hspan]
    refine congrArg Except.ok (Prod.ext ?_ ?_) <;> simp only [seriesOf, List.map_map] <;> apply List.map_congr_left <;> intro x hx <;>
      simp only [Function.comp, hday x hx]
  obtain ⟨out, ho, hres⟩ := clim_adapter_columns (climAnomaly A) climName false columns d hd.exist hd.once
    (fun c _ => ⟨_, hfn c, by simp, by simp⟩) hd.new
  refine ⟨out, ho, ?_⟩
  intro c hc
  obtain ⟨r, e1, e2, -⟩ := hres.requested c hc
  rw [e2, ← Except.ok.inj ((hfn c).symm.trans e1)]

/-- **C83, negation.** With a monthly climatology (`output_freq="month"`) the day of the year is looked up among the months: from 13 January
on every anomaly is missing, before that day `k` of January is compared with month `k`. -/
theorem clim_adapter_monthly (A : Climatology.Args K) (m : ℕ) (climName : N → N) (columns : Option (List N))
    (d : DF N (Day K) K) (hd : ClimReady climName false (columns.getD d.cols) d) (hm : A.movingAvgClim = some m) (hf : A.freq = .month)
    (hsd : A.sd = none) (hw : A.wraparound = true) (h1 : 1 ≤ m) (h2 : m ≤ 12) (hspan : ∀ p, A.timespan = some p → p.1 ≤ p.2) :
    ∃ out, climAdapt A climName false columns (some d) = .ok out ∧
      ∀ c ∈ columns.getD d.cols, column out c = d.rows.map (fun x =>
        if x.1.month = 1 ∧ x.1.day ≤ 12 then diff (x.2 c) (climEntryMonth A m ((seriesOf d c).map obsOf) (x.1.day - 1)) else none) := by
  have hfn : ∀ c, climAnomaly A (seriesOf d c) = .ok
      (d.rows.map (fun x => if x.1.month = 1 ∧ x.1.day ≤ 12 then diff (x.2 c) (climEntryMonth A m ((seriesOf d c).map obsOf) (x.1.day - 1)) else none),
        d.rows.map (fun x => if x.1.month = 1 ∧ x.1.day ≤ 12 then climEntryMonth A m ((seriesOf d c).map obsOf) (x.1.day - 1) else none)) := by
    intro c
    rw [climAnomaly_monthly A m (seriesOf d c) hm hf hsd hw h1 h2 (by unfold seriesOf; rw [List.pairwise_map]; exact hd.sorted)
      (by intro x hx; obtain ⟨y, hy, rfl⟩ := List.mem_map.mp hx; exact hd.dates y hy) hspan]
    have hone : ∀ x ∈ d.rows, (ownDay true x.1 ≤ 12 ↔ x.1.month = 1 ∧ x.1.day ≤ 12) ∧ (x.1.month = 1 → ownDay true x.1 = x.1.day) := by
      intro x hx
      obtain ⟨g1, g2, g3, -⟩ := hd.dates x hx
      have hj : x.1.month = 1 → ownDay true x.1 = x.1.day := by
        intro e
        simp [ownDay, e, Climatology.dayOfYear]
      refine ⟨⟨fun h => ?_, fun h => by rw [hj h.1]; exact h.2⟩, hj⟩
      by_cases e : x.1.month = 1
      · exact ⟨e, by rw [← hj e]; exact h⟩
      · exfalso
        have : 31 ≤ ownDay true x.1 := by
          unfold ownDay Climatology.dayOfYear
          obtain ⟨k, hk⟩ : ∃ k, x.1.month - 1 = k + 1 := ⟨x.1.month - 2, by omega⟩
          rw [hk, List.range_succ_eq_map]
          simp [Climatology.monthLength]
          omega
        omega
    refine congrArg Except.ok (Prod.ext ?_ ?_) <;> simp only [seriesOf, List.map_map] <;> apply List.map_congr_left <;> intro x hx
    · simp only [Function.comp]
      by_cases h : x.1.month = 1 ∧ x.1.day ≤ 12
      · rw [if_pos ((hone x hx).1.mpr h), if_pos h, (hone x hx).2 h.1]
      · rw [if_neg (fun h' => h ((hone x hx).1.mp h')), if_neg h]
        unfold diff
        cases x.2 c <;> rfl
    · simp only [Function.comp]
      by_cases h : x.1.month = 1 ∧ x.1.day ≤ 12
      · rw [if_pos ((hone x hx).1.mpr h), if_pos h, (hone x hx).2 h.1]
      · rw [if_neg (fun h' => h ((hone x hx).1.mp h')), if_neg h]
  obtain ⟨out, ho, hres⟩ := clim_adapter_columns (climAnomaly A) climName false columns d hd.exist hd.once
    (fun c _ => ⟨_, hfn c, by simp, by simp⟩) hd.new
  refine ⟨out, ho, ?_⟩
  intro c hc
  obtain ⟨r, e1, e2, -⟩ := hres.requested c hc
  rw [e2, ← Except.ok.inj ((hfn c).symm.trans e1)]

/-- **C83.** A requested column that is not there is refused. -/
theorem clim_adapter_missing_column (A : Climatology.Args K) (climName : N → N) (ret : Bool) (c : N) (cs : List N) (d : DF N (Day K) K)
    (hc : c ∉ d.cols) : climAdapt A climName ret (some (c :: cs)) (some d) = .error .keyError := by
  unfold climAdapt climAdaptWith basicAdapt
  simp only [Option.getD_some, List.foldlM_cons]
  have : climStep (climAnomaly A) climName ret d c = .error .keyError := if_neg hc
  rw [this]
  rfl

/-- **C83.** If the climatology of a requested column cannot be computed the adapter raises the same exception, whatever columns come before
(as far as they have a climatology) and after it. -/
theorem clim_adapter_error (A : Climatology.Args K) (climName : N → N) (ret : Bool) (pre post : List N) (c : N) (d : DF N (Day K) K)
    (hc : ∀ x ∈ pre, x ∈ d.cols) (hcd : c ∈ d.cols) (hnd : (pre ++ [c]).Nodup)
    (hpre : ∀ x ∈ pre, ∃ r, climAnomaly A (d.rows.map (fun r => (r.1, r.2 x))) = .ok r ∧ r.1.length = d.rows.length ∧ r.2.length = d.rows.length)
    (hn : ret = true → (∀ x ∈ pre, climName x ∉ d.cols) ∧ (pre.map climName).Nodup)
    (hcn : ret = true → c ∉ pre.map climName) (e : Climatology.Err)
    (he : Climatology.calcClimatology A ((d.rows.map (fun r => (r.1, r.2 c))).map obsOf) = .error e) :
    climAdapt A climName ret (some (pre ++ c :: post)) (some d) = .error (match e with
      | .keyError => .keyError
      | .valueError => .valueError) := by
  rw [List.nodup_append] at hnd
  obtain ⟨out, h1, q1, q2, q3, q4⟩ := clim_adapter_columns (climAnomaly A) climName ret (some pre) d hc hnd.1 hpre hn
  unfold climAdaptWith basicAdapt at h1
  simp only [Option.getD_some] at h1 q1 q3 q4
  have hser := map_pair_eq out.rows d.rows c q2 (q4 c (fun h => hnd.2.2 c h c (by simp) rfl) hcn)
  unfold climAdapt climAdaptWith basicAdapt
  simp only [Option.getD_some]
  rw [List.foldlM_append, h1]
  simp only [bind, Except.bind, List.foldlM_cons]
  have hstep : climStep (climAnomaly A) climName ret out c = .error (ofClimErr e) := by
    unfold climStep
    rw [if_pos (by rw [q1]; exact List.mem_append_left _ hcd), hser]
    unfold climAnomaly
    rw [he]
  rw [hstep]
  cases e <;> rfl

/-- **C83.** A reader without data gives an empty frame when all columns are meant, and an error when columns are named. -/
theorem clim_adapter_no_data (A : Climatology.Args K) (climName : N → N) (ret : Bool) (c : N) (cs : List N) :
    climAdapt A climName ret none none = .ok (⟨[], []⟩ : DF N (Day K) K) ∧
    climAdapt A climName ret (some (c :: cs)) none = .error .keyError :=
  ⟨rfl, rfl⟩

/-! ### Concrete cases -/

/-- mean, no smoothing of the observations, one day or month as window, wraparound -/
def exArgs (respect : Bool) (freq : Climatology.Freq) : Climatology.Args ℚ :=
  ⟨0, some 1, fun l => l.sum / l.length, none, none, none, true, respect, false, true, 1, 1, freq⟩

/-- 1 March 2021, 2 March 2021 and 1 March 2022 -/
def exFrame : DF (List Char) (Day ℚ) ℚ :=
  ⟨["x".toList], [(⟨0, 2021, 3, 1⟩, fun _ => some 1), (⟨1, 2021, 3, 2⟩, fun _ => some 10), (⟨365, 2022, 3, 1⟩, fun _ => some 3)]⟩

def exName (c : List Char) : List Char := c ++ "_climatology".toList

example : ClimReady exName true ((none : Option (List (List Char))).getD exFrame.cols) exFrame where
  sorted := by decide +kernel
  dates := by
    intro x hx
    simp only [exFrame, List.mem_cons, List.not_mem_nil, or_false] at hx
    rcases hx with rfl | rfl | rfl <;> (unfold RealDate; decide +kernel)
  exist := by intro c hc; exact hc
  once := by decide +kernel
  new := by intro _; decide +kernel

/-- with `respect_leap_years=True`: anomalies from the means 2 (1 March) and 10 (2 March) -/
example : ((climAdapt (exArgs true .day) exName true none (some exFrame)).toOption.map (fun d =>
    (d.cols, column d "x".toList, column d "x_climatology".toList))) =
    some (["x".toList, "x_climatology".toList], [some (-1), some 0, some 1], [some 2, some 10, some 2]) := by decide +kernel

/-- by default: 1 March has no anomaly (no entry for 29 February), 2 March is compared with the mean of 1 March -/
example : ((climAdapt (exArgs false .day) exName false none (some exFrame)).toOption.map (fun d => column d "x".toList)) =
    some [none, some 8, none] := by decide +kernel

example : ((climAdapt (exArgs false .month) exName false none (some exFrame)).toOption.map (fun d => column d "x".toList)) =
    some [none, none, none] := by decide +kernel

/-- a frequency that does not exist: KeyError without a window, ValueError with one -/
example : climAdapt { exArgs true .day with movingAvgClim := none, freq := .other } exName false (some ["x".toList]) (some exFrame) = .error .keyError ∧
    climAdapt { exArgs true .day with freq := .other } exName false (some ["x".toList]) (some exFrame) = .error .valueError :=
  ⟨clim_adapter_error _ _ _ [] [] _ _ (by simp) (by simp [exFrame]) (by simp) (by simp) (by simp) (by simp) .keyError rfl,
   clim_adapter_error _ _ _ [] [] _ _ (by simp) (by simp [exFrame]) (by simp) (by simp) (by simp) (by simp) .valueError rfl⟩

/-- **C83, negation.** With `return_clim=True` and a reader that hands out the same frame again, the second read of all columns treats the
climatology of the first read as data: a third column appears and the column `x_climatology` holds anomalies. -/
theorem clim_adapter_second_read :
    let adapt := fun d => climAdapt (exArgs true .day) exName true none (some d)
    ((readInPlace adapt 1 exFrame).toOption.map (fun d => (d.cols.length, column d "x_climatology".toList))) =
      some (2, [some 2, some 10, some 2]) ∧
    ((readInPlace adapt 2 exFrame).toOption.map (fun d => (d.cols.length, column d "x_climatology".toList))) =
      some (3, [some 0, some 0, some 0]) := by
  constructor <;> decide +kernel

theorem exFrame_ready (ret : Bool) : ClimReady exName ret ((none : Option (List (List Char))).getD exFrame.cols) exFrame where
  sorted := by decide +kernel
  dates := by
    intro x hx
    simp only [exFrame, List.mem_cons, List.not_mem_nil, or_false] at hx
    rcases hx with rfl | rfl | rfl <;> (unfold RealDate; decide +kernel)
  exist := by intro c hc; exact hc
  once := by decide +kernel
  new := by intro _; decide +kernel
/-- the theorems applied to the frame above -/
example := clim_adapter_same_day_partial (exArgs true .day) 1 exName true none exFrame (exFrame_ready true) rfl rfl rfl rfl (by decide) (by decide)
  (by intro p hp; simp [exArgs] at hp) (.inl rfl)
example := clim_adapter_day_before (exArgs false .day) 1 exName none exFrame (exFrame_ready false) rfl rfl rfl rfl (by decide) (by decide)
  (by intro p hp; simp [exArgs] at hp) rfl (by decide +kernel)
example := clim_adapter_monthly (exArgs false .month) 1 exName none exFrame (exFrame_ready false) rfl rfl rfl rfl (by decide) (by decide)
  (by intro p hp; simp [exArgs] at hp)
example := clim_adapter_missing_column (exArgs false .month) exName true "y".toList [] exFrame (by decide)
example := clim_adapter_no_data (exArgs false .month) exName true "y".toList []

end Verif.Adapters
