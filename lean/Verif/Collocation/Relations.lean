import Verif.Collocation.Props

/-!
C96: relations between runs of temporal collocation. Another origin and unit of the time axis, and other units (or any other transformation) of the
data, come out unchanged; observations that are in no window are irrelevant; collocating twice changes nothing.
-/

set_option linter.unusedSectionVars false

namespace Verif.Collocation

variable {K : Type} [Field K] [LinearOrder K] [IsStrictOrderedRing K]

/-! ### Specification -/

/-- a time stamp on a clock with another origin and another unit -/
def clock (a b t : K) : K := a * t + b

/-- a row on the other clock, all values transformed by `g` -/
def reclock (a b : K) (g : K → K) (r : Row K K) : Row K K := ⟨clock a b r.time, r.cells.map (Option.map g)⟩

/-- a frame on the other clock -/
def reclockFrame (a b : K) (g : K → K) (f : Frame K K) : Frame K K := ⟨f.width, f.rows.map (reclock a b g)⟩

/-- a row of the result on the other clock: distances only follow the unit -/
def reclockOut (a b : K) (g : K → K) (r : OutRow K K) : OutRow K K :=
  ⟨clock a b r.time, r.cells.map (Option.map g), r.index.map (clock a b), r.distance.map (fun x => a * x)⟩

/-! ### Nearest neighbours -/

theorem clock_le {a : K} (ha : 0 < a) (b x y : K) : clock a b x ≤ clock a b y ↔ x ≤ y := by
  unfold clock; rw [add_le_add_iff_right, mul_le_mul_iff_right₀ ha]

theorem clock_lt {a : K} (ha : 0 < a) (b x y : K) : clock a b x < clock a b y ↔ x < y := by
  rw [← not_le, ← not_le, clock_le ha]

theorem clock_inj {a : K} (ha : 0 < a) (b x y : K) : clock a b x = clock a b y ↔ x = y := by
  rw [le_antisymm_iff, le_antisymm_iff, clock_le ha, clock_le ha]

theorem clock_sub {a : K} (b x y : K) : clock a b x - clock a b y = a * (x - y) := by unfold clock; ring

theorem clock_dist {a : K} (ha : 0 < a) (b x y : K) : |clock a b x - clock a b y| = a * |x - y| := by
  rw [clock_sub, abs_mul, abs_of_pos ha]

section
variable {a : K} (ha : 0 < a) (b : K) (g : K → K)

include ha in
theorem dedupe_reclock (rows : List (Row K K)) : dedupe (rows.map (reclock a b g)) = (dedupe rows).map (reclock a b g) := by
  induction rows with
  | nil => rfl
  | cons r rs ih =>
    simp only [List.map_cons, dedupe, ih, List.filter_map]
    congr 2
    apply List.filter_congr
    intro x _
    simp only [Function.comp, reclock, ne_eq, clock_inj ha]

include ha in
theorem dedupeTimes_clock (ts : List K) : dedupeTimes (ts.map (clock a b)) = (dedupeTimes ts).map (clock a b) := by
  induction ts with
  | nil => rfl
  | cons r rs ih =>
    simp only [List.map_cons, dedupeTimes, ih, List.filter_map]
    congr 2
    apply List.filter_congr
    intro x _
    simp only [Function.comp, ne_eq, clock_inj ha]

theorem foldl_reclock (f f' : Option (Row K K) → Row K K → Option (Row K K))
    (h : ∀ best x, f' (best.map (reclock a b g)) (reclock a b g x) = (f best x).map (reclock a b g)) (rows : List (Row K K)) (best : Option (Row K K)) :
    (rows.map (reclock a b g)).foldl f' (best.map (reclock a b g)) = (rows.foldl f best).map (reclock a b g) := by
  induction rows generalizing best with
  | nil => rfl
  | cons r rs ih => rw [List.map_cons, List.foldl_cons, List.foldl_cons, h, ih]

include ha in
theorem padRow_reclock (rows : List (Row K K)) (t : K) :
    padRow (rows.map (reclock a b g)) (clock a b t) = (padRow rows t).map (reclock a b g) := by
  unfold padRow
  refine foldl_reclock b g _ _ ?_ rows none
  intro best x
  simp only [reclock, clock_le ha]
  by_cases h : x.time ≤ t
  · simp only [if_pos h]
    cases best with
    | none => rfl
    | some q =>
      have e : ((reclock a b g q).time < clock a b x.time) = (q.time < x.time) := propext (clock_lt ha b _ _)
      simp only [Option.map_some, e]
      split <;> rfl
  · simp only [if_neg h]

include ha in
theorem backfillRow_reclock (rows : List (Row K K)) (t : K) :
    backfillRow (rows.map (reclock a b g)) (clock a b t) = (backfillRow rows t).map (reclock a b g) := by
  unfold backfillRow
  refine foldl_reclock b g _ _ ?_ rows none
  intro best x
  simp only [reclock, clock_le ha]
  by_cases h : t ≤ x.time
  · simp only [if_pos h]
    cases best with
    | none => rfl
    | some q =>
      have e : (clock a b x.time < (reclock a b g q).time) = (x.time < q.time) := propext (clock_lt ha b _ _)
      simp only [Option.map_some, e]
      split <;> rfl
  · simp only [if_neg h]

include ha in
theorem nearestRow_reclock (rows : List (Row K K)) (tol t : K) :
    nearestRow (rows.map (reclock a b g)) (a * tol) (clock a b t) = (nearestRow rows tol t).map (reclock a b g) := by
  unfold nearestRow
  rw [padRow_reclock ha, backfillRow_reclock ha]
  have fin : ∀ r : Row K K, (if |(reclock a b g r).time - clock a b t| ≤ a * tol then some (reclock a b g r) else none) =
      (if |r.time - t| ≤ tol then some r else none).map (reclock a b g) := by
    intro r
    simp only [reclock, clock_dist ha, mul_le_mul_iff_right₀ ha]
    split <;> rfl
  cases padRow rows t with
  | none =>
    cases backfillRow rows t with
    | none => rfl
    | some q => exact fin q
  | some p =>
    cases backfillRow rows t with
    | none => exact fin p
    | some q =>
      have e : (|(reclock a b g p).time - clock a b t| < |(reclock a b g q).time - clock a b t|) ↔ |p.time - t| < |q.time - t| := by
        simp only [reclock, clock_dist ha, mul_lt_mul_iff_right₀ ha]
      simp only [Option.map_some, e]
      by_cases h : |p.time - t| < |q.time - t|
      · simp only [if_pos h]; exact fin p
      · simp only [if_neg h]; exact fin q

include ha in
theorem isMonotonic_clock (ts : List K) : isMonotonic (ts.map (clock a b)) = isMonotonic ts := by
  unfold isMonotonic
  simp only [List.pairwise_map, clock_le ha, ge_iff_le]

theorem times_reclock (rows : List (Row K K)) : (rows.map (reclock a b g)).map Row.time = (rows.map Row.time).map (clock a b) := by
  rw [List.map_map, List.map_map]; rfl

/-- a lookup on the other clock -/
def reLookup (a b : K) (g : K → K) (x : K × Option (Row K K)) : K × Option (Row K K) := (clock a b x.1, x.2.map (reclock a b g))

include ha in
theorem reindexNearest_reclock (rows : List (Row K K)) (tol : K) (ref : List K) :
    reindexNearest (rows.map (reclock a b g)) (a * tol) (ref.map (clock a b)) =
      (reindexNearest rows tol ref).map (List.map (reLookup a b g)) := by
  unfold reindexNearest
  have hinj : Function.Injective (clock a b) := fun x y h => (clock_inj ha b x y).mp h
  rw [times_reclock]
  have e1 : ((rows.map Row.time).map (clock a b) = ref.map (clock a b)) = (rows.map Row.time = ref) :=
    propext ⟨fun h => hinj.list_map h, fun h => by rw [h]⟩
  simp only [e1, isMonotonic_clock ha, List.isEmpty_map]
  by_cases h1 : rows.map Row.time = ref
  · rw [if_pos h1, if_pos h1]
    simp only [Except.map, List.map_map]
    rfl
  · rw [if_neg h1, if_neg h1]
    by_cases h2 : ref.isEmpty
    · rw [if_pos h2, if_pos h2]; rfl
    · rw [if_neg h2, if_neg h2]
      by_cases h3 : isMonotonic (rows.map Row.time)
      · rw [if_pos h3, if_pos h3]
        simp only [Except.map, List.map_map]
        congr 1
        apply List.map_congr_left
        intro t _
        simp only [Function.comp, reLookup, nearestRow_reclock ha]
      · rw [if_neg h3, if_neg h3]; rfl

theorem ofLookup_reclock (width : Nat) (x : K × Option (Row K K)) :
    ofLookup width (reLookup a b g x) = reclockOut a b g (ofLookup width x) := by
  obtain ⟨t, r⟩ := x
  cases r with
  | none => simp [ofLookup, reLookup, reclockOut]
  | some r => rfl

theorem combineFirst_reclock (x y : OutRow K K) :
    combineFirst (reclockOut a b g x) (reclockOut a b g y) = reclockOut a b g (combineFirst x y) := by
  unfold combineFirst reclockOut
  simp only [OutRow.mk.injEq, true_and, Option.map_none, and_true]
  constructor
  · rw [List.zipWith_map, List.map_zipWith]
    congr 1
    funext u v
    cases u <;> rfl
  · cases x.index <;> rfl

theorem select_reclock (mask : List Bool) (rows : List (Row K K)) :
    select mask (rows.map (reclock a b g)) = (select mask rows).map (List.map (reclock a b g)) := by
  unfold select
  simp only [List.length_map]
  by_cases h : mask.length = rows.length
  · rw [if_pos h, if_pos h]
    simp only [Except.map]
    congr 1
    rw [List.zip_map_left, List.filterMap_map, List.map_filterMap]
    apply List.filterMap_congr
    intro x _
    simp only [Function.comp, Prod.map, id]
    split <;> rfl
  · rw [if_neg h, if_neg h]; rfl

include ha in
theorem nearestBranch_reclock (o : Opts) (window : K) (width : Nat) (rows : List (Row K K)) (ref : List K) (flagged : Option (List Bool)) :
    nearestBranch o (a * window) width (rows.map (reclock a b g)) (ref.map (clock a b)) flagged =
      (nearestBranch o window width rows ref flagged).map (List.map (reclockOut a b g)) := by
  have hlook : ∀ c : List (K × Option (Row K K)), (c.map (reLookup a b g)).map (ofLookup width) = (c.map (ofLookup width)).map (reclockOut a b g) := by
    intro c
    rw [List.map_map, List.map_map]
    apply List.map_congr_left
    intro x _
    exact ofLookup_reclock b g width x
  have hlast : ∀ c : List (OutRow K K), (c.map (reclockOut a b g)).map (fun r =>
      { r with
        index := if o.returnIndex || o.returnDistance then r.index else none
        distance := if o.returnDistance then r.index.map (· - r.time) else none }) =
      (c.map (fun r =>
      { r with
        index := if o.returnIndex || o.returnDistance then r.index else none
        distance := if o.returnDistance then r.index.map (· - r.time) else none })).map (reclockOut a b g) := by
    intro c
    rw [List.map_map, List.map_map]
    apply List.map_congr_left
    intro x _
    simp only [Function.comp, reclockOut, OutRow.mk.injEq, true_and]
    constructor
    · split <;> rfl
    · split
      · cases x.index with
        | none => rfl
        | some i => simp only [Option.map_some, clock_sub]
      · rfl
  unfold nearestBranch
  simp only [bind, Except.bind, pure, Except.pure]
  cases flagged with
  | none =>
    simp only
    rw [reindexNearest_reclock ha]
    cases reindexNearest rows window ref with
    | error e => rfl
    | ok c =>
      simp only [Except.map]
      rw [hlook, hlast]
  | some f =>
    simp only
    rw [select_reclock]
    cases select (f.map (!·)) rows with
    | error e => rfl
    | ok v =>
      simp only [Except.map]
      rw [reindexNearest_reclock ha]
      cases reindexNearest v window ref with
      | error e => rfl
      | ok c =>
        simp only [Except.map]
        by_cases hu : o.useInvalid = true
        · simp only [if_pos hu]
          rw [select_reclock]
          cases select f rows with
          | error e => rfl
          | ok q =>
            simp only [Except.map]
            rw [reindexNearest_reclock ha]
            cases reindexNearest q window ref with
            | error e => rfl
            | ok d =>
              simp only [Except.map]
              have hz : List.zipWith combineFirst ((c.map (ofLookup width)).map (reclockOut a b g)) ((d.map (ofLookup width)).map (reclockOut a b g)) =
                  (List.zipWith combineFirst (c.map (ofLookup width)) (d.map (ofLookup width))).map (reclockOut a b g) := by
                rw [List.zipWith_map, List.map_zipWith]
                congr 1
                funext x y
                exact combineFirst_reclock b g x y
              rw [hlook, hlook, hz, hlast]
        · simp only [if_neg hu]
          rw [hlook, hlast]

end

/-! ### Window means -/

section
variable {a : K} (ha : 0 < a) (b c d : K)

open Resample

include ha in
theorem advLower_clock (bound : K) (ts : List K) (j : Nat) : advLower (clock a b bound) (ts.map (clock a b)) j = advLower bound ts j := by
  induction ts generalizing j with
  | nil => rfl
  | cons t ts ih => simp only [List.map_cons, advLower, clock_le ha, ih]

include ha in
theorem advUpper_clock (bound : K) (ts : List K) (j u : Int) : advUpper (clock a b bound) (ts.map (clock a b)) j u = advUpper bound ts j u := by
  induction ts generalizing j u with
  | nil => rfl
  | cons t ts ih => simp only [List.map_cons, advUpper, clock_lt ha, ih]

theorem sum_affine (l : List K) : (l.map (fun v => c * v + d)).sum = c * l.sum + (l.length : K) * d := by
  induction l with
  | nil => simp
  | cons v l ih => simp only [List.map_cons, List.sum_cons, ih, List.length_cons]; push_cast; ring

theorem nanmean_units (vs : List (Option K)) :
    nanmean (vs.map (Option.map (fun v => c * v + d))) = (nanmean vs).map (fun v => c * v + d) := by
  have e : (vs.map (Option.map (fun v => c * v + d))).filterMap id = (vs.filterMap id).map (fun v => c * v + d) := by
    rw [List.filterMap_map, List.map_filterMap]
    rfl
  unfold nanmean
  simp only [e, List.isEmpty_map, List.length_map, sum_affine]
  by_cases h : (vs.filterMap id).isEmpty
  · simp only [if_pos h]; rfl
  · simp only [if_neg h, Option.map_some]
    have hn : ((vs.filterMap id).length : K) ≠ 0 := by
      rw [Nat.cast_ne_zero]
      intro h0
      exact h (by rw [List.length_eq_zero_iff.mp h0]; rfl)
    congr 1
    rw [add_div, mul_div_assoc, mul_div_cancel_left₀ _ hn]

include ha in
theorem step_clock (times : List K) (values : List (Option K)) (half last : K) (s : Nat × Int) (target : K) :
    step (times.map (clock a b)) (values.map (Option.map (fun v => c * v + d))) (a * half) (clock a b last) s (clock a b target) =
      ((step times values half last s target).1, (step times values half last s target).2.map (fun v => c * v + d)) := by
  have e1 : clock a b target - a * half = clock a b (target - half) := by unfold clock; ring
  have e2 : clock a b target + a * half = clock a b (target + half) := by unfold clock; ring
  unfold step
  simp only [e1, e2, ← List.map_drop, ← List.map_take, advLower_clock ha, advUpper_clock ha, clock_lt ha, List.length_map, nanmean_units]
  generalize (if target + half < last then advUpper (target + half) (times.drop (max 0 s.2).toNat) (max 0 s.2) s.2
    else (times.length : Int) - 1) = u
  congr 1
  split <;> rfl

include ha in
theorem loop_clock (times : List K) (values : List (Option K)) (half last : K) (s : Nat × Int) (targets : List K) :
    loop (times.map (clock a b)) (values.map (Option.map (fun v => c * v + d))) (a * half) (clock a b last) s (targets.map (clock a b)) =
      (loop times values half last s targets).map (Option.map (fun v => c * v + d)) := by
  induction targets generalizing s with
  | nil => rfl
  | cons t ts ih => simp only [List.map_cons, loop, step_clock ha, ih]

include ha in
theorem resampleMean_clock (times : List K) (values : List (Option K)) (targets : List K) (window : K) :
    resampleMean (times.map (clock a b)) (values.map (Option.map (fun v => c * v + d))) (targets.map (clock a b)) (a * window) =
      (resampleMean times values targets window).map (List.map (Option.map (fun v => c * v + d))) := by
  unfold resampleMean
  simp only [List.length_map, List.getLast?_map, List.isEmpty_map]
  by_cases h : times.length ≠ values.length
  · rw [if_pos h, if_pos h]; rfl
  · rw [if_neg h, if_neg h]
    cases times.getLast? with
    | none =>
      simp only [Option.map_none]
      split <;> rfl
    | some last =>
      simp only [Option.map_some, mul_div_assoc, loop_clock ha, Except.map]

theorem liftErr_map (k : List (Option K) → List (Option K)) (x : Except Resample.Err (List (Option K))) : liftErr (x.map k) = (liftErr x).map k := by
  cases x with
  | error e => cases e <;> rfl
  | ok x => rfl

theorem mapM_except {ε α β γ : Type} (f : α → Except ε β) (g : α → Except ε γ) (k : β → γ) (l : List α)
    (h : ∀ x ∈ l, g x = (f x).map k) : l.mapM g = (l.mapM f).map (List.map k) := by
  induction l with
  | nil => rfl
  | cons x l ih =>
    rw [List.mapM_cons, List.mapM_cons, ih (fun y hy => h y (List.mem_cons_of_mem _ hy)), h x List.mem_cons_self]
    simp only [bind, Except.bind, pure, Except.pure]
    cases f x with
    | error e => rfl
    | ok y =>
      simp only [Except.map]
      cases l.mapM f <;> rfl

theorem rowsOfColumns_clock (g : K → K) (ref : List K) (cols : List (List (Option K))) :
    rowsOfColumns (ref.map (clock a b)) (cols.map (List.map (Option.map g))) = (rowsOfColumns ref cols).map (reclockOut a b g) := by
  unfold rowsOfColumns
  rw [List.zipIdx_map, List.map_map, List.map_map]
  apply List.map_congr_left
  intro x _
  simp only [Function.comp, Prod.map, id, reclockOut, List.map_map, OutRow.mk.injEq, true_and, Option.map_none, and_true]
  apply List.map_congr_left
  intro q _
  simp only [Function.comp, List.getElem?_map]
  cases q[x.2]? with
  | none => rfl
  | some v => rfl

include ha in
theorem meanBranch_clock (o : Opts) (window : K) (width : Nat) (rows : List (Row K K)) (ref : List K) (flagged : Option (List Bool)) :
    meanBranch o (a * window) width (rows.map (reclock a b (fun v => c * v + d))) (ref.map (clock a b)) flagged =
      (meanBranch o window width rows ref flagged).map (List.map (reclockOut a b (fun v => c * v + d))) := by
  unfold meanBranch
  simp only [bind, Except.bind, pure, Except.pure]
  have key : ∀ mask : List Bool, (List.range width).mapM (m := Except Err) (fun i =>
      if mask.length ≠ (rows.map (reclock a b (fun v => c * v + d))).length then (.error .maskLength : Except Err (List (Option K)))
      else liftErr (resampleMean ((rows.map (reclock a b (fun v => c * v + d))).map Row.time)
        (((rows.map (reclock a b (fun v => c * v + d))).zip mask).filterMap (fun x => if x.2 then some ((x.1.cells[i]?).join) else none))
        (ref.map (clock a b)) (2 * (a * window)))) =
      ((List.range width).mapM (m := Except Err) (fun i =>
      if mask.length ≠ rows.length then (.error .maskLength : Except Err (List (Option K)))
      else liftErr (resampleMean (rows.map Row.time)
        ((rows.zip mask).filterMap (fun x => if x.2 then some ((x.1.cells[i]?).join) else none))
        ref (2 * window)))).map (List.map (List.map (Option.map (fun v => c * v + d)))) := by
    intro mask
    apply mapM_except
    intro i _
    simp only [List.length_map]
    by_cases h : mask.length ≠ rows.length
    · rw [if_pos h, if_pos h]; rfl
    · rw [if_neg h, if_neg h]
      rw [times_reclock, show 2 * (a * window) = a * (2 * window) by ring, ← liftErr_map, ← resampleMean_clock ha]
      congr 2
      rw [List.zip_map_left, List.filterMap_map, List.map_filterMap]
      apply List.filterMap_congr
      intro x _
      simp only [Function.comp, Prod.map, id, reclock, List.getElem?_map]
      split
      · cases x.1.cells[i]? with
        | none => rfl
        | some v => rfl
      · rfl
  have fin : ∀ q : Except Err (List (List (Option K))),
      (q.map (List.map (List.map (Option.map (fun v => c * v + d))))).bind (fun cols => .ok (rowsOfColumns (ref.map (clock a b)) cols)) =
      Except.map (List.map (reclockOut a b (fun v => c * v + d))) (q.bind (fun cols => .ok (rowsOfColumns ref cols))) := by
    intro q
    cases q with
    | error e => rfl
    | ok cols =>
      simp only [Except.map, Except.bind]
      rw [rowsOfColumns_clock]
  have hall : (rows.map (reclock a b (fun v => c * v + d))).map (fun _ => true) = rows.map (fun _ => true) := by rw [List.map_map]; rfl
  cases flagged with
  | none =>
    simp only
    rw [hall, key]
    exact fin _
  | some f =>
    simp only
    rw [hall, key]
    exact fin _

end

/-! ### The public functions -/

/-- What may be done to the values: anything for nearest neighbours, a change of units for means. -/
def Admissible (o : Opts) (g : K → K) : Prop := o.mean = true → ∃ c d : K, g = fun v => c * v + d

/-- **C96**, `temporal_collocation`: on a clock with another origin and another unit (window in the new unit), with the values transformed, the
result is the same: the same rows, on the other clock, with the transformed values, for every option, also flags and exceptions. -/
theorem collocation_clock {a : K} (ha : 0 < a) (b : K) (g : K → K) (o : Opts) (hg : Admissible o g) (ref : List K) (other : Frame K K) (window : K) :
    temporalCollocation o (ref.map (clock a b)) (reclockFrame a b g other) (a * window) =
      (temporalCollocation o ref other window).map (List.map (reclockOut a b g)) := by
  unfold temporalCollocation reclockFrame
  simp only [bind, Except.bind, pure, Except.pure, List.length_map]
  cases checkFlag o.flag ref.length with
  | error e => rfl
  | ok flagged =>
    simp only
    have e1 : (if (o.dropduplicates || !o.mean) = true then dedupe (other.rows.map (reclock a b g)) else other.rows.map (reclock a b g)) =
        (if (o.dropduplicates || !o.mean) = true then dedupe other.rows else other.rows).map (reclock a b g) := by
      split
      · exact dedupe_reclock ha b g _
      · rfl
    have e2 : (if (o.dropduplicates || !o.mean) = true then dedupeTimes (ref.map (clock a b)) else ref.map (clock a b)) =
        (if (o.dropduplicates || !o.mean) = true then dedupeTimes ref else ref).map (clock a b) := by
      split
      · exact dedupeTimes_clock ha b _
      · rfl
    rw [e1, e2]
    generalize (if (o.dropduplicates || !o.mean) = true then dedupe other.rows else other.rows) = rows
    generalize (if (o.dropduplicates || !o.mean) = true then dedupeTimes ref else ref) = rf
    have fin : ∀ q : Except Err (List (OutRow K K)),
        (q.map (List.map (reclockOut a b g))).bind (fun col => .ok (if o.dropna = true then col.filter (fun r => !allNaN r) else col)) =
        Except.map (List.map (reclockOut a b g)) (q.bind (fun col => .ok (if o.dropna = true then col.filter (fun r => !allNaN r) else col))) := by
      intro q
      cases q with
      | error e => rfl
      | ok col =>
        simp only [Except.map, Except.bind]
        congr 1
        split
        · rw [List.filter_map]
          congr 1
          apply List.filter_congr
          intro r _
          simp only [Function.comp, allNaN, reclockOut, List.all_map, Option.isNone_map]
          congr 3
          congr 1
          funext x
          cases x <;> rfl
        · rfl
    by_cases hm : o.mean = true
    · simp only [if_pos hm]
      obtain ⟨c, d, rfl⟩ := hg hm
      rw [meanBranch_clock ha]
      exact fin _
    · simp only [if_neg hm]
      rw [nearestBranch_reclock ha]
      exact fin _

/-- concrete case: hours from another midnight, values in percent, both methods, with a flag -/
example : temporalCollocation { returnDistance := true, flag := some [false, true] } ([0, 1].map (clock 24 5))
    (reclockFrame 24 5 (fun v => 100 * v) (⟨1, [⟨0, [some 10]⟩, ⟨2, [some 20]⟩]⟩ : Frame ℚ ℚ)) (24 * 1) =
    .ok [⟨5, [some 1000], some 5, some 0⟩, ⟨29, [some 1000], some 5, some (-24)⟩] ∧
  temporalCollocation { mean := true } ([0, 1].map (clock 24 5))
    (reclockFrame 24 5 (fun v => 100 * v) (⟨1, [⟨0, [some 10]⟩, ⟨2, [some 20]⟩]⟩ : Frame ℚ ℚ)) (24 * 1) =
    .ok [⟨5, [some 1000], none, none⟩, ⟨29, [some 1500], none, none⟩] := by
  constructor <;> decide +kernel

/-! ### Combined collocation -/

section
variable {a : K} (ha : 0 < a) (b : K) (g : K → K)

theorem cellsNth_reclock (width : Nat) (rows : List (Row K K)) (i : Nat) :
    cellsNth width (rows.map (reclock a b g)) i = (cellsNth width rows i).map (Option.map g) := by
  unfold cellsNth
  rw [List.getElem?_map]
  cases rows[i]? with
  | none => simp
  | some r => rfl

include ha in
theorem cellsAt_reclock (width : Nat) (rows : List (Row K K)) (t : K) :
    cellsAt width (rows.map (reclock a b g)) (clock a b t) = (cellsAt width rows t).map (Option.map g) := by
  unfold cellsAt
  rw [List.find?_map]
  have e : ((fun r : Row K K => decide (r.time = clock a b t)) ∘ reclock a b g) = fun r => decide (r.time = t) := by
    funext r
    simp only [Function.comp, reclock, clock_inj ha]
  rw [e]
  cases rows.find? (fun r => decide (r.time = t)) with
  | none => simp
  | some r => rfl

include ha in
theorem concatColumns_reclock (frames : List (Frame K K)) :
    concatColumns (frames.map (reclockFrame a b g)) = (concatColumns frames).map (List.map (reclock a b g)) := by
  have hinj : Function.Injective (clock a b) := fun x y h => (clock_inj ha b x y).mp h
  have hidx : (frames.map (reclockFrame a b g)).map (fun f => f.rows.map Row.time) =
      (frames.map (fun f => f.rows.map Row.time)).map (List.map (clock a b)) := by
    rw [List.map_map, List.map_map]
    apply List.map_congr_left
    intro f _
    exact times_reclock b g f.rows
  have hnth : ∀ i, (frames.map (reclockFrame a b g)).flatMap (fun f => cellsNth f.width f.rows i) =
      (frames.flatMap (fun f => cellsNth f.width f.rows i)).map (Option.map g) := by
    intro i
    rw [List.flatMap_map, List.map_flatMap]
    congr 1
    funext f
    exact cellsNth_reclock b g _ _ _
  have hat : ∀ t, (frames.map (reclockFrame a b g)).flatMap (fun f => cellsAt f.width f.rows (clock a b t)) =
      (frames.flatMap (fun f => cellsAt f.width f.rows t)).map (Option.map g) := by
    intro t
    rw [List.flatMap_map, List.map_flatMap]
    congr 1
    funext f
    exact cellsAt_reclock ha b g _ _ _
  have hun : unionTimes (frames.map (reclockFrame a b g)) = (unionTimes frames).map (clock a b) := by
    unfold unionTimes
    rw [← dedupeTimes_clock ha, List.flatMap_map, List.map_flatMap]
    congr 2
    funext f
    exact times_reclock b g f.rows
  unfold concatColumns
  simp only
  rw [hidx, hun]
  generalize frames.map (fun f => f.rows.map Row.time) = idx
  cases idx with
  | nil => rfl
  | cons i is =>
    simp only [List.map_cons]
    have e1 : (is.map (List.map (clock a b))).all (fun j => decide (j = i.map (clock a b))) = is.all (fun j => decide (j = i)) := by
      rw [List.all_map]
      congr 1
      funext j
      simp only [Function.comp]
      exact decide_eq_decide.mpr ⟨fun h => hinj.list_map h, fun h => by rw [h]⟩
    have e2 : (i.map (clock a b) :: is.map (List.map (clock a b))).all (fun j => decide j.Nodup) = (i :: is).all (fun j => decide j.Nodup) := by
      rw [← List.map_cons, List.all_map]
      congr 1
      funext j
      simp only [Function.comp]
      exact decide_eq_decide.mpr (List.nodup_map_iff hinj)
    rw [e1, e2]
    by_cases h1 : is.all (fun j => decide (j = i)) = true
    · rw [if_pos h1, if_pos h1]
      simp only [Except.map]
      rw [List.zipIdx_map, List.map_map, List.map_map]
      congr 1
      apply List.map_congr_left
      intro x _
      simp only [Function.comp, Prod.map, id, hnth, reclock]
    · rw [if_neg h1, if_neg h1]
      by_cases h2 : (i :: is).all (fun j => decide j.Nodup) = true
      · rw [if_pos h2, if_pos h2]
        simp only [Except.map, List.map_map]
        congr 1
        apply List.map_congr_left
        intro t _
        simp only [Function.comp, hat, reclock]
      · rw [if_neg h2, if_neg h2]; rfl

theorem combinedDropna_reclock (cb : Combined) (rows : List (Row K K)) :
    combinedDropna cb (rows.map (reclock a b g)) = (combinedDropna cb rows).map (reclock a b g) := by
  have e : ∀ x : Option K, (x.map g).isSome = x.isSome := fun x => by cases x <;> rfl
  cases cb with
  | no => rfl
  | any =>
    simp only [combinedDropna, List.filter_map]
    congr 1
    apply List.filter_congr
    intro r _
    simp only [Function.comp, reclock, List.all_map]
    congr 1
    funext x
    exact e x
  | all =>
    simp only [combinedDropna, List.filter_map]
    congr 1
    apply List.filter_congr
    intro r _
    simp only [Function.comp, reclock, List.any_map]
    congr 1
    funext x
    exact e x

include ha in
/-- **C96**, `combined_temporal_collocation`: the same for any number of frames and every option. -/
theorem combined_clock (o : Opts) (hg : Admissible o g) (comb : Combined) (addRef : Bool) (reference : Frame K K) (others : List (Frame K K))
    (window : K) :
    combinedCollocation o comb addRef (reclockFrame a b g reference) (others.map (reclockFrame a b g)) (a * window) =
      (combinedCollocation o comb addRef reference others window).map (List.map (reclock a b g)) := by
  unfold combinedCollocation
  simp only [bind, Except.bind, pure, Except.pure]
  have hone : ∀ f : Frame K K, collocateOne o ((reclockFrame a b g reference).rows.map Row.time) (a * window) (reclockFrame a b g f) =
      (collocateOne o (reference.rows.map Row.time) window f).map (reclockFrame a b g) := by
    intro f
    unfold collocateOne
    have h := collocation_clock ha b g { o with returnIndex := false, returnDistance := false } hg (reference.rows.map Row.time) f window
    rw [← times_reclock b g] at h
    rw [show (reclockFrame a b g reference).rows = reference.rows.map (reclock a b g) from rfl, h]
    cases temporalCollocation { o with returnIndex := false, returnDistance := false } (reference.rows.map Row.time) f window with
    | error e => rfl
    | ok c =>
      simp only [Except.map, reclockFrame, List.map_map]
      rfl
  have hm : (others.map (reclockFrame a b g)).mapM (collocateOne o ((reclockFrame a b g reference).rows.map Row.time) (a * window)) =
      (others.mapM (collocateOne o (reference.rows.map Row.time) window)).map (List.map (reclockFrame a b g)) := by
    rw [← mapM_except (g := fun f => collocateOne o ((reclockFrame a b g reference).rows.map Row.time) (a * window) (reclockFrame a b g f))
      (fun f => collocateOne o (reference.rows.map Row.time) window f) (reclockFrame a b g) others (fun f _ => hone f)]
    clear hone
    induction others with
    | nil => rfl
    | cons f fs ih => rw [List.map_cons, List.mapM_cons, List.mapM_cons, ih]
  rw [hm]
  cases others.mapM (collocateOne o (reference.rows.map Row.time) window) with
  | error e => rfl
  | ok dfs =>
    simp only [Except.map]
    have e : (if addRef = true then Frame.mk (reclockFrame a b g reference).width (if o.dropduplicates = true then dedupe (reclockFrame a b g reference).rows
        else (reclockFrame a b g reference).rows) :: dfs.map (reclockFrame a b g) else dfs.map (reclockFrame a b g)) =
        (if addRef = true then Frame.mk reference.width (if o.dropduplicates = true then dedupe reference.rows else reference.rows) :: dfs else dfs).map
          (reclockFrame a b g) := by
      split
      · rw [List.map_cons]
        congr 1
        simp only [reclockFrame]
        congr 1
        split
        · exact dedupe_reclock ha b g _
        · rfl
      · rfl
    rw [e, concatColumns_reclock ha]
    generalize concatColumns (if addRef = true then Frame.mk reference.width (if o.dropduplicates = true then dedupe reference.rows else reference.rows) :: dfs
      else dfs) = q
    cases q with
    | error e => rfl
    | ok rows =>
      simp only [Except.map]
      rw [combinedDropna_reclock]

end

/-! ### Irrelevant observations -/

/-- the observations that are in the window of some reference time -/
def inSomeWindow (ref : List K) (window : K) (rows : List (Row K K)) : List (Row K K) :=
  rows.filter (fun r => ref.any (fun t => decide (|r.time - t| ≤ window)))

theorem isNearest_congr {rows rows' : List (Row K K)} {ref : List K} {w t : K} (ht : t ∈ ref)
    (h : inSomeWindow ref w rows = inSomeWindow ref w rows') {m : Option (Row K K)} (hm : IsNearest rows w t m) : IsNearest rows' w t m := by
  have hmem : ∀ x : Row K K, |x.time - t| ≤ w → (x ∈ rows' → x ∈ rows) := by
    intro x hx hx'
    have : x ∈ inSomeWindow ref w rows' := List.mem_filter.mpr ⟨hx', by rw [List.any_eq_true]; exact ⟨t, ht, by simpa using hx⟩⟩
    rw [← h] at this
    exact (List.mem_filter.mp this).1
  cases m with
  | none =>
    intro x hx
    by_contra hc
    exact absurd (hm x (hmem x (not_lt.mp hc) hx)) hc
  | some r =>
    obtain ⟨h1, h2, h3⟩ := hm
    refine ⟨h1, ?_, ?_⟩
    · have hf : ∀ l : List (Row K K), l.find? (fun x => decide (x.time = r.time)) = (inSomeWindow ref w l).find? (fun x => decide (x.time = r.time)) := by
        intro l
        unfold inSomeWindow
        rw [List.find?_filter]
        congr 1
        funext x
        by_cases hx : x.time = r.time
        · have : ref.any (fun t => decide (|x.time - t| ≤ w)) = true := by
            rw [List.any_eq_true]
            exact ⟨t, ht, by rw [hx]; simpa using h1⟩
          simp [hx]
          exact ⟨t, ht, h1⟩
        · simp [hx]
      rw [hf, ← h, ← hf]
      exact h2
    · intro x hx
      by_cases hc : |x.time - t| ≤ w
      · exact h3 x (hmem x hc hx)
      · refine ⟨le_trans h1 (not_le.mp hc).le, fun he => ?_⟩
        exact absurd (he ▸ h1) hc

/-- **C96**: two sorted frames that agree on the observations in the windows of the reference times give the same result; all other observations are
irrelevant. -/
theorem nearest_local (o : Opts) (ref : List K) (f f' : Frame K K) (window : K) (hw : 0 ≤ window) (hm : o.mean = false) (hf : o.flag = none)
    (hwd : f.width = f'.width) (h1 : Monotone f.rows) (h2 : Monotone f'.rows) (h : inSomeWindow ref window f.rows = inSomeWindow ref window f'.rows) :
    temporalCollocation o ref f window = temporalCollocation o ref f' window := by
  have closed : ∀ q : Frame K K, Monotone q.rows → temporalCollocation o ref q window =
      .ok (let col := (dedupeTimes ref).map (fun t => outOf o q.width t (nearestRow (dedupe q.rows) window t))
        if o.dropna then col.filter (fun r => !allNaN r) else col) := by
    intro q hq
    obtain ⟨out, hout⟩ := nearest_total o ref q window hm hf hq
    rw [hout]
    unfold temporalCollocation at hout
    simp only [hf, checkFlag, hm, Bool.not_false, Bool.or_true, if_true,
      Bool.false_eq_true, if_false, bind, Except.bind, pure, Except.pure] at hout
    rw [nearestBranch_plain o window q.width _ _ hw (dedupe_nodup q.rows)] at hout
    cases hr : reindexNearest (dedupe q.rows) window (dedupeTimes ref) with
    | error e => rw [hr] at hout; simp at hout
    | ok c =>
      rw [hr] at hout
      exact hout.symm
  rw [closed f h1, closed f' h2, hwd]
  have e : (dedupeTimes ref).map (fun t => outOf o f'.width t (nearestRow (dedupe f.rows) window t)) =
      (dedupeTimes ref).map (fun t => outOf o f'.width t (nearestRow (dedupe f'.rows) window t)) := by
    apply List.map_congr_left
    intro t ht
    have ht' : t ∈ ref := (mem_dedupeTimes ref t).mpr ht
    congr 1
    exact isNearest_unique (isNearest_congr ht' h (isNearest_dedupe (nearestRow_isNearest (dedupe f.rows) window t)))
      (isNearest_dedupe (nearestRow_isNearest (dedupe f'.rows) window t))
  simp only [e]

/-- concrete case: observations before, between and after the windows -/
example : inSomeWindow [0, 10] 1 ([⟨-5, [some 1]⟩, ⟨0, [some 2]⟩, ⟨5, [some 3]⟩, ⟨9, [some 4]⟩, ⟨20, [none]⟩] : List (Row ℚ ℚ)) =
      inSomeWindow [0, 10] 1 [⟨0, [some 2]⟩, ⟨9, [some 4]⟩] ∧
    temporalCollocation {} [0, 10] (⟨1, [⟨-5, [some 1]⟩, ⟨0, [some 2]⟩, ⟨5, [some 3]⟩, ⟨9, [some 4]⟩, ⟨20, [none]⟩]⟩ : Frame ℚ ℚ) 1 =
      .ok [⟨0, [some 2], none, none⟩, ⟨10, [some 4], none, none⟩] := by
  constructor <;> decide +kernel

/-! ### Twice -/

/-- the result as a frame -/
def asFrame (width : Nat) (out : List (OutRow K K)) : Frame K K := ⟨width, out.map (fun r => ⟨r.time, r.cells⟩)⟩

/-- **C96**: collocating the result again, to the same reference and with any window, gives the same result. -/
theorem collocation_twice (ref : List K) (f : Frame K K) (w w' : K) (hw : 0 ≤ w) (out : List (OutRow K K))
    (h : temporalCollocation {} ref f w = .ok out) : temporalCollocation {} ref (asFrame f.width out) w' = .ok out := by
  obtain ⟨hd, _⟩ := nearest_collocation {} ref f w hw rfl rfl rfl out h
  have hnone : ∀ r ∈ out, r.index = none ∧ r.distance = none := by
    intro r hr
    obtain ⟨_, _, _, h3, h4⟩ := (nearest_collocation {} ref f w hw rfl rfl rfl out h).2 r hr
    exact ⟨h3, h4⟩
  have htimes : out.map OutRow.time = dedupeTimes ref := by
    unfold temporalCollocation at h
    simp only [checkFlag, Bool.not_false, Bool.or_true, if_true,
      Bool.false_eq_true, if_false, bind, Except.bind, pure, Except.pure] at h
    rw [nearestBranch_plain {} w f.width _ _ hw (dedupe_nodup f.rows)] at h
    cases hr : reindexNearest (dedupe f.rows) w (dedupeTimes ref) with
    | error e => rw [hr] at h; simp at h
    | ok c =>
      rw [hr] at h
      simp only [Except.ok.injEq] at h
      subst h
      rw [List.map_map]
      exact List.map_id _
  have hrows : (asFrame f.width out).rows.map Row.time = out.map OutRow.time := by
    unfold asFrame; rw [List.map_map]; rfl
  unfold temporalCollocation
  simp only [checkFlag, Bool.not_false, Bool.or_true, if_true,
    Bool.false_eq_true, if_false, bind, Except.bind, pure, Except.pure]
  rw [dedupe_of_nodup (by rw [hrows, htimes]; exact nodup_dedupeTimes ref)]
  unfold nearestBranch reindexNearest
  rw [if_pos (by rw [hrows, htimes])]
  simp only [bind, Except.bind, pure, Except.pure, asFrame, List.map_map]
  congr 1
  conv_rhs => rw [← List.map_id out]
  apply List.map_congr_left
  intro r hr
  obtain ⟨h3, h4⟩ := hnone r hr
  simp only [Function.comp, ofLookup, id]
  cases r with
  | mk t cs i d =>
    simp only at h3 h4
    subst h3; subst h4
    rfl

/-- With `dropna=True` this is different: a reference time without data takes the data of a neighbour in the second round. -/
theorem collocation_twice_dropna : ∃ (ref : List ℚ) (f : Frame ℚ ℚ) (w : ℚ) (out : List (OutRow ℚ ℚ)),
    temporalCollocation { dropna := true } ref f w = .ok out ∧ temporalCollocation { dropna := true } ref (asFrame f.width out) w ≠ .ok out :=
  ⟨[0, 1], ⟨1, [⟨0, [none]⟩, ⟨1, [some 5]⟩]⟩, 1, [⟨1, [some 5], none, none⟩], by decide +kernel, by decide +kernel⟩

/-- concrete case -/
example : temporalCollocation {} [0, 1, 7] (⟨1, [⟨1, [some 5]⟩, ⟨3, [some 6]⟩]⟩ : Frame ℚ ℚ) 1 =
    .ok [⟨0, [some 5], none, none⟩, ⟨1, [some 5], none, none⟩, ⟨7, [none], none, none⟩] := by decide +kernel

end Verif.Collocation
