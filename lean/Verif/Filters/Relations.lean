import Mathlib.Tactic.Ring
import Mathlib.Tactic.FieldSimp
import Mathlib.Tactic.Linarith
import Verif.Filters.Props

/-!
C94, filters: `exp_filter` looks at the past only, `boxcar_filter` at its window only; missing observations have no influence; both follow a
change of units of the data and a shift of the time axis.
-/

set_option linter.unusedSectionVars false

namespace Verif.Filters

/-! ### Specification -/

/-- the data in other units: `v ↦ a v + b`, missing values stay missing -/
def inUnits {K : Type} [Field K] (a b : K) (obs : List (K × Option K)) : List (K × Option K) :=
  obs.map (fun o => (o.1, o.2.map (fun v => a * v + b)))

/-- all observations `c` later -/
def later {K : Type} [Field K] (c : K) (obs : List (K × Option K)) : List (K × Option K) := obs.map (fun o => (o.1 + c, o.2))

/-- a usable observation: neither NaN nor the no-data value -/
def IsUsable {K : Type} (nan : K) (o : K × Option K) : Prop := o.2 ≠ none ∧ o.2 ≠ some nan

instance {K : Type} [DecidableEq K] (nan : K) : DecidablePred (IsUsable nan) := fun _ => inferInstanceAs (Decidable (_ ∧ _))

/-- no usable value is turned into the no-data value and vice versa -/
def KeepsNoData {K : Type} [Field K] (a b nan nan' : K) (obs : List (K × Option K)) : Prop :=
  ∀ o ∈ obs, ∀ v, o.2 = some v → (a * v + b = nan' ↔ v = nan)

/-! ### Boxcar -/

section
variable {K : Type} [Field K] [LinearOrder K]

theorem usable_units (a b nan nan' : K) (obs : List (K × Option K)) (h : KeepsNoData a b nan nan' obs) (o : K × Option K) (ho : o ∈ obs) :
    usable nan' (o.2.map (fun v => a * v + b)) = (usable nan o.2).map (fun v => a * v + b) := by
  have h' := h o ho
  cases e : o.2 with
  | none => rfl
  | some v =>
    have := h' v e
    simp only [usable, Option.map_some]
    by_cases hv : v = nan
    · rw [if_pos hv, if_pos (this.mpr hv)]; rfl
    · rw [if_neg hv, if_neg (fun k => hv (this.mp k))]; rfl

theorem accumulate_units (a b nan nan' limit t0 : K) (l : List (K × Option K)) (h : KeepsNoData a b nan nan' l) (s : K × Nat) :
    accumulate nan' limit t0 (inUnits a b l) (a * s.1 + (s.2 : K) * b, s.2) =
      (a * (accumulate nan limit t0 l s).1 + ((accumulate nan limit t0 l s).2 : K) * b, (accumulate nan limit t0 l s).2) := by
  induction l generalizing s with
  | nil => rfl
  | cons o l ih =>
    have ih' := ih (fun p hp => h p (List.mem_cons_of_mem _ hp))
    have hu := usable_units a b nan nan' (o :: l) h o List.mem_cons_self
    simp only [inUnits, List.map_cons, accumulate] at ih' ⊢
    rw [hu]
    cases usable nan o.2 with
    | none => exact ih' s
    | some v =>
      simp only [Option.map_some]
      split
      · have := ih' (s.1 + v, s.2 + 1)
        rw [← this]
        congr 2
        push_cast; ring
      · rfl

theorem average_units [CharZero K] (a b : K) (minObs : Int) (s : K × Nat) :
    average minObs (a * s.1 + (s.2 : K) * b, s.2) = (average minObs s).map (fun v => a * v + b) := by
  unfold average
  split
  · by_cases h : s.2 = 0
    · simp [h]
    · have h' : (s.2 : K) ≠ 0 := by exact_mod_cast h
      simp only [if_neg h, Option.map_some, Option.some.injEq]
      field_simp
  · rfl

theorem boxcarLoop_units [CharZero K] (a b nan nan' limit : K) (fillna : Bool) (minObs : Int) (before after : List (K × Option K))
    (h : KeepsNoData a b nan nan' (before ++ after)) :
    boxcarLoop nan' limit fillna minObs (inUnits a b before) (inUnits a b after) =
      (boxcarLoop nan limit fillna minObs before after).map (Option.map (fun v => a * v + b)) := by
  induction after generalizing before with
  | nil => rfl
  | cons o after ih =>
    have hu := usable_units a b nan nan' _ h o (by simp)
    have ih' := ih (o :: before) (fun p hp => h p (by simp only [List.mem_append, List.mem_cons] at hp ⊢; tauto))
    have e1 := accumulate_units a b nan nan' limit o.1 (o :: after) (fun p hp => h p (List.mem_append_right _ hp)) (0, 0)
    have e2 := accumulate_units a b nan nan' limit o.1 before (fun p hp => h p (List.mem_append_left _ hp))
      (accumulate nan limit o.1 (o :: after) (0, 0))
    simp only [Nat.cast_zero, mul_zero, zero_mul, add_zero] at e1
    simp only [inUnits, List.map_cons] at ih' e1 e2 ⊢
    simp only [boxcarLoop, List.map_cons]
    rw [hu, e1, e2, average_units, ih']
    congr 1
    simp only [Option.isSome_map]
    split <;> rfl

/-- C94, boxcar: in other units (an arbitrary series, also unsorted) the filter gives the same result in these units. -/
theorem boxcar_units [CharZero K] (a b nan nan' window : K) (fillna : Bool) (minObs : Int) (obs : List (K × Option K))
    (h : KeepsNoData a b nan nan' obs) :
    boxcarFilter (inUnits a b obs) window nan' fillna minObs =
      (boxcarFilter obs window nan fillna minObs).map (Option.map (fun v => a * v + b)) :=
  boxcarLoop_units a b nan nan' (window / 2) fillna minObs [] obs h

theorem accumulate_later (c nan limit t0 : K) (l : List (K × Option K)) (s : K × Nat) :
    accumulate nan limit (t0 + c) (later c l) s = accumulate nan limit t0 l s := by
  induction l generalizing s with
  | nil => rfl
  | cons o l ih =>
    simp only [later, List.map_cons, accumulate] at ih ⊢
    cases usable nan o.2 with
    | none => exact ih s
    | some v => simp only [add_sub_add_right_eq_sub, ih]

theorem boxcarLoop_later (c nan limit : K) (fillna : Bool) (minObs : Int) (before after : List (K × Option K)) :
    boxcarLoop nan limit fillna minObs (later c before) (later c after) = boxcarLoop nan limit fillna minObs before after := by
  induction after generalizing before with
  | nil => rfl
  | cons o after ih =>
    have ih' := ih (o :: before)
    have e1 := accumulate_later c nan limit o.1 (o :: after) (0, 0)
    have e2 := accumulate_later c nan limit o.1 before
    simp only [later, List.map_cons] at ih' e1 e2 ⊢
    simp only [boxcarLoop, e1, e2, ih']

/-- C94, boxcar: a shift of the time axis changes nothing (an arbitrary series, also unsorted). -/
theorem boxcar_later (c nan window : K) (fillna : Bool) (minObs : Int) (obs : List (K × Option K)) :
    boxcarFilter (later c obs) window nan fillna minObs = boxcarFilter obs window nan fillna minObs :=
  boxcarLoop_later c nan (window / 2) fillna minObs [] obs

/-- C94, boxcar: two sorted series with the same observation `o` (at positions `i`, `j`) and the same usable observations in the window around it, in
any order: the filtered values agree, whatever lies outside of the window and whatever is missing. -/
theorem boxcar_local [IsStrictOrderedRing K] (obs obs' : List (K × Option K)) (window nan : K) (fillna : Bool) (minObs : Int)
    (hs : obs.Pairwise (fun a b => a.1 ≤ b.1)) (hs' : obs'.Pairwise (fun a b => a.1 ≤ b.1)) (i j : Nat) (o : K × Option K)
    (hi : obs[i]? = some o) (hj : obs'[j]? = some o)
    (hw : (obs.filter (fun p => decide (IsUsable nan p ∧ |p.1 - o.1| ≤ window / 2))).Perm
      (obs'.filter (fun p => decide (IsUsable nan p ∧ |p.1 - o.1| ≤ window / 2)))) :
    (boxcarFilter obs window nan fillna minObs)[i]? = (boxcarFilter obs' window nan fillna minObs)[j]? := by
  have hr : ∀ l : List (K × Option K), inReach nan window o.1 l =
      (l.filter (fun p => decide (IsUsable nan p ∧ |p.1 - o.1| ≤ window / 2))).filterMap Prod.snd := by
    intro l
    induction l with
    | nil => rfl
    | cons p l ih =>
      obtain ⟨t, v⟩ := p
      unfold inReach validObs at ih ⊢
      rw [List.filter_cons, List.filterMap_cons]
      cases v with
      | none => simpa [IsUsable] using ih
      | some v =>
        by_cases hv : v = nan
        · simpa [IsUsable, hv] using ih
        · by_cases ht : |t - o.1| ≤ window / 2
          · simp only [Option.bind_some, if_neg hv]
            rw [List.filter_cons_of_pos (by simpa using ht), List.map_cons, ih]
            simp [IsUsable, hv, ht]
          · simp only [Option.bind_some, if_neg hv]
            rw [List.filter_cons_of_neg (by simpa using ht), ih]
            simp [IsUsable, hv, ht]
  have hp : (inReach nan window o.1 obs).Perm (inReach nan window o.1 obs') := by
    rw [hr, hr]; exact hw.filterMap _
  rw [boxcar_filter_correct _ _ _ _ _ hs, boxcar_filter_correct _ _ _ _ _ hs', List.getElem?_map, List.getElem?_map, hi, hj,
    Option.map_some, Option.map_some]
  congr 1
  unfold boxcarSpec
  simp only
  have hnil : inReach nan window o.1 obs = [] ↔ inReach nan window o.1 obs' = [] :=
    ⟨fun k => List.nil_perm.mp (k ▸ hp), fun k => List.perm_nil.mp (k ▸ hp)⟩
  simp only [hp.length_eq, hp.sum_eq, hnil]

end

/-! ### Exponential filter -/

/-- C94, exponential filter: later observations do not change the filtered values. -/
theorem exp_causal (past future : List (ℝ × Option ℝ)) (ctime : ℤ) (nan : ℝ) :
    (expFilter (past ++ future) ctime nan).take past.length = expFilter past ctime nan := by
  unfold expFilter
  generalize (none : Option ExpState) = s
  induction past generalizing s with
  | nil => rfl
  | cons o past ih => simp only [List.cons_append, expLoop, List.length_cons, List.take_succ_cons, ih]

/-- C94, exponential filter: leaving out missing observations changes no value at the others. -/
theorem exp_missing (obs : List (ℝ × Option ℝ)) (ctime : ℤ) (nan : ℝ) :
    expFilter (obs.filter (fun o => decide (IsUsable nan o))) ctime nan =
      ((obs.zip (expFilter obs ctime nan)).filter (fun r => decide (IsUsable nan r.1))).map Prod.snd := by
  unfold expFilter
  generalize (none : Option ExpState) = s
  induction obs generalizing s with
  | nil => rfl
  | cons o obs ih =>
    by_cases h : IsUsable nan o
    · simp only [expLoop, List.zip_cons_cons]
      rw [List.filter_cons_of_pos (by simpa using h), List.filter_cons_of_pos (by simpa using h), expLoop, ih, List.map_cons]
    · simp only [expLoop, List.zip_cons_cons]
      rw [List.filter_cons_of_neg (by simpa using h), List.filter_cons_of_neg (by simpa using h), ih]
      have hu : usable nan o.2 = none := by
        unfold IsUsable at h
        cases e : o.2 with
        | none => rfl
        | some v =>
          have : v = nan := by simpa [e] using h
          simp [usable, this]
      simp only [expStep, hu]

/-- C94, exponential filter: a shift of the time axis changes nothing. -/
theorem exp_later (c : ℝ) (obs : List (ℝ × Option ℝ)) (ctime : ℤ) (nan : ℝ) :
    expFilter (later c obs) ctime nan = expFilter obs ctime nan := by
  have key : ∀ (obs : List (ℝ × Option ℝ)) (s : Option ExpState),
      expLoop ctime nan (s.map (fun s => { s with lastJd := s.lastJd + c })) (later c obs) = expLoop ctime nan s obs := by
    intro obs
    induction obs with
    | nil => intro s; rfl
    | cons o obs ih =>
      intro s
      have hst : expStep ctime nan (s.map (fun s => { s with lastJd := s.lastJd + c })) (o.1 + c, o.2) =
          ((expStep ctime nan s o).1.map (fun s => { s with lastJd := s.lastJd + c }), (expStep ctime nan s o).2) := by
        unfold expStep
        cases usable nan o.2 with
        | none => rfl
        | some v =>
          cases s with
          | none => rfl
          | some s => simp only [Option.map_some, add_sub_add_right_eq_sub]
      simp only [later, List.map_cons, expLoop] at ih ⊢
      rw [hst, ih]
  exact key obs none

/-- C94, exponential filter: in other units the filter gives the same result in these units. -/
theorem exp_units (a b nan nan' : ℝ) (ctime : ℤ) (obs : List (ℝ × Option ℝ)) (h : KeepsNoData a b nan nan' obs) :
    expFilter (inUnits a b obs) ctime nan' = (expFilter obs ctime nan).map (Option.map (fun v => a * v + b)) := by
  have key : ∀ (obs : List (ℝ × Option ℝ)) (_ : KeepsNoData a b nan nan' obs) (s : Option ExpState),
      expLoop ctime nan' (s.map (fun s => { s with lastFiltered := a * s.lastFiltered + b })) (inUnits a b obs) =
        (expLoop ctime nan s obs).map (Option.map (fun v => a * v + b)) := by
    intro obs
    induction obs with
    | nil => intro _ s; rfl
    | cons o obs ih =>
      intro h s
      have hu := usable_units a b nan nan' _ h o List.mem_cons_self
      have hst : expStep ctime nan' (s.map (fun s => { s with lastFiltered := a * s.lastFiltered + b })) (o.1, o.2.map (fun v => a * v + b)) =
          ((expStep ctime nan s o).1.map (fun s => { s with lastFiltered := a * s.lastFiltered + b }),
            (expStep ctime nan s o).2.map (fun v => a * v + b)) := by
        unfold expStep
        simp only [hu]
        cases usable nan o.2 with
        | none => rfl
        | some v =>
          cases s with
          | none => rfl
          | some s =>
            simp only [Option.map_some]
            congr 2
            · congr 1; ring
            · ring
      have ih' := ih (fun p hp => h p (List.mem_cons_of_mem _ hp)) (expStep ctime nan s o).1
      simp only [inUnits, List.map_cons, expLoop] at ih' ⊢
      rw [hst, ih']
  exact key obs h none

/-! ### Concrete cases -/

/-- °C to °F with the same no-data value -/
example : KeepsNoData (9 / 5 : ℚ) 32 (-99) (-99) [(0, some 10), (1, none), (2, some 20)] := by
  intro o ho v hv
  simp only [List.mem_cons, List.not_mem_nil, or_false] at ho
  rcases ho with rfl | rfl | rfl
  · obtain rfl : (10 : ℚ) = v := by simpa using hv
    norm_num
  · simp at hv
  · obtain rfl : (20 : ℚ) = v := by simpa using hv
    norm_num

/-- two sorted series that differ outside of the window (the last observation) and in a gap -/
example : (boxcarFilter ([(0, some 1), (1, none), (2, some 3), (9, some 7)] : List (ℚ × Option ℚ)) 4 (-99) false 1)[2]? =
    (boxcarFilter ([(0, some 1), (2, some 3), (8, some 1)] : List (ℚ × Option ℚ)) 4 (-99) false 1)[1]? :=
  boxcar_local _ _ 4 (-99) false 1 (by decide +kernel) (by decide +kernel) 2 1 (2, some 3) rfl rfl (by decide +kernel)

end Verif.Filters
