import Verif.Validation.Model
import Verif.DataManager.Spec

/-! Specification: expected result keys, well behaved calculators, first failure of a location. -/

namespace Verif.Validation

open DataManager (Col Admissible)

variable {α : Type} [LinearOrder α] {T V W Info : Type}

/-- The result keys a user expects: for every calculator `(n, k)` the sorted combinations of columns of `k` different data sets, with
`only_with_reference` those that contain the reference. -/
def Expected (S : Setup α T V W Info) (key : Key α) : Prop :=
  ∃ c ∈ S.calcs, (∃ ref, Admissible S.ds ref c.1.2 key) ∧ (S.onlyWithReference = true → S.reference ∈ dsNames key)

/-- `m` is a dictionary with exactly the fields `F`, all values are arrays of length one. -/
def IsRow (F : List Field) (m : Metrics W) : Prop := m.map Prod.fst = F ∧ ∀ e ∈ m, ∃ w, e.2 = .arr w

/-- The value of a field of a row. -/
def HasValue (m : Metrics W) (f : Field) (w : W) : Prop := (f, .arr w) ∈ m

/-- The frames a calculator is called with for the result `key`: the empty frame of the dummy result with columns named by data set
(validation.py:396-401, 512-515), or selected, scaled and renamed data. -/
def Arises (S : Setup α T V W Info) (info : Info) (key : Key α) (frame : Frame α T V) : Prop :=
  frame = ⟨[], (dsNames key).map (fun a => (.ds a, []))⟩ ∨
  ∃ M data d, dataForKey S M key = .ok data ∧ data.index ≠ [] ∧ scaled S info key data = .ok d ∧ frame = renamed S key d

/-- What a metrics calculator has to fulfil: the fields `F key` of a result do not depend on the data, there is a field "status", an empty
frame gives the template. -/
structure GoodCalculators (S : Setup α T V W Info) (F : Key α → List Field) : Prop where
  dsNodup : (S.ds.map Prod.fst).Nodup
  colsNodup : ∀ e ∈ S.ds, e.2.Nodup
  kPos : ∀ c ∈ S.calcs, 1 ≤ c.1.2
  kNodup : (S.calcs.map (fun c => c.1.2)).Nodup
  fieldsNodup : ∀ key, Expected S key → (F key).Nodup
  status : ∀ key, Expected S key → Field.plain "status" ∈ F key
  row : ∀ c ∈ S.calcs, ∀ key, Expected S key → key.length = c.1.2 → ∀ frame info m, Arises S info key frame → c.2 frame info = .ok m →
    IsRow (F key) m
  template : ∀ c ∈ S.calcs, ∀ key, Expected S key → key.length = c.1.2 → ∀ info,
    ∃ m, c.2 ⟨[], (dsNames key).map (fun a => (.ds a, []))⟩ info = .ok m

/-- Masking never removes a whole reference series. -/
def NeverAllMasked (S : Setup α T V W Info) : Prop :=
  ∀ mask, S.mask = some mask → ∀ ref info ref', mask ref info = .ok ref' → ref'.rows ≠ []

/-- The failure that makes a whole location fail while the result `key` is worked on, if any: the data cannot be selected, the scaling
raised. A result without data and a failing calculator concern only that result. -/
def keyFailure (S : Setup α T V W Info) (info : Info) (matched : List (List α × MFrame α T V)) (key : Key α) : Option ℤ :=
  match dataForKey S matched key with
  | .error _ => some VALIDATION_FAILED
  | .ok data =>
    if S.onlyWithReference = true ∧ S.reference ∉ dsNames key then none
    else if data.index = [] then none
    else match scaled S info key data with
      | .error e => some e.retcode
      | .ok _ => none

/-- The first failure of a location in the order of the stages, if any. `names k` are the result keys of length `k`. -/
def firstFailure (S : Setup α T V W Info) (names : ℕ → List (Key α)) (info : Info) : Option ℤ :=
  match S.getData info with
  | .error _ => some DATA_MANAGER_FAILED
  | .ok [] => some NO_GPI_DATA
  | .ok dfs =>
    match masked S info dfs with
    | .error e => some e.retcode
    | .ok none => none
    | .ok (some dfs') =>
      match onlyColumns S dfs' with
      | .error e => some e.retcode
      | .ok dfs'' =>
        match S.calcs.mapM (fun c => S.matcher dfs'' S.temporalRef c.1.1 c.1.2) with
        | .error _ => some TEMPORAL_MATCHING_FAILED
        | .ok matched => (S.calcs.zip matched).findSome? (fun cm =>
            if cm.2 = [] then some NO_TEMP_MATCHED_DATA
            else (names cm.1.1.2).findSome? (keyFailure S info cm.2))

/-- `names` are the result names in the order of `get_result_combinations`. -/
def AreNames (S : Setup α T V W Info) (names : ℕ → List (Key α)) : Prop :=
  ∀ k, 1 ≤ k → resultNames S k = .ok (names k) ∧ (names k).Nodup ∧ ∀ key, key ∈ names k ↔ ∃ ref, Admissible S.ds ref k key

/-- All reference data of the location is masked. -/
def AllMasked (S : Setup α T V W Info) (info : Info) : Prop :=
  ∃ mask, S.mask = some mask ∧ ∃ ref ref', mask ref info = .ok ref' ∧ ref'.rows = []

/-- The status `w` of a result of a location that did not fail as a whole: no matched data, a failed calculation, or what the calculator
reports. -/
def KeyStatus (S : Setup α T V W Info) (info : Info) (key : Key α) (w : W) : Prop :=
  ∃ dfs dfs' dfs'', S.getData info = .ok dfs ∧ dfs ≠ [] ∧ masked S info dfs = .ok (some dfs') ∧ onlyColumns S dfs' = .ok dfs'' ∧
  ∃ c ∈ S.calcs, c.1.2 = key.length ∧ ∃ M, S.matcher dfs'' S.temporalRef c.1.1 c.1.2 = .ok M ∧ M ≠ [] ∧
  ∃ data, dataForKey S M key = .ok data ∧
    ((data.index = [] ∧ w = S.ofCode NO_TEMP_MATCHED_DATA) ∨
     (data.index ≠ [] ∧ ∃ d, scaled S info key data = .ok d ∧
      ((∃ e, c.2 (renamed S key d) info = .error e ∧ w = S.ofCode METRICS_CALCULATION_FAILED) ∨
       ∃ m, c.2 (renamed S key d) info = .ok m ∧ HasValue m (.plain "status") w)))

end Verif.Validation
