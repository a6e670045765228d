import Verif.Validation.Pair
import Verif.Matchers.Units

/-!
C99, third part: a validation with data sets in other units, on another clock.
-/

set_option linter.unusedSectionVars false
set_option synthInstance.maxSize 1000

namespace Verif.Validation

open DataManager (Col col)
open Collocation (clock reclock recolumn)

/-! ### Specification -/

section
variable {α K : Type} [LinearOrder α] [_root_.Field K] [LinearOrder K] [IsStrictOrderedRing K]

/-- a data set in other units, on another clock -/
def DF.other (a b : K) (g : K → K) (d : DF α K K) : DF α K K := ⟨d.cols, d.rows.map (fun r => (clock a b r.1, fun c => (r.2 c).map g))⟩

/-- all data sets that were read, every one in units of its own -/
def otherData (a b : K) (u : α → K → K) (dfs : List (α × DF α K K)) : List (α × DF α K K) :=
  dfs.map (fun e => (e.1, e.2.other a b (u e.1)))

/-- matched data, every column in the units of its data set -/
def MFrame.other (a b : K) (u : α → K → K) (m : MFrame α K K) : MFrame α K K :=
  ⟨m.cols, m.rows.map (fun r => (clock a b r.1, fun c => (r.2 c).map (u (ofLex c).1)))⟩

/-- the function for the values of a column of the frame given to scaler and calculators -/
def labelFun (u : α → K → K) : Label α → K → K
  | .ds n => u n
  | _ => id

/-- the data given to the scaler, every column in the units of its data set -/
def Frame.other (a b : K) (u : α → K → K) (f : Frame α K K) : Frame α K K :=
  ⟨f.index.map (clock a b), f.columns.map (fun c => (c.1, c.2.map (Option.map (labelFun u c.1))))⟩

/-- the data given to the calculators, all columns in the same other units -/
def Frame.inUnits (a b : K) (g : K → K) (f : Frame α K K) : Frame α K K :=
  ⟨f.index.map (clock a b), f.columns.map (fun c => (c.1, c.2.map (Option.map g)))⟩

/-- `S'` is the validation `S` of the data in other units, on another clock: same data sets, references, scaling and calculators; the data
read are those of `S` in other units, matching (and masking) is that of the other clock. -/
structure Reunited {W Info : Type} (a b : K) (u : α → K → K) (S S' : Setup α K K W Info) : Prop where
  ds : S'.ds = S.ds
  reference : S'.reference = S.reference
  temporalRef : S'.temporalRef = S.temporalRef
  scalingRef : S'.scalingRef = S.scalingRef
  scale : S'.scale = S.scale
  calcs : S'.calcs = S.calcs
  renameCols : S'.renameCols = S.renameCols
  onlyWithReference : S'.onlyWithReference = S.onlyWithReference
  ofCode : S'.ofCode = S.ofCode
  getData : ∀ info, S'.getData info = (S.getData info).map (otherData a b u)
  matcher : ∀ dfs ref n k, S'.matcher (otherData a b u dfs) ref n k =
    (S.matcher dfs ref n k).map (List.map (fun e => (e.1, e.2.other a b u)))
  mask : (S.mask = none ∧ S'.mask = none) ∨ ∃ m m', S.mask = some m ∧ S'.mask = some m' ∧
    ∀ d info, m' (d.other a b (u S.temporalRef)) info = (m d info).map (DF.other a b (u S.temporalRef))

end

/-! ### Matchers -/

section
variable {α K : Type} [LinearOrder α] [_root_.Field K] [LinearOrder K] [IsStrictOrderedRing K]
variable (a b : K) (u : α → K → K)

theorem toM_other (e : α × DF α K K) : (e.1, toM (e.2.other a b (u e.1))) = Matchers.reunit a b u (e.1, toM e.2) := by
  unfold toM DF.other Matchers.reunit
  simp only [List.map_map]
  congr 2
  apply List.map_congr_left
  intro r _
  simp [Function.comp_def, reclock]

theorem zip_lookup_other (cols : List (α × α)) (cells : List (Option K)) (c : Col α) :
    (((cols.map toLex).zip (List.zipWith (fun g v => Option.map g v) (cols.map (fun c => u c.1)) cells)).lookup c).join =
      (((cols.map toLex).zip cells).lookup c).join.map (u (ofLex c).1) := by
  induction cols generalizing cells with
  | nil => rfl
  | cons x cols ih =>
    cases cells with
    | nil => rfl
    | cons v cells =>
      simp only [List.map_cons, List.zipWith_cons_cons, List.zip_cons_cons, List.lookup_cons]
      by_cases h : c = toLex x
      · have : (c == toLex x) = true := beq_iff_eq.mpr h
        rw [this]
        simp only [h]
        rfl
      · have : (c == toLex x) = false := by simpa using h
        simp only [this]
        exact ih cells

theorem ofM_other (m : Matchers.DF (α × α) K) : ofM (Matchers.reunitMatched a b u m) = (ofM m).other a b u := by
  unfold ofM Matchers.reunitMatched MFrame.other
  simp only [List.map_map]
  congr 1
  apply List.map_congr_left
  intro r _
  simp only [Function.comp, recolumn]
  congr 1
  funext c
  exact zip_lookup_other u m.columns r.cells c

theorem viaM_other (f f' : List (α × Matchers.DF α K) → Except Matchers.Err (List (List α × Matchers.DF (α × α) K)))
    (h : ∀ dict : List (α × Matchers.DF α K), (∀ e ∈ dict, Matchers.WellFormed e.2) →
      f' (dict.map (Matchers.reunit a b u)) = (f dict).map (List.map (fun e => (e.1, Matchers.reunitMatched a b u e.2))))
    (dfs : List (α × DF α K K)) :
    viaM f' (otherData a b u dfs) = (viaM f dfs).map (List.map (fun e => (e.1, e.2.other a b u))) := by
  unfold viaM
  have e : (otherData a b u dfs).map (fun e => (e.1, toM e.2)) = (dfs.map (fun e => (e.1, toM e.2))).map (Matchers.reunit a b u) := by
    unfold otherData
    rw [List.map_map, List.map_map]
    exact List.map_congr_left (fun e _ => toM_other a b u e)
  rw [e, h]
  · cases f (dfs.map (fun e => (e.1, toM e.2))) with
    | error _ => rfl
    | ok out =>
      simp only [Except.map, List.map_map]
      congr 1
      apply List.map_congr_left
      intro x _
      simp only [Function.comp, ofM_other]
  · intro x hx
    obtain ⟨d, -, rfl⟩ := List.mem_map.mp hx
    exact toM_wf d.2

variable {a} (ha : 0 < a)

include ha in
/-- the default matcher on the other clock: the window is the same length of time -/
theorem basicMatcher_other {window : K} (hw : 0 ≤ window) (dfs : List (α × DF α K K)) (ref : α) (n k : ℕ) :
    basicMatcher (a * window) (otherData a b u dfs) ref n k =
      (basicMatcher window dfs ref n k).map (List.map (fun e => (e.1, e.2.other a b u))) :=
  viaM_other a b u _ _ (fun dict hd => Matchers.combinatoryMatcher_units ha b u dict hd hw ref n) dfs

include ha in
/-- the combined matcher on the other clock -/
theorem oneMatcher_other {hour : K} {window : Option K} (hw : 0 ≤ window.getD hour) (dfs : List (α × DF α K K)) (ref : α) (n k : ℕ) :
    oneMatcher (a * hour) (window.map (a * ·)) (otherData a b u dfs) ref n k =
      (oneMatcher hour window dfs ref n k).map (List.map (fun e => (e.1, e.2.other a b u))) :=
  viaM_other a b u _ _ (fun dict hd => Matchers.combinedMatcher_units ha b u dict hd hw ref (some n)) dfs

end

/-! ### One location -/

section
variable {α K W Info : Type} [LinearOrder α] [_root_.Field K] [LinearOrder K] [IsStrictOrderedRing K]
variable {a b : K} {u : α → K → K}

theorem select_other (m : MFrame α K K) (sel : List (Col α)) :
    select (m.other a b u) sel = (select m sel).map (Frame.other a b u) := by
  unfold select
  rw [show (m.other a b u).cols = m.cols from rfl]
  by_cases h : sel.all (fun c => decide (c ∈ m.cols)) = true
  · rw [if_pos h, if_pos h]
    have hf : (m.other a b u).rows.filter (fun r => sel.all (fun c => (r.2 c).isSome)) =
        (m.rows.filter (fun r => sel.all (fun c => (r.2 c).isSome))).map
          (fun r => (clock a b r.1, fun c => (r.2 c).map (u (ofLex c).1))) := by
      unfold MFrame.other
      rw [List.filter_map]
      congr 1
      apply List.filter_congr
      intro r _
      simp
    simp only [hf, Except.map, Frame.other, List.map_map, Function.comp_def, labelFun]
  · rw [if_neg h, if_neg h]; rfl

theorem getData_other (tref : α) (matched : List (List α × MFrame α K K)) (sel : List (Col α)) :
    getDataForResultTuple tref (matched.map (fun e => (e.1, e.2.other a b u))) sel =
      (getDataForResultTuple tref matched sel).map (Frame.other a b u) := by
  cases matched with
  | nil => rfl
  | cons first rest =>
    unfold getDataForResultTuple
    simp only [List.map_cons]
    rw [← List.map_cons (f := fun e : List α × MFrame α K K => (e.1, e.2.other a b u))]
    by_cases h : first.1.length = sel.length
    · simp only [if_pos h, List.find?_map, Function.comp_def]
      generalize (first :: rest).find? _ = q
      cases q with
      | none => rfl
      | some e => exact select_other e.2 sel
    · simp only [if_neg h, List.filter_map, Function.comp_def, List.getLast?_map]
      generalize ((first :: rest).filter _).getLast? = q
      cases q with
      | none => rfl
      | some e => exact select_other e.2 sel

variable {S S' : Setup α K K W Info} (R : Reunited a b u S S')

include R in
theorem dataForKey_other (matched : List (List α × MFrame α K K)) (key : Key α) :
    dataForKey S' (matched.map (fun e => (e.1, e.2.other a b u))) key = (dataForKey S matched key).map (Frame.other a b u) := by
  unfold dataForKey
  rw [R.scale, R.ds, R.scalingRef, R.temporalRef]
  cases S.scale with
  | none => exact getData_other _ _ _
  | some s =>
    simp only
    cases S.ds.lookup S.scalingRef with
    | none => rfl
    | some l =>
      cases l with
      | nil => rfl
      | cons c l => exact getData_other _ _ _

theorem renamed_inUnits (g : K → K) (key : Key α) (f : Frame α K K) :
    renamed S key (f.inUnits a b g) = (renamed S key f).inUnits a b g := by
  unfold renamed
  split
  · unfold renameFrame Frame.inUnits
    simp only [List.map_map, Function.comp_def]
  · rfl

/-- all columns are named by data set -/
def DsLabels (f : Frame α K K) : Prop := ∀ c ∈ f.columns, ∃ n, c.1 = .ds n

theorem select_dsLabels {m : MFrame α K K} {sel : List (Col α)} {f : Frame α K K} (h : select m sel = .ok f) : DsLabels f := by
  unfold select at h
  split at h
  · obtain rfl := Except.ok.inj h
    intro c hc
    obtain ⟨x, -, rfl⟩ := List.mem_map.mp hc
    exact ⟨_, rfl⟩
  · cases h

theorem getData_dsLabels {tref : α} {matched : List (List α × MFrame α K K)} {sel : List (Col α)} {f : Frame α K K}
    (h : getDataForResultTuple tref matched sel = .ok f) : DsLabels f := by
  unfold getDataForResultTuple at h
  split at h
  · cases h
  · split at h
    · split at h
      · obtain rfl := Except.ok.inj h
        intro c hc
        cases hc
      · exact select_dsLabels h
    · split at h
      · cases h
      · exact select_dsLabels h

theorem dataForKey_dsLabels {matched : List (List α × MFrame α K K)} {key : Key α} {f : Frame α K K} (h : dataForKey S matched key = .ok f) :
    DsLabels f := by
  unfold dataForKey at h
  split at h
  · exact getData_dsLabels h
  · split at h
    · cases h
    · cases h
    · exact getData_dsLabels h

/-- What scaling makes of the units: after scaling all columns are in the units given by `g`. -/
def ScalesTo (a b : K) (u : α → K → K) (S : Setup α K K W Info) (g : K → K) : Prop :=
  ∀ (info : Info) (key : Key α) (f : Frame α K K), DsLabels f →
    scaled S info key (f.other a b u) = (scaled S info key f).map (Frame.inUnits a b g)

/-- The calculators do not depend on these units and on the clock. -/
def CalcsIgnore (a b : K) (S : Setup α K K W Info) (g : K → K) : Prop :=
  ∀ c ∈ S.calcs, ∀ (f : Frame α K K) (info : Info), c.2 (f.inUnits a b g) info = c.2 f info

variable {g : K → K} (hs : ScalesTo a b u S g)

theorem scaled_congr (h1 : S'.scale = S.scale) (h2 : S'.scalingRef = S.scalingRef) (info : Info) (key : Key α) (f : Frame α K K) :
    scaled S' info key f = scaled S info key f := by
  unfold scaled
  rw [h1, h2]

include R hs in
theorem performKey_other (raising : Bool) (info : Info) (mc : Frame α K K → Info → Except Exc (Metrics W))
    (hc : ∀ (f : Frame α K K) (info : Info), mc (f.inUnits a b g) info = mc f info)
    (matched : List (List α × MFrame α K K)) (key : Key α) :
    performKey S' raising info mc (matched.map (fun e => (e.1, e.2.other a b u))) key = performKey S raising info mc matched key := by
  unfold performKey
  rw [dataForKey_other R, R.onlyWithReference, R.reference, R.ofCode]
  cases hd : dataForKey S matched key with
  | error e => rfl
  | ok data =>
    simp only [bind, Except.bind, Except.map]
    have hlen : (data.other a b u).index.length = data.index.length := by simp [Frame.other]
    rw [hlen, scaled_congr R.scale R.scalingRef, hs info key data (dataForKey_dsLabels hd)]
    cases scaled S info key data with
    | error e => rfl
    | ok d =>
      simp only [Except.map]
      have hr : renamed S' key (d.inUnits a b g) = (renamed S key d).inUnits a b g := by
        rw [← renamed_inUnits]
        unfold renamed
        rw [R.renameCols]
      rw [hr, hc]

include R hs in
theorem performKeys_other (raising : Bool) (info : Info) (mc : Frame α K K → Info → Except Exc (Metrics W))
    (hc : ∀ (f : Frame α K K) (info : Info), mc (f.inUnits a b g) info = mc f info)
    (matched : List (List α × MFrame α K K)) (keys : List (Key α)) (res : Results (Key α) (Metrics W)) :
    performKeys S' raising info mc (matched.map (fun e => (e.1, e.2.other a b u))) keys res = performKeys S raising info mc matched keys res := by
  induction keys generalizing res with
  | nil => rfl
  | cons key keys ih =>
    unfold performKeys
    rw [performKey_other R hs raising info mc hc]
    simp only [ih]

include R hs in
theorem performCalcs_other (raising : Bool) (info : Info)
    (cs : List (((ℕ × ℕ) × (Frame α K K → Info → Except Exc (Metrics W))) × List (List α × MFrame α K K)))
    (hc : ∀ c ∈ cs, ∀ (f : Frame α K K) (info : Info), c.1.2 (f.inUnits a b g) info = c.1.2 f info) (res : Results (Key α) (Metrics W)) :
    performCalcs S' raising info (cs.map (fun c => (c.1, c.2.map (fun e => (e.1, e.2.other a b u))))) res =
      performCalcs S raising info cs res := by
  induction cs generalizing res with
  | nil => rfl
  | cons c cs ih =>
    rw [List.map_cons]
    unfold performCalcs
    simp only [List.length_map]
    have hn : resultNames S' c.1.1.2 = resultNames S c.1.1.2 := by unfold resultNames; rw [R.ds]
    by_cases h0 : c.2.length = 0
    · rw [if_pos h0, if_pos h0]
    · rw [if_neg h0, if_neg h0, hn]
      simp only [performKeys_other R hs raising info c.1.2 (hc c List.mem_cons_self), ih (fun c hc' => hc c (List.mem_cons_of_mem _ hc'))]

include R in
theorem onlyColumns_other (dfs : List (α × DF α K K)) :
    onlyColumns S' (otherData a b u dfs) = (onlyColumns S dfs).map (otherData a b u) := by
  induction dfs with
  | nil => rfl
  | cons e dfs ih =>
    obtain ⟨n, d⟩ := e
    unfold otherData at ih ⊢
    simp only [List.map_cons, onlyColumns]
    rw [R.ds]
    cases S.ds.lookup n with
    | none => rfl
    | some cols =>
      simp only
      rw [show (d.other a b (u n)).cols = d.cols from rfl]
      by_cases h : cols.all (fun c => decide (c ∈ d.cols)) = true
      · rw [if_pos h, if_pos h, ih]
        simp only [bind, Except.bind]
        cases onlyColumns S dfs <;> rfl
      · rw [if_neg h, if_neg h]; rfl

theorem lookup_other (dfs : List (α × DF α K K)) (n : α) :
    (otherData a b u dfs).lookup n = (dfs.lookup n).map (DF.other a b (u n)) := by
  induction dfs with
  | nil => rfl
  | cons e dfs ih =>
    unfold otherData at ih ⊢
    rw [List.map_cons, List.lookup_cons, show e = (e.1, e.2) from rfl, List.lookup_cons]
    by_cases h : n = e.1
    · subst h; simp
    · have : (n == e.1) = false := by simpa using h
      simp only [this]
      exact ih

theorem replaceAt_other (n : α) (d : DF α K K) (dfs : List (α × DF α K K)) :
    replaceAt n (d.other a b (u n)) (otherData a b u dfs) = otherData a b u (replaceAt n d dfs) := by
  unfold replaceAt otherData
  rw [List.map_map, List.map_map]
  apply List.map_congr_left
  intro e _
  simp only [Function.comp]
  by_cases h : e.1 = n
  · rw [if_pos h, if_pos h, h]
  · rw [if_neg h, if_neg h]

include R in
theorem masked_other (info : Info) (dfs : List (α × DF α K K)) :
    masked S' info (otherData a b u dfs) = (masked S info dfs).map (Option.map (otherData a b u)) := by
  unfold masked
  rcases R.mask with ⟨h1, h2⟩ | ⟨m, m', h1, h2, h⟩
  · rw [h1, h2]; rfl
  · rw [h1, h2, R.temporalRef]
    simp only
    rw [lookup_other]
    cases dfs.lookup S.temporalRef with
    | none => rfl
    | some ref =>
      simp only [Option.map_some, h, bind, Except.bind]
      cases m ref info with
      | error e => rfl
      | ok ref' =>
        simp only [Except.map]
        have hl : (ref'.other a b (u S.temporalRef)).rows.length = ref'.rows.length := by simp [DF.other]
        rw [hl]
        by_cases h0 : ref'.rows.length = 0
        · rw [if_pos h0, if_pos h0]; rfl
        · rw [if_neg h0, if_neg h0, replaceAt_other]; rfl

include R in
theorem matchAll_other (dfs : List (α × DF α K K)) :
    matchAll S' (otherData a b u dfs) = (matchAll S dfs).map (List.map (List.map (fun e => (e.1, e.2.other a b u)))) := by
  unfold matchAll
  rw [R.calcs, R.temporalRef]
  have h : ∀ cs : List ((ℕ × ℕ) × (Frame α K K → Info → Except Exc (Metrics W))),
      cs.mapM (fun c => S'.matcher (otherData a b u dfs) S.temporalRef c.1.1 c.1.2) =
        (cs.mapM (fun c => S.matcher dfs S.temporalRef c.1.1 c.1.2)).map (List.map (List.map (fun e => (e.1, e.2.other a b u)))) := by
    intro cs
    induction cs with
    | nil => rfl
    | cons c cs ih =>
      rw [List.mapM_cons, List.mapM_cons, ih, R.matcher]
      simp only [bind, Except.bind, pure, Except.pure]
      cases S.matcher dfs S.temporalRef c.1.1 c.1.2 with
      | error e => rfl
      | ok x =>
        simp only [Except.map]
        cases cs.mapM (fun c => S.matcher dfs S.temporalRef c.1.1 c.1.2) <;> rfl
  rw [h]
  cases S.calcs.mapM (fun c => S.matcher dfs S.temporalRef c.1.1 c.1.2) <;> rfl

include R hs in
theorem performValidation_other (hc : CalcsIgnore a b S g) (raising : Bool) (info : Info) (dfs : List (α × DF α K K)) :
    performValidation S' raising info (otherData a b u dfs) = performValidation S raising info dfs := by
  unfold performValidation
  rw [masked_other R]
  simp only [bind, Except.bind]
  cases masked S info dfs with
  | error e => rfl
  | ok m =>
    cases m with
    | none => rfl
    | some dfs' =>
      simp only [Except.map, Option.map_some]
      rw [onlyColumns_other R]
      cases onlyColumns S dfs' with
      | error e => rfl
      | ok dfs'' =>
        simp only [Except.map]
        rw [matchAll_other R]
        cases matchAll S dfs'' with
        | error e => rfl
        | ok matched =>
          simp only [Except.map]
          rw [R.calcs]
          have hz : S.calcs.zip (matched.map (List.map (fun e : List α × MFrame α K K => (e.1, e.2.other a b u)))) =
              (S.calcs.zip matched).map (fun c => (c.1, c.2.map (fun e => (e.1, e.2.other a b u)))) := by
            rw [List.zip_map_right]
            rfl
          rw [hz]
          exact performCalcs_other R hs raising info _ (fun c hc' => hc c.1 (List.of_mem_zip hc').1) []

include R hs in
/-- C99, general form: readers, masking and matching that follow the units and the clock, scaling that brings all data to common units, calculators
that depend neither on these units nor on the clock: the results are the same, for all locations, with all exceptions. -/
theorem results_other (hc : CalcsIgnore a b S g) (raising : Bool) (infos : List Info) : calcAll S' raising infos = calcAll S raising infos := by
  have hatt : ∀ info, attempt S' raising info = attempt S raising info := by
    intro info
    unfold attempt
    rw [R.getData]
    cases S.getData info with
    | error e => rfl
    | ok dfs =>
      simp only [Except.map]
      have : (otherData a b u dfs).length = dfs.length := by simp [otherData]
      rw [this, performValidation_other R hs hc]
  have hdk : ∀ info mc (keys : List (Key α)) (res : Results (Key α) (Metrics W)),
      dummyKeys S' info mc keys res = dummyKeys S info mc keys res := by
    intro info mc keys
    induction keys with
    | nil => intro res; rfl
    | cons k keys ih =>
      intro res
      unfold dummyKeys
      rw [R.onlyWithReference, R.reference]
      simp only [ih]
  have hdv : ∀ info (cs : List ((ℕ × ℕ) × (Frame α K K → Info → Except Exc (Metrics W)))) (res : Results (Key α) (Metrics W)),
      dummyValidationResult S' info cs res = dummyValidationResult S info cs res := by
    intro info cs
    induction cs with
    | nil => intro res; rfl
    | cons c cs ih =>
      intro res
      unfold dummyValidationResult
      have hn : resultNames S' c.1.2 = resultNames S c.1.2 := by unfold resultNames; rw [R.ds]
      rw [hn]
      simp only [hdk, ih]
  have hone : ∀ info, processOne S' raising info = processOne S raising info := by
    intro info
    unfold processOne
    rw [hatt, R.calcs, R.ofCode]
    simp only [hdv]
  have hcol : ∀ (infos : List Info) (acc : Results (Key α) (Metrics W)), collect S' raising infos acc = collect S raising infos acc := by
    intro infos
    induction infos with
    | nil => intro acc; rfl
    | cons i infos ih =>
      intro acc
      unfold collect
      simp only [hone, ih]
  unfold calcAll
  rw [hcol]

end

end Verif.Validation
