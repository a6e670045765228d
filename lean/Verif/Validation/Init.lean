import Verif.DataManager.InitProps
import Verif.Validation.More

/-!
C73, C74: the constructor of `Validation` (`src/pytesmo/validation_framework/validation.py:123-186`).

Data managers are those of `Verif.DataManager.Init`. Names are elements of `α`; `_reference` is the parameter `maskRef`.
-/

set_option linter.unusedSectionVars false

namespace Verif.Validation

open DataManager (Ext Entry Full Manager Methods Outcome mkManager addDefaults Err)

variable {α : Type} [LinearOrder α] {R G P A KW Mth T V D : Type} [LinearOrder T]

/-- A `DataManager` object: its (completed) dictionary, the name of the reference, what it reads. Used for validation.py:123-186. -/
structure DM (α R P A KW T V D : Type) where
  datasets : List (α × Entry R A KW D)
  ref : α
  manager : Manager α P (List (T × V))

/-- the argument `datasets`: a dictionary or a `DataManager`. Used for validation.py:123-186. -/
inductive Datasets (α R P A KW T V D : Type)
  | dict (ds : List (α × Entry R A KW D))
  | manager (dm : DM α R P A KW T V D)

/-- the argument `scaling`: `None`, a string, an instance; `Sc` are scalers. Used for validation.py:123-186. -/
inductive Scaling (Sc : Type)
  | none
  | str (s : String)
  | inst (x : Sc)

/-- the arguments of the constructor; the temporal matcher and its window play no role here. Used for validation.py:123-186. -/
structure InitArgs (α R P A KW T V D Sc : Type) where
  datasets : Datasets α R P A KW T V D
  spatialRef : α
  calcs : List (ℕ × ℕ)
  temporalRef : Option α
  masking : Option (List (α × Entry R A KW D))
  period : Option (T × T)
  scaling : Scaling Sc
  scalingRef : Option α

/-- the object; `maskingAfter` is the caller's dictionary of masking data sets afterwards. Used for validation.py:123-186. -/
structure Obj (α R P A KW T V D Sc : Type) where
  dm : DM α R P A KW T V D
  temporalRef : α
  maskingDm : Option (DM α R P A KW T V D)
  maskingAfter : Option (List (α × Entry R A KW D))
  scaling : Option Sc
  scalingRef : α

variable {Sc : Type}

/-- `DataManager(ds, ref, period)` with the defaults of its other arguments; `read` is the string "read". Used for validation.py:123-186. -/
def newDM (E : Ext R G P A KW Mth T V D) (read : Mth) (ds : List (α × Entry R A KW D)) (ref : α) (period : Option (T × T)) :
    Except Err (DM α R P A KW T V D) :=
  match mkManager E ds ref period (.all read) none with
  | .error e => .error e
  | .ok (ds', m) => .ok ⟨ds', ref, m⟩

/-- `d.update({k: v})`: a key that exists keeps its place. Used for validation.py:123-186. -/
def update {κ ν : Type} [DecidableEq κ] (d : List (κ × ν)) (k : κ) (v : ν) : List (κ × ν) :=
  if k ∈ d.map Prod.fst then replaceAt k v d else d ++ [(k, v)]

/-- lines 137-140 -/
def initDm (E : Ext R G P A KW Mth T V D) (read : Mth) (a : InitArgs α R P A KW T V D Sc) : Except Err (DM α R P A KW T V D) :=
  match a.datasets with
  | .manager dm => .ok dm
  | .dict ds => newDM E read ds a.spatialRef a.period

/-- lines 165-176: the masking data manager. `datasets[temporal_ref]` is a TypeError for a `DataManager`; for a dictionary it is the
completed entry. -/
def initMasking (E : Ext R G P A KW Mth T V D) (read : Mth) (maskRef : α) (a : InitArgs α R P A KW T V D Sc) (dm : DM α R P A KW T V D)
    (temporalRef : α) : Except Err (Option (DM α R P A KW T V D)) :=
  match a.masking with
  | none => .ok none
  | some m =>
    match a.datasets with
    | .manager _ => .error .typeError
    | .dict _ =>
      match dm.datasets.lookup temporalRef with
      | none => .error .keyError
      | some e =>
        match newDM E read (update m maskRef e) maskRef a.period with
        | .error e => .error e
        | .ok mdm => .ok (some mdm)

/-- line 186 `self.data_manager.get_luts()`: raises if a look-up table is wanted (again, also for a manager with upscaling) and a grid is
missing -/
def lutsOk (E : Ext R G P A KW Mth T V D) (dm : DM α R P A KW T V D) : Bool :=
  match dm.datasets.lookup dm.ref with
  | none => false
  | some r => dm.datasets.all (fun e => decide (e.1 = dm.ref) || !(e.2.useLut == some true) || ((E.grid r.cls).isSome && (E.grid e.2.cls).isSome))

/-- validation.py:123-186 `Validation(...)`; `mkScaler` is `DefaultScaler` -/
def initValidation (E : Ext R G P A KW Mth T V D) (read : Mth) (maskRef : α) (mkScaler : String → Sc) (a : InitArgs α R P A KW T V D Sc) :
    Except Err (Obj α R P A KW T V D Sc) :=
  match initDm E read a with
  | .error e => .error e
  | .ok dm =>
    let temporalRef := match a.temporalRef with | none => dm.ref | some t => t
    if a.calcs.any (fun c => decide (c.1 < dm.datasets.length)) then .error .valueError
    else
      match initMasking E read maskRef a dm temporalRef with
      | .error e => .error e
      | .ok mdm =>
        if lutsOk E dm then
          .ok { dm := dm, temporalRef := temporalRef, maskingDm := mdm, maskingAfter := mdm.map DM.datasets
                scaling := match a.scaling with | .none => none | .str s => some (mkScaler s) | .inst x => some x
                scalingRef := match a.scalingRef with | none => dm.ref | some r => r }
        else .error .attributeError

theorem newDM_ok (E : Ext R G P A KW Mth T V D) (read : Mth) (ds : List (α × Entry R A KW D)) (ref : α) (period : Option (T × T))
    (dm : DM α R P A KW T V D) (h : newDM E read ds ref period = .ok dm) :
    mkManager E ds ref period (.all read) none = .ok (dm.datasets, dm.manager) ∧ dm.ref = ref ∧
      dm.datasets = ds.map (fun e => (e.1, (addDefaults E e.2).toEntry)) := by
  unfold newDM at h
  split at h
  · simp at h
  rename_i ds' m hm
  obtain rfl := Except.ok.inj h
  refine ⟨hm, rfl, ?_⟩
  obtain ⟨r, ss, -, -, h3, -⟩ := DataManager.mkManager_ok E ds ref period (.all read) none ds' m hm
  exact h3

/-- the parts of a successful construction -/
theorem init_ok (E : Ext R G P A KW Mth T V D) (read : Mth) (maskRef : α) (mkScaler : String → Sc) (a : InitArgs α R P A KW T V D Sc)
    (o : Obj α R P A KW T V D Sc) (h : initValidation E read maskRef mkScaler a = .ok o) :
    initDm E read a = .ok o.dm ∧ (a.temporalRef = some o.temporalRef ∨ a.temporalRef = none ∧ o.temporalRef = o.dm.ref) ∧
    (∀ c ∈ a.calcs, o.dm.datasets.length ≤ c.1) ∧ initMasking E read maskRef a o.dm o.temporalRef = .ok o.maskingDm ∧
    o.maskingAfter = o.maskingDm.map DM.datasets ∧ (a.scalingRef = some o.scalingRef ∨ a.scalingRef = none ∧ o.scalingRef = o.dm.ref) ∧
    o.scaling = (match a.scaling with | .none => none | .str s => some (mkScaler s) | .inst x => some x) := by
  unfold initValidation at h
  split at h
  · simp at h
  rename_i dm hdm
  simp only at h
  split at h
  · simp at h
  rename_i hc
  split at h
  · simp at h
  rename_i mdm hmdm
  split at h
  · obtain rfl := Except.ok.inj h
    refine ⟨hdm, ?_, ?_, hmdm, rfl, ?_, rfl⟩
    · cases a.temporalRef <;> simp
    · intro c hcm
      by_contra hlt
      apply hc
      rw [List.any_eq_true]
      exact ⟨c, hcm, by simpa using hlt⟩
    · cases a.scalingRef <;> simp
  · simp at h

/-- **C73.** A constructed validation uses the given spatial reference, the references for time and scaling are those given or else the
spatial reference; no calculator is registered for fewer data sets than there are. Partial: `n` should equal the number of data sets,
larger numbers are accepted (`init_accepts_large_n`); for a `DataManager` the arguments `spatial_ref` and `period` are ignored
(`init_manager_ignores`). -/
theorem init_references_partial (E : Ext R G P A KW Mth T V D) (read : Mth) (maskRef : α) (mkScaler : String → Sc)
    (a : InitArgs α R P A KW T V D Sc) (o : Obj α R P A KW T V D Sc) (h : initValidation E read maskRef mkScaler a = .ok o)
    (ds : List (α × Entry R A KW D)) (hd : a.datasets = .dict ds) :
    o.dm.ref = a.spatialRef ∧ a.spatialRef ∈ ds.map Prod.fst ∧ (∀ c ∈ a.calcs, ds.length ≤ c.1) ∧
    (o.temporalRef = a.spatialRef ∨ a.temporalRef = some o.temporalRef) ∧ (a.temporalRef = none → o.temporalRef = a.spatialRef) ∧
    (o.scalingRef = a.spatialRef ∨ a.scalingRef = some o.scalingRef) ∧ (a.scalingRef = none → o.scalingRef = a.spatialRef) := by
  obtain ⟨h1, h2, h3, h4, h5, h6, -⟩ := init_ok E read maskRef mkScaler a o h
  unfold initDm at h1
  rw [hd] at h1
  simp only at h1
  obtain ⟨e1, e2, e3⟩ := newDM_ok E read ds _ _ _ h1
  obtain ⟨r, ss, hr, -, -, -⟩ := DataManager.mkManager_ok E ds a.spatialRef a.period (.all read) none _ _ e1
  have hmem : a.spatialRef ∈ ds.map Prod.fst := by
    by_contra hno
    rw [DataManager.lookup_eq_none.mpr hno] at hr
    simp at hr
  refine ⟨e2, hmem, ?_, ?_, ?_, ?_, ?_⟩
  · intro c hc
    have := h3 c hc
    rw [e3] at this
    simpa using this
  · rcases h2 with h | ⟨-, h⟩
    · exact .inr h
    · exact .inl (h.trans e2)
  · intro hn
    rcases h2 with h | ⟨-, h⟩
    · rw [hn] at h; simp at h
    · exact h.trans e2
  · rcases h6 with h | ⟨-, h⟩
    · exact .inr h
    · exact .inl (h.trans e2)
  · intro hn
    rcases h6 with h | ⟨-, h⟩
    · rw [hn] at h; simp at h
    · exact h.trans e2

/-- **C73, errors.** Masking data sets together with a `DataManager` always raise (TypeError unless the number of data sets is wrong). -/
theorem init_masking_manager_raises (E : Ext R G P A KW Mth T V D) (read : Mth) (maskRef : α) (mkScaler : String → Sc)
    (a : InitArgs α R P A KW T V D Sc) (dm : DM α R P A KW T V D) (hd : a.datasets = .manager dm) (m : List (α × Entry R A KW D))
    (hm : a.masking = some m) (hc : ∀ c ∈ a.calcs, dm.datasets.length ≤ c.1) :
    initValidation E read maskRef mkScaler a = .error .typeError := by
  unfold initValidation initDm
  rw [hd]
  simp only
  rw [if_neg]
  · unfold initMasking
    rw [hm, hd]
  · rw [List.any_eq_true]
    rintro ⟨c, hcm, hlt⟩
    have := hc c hcm
    simp only [decide_eq_true_eq] at hlt
    omega

/-- **C73, negation.** The arguments `spatial_ref` and `period` have no effect if a `DataManager` is given. -/
theorem init_manager_ignores (E : Ext R G P A KW Mth T V D) (read : Mth) (maskRef : α) (mkScaler : String → Sc)
    (a : InitArgs α R P A KW T V D Sc) (dm : DM α R P A KW T V D) (hd : a.datasets = .manager dm) (s : α) (p : Option (T × T)) :
    initValidation E read maskRef mkScaler { a with spatialRef := s, period := p } = initValidation E read maskRef mkScaler a := by
  unfold initValidation initDm initMasking
  simp only [hd]

theorem mem_update {κ ν : Type} [DecidableEq κ] (d : List (κ × ν)) (k : κ) (v : ν) (n : κ) (x : ν) :
    (n, x) ∈ update d k v ↔ (n = k ∧ x = v) ∨ (n ≠ k ∧ (n, x) ∈ d) := by
  unfold update
  split
  · rename_i hk
    unfold replaceAt
    rw [List.mem_map]
    constructor
    · rintro ⟨⟨n', x'⟩, he, hh⟩
      by_cases h : n' = k
      · simp only [h, if_true, Prod.mk.injEq] at hh
        exact .inl ⟨hh.1.symm, hh.2.symm⟩
      · simp only [h, if_false, Prod.mk.injEq] at hh
        obtain ⟨rfl, rfl⟩ := hh
        exact .inr ⟨h, he⟩
    · rintro (⟨rfl, rfl⟩ | ⟨h, he⟩)
      · obtain ⟨e, he, h1⟩ := List.mem_map.mp hk
        exact ⟨e, he, by simp [h1]⟩
      · exact ⟨(n, x), he, by simp [h]⟩
  · rename_i hk
    rw [List.mem_append, List.mem_singleton, Prod.mk.injEq]
    constructor
    · rintro (he | ⟨rfl, rfl⟩)
      · refine .inr ⟨?_, he⟩
        rintro rfl
        exact hk (List.mem_map.mpr ⟨_, he, rfl⟩)
      · exact .inl ⟨rfl, rfl⟩
    · rintro (⟨rfl, rfl⟩ | ⟨_, he⟩)
      · exact .inr ⟨rfl, rfl⟩
      · exact .inl he

theorem update_nodup {κ ν : Type} [DecidableEq κ] (d : List (κ × ν)) (k : κ) (v : ν) (h : (d.map Prod.fst).Nodup) :
    ((update d k v).map Prod.fst).Nodup := by
  unfold update
  split
  · have : (replaceAt k v d).map Prod.fst = d.map Prod.fst := by
      unfold replaceAt
      rw [List.map_map]
      apply List.map_congr_left
      intro e _
      simp only [Function.comp]
      split <;> rfl
    rw [this]
    exact h
  · rename_i hk
    rw [List.map_append, List.nodup_append]
    refine ⟨h, by simp, ?_⟩
    intro a ha b hb
    simp only [List.map_cons, List.map_nil, List.mem_singleton] at hb
    rintro rfl
    exact hk (hb ▸ ha)

/-- `update` twice with the same value -/
theorem update_update {κ ν : Type} [DecidableEq κ] (d : List (κ × ν)) (k : κ) (v w : ν) : update (update d k v) k w = update d k w := by
  have hrr : ∀ d : List (κ × ν), replaceAt k w (replaceAt k v d) = replaceAt k w d := by
    intro d
    unfold replaceAt
    rw [List.map_map]
    apply List.map_congr_left
    intro e _
    simp only [Function.comp]
    by_cases h : e.1 = k <;> simp [h]
  have hmem : k ∈ (update d k v).map Prod.fst := List.mem_map.mpr ⟨(k, v), (mem_update d k v k v).mpr (.inl ⟨rfl, rfl⟩), rfl⟩
  rw [show update (update d k v) k w = replaceAt k w (update d k v) from if_pos hmem]
  unfold update
  by_cases hk : k ∈ d.map Prod.fst
  · rw [if_pos hk, if_pos hk, hrr]
  · rw [if_neg hk, if_neg hk]
    have : replaceAt k w d = d := by
      unfold replaceAt
      conv_rhs => rw [← List.map_id d]
      apply List.map_congr_left
      intro e he
      have : e.1 ≠ k := fun hh => hk (List.mem_map.mpr ⟨e, he, hh⟩)
      simp [this]
    unfold replaceAt at this ⊢
    rw [List.map_append, this]
    simp

/-- what the masking data manager is made of -/
theorem masking_ok (E : Ext R G P A KW Mth T V D) (read : Mth) (maskRef : α) (mkScaler : String → Sc) (a : InitArgs α R P A KW T V D Sc)
    (o : Obj α R P A KW T V D Sc) (h : initValidation E read maskRef mkScaler a = .ok o) (ds : List (α × Entry R A KW D))
    (hn : (ds.map Prod.fst).Nodup) (hd : a.datasets = .dict ds) (m : List (α × Entry R A KW D)) (hm : a.masking = some m) :
    ∃ mdm e, o.maskingDm = some mdm ∧ (o.temporalRef, e) ∈ ds ∧
      newDM E read (update m maskRef (addDefaults E e).toEntry) maskRef a.period = .ok mdm ∧
      o.maskingAfter = some ((update m maskRef (addDefaults E e).toEntry).map (fun e => (e.1, (addDefaults E e.2).toEntry))) := by
  obtain ⟨h1, h2, h3, h4, h5, h6, -⟩ := init_ok E read maskRef mkScaler a o h
  unfold initDm at h1
  rw [hd] at h1
  obtain ⟨e1, e2, e3⟩ := newDM_ok E read ds _ _ _ h1
  unfold initMasking at h4
  rw [hm, hd] at h4
  simp only at h4
  split at h4
  · simp at h4
  rename_i e he
  split at h4
  · simp at h4
  rename_i mdm hmdm
  have hmd := Except.ok.inj h4
  have hlk : ds.lookup o.temporalRef = none ∨ ∃ e0, ds.lookup o.temporalRef = some e0 := by
    cases ds.lookup o.temporalRef <;> simp
  rw [e3, DataManager.lookup_map_snd (fun e => (addDefaults E e).toEntry)] at he
  rcases hlk with hl | ⟨e0, hl⟩
  · rw [hl] at he; simp at he
  · rw [hl] at he
    simp only [Option.map_some, Option.some.injEq] at he
    subst he
    refine ⟨mdm, e0, hmd.symm, (DataManager.lookup_eq_some hn).mp hl, hmdm, ?_⟩
    rw [h5, ← hmd]
    simp only [Option.map_some]
    rw [(newDM_ok E read _ _ _ _ hmdm).2.2]

/-- Each masking data set is read at the point that its options determine relative to the reader of the *temporal* reference. -/
theorem masking_data (E : Ext R G P A KW Mth T V D) (read : Mth) (maskRef : α) (mkScaler : String → Sc) (a : InitArgs α R P A KW T V D Sc)
    (o : Obj α R P A KW T V D Sc) (h : initValidation E read maskRef mkScaler a = .ok o) (ds : List (α × Entry R A KW D))
    (hn : (ds.map Prod.fst).Nodup) (hd : a.datasets = .dict ds) (m : List (α × Entry R A KW D)) (hnm : (m.map Prod.fst).Nodup)
    (hm : a.masking = some m) (hlut : ∀ g g' d, ∀ x ∈ E.calcLut g g' d, -1 ≤ x) (mdm : DM α R P A KW T V D) (hmd : o.maskingDm = some mdm)
    (gpi : ℕ) (p : P) (out : List (α × List (T × V)))
    (ho : DataManager.getOtherData mdm.manager gpi p mdm.manager.others = .ok out) :
    ∃ tE, (o.temporalRef, tE) ∈ ds ∧ ∀ n f, (n, f) ∈ out ↔ ∃ e g, (n, e) ∈ m ∧ n ≠ maskRef ∧
      DataManager.Located E tE.cls e gpi p g ∧ DataManager.Reads E a.period (.all read) n e g f := by
  obtain ⟨mdm', tE, h1, h2, h3, -⟩ := masking_ok E read maskRef mkScaler a o h ds hn hd m hm
  obtain rfl : mdm = mdm' := by rw [hmd] at h1; exact Option.some.inj h1
  refine ⟨tE, h2, ?_⟩
  obtain ⟨e1, -, -⟩ := newDM_ok E read _ _ _ _ h3
  have hcor := DataManager.other_data_correct E _ (update_nodup m maskRef _ hnm) maskRef a.period (.all read) _ _ e1 hlut
    (addDefaults E tE).toEntry ((mem_update _ _ _ _ _).mpr (.inl ⟨rfl, rfl⟩)) gpi p out ho
  intro n f
  rw [hcor]
  constructor
  · rintro ⟨e, g, he, hne, h5, h6⟩
    rcases (mem_update _ _ _ _ _).mp he with ⟨h', -⟩ | ⟨-, h'⟩
    · exact absurd h' hne
    · exact ⟨e, g, h', hne, h5, h6⟩
  · rintro ⟨e, g, he, hne, h5, h6⟩
    exact ⟨e, g, (mem_update _ _ _ _ _).mpr (.inr ⟨hne, he⟩), hne, h5, h6⟩

/-- **C74.** The masking data of a location: every masking data set is read at the point its own options determine for the point of the
*spatial* reference. Partial: if a masking data set uses a look-up table, the temporal reference has to be the spatial one (the
default) or a data set with the same grid, see `masking_lut_wrong_point`. A masking data set named `_reference` is lost. -/
theorem masking_data_partial (E : Ext R G P A KW Mth T V D) (read : Mth) (maskRef : α) (mkScaler : String → Sc)
    (a : InitArgs α R P A KW T V D Sc) (o : Obj α R P A KW T V D Sc) (h : initValidation E read maskRef mkScaler a = .ok o)
    (ds : List (α × Entry R A KW D)) (hn : (ds.map Prod.fst).Nodup) (hd : a.datasets = .dict ds) (m : List (α × Entry R A KW D))
    (hnm : (m.map Prod.fst).Nodup) (hm : a.masking = some m) (hlut : ∀ g g' d, ∀ x ∈ E.calcLut g g' d, -1 ≤ x)
    (mdm : DM α R P A KW T V D) (hmd : o.maskingDm = some mdm) (sE : Entry R A KW D) (hsE : (a.spatialRef, sE) ∈ ds)
    (hgrid : (∀ e ∈ m, e.2.useLut ≠ some true) ∨ a.temporalRef = none ∨ ∀ tE, (o.temporalRef, tE) ∈ ds → E.grid tE.cls = E.grid sE.cls)
    (gpi : ℕ) (p : P) (out : List (α × List (T × V)))
    (ho : DataManager.getOtherData mdm.manager gpi p mdm.manager.others = .ok out) (n : α) (f : List (T × V)) :
    (n, f) ∈ out ↔ ∃ e g, (n, e) ∈ m ∧ n ≠ maskRef ∧ DataManager.Located E sE.cls e gpi p g ∧
      DataManager.Reads E a.period (.all read) n e g f := by
  obtain ⟨tE, htE, hcor⟩ := masking_data E read maskRef mkScaler a o h ds hn hd m hnm hm hlut mdm hmd gpi p out ho
  rw [hcor]
  have key : ∀ e, (n, e) ∈ m → ∀ g, DataManager.Located E tE.cls e gpi p g ↔ DataManager.Located E sE.cls e gpi p g := by
    intro e he g
    have hG : e.useLut ≠ some true ∨ E.grid tE.cls = E.grid sE.cls := by
      rcases hgrid with h' | h' | h'
      · exact .inl (h' _ he)
      · right
        have := (init_references_partial E read maskRef mkScaler a o h ds hd).2.2.2.2.1 h'
        rw [this] at htE
        have e1 := (DataManager.lookup_eq_some hn).mpr htE
        have e2 := (DataManager.lookup_eq_some hn).mpr hsE
        rw [e1] at e2
        rw [Option.some.inj e2]
      · exact .inr (h' tE htE)
    unfold DataManager.Located
    rcases hG with hG | hG
    · simp [hG]
    · rw [hG]
  constructor
  · rintro ⟨e, g, h1, h2, h3, h4⟩
    exact ⟨e, g, h1, h2, (key e h1 g).mp h3, h4⟩
  · rintro ⟨e, g, h1, h2, h3, h4⟩
    exact ⟨e, g, h1, h2, (key e h1 g).mpr h3, h4⟩

/-- **C74.** The caller's dictionary of masking data sets gets an additional entry `_reference`; constructing a second validation with
the changed dictionary gives the same result as with the original one. -/
theorem masking_reuse (E : Ext R G P A KW Mth T V D) (read : Mth) (maskRef : α) (mkScaler : String → Sc)
    (a : InitArgs α R P A KW T V D Sc) (o : Obj α R P A KW T V D Sc) (h : initValidation E read maskRef mkScaler a = .ok o)
    (ds : List (α × Entry R A KW D)) (hn : (ds.map Prod.fst).Nodup) (hd : a.datasets = .dict ds) (m : List (α × Entry R A KW D))
    (hm : a.masking = some m) :
    ∃ m', o.maskingAfter = some m' ∧ maskRef ∈ m'.map Prod.fst ∧
      ∀ b : InitArgs α R P A KW T V D Sc, initValidation E read maskRef mkScaler { b with masking := some m' } =
        initValidation E read maskRef mkScaler { b with masking := some m } := by
  obtain ⟨mdm, tE, h1, h2, h3, h4⟩ := masking_ok E read maskRef mkScaler a o h ds hn hd m hm
  refine ⟨_, h4, ?_, ?_⟩
  · rw [List.map_map]
    exact List.mem_map.mpr ⟨_, (mem_update m maskRef _ maskRef _).mpr (.inl ⟨rfl, rfl⟩), rfl⟩
  · intro b
    have hnew : ∀ e : Entry R A KW D, (newDM E read (update ((update m maskRef (addDefaults E tE).toEntry).map
        (fun e => (e.1, (addDefaults E e.2).toEntry))) maskRef e) maskRef b.period : Except Err (DM α R P A KW T V D)) =
        newDM E read (update m maskRef e) maskRef b.period := by
      intro e
      have hfull : (update ((update m maskRef (addDefaults E tE).toEntry).map (fun e => (e.1, (addDefaults E e.2).toEntry))) maskRef e).map
          (fun e => (e.1, addDefaults E e.2)) = (update m maskRef e).map (fun e => (e.1, addDefaults E e.2)) := by
        have hum : ∀ {β γ : Type} (f : β → γ) (d : List (α × β)) (k : α) (v : β),
            (update d k v).map (fun e => (e.1, f e.2)) = update (d.map (fun e => (e.1, f e.2))) k (f v) := by
          intro β γ f d k v
          unfold update replaceAt
          have hmm : (d.map (fun e => (e.1, f e.2))).map Prod.fst = d.map Prod.fst := by
            rw [List.map_map]
            rfl
          rw [hmm]
          split
          · rw [List.map_map, List.map_map]
            apply List.map_congr_left
            intro e _
            simp only [Function.comp]
            split <;> rfl
          · rw [List.map_append]
            rfl
        rw [hum (addDefaults E), List.map_map]
        have : ((fun e : α × Entry R A KW D => (e.1, addDefaults E e.2)) ∘
            fun e : α × Entry R A KW D => (e.1, (addDefaults E e.2).toEntry)) =
            fun e : α × Entry R A KW D => (e.1, addDefaults E e.2) := rfl
        rw [this, hum (addDefaults E), hum (addDefaults E), update_update]
      unfold newDM mkManager
      simp only
      rw [hfull]
    have hmk : ∀ dm t, (initMasking E read maskRef { b with masking := some ((update m maskRef (addDefaults E tE).toEntry).map
        (fun e => (e.1, (addDefaults E e.2).toEntry))) } dm t) = initMasking E read maskRef { b with masking := some m } dm t := by
      intro dm t
      unfold initMasking
      simp only [hnew]
    unfold initValidation
    simp only [hmk]
    rfl

/-- **C73 (a ready manager).** With a `DataManager` and no masking data sets the constructor succeeds exactly if every metric calculator
takes at least as many data sets as there are, and the reference and every other data set that asks for a look-up table have grids. -/
theorem init_manager_iff (E : Ext R G P A KW Mth T V D) (read : Mth) (maskRef : α) (mkScaler : String → Sc)
    (a : InitArgs α R P A KW T V D Sc) (dm : DM α R P A KW T V D) (hd : a.datasets = .manager dm) (hm : a.masking = none)
    (r : Entry R A KW D) (hr : dm.datasets.lookup dm.ref = some r) :
    (∃ o, initValidation E read maskRef mkScaler a = .ok o) ↔
      (∀ c ∈ a.calcs, dm.datasets.length ≤ c.1) ∧
        ∀ e ∈ dm.datasets, e.1 ≠ dm.ref → e.2.useLut = some true → (∃ g, E.grid r.cls = some g) ∧ ∃ g, E.grid e.2.cls = some g := by
  have hdm : initDm E read a = .ok dm := by unfold initDm; rw [hd]
  unfold initValidation
  rw [hdm]
  simp only [initMasking, hm]
  by_cases hc : ∀ c ∈ a.calcs, dm.datasets.length ≤ c.1
  · have hc' : a.calcs.any (fun c => decide (c.1 < dm.datasets.length)) = false := by
      simp only [List.any_eq_false, decide_eq_true_eq, not_lt]; exact hc
    rw [hc']
    by_cases hl : lutsOk E dm = true
    · have hl2 := hl
      unfold lutsOk at hl2
      rw [hr] at hl2
      simp only [List.all_eq_true, Bool.or_eq_true, decide_eq_true_eq, Bool.not_eq_true', beq_eq_false_iff_ne, Bool.and_eq_true,
        Option.isSome_iff_exists, ne_eq] at hl2
      simp only [hl, if_true, Bool.false_eq_true, if_false]
      refine iff_of_true ⟨_, rfl⟩ ⟨hc, fun e he hne hu => ?_⟩
      rcases hl2 e he with (h | h) | h
      · exact absurd h hne
      · exact absurd hu h
      · exact h
    · simp only [hl, Bool.false_eq_true, if_false]
      refine iff_of_false (by rintro ⟨o, ho⟩; cases ho) (fun h => hl ?_)
      unfold lutsOk
      rw [hr]
      simp only [List.all_eq_true, Bool.or_eq_true, decide_eq_true_eq, Bool.not_eq_true', beq_eq_false_iff_ne, Bool.and_eq_true,
        Option.isSome_iff_exists, ne_eq]
      intro e he
      by_cases h1 : e.1 = dm.ref
      · exact .inl (.inl h1)
      · by_cases h2 : e.2.useLut = some true
        · exact .inr (h.2 e he h1 h2)
        · exact .inl (.inr h2)
  · have hc' : a.calcs.any (fun c => decide (c.1 < dm.datasets.length)) = true := by
      by_contra h
      simp only [Bool.not_eq_true, List.any_eq_false, decide_eq_true_eq, not_lt] at h
      exact hc h
    rw [hc']
    simp only [if_true]
    exact iff_of_false (by rintro ⟨o, ho⟩; cases ho) (fun h => hc h.1)

/-- A small world: readers are numbers with grids `10 + r`; the look-up table from grid 10 sends point 0 to 5, that from other grids to
7. Reading returns the grid point as only value. -/
def lutWorld : Ext ℕ ℕ ℕ (List ℕ) (List ℕ) String ℕ ℕ (Option ℕ) :=
  { grid := fun r => some (10 + r)
    call := fun _ _ g _ _ => .frame [(1, g)]
    calcLut := fun g _ _ => if g = 10 then [5] else [7]
    nearest := fun _ _ _ => (0, none)
    inf := none
    noArgs := []
    noKwargs := [] }

/-- data set 1 is the spatial reference, data set 2 (compatible grid numbers, another grid) the temporal one if `t` is given, data set 3
masks and is found by its look-up table; `_reference` is 100 -/
def lutArgs (t : Option ℕ) : InitArgs ℕ ℕ ℕ (List ℕ) (List ℕ) ℕ ℕ (Option ℕ) String :=
  { datasets := .dict [(1, { cls := 0 }), (2, { cls := 1, compatible := some true })]
    spatialRef := 1
    calcs := [(2, 2)]
    temporalRef := t
    masking := some [(3, { cls := 2, useLut := some true })]
    period := none
    scaling := .str "cdf_match"
    scalingRef := none }

/-- the masking data read for the point 0 of the spatial reference -/
def maskRead (a : InitArgs ℕ ℕ ℕ (List ℕ) (List ℕ) ℕ ℕ (Option ℕ) String) : Option (List (ℕ × List (ℕ × ℕ))) :=
  (initValidation lutWorld "read" 100 id a).toOption.bind (fun o => o.maskingDm.bind (fun d =>
    (DataManager.getOtherData d.manager 0 0 d.manager.others).toOption))

/-- With the default temporal reference the masking data set is read at point 5, as the look-up table from the spatial reference says. -/
example : maskRead (lutArgs none) = some [(3, [(1, 5)])] := by decide +kernel

/-- **C74, negation.** With another temporal reference the look-up table is calculated from the grid of the temporal reference but
applied to the point of the spatial reference: the masking data comes from point 7. -/
theorem masking_lut_wrong_point : maskRead (lutArgs (some 2)) = some [(3, [(1, 7)])] ∧ maskRead (lutArgs none) = some [(3, [(1, 5)])] := by
  decide +kernel

/-- **C73, negation.** The message of the check says that `n` must equal the number of data sets (2); `n = 5` is accepted. -/
theorem init_accepts_large_n : (initValidation lutWorld "read" 100 id { lutArgs none with calcs := [(5, 2)] }).toOption.isSome = true := by
  decide +kernel

/-- `n = 1` is rejected -/
example : (initValidation lutWorld "read" 100 id { lutArgs none with calcs := [(2, 2), (1, 2)] }).toOption.isSome = false := by
  decide +kernel

/-- the theorems applied to the small world above -/
example (o) (h : initValidation lutWorld "read" 100 id (lutArgs none) = .ok o) (mdm) (hmd : o.maskingDm = some mdm) (out)
    (ho : DataManager.getOtherData mdm.manager 0 0 mdm.manager.others = .ok out) (n f) :=
  masking_data_partial lutWorld "read" 100 id (lutArgs none) o h [(1, { cls := 0 }), (2, { cls := 1, compatible := some true })] (by decide) rfl
    [(3, { cls := 2, useLut := some true })] (by decide) rfl (by intro g g' d x hx; simp only [lutWorld] at hx; split at hx <;> simp at hx <;> omega) mdm hmd { cls := 0 }
    (by simp [lutArgs]) (.inr (.inl rfl)) 0 0 out ho n f
example (o) (h : initValidation lutWorld "read" 100 id (lutArgs none) = .ok o) :=
  masking_reuse lutWorld "read" 100 id (lutArgs none) o h [(1, { cls := 0 }), (2, { cls := 1, compatible := some true })] (by decide) rfl
    [(3, { cls := 2, useLut := some true })] rfl
example (dm : DM ℕ ℕ ℕ (List ℕ) (List ℕ) ℕ ℕ (Option ℕ)) (hdm : dm.datasets.length = 2) :=
  init_masking_manager_raises lutWorld "read" 100 id { lutArgs none with datasets := .manager dm } dm rfl [(3, { cls := 2, useLut := some true })] rfl
    (by intro c hc; simp [lutArgs] at hc; subst hc; omega)

/-- a manager whose second data set asks for a look-up table; without grids the constructor raises, with them it succeeds -/
example (m : Manager ℕ ℕ (List (ℕ × ℕ))) :
    let a : InitArgs ℕ ℕ ℕ (List ℕ) (List ℕ) ℕ ℕ (Option ℕ) String := { lutArgs none with
      masking := none, datasets := .manager ⟨[(1, { cls := 0 }), (2, { cls := 1, useLut := some true })], 1, m⟩ }
    (∃ o, initValidation lutWorld "read" 100 id a = .ok o) ∧
      ¬ ∃ o, initValidation { lutWorld with grid := fun _ => none } "read" 100 id a = .ok o := by
  intro a
  rw [init_manager_iff lutWorld "read" 100 id a _ rfl rfl { cls := 0 } rfl,
    init_manager_iff { lutWorld with grid := fun _ => none } "read" 100 id a _ rfl rfl { cls := 0 } rfl]
  constructor
  · exact ⟨by intro c hc; simp [a, lutArgs] at hc; subst hc; simp, fun e he h1 h2 => ⟨⟨_, rfl⟩, ⟨_, rfl⟩⟩⟩
  · rintro ⟨-, h⟩
    obtain ⟨⟨g, hg⟩, -⟩ := h (2, { cls := 1, useLut := some true }) (by simp) (by simp) rfl
    cases hg

end Verif.Validation
