import Verif.Validation.Spec
import Verif.DataManager.Props

/-! Lemmas about the loops of the validation. -/

set_option linter.unusedSectionVars false

namespace Verif.Validation

open DataManager (Col Admissible)

/-! ### Dictionaries of lists -/

section Dict
variable {κ μ : Type} [DecidableEq κ] [BEq κ] [LawfulBEq κ]

theorem lookup_extendAt (d : Results κ μ) (k : κ) (l : List μ) (k' : κ) :
    (extendAt d k l).lookup k' = if k' = k then some ((d.lookup k).getD [] ++ l) else d.lookup k' := by
  induction d with
  | nil =>
    unfold extendAt
    by_cases h : k' = k
    · subst h; simp
    · simp [List.lookup, h, beq_false_of_ne h]
  | cons e d ih =>
    obtain ⟨a, x⟩ := e
    unfold extendAt
    by_cases ha : a = k
    · subst ha
      by_cases h : k' = a
      · subst h; simp
      · simp [List.lookup, h, beq_false_of_ne h]
    · rw [if_neg ha]
      by_cases h : k' = a
      · subst h; simp [ha]
      · have hak : (k == a) = false := beq_false_of_ne (fun h => ha h.symm)
        simp only [List.lookup, beq_false_of_ne h, hak]
        exact ih

theorem keys_extendAt (d : Results κ μ) (k : κ) (l : List μ) :
    (extendAt d k l).map Prod.fst = if k ∈ d.map Prod.fst then d.map Prod.fst else d.map Prod.fst ++ [k] := by
  induction d with
  | nil => simp [extendAt]
  | cons e d ih =>
    obtain ⟨a, x⟩ := e
    unfold extendAt
    by_cases ha : a = k
    · subst ha; simp
    · rw [if_neg ha]
      have hka : ¬ k = a := fun h => ha h.symm
      simp only [List.map_cons, ih, List.mem_cons, hka, false_or]
      split <;> simp

theorem nodup_extendAt (d : Results κ μ) (k : κ) (l : List μ) (h : (d.map Prod.fst).Nodup) :
    ((extendAt d k l).map Prod.fst).Nodup := by
  rw [keys_extendAt]
  split
  · exact h
  · rename_i hk
    rw [List.nodup_append]
    refine ⟨h, by simp, ?_⟩
    intro a ha b hb hab
    rw [List.mem_singleton] at hb
    subst hb; subst hab; exact hk ha

theorem lookup_isSome (d : List (κ × μ)) (k : κ) : k ∈ d.map Prod.fst ↔ (d.lookup k).isSome := by
  induction d with
  | nil => simp
  | cons e d ih =>
    obtain ⟨a, x⟩ := e
    by_cases h : k = a
    · subst h; simp
    · simp only [List.map_cons, List.mem_cons, h, false_or, ih, List.lookup, beq_false_of_ne h]

theorem lookup_of_mem (d : List (κ × μ)) (h : (d.map Prod.fst).Nodup) {k : κ} {x : μ} (hm : (k, x) ∈ d) : d.lookup k = some x := by
  induction d with
  | nil => simp at hm
  | cons e d ih =>
    obtain ⟨a, y⟩ := e
    rw [List.map_cons, List.nodup_cons] at h
    rcases List.mem_cons.mp hm with hm' | hm'
    · obtain ⟨rfl, rfl⟩ := Prod.mk.inj hm'; simp
    · have : k ≠ a := by
        rintro rfl; exact h.1 (List.mem_map.mpr ⟨_, hm', rfl⟩)
      simp only [List.lookup, beq_false_of_ne this]
      exact ih h.2 hm'

theorem mem_of_lookup (d : List (κ × μ)) {k : κ} {x : μ} (h : d.lookup k = some x) : (k, x) ∈ d := by
  induction d with
  | nil => simp at h
  | cons e d ih =>
    obtain ⟨a, y⟩ := e
    by_cases hk : k = a
    · subst hk; simp at h; simp [h]
    · simp only [List.lookup, beq_false_of_ne hk] at h
      exact List.mem_cons_of_mem _ (ih h)

theorem lookup_merge (acc r : Results κ μ) (h : (r.map Prod.fst).Nodup) (k : κ) :
    (merge acc r).lookup k = match r.lookup k with
      | none => acc.lookup k
      | some l => some ((acc.lookup k).getD [] ++ l) := by
  induction r generalizing acc with
  | nil => simp [merge]
  | cons e r ih =>
    obtain ⟨a, x⟩ := e
    rw [List.map_cons, List.nodup_cons] at h
    unfold merge
    rw [ih _ h.2]
    simp only [lookup_extendAt]
    by_cases hk : k = a
    · subst hk
      have : r.lookup k = none := by
        have := (lookup_isSome r k).not.mp h.1
        exact Option.not_isSome_iff_eq_none.mp this
      rw [this]; simp
    · simp only [hk, if_false, List.lookup, beq_false_of_ne hk]

theorem nodup_merge (acc r : Results κ μ) (h : (acc.map Prod.fst).Nodup) : ((merge acc r).map Prod.fst).Nodup := by
  induction r generalizing acc with
  | nil => exact h
  | cons e r ih => exact ih _ (nodup_extendAt _ _ _ h)

end Dict

/-! ### Loops as runs of steps -/

section Steps
variable {κ μ : Type} [DecidableEq κ] [BEq κ] [LawfulBEq κ]

/-- a loop body for each key: raise, nothing, append an entry -/
def runSteps : List (κ × Except Exc (Option μ)) → Results κ μ → Except Exc (Results κ μ)
  | [], res => .ok res
  | (_, .error e) :: _, _ => .error e
  | (_, .ok none) :: l, res => runSteps l res
  | (k, .ok (some m)) :: l, res => runSteps l (extendAt res k [m])

theorem runSteps_append (l l' : List (κ × Except Exc (Option μ))) (res : Results κ μ) :
    runSteps (l ++ l') res = (runSteps l res) >>= runSteps l' := by
  induction l generalizing res with
  | nil => simp [runSteps, bind, Except.bind]
  | cons s l ih =>
    obtain ⟨k, e⟩ := s
    cases e with
    | error e => simp [runSteps, bind, Except.bind]
    | ok o =>
      cases o with
      | none => simp only [List.cons_append, runSteps, ih]
      | some m => simp only [List.cons_append, runSteps, ih]

/-- the exception of a step -/
def stepErr (s : κ × Except Exc (Option μ)) : Option Exc :=
  match s.2 with
  | .error e => some e
  | .ok _ => none

theorem runSteps_error (l : List (κ × Except Exc (Option μ))) (res : Results κ μ) (e : Exc) :
    runSteps l res = .error e ↔ l.findSome? stepErr = some e := by
  induction l generalizing res with
  | nil => simp [runSteps]
  | cons s l ih =>
    obtain ⟨k, x⟩ := s
    cases x with
    | error e' => simp [runSteps, stepErr, List.findSome?_cons]
    | ok o =>
      cases o with
      | none =>
        simp only [runSteps, List.findSome?_cons, stepErr]
        exact ih res
      | some m =>
        simp only [runSteps, List.findSome?_cons, stepErr]
        exact ih _

theorem runSteps_ok (l : List (κ × Except Exc (Option μ))) (hl : (l.map Prod.fst).Nodup) (res out : Results κ μ)
    (h : runSteps l res = .ok out) (hn : (res.map Prod.fst).Nodup) (hd : ∀ s ∈ l, res.lookup s.1 = none) :
    (out.map Prod.fst).Nodup ∧
    (∀ k, k ∉ l.map Prod.fst → out.lookup k = res.lookup k) ∧
    (∀ k o, (k, .ok o) ∈ l → out.lookup k = o.map (fun m => [m])) ∧
    (∀ k e, (k, .error e) ∉ l) := by
  induction l generalizing res with
  | nil =>
    simp only [runSteps, Except.ok.injEq] at h
    subst h
    exact ⟨hn, fun _ _ => rfl, by simp, by simp⟩
  | cons s l ih =>
    obtain ⟨k, x⟩ := s
    rw [List.map_cons, List.nodup_cons] at hl
    cases x with
    | error e' => simp [runSteps] at h
    | ok o =>
      cases o with
      | none =>
        obtain ⟨h1, h2, h3, h4⟩ := ih hl.2 res h hn (fun s hs => hd s (List.mem_cons_of_mem _ hs))
        refine ⟨h1, ?_, ?_, ?_⟩
        · intro k' hk'
          rw [List.map_cons, List.mem_cons] at hk'
          push Not at hk'
          exact h2 k' hk'.2
        · intro k' o' hm
          rcases List.mem_cons.mp hm with hm | hm
          · obtain ⟨rfl, he⟩ := Prod.mk.inj hm
            obtain rfl := Except.ok.inj he
            rw [h2 _ hl.1]
            exact hd _ (List.mem_cons_self)
          · exact h3 k' o' hm
        · intro k' e' hm
          rcases List.mem_cons.mp hm with hm | hm
          · simp at hm
          · exact h4 _ _ hm
      | some m =>
        have hkn := hd (k, .ok (some m)) List.mem_cons_self
        obtain ⟨h1, h2, h3, h4⟩ := ih hl.2 (extendAt res k [m]) h (nodup_extendAt _ _ _ hn) (by
          intro s hs
          rw [lookup_extendAt, if_neg]
          · exact hd s (List.mem_cons_of_mem _ hs)
          · rintro hc; exact hl.1 (hc ▸ List.mem_map.mpr ⟨s, hs, rfl⟩))
        refine ⟨h1, ?_, ?_, ?_⟩
        · intro k' hk'
          rw [List.map_cons, List.mem_cons] at hk'
          push Not at hk'
          rw [h2 k' hk'.2, lookup_extendAt, if_neg hk'.1]
        · intro k' o' hm
          rcases List.mem_cons.mp hm with hm | hm
          · obtain ⟨rfl, he⟩ := Prod.mk.inj hm
            obtain rfl := Except.ok.inj he
            rw [h2 _ hl.1, lookup_extendAt, if_pos rfl]
            simp only at hkn
            rw [hkn]; rfl
          · exact h3 k' o' hm
        · intro k' e' hm
          rcases List.mem_cons.mp hm with hm | hm
          · simp at hm
          · exact h4 _ _ hm

end Steps

/-! ### The loops of the model -/

section Loops
variable {α : Type} [LinearOrder α] {T V W Info : Type}

theorem performKeys_steps (S : Setup α T V W Info) (raising : Bool) (info : Info) (mc : Frame α T V → Info → Except Exc (Metrics W))
    (matched : List (List α × MFrame α T V)) (keys : List (Key α)) (res : Results (Key α) (Metrics W)) :
    performKeys S raising info mc matched keys res =
      runSteps (keys.map (fun key => (key, performKey S raising info mc matched key))) res := by
  induction keys generalizing res with
  | nil => rfl
  | cons key keys ih =>
    unfold performKeys
    rw [List.map_cons]
    cases h : performKey S raising info mc matched key with
    | error e => rfl
    | ok o =>
      cases o with
      | none => exact ih res
      | some m => exact ih _

/-- the step of `dummy_validation_result` -/
def dummyStep (S : Setup α T V W Info) (info : Info) (mc : Frame α T V → Info → Except Exc (Metrics W)) (key : Key α) :
    Except Exc (Option (Metrics W)) :=
  if S.onlyWithReference && !decide (S.reference ∈ dsNames key) then .ok none
  else match dummy mc info key with
    | .error e => .error e
    | .ok m => .ok (some m)

theorem dummyKeys_steps (S : Setup α T V W Info) (info : Info) (mc : Frame α T V → Info → Except Exc (Metrics W))
    (keys : List (Key α)) (res : Results (Key α) (Metrics W)) :
    dummyKeys S info mc keys res = runSteps (keys.map (fun key => (key, dummyStep S info mc key))) res := by
  induction keys generalizing res with
  | nil => rfl
  | cons key keys ih =>
    unfold dummyKeys
    rw [List.map_cons]
    unfold dummyStep
    split
    · exact ih res
    · cases h : dummy mc info key with
      | error e => rfl
      | ok m => exact ih _

variable (S : Setup α T V W Info) (names : ℕ → List (Key α))

/-- the steps for one calculator -/
def calcSteps (raising : Bool) (info : Info)
    (cm : ((ℕ × ℕ) × (Frame α T V → Info → Except Exc (Metrics W))) × List (List α × MFrame α T V)) :
    List (Key α × Except Exc (Option (Metrics W))) :=
  if cm.2.length = 0 then [([], .error (.validation NO_TEMP_MATCHED_DATA))]
  else (names cm.1.1.2).map (fun key => (key, performKey S raising info cm.1.2 cm.2 key))

theorem performCalcs_steps (raising : Bool) (info : Info)
    (cs : List (((ℕ × ℕ) × (Frame α T V → Info → Except Exc (Metrics W))) × List (List α × MFrame α T V)))
    (hnames : ∀ cm ∈ cs, resultNames S cm.1.1.2 = .ok (names cm.1.1.2)) (res : Results (Key α) (Metrics W)) :
    performCalcs S raising info cs res = runSteps (cs.flatMap (calcSteps S names raising info)) res := by
  induction cs generalizing res with
  | nil => rfl
  | cons cm cs ih =>
    obtain ⟨c, matched⟩ := cm
    unfold performCalcs
    rw [List.flatMap_cons, runSteps_append]
    unfold calcSteps
    simp only
    by_cases hm : matched.length = 0
    · rw [if_pos hm, if_pos hm]; rfl
    · rw [if_neg hm, if_neg hm]
      rw [hnames (c, matched) List.mem_cons_self]
      simp only [bind, Except.bind]
      rw [performKeys_steps]
      cases h : runSteps ((names c.1.2).map (fun key => (key, performKey S raising info c.2 matched key))) res with
      | error e => rfl
      | ok r => exact ih (fun cm h => hnames cm (List.mem_cons_of_mem _ h)) r

theorem dummyValidationResult_steps (info : Info)
    (cs : List ((ℕ × ℕ) × (Frame α T V → Info → Except Exc (Metrics W))))
    (hnames : ∀ c ∈ cs, resultNames S c.1.2 = .ok (names c.1.2)) (res : Results (Key α) (Metrics W)) :
    dummyValidationResult S info cs res =
      runSteps (cs.flatMap (fun c => (names c.1.2).map (fun key => (key, dummyStep S info c.2 key)))) res := by
  induction cs generalizing res with
  | nil => rfl
  | cons c cs ih =>
    unfold dummyValidationResult
    rw [List.flatMap_cons, runSteps_append, hnames c List.mem_cons_self]
    simp only [bind, Except.bind]
    rw [dummyKeys_steps]
    cases h : runSteps ((names c.1.2).map (fun key => (key, dummyStep S info c.2 key))) res with
    | error e => rfl
    | ok r => exact ih (fun c h => hnames c (List.mem_cons_of_mem _ h)) r

/-- the result names exist, are distinct and are the admissible combinations -/
theorem resultNames_exist (hn : (S.ds.map Prod.fst).Nodup) (hc : ∀ e ∈ S.ds, e.2.Nodup) :
    ∃ names : ℕ → List (Key α), ∀ k, 1 ≤ k → resultNames S k = .ok (names k) ∧ (names k).Nodup ∧
      ∀ key, key ∈ names k ↔ ∃ ref, Admissible S.ds ref k key := by
  have h : ∀ k, 1 ≤ k → ∃ l, resultNames S k = .ok l ∧ l.Nodup ∧ ∀ key, key ∈ l ↔ ∃ ref, Admissible S.ds ref k key := by
    intro k hk
    obtain ⟨l, h1, h2, h3⟩ := DataManager.result_combinations_correct S.ds hn hc k hk
    refine ⟨l, ?_, h2.imp (fun h => ne_of_lt h), h3⟩
    unfold resultNames
    rw [h1]
  refine ⟨fun k => if hk : 1 ≤ k then (h k hk).choose else [], ?_⟩
  intro k hk
  simp only [hk, dif_pos]
  exact (h k hk).choose_spec

/-! ### Status fields -/

theorem setStatus_ok (F : List Field) (hs : Field.plain "status" ∈ F) (w : W) (m : Metrics W) (hm : IsRow F m) :
    ∃ m', setStatus w m = .ok m' ∧ IsRow F m' ∧ HasValue m' (.plain "status") w := by
  induction m generalizing F with
  | nil =>
    obtain ⟨h1, -⟩ := hm
    simp only [List.map_nil] at h1
    rw [← h1] at hs; simp at hs
  | cons e m ih =>
    obtain ⟨f, c⟩ := e
    obtain ⟨h1, h2⟩ := hm
    obtain ⟨w0, hw0⟩ := h2 (f, c) List.mem_cons_self
    simp only at hw0
    subst hw0
    by_cases hf : f = .plain "status"
    · subst hf
      refine ⟨(.plain "status", .arr w) :: m, rfl, ⟨?_, ?_⟩, ?_⟩
      · rw [← h1]; rfl
      · intro e he
        rcases List.mem_cons.mp he with rfl | he
        · exact ⟨w, rfl⟩
        · exact h2 e (List.mem_cons_of_mem _ he)
      · exact List.mem_cons_self
    · have hs' : Field.plain "status" ∈ m.map Prod.fst := by
        rw [← h1, List.map_cons, List.mem_cons] at hs
        rcases hs with hs | hs
        · exact absurd hs.symm hf
        · exact hs
      obtain ⟨m', h3, h4, h5⟩ := ih (m.map Prod.fst) hs' ⟨rfl, fun e he => h2 e (List.mem_cons_of_mem _ he)⟩
      refine ⟨(f, .arr w0) :: m', ?_, ⟨?_, ?_⟩, ?_⟩
      · unfold setStatus
        split
        · rename_i heq; simp at heq
        · rename_i heq
          simp only [List.cons.injEq, Prod.mk.injEq] at heq
          exact absurd heq.1.1 hf
        · rename_i heq
          simp only [List.cons.injEq, Prod.mk.injEq] at heq
          exact absurd heq.1.1 hf
        · rename_i heq
          obtain ⟨rfl, rfl⟩ := List.cons.inj heq
          rw [h3]; rfl
      · rw [← h1, List.map_cons, List.map_cons, h4.1]
      · intro e he
        rcases List.mem_cons.mp he with rfl | he
        · exact ⟨w0, rfl⟩
        · exact h4.2 e he
      · exact List.mem_cons_of_mem _ h5

theorem setAllStatus_ok (F : List Field) (w : W) (m : Metrics W) (hm : IsRow F m) :
    ∃ m', setAllStatus w m = .ok m' ∧ IsRow F m' ∧ (∀ f ∈ F, f.isStatus = true → HasValue m' f w) ∧
      ∀ f w', f.isStatus = false → HasValue m f w' → HasValue m' f w' := by
  induction m generalizing F with
  | nil =>
    refine ⟨[], rfl, hm, ?_, ?_⟩
    · obtain ⟨h1, -⟩ := hm
      intro f hf
      rw [← h1] at hf; simp at hf
    · intro f w' _ h; simp [HasValue] at h
  | cons e m ih =>
    obtain ⟨f, c⟩ := e
    obtain ⟨h1, h2⟩ := hm
    obtain ⟨w0, hw0⟩ := h2 (f, c) List.mem_cons_self
    simp only at hw0
    subst hw0
    obtain ⟨m', h3, h4, h5, h6⟩ := ih (m.map Prod.fst) ⟨rfl, fun e he => h2 e (List.mem_cons_of_mem _ he)⟩
    unfold setAllStatus
    rw [h3]
    by_cases hf : f.isStatus = true
    · rw [if_pos hf]
      refine ⟨_, rfl, ⟨?_, ?_⟩, ?_, ?_⟩
      · rw [← h1, List.map_cons, List.map_cons, h4.1]
      · intro e he
        rcases List.mem_cons.mp he with rfl | he
        · exact ⟨w, rfl⟩
        · exact h4.2 e he
      · intro f' hf' hst
        rw [← h1, List.map_cons, List.mem_cons] at hf'
        rcases hf' with rfl | hf'
        · exact List.mem_cons_self
        · exact List.mem_cons_of_mem _ (h5 f' hf' hst)
      · intro f' w' hst hv
        rcases List.mem_cons.mp hv with hv | hv
        · rw [(Prod.mk.inj hv).1, hf] at hst; simp at hst
        · exact List.mem_cons_of_mem _ (h6 f' w' hst hv)
    · rw [if_neg hf]
      refine ⟨_, rfl, ⟨?_, ?_⟩, ?_, ?_⟩
      · rw [← h1, List.map_cons, List.map_cons, h4.1]
      · intro e he
        rcases List.mem_cons.mp he with rfl | he
        · exact ⟨w0, rfl⟩
        · exact h4.2 e he
      · intro f' hf' hst
        rw [← h1, List.map_cons, List.mem_cons] at hf'
        rcases hf' with rfl | hf'
        · exact absurd hst hf
        · exact List.mem_cons_of_mem _ (h5 f' hf' hst)
      · intro f' w' hst hv
        rcases List.mem_cons.mp hv with hv | hv
        · unfold HasValue; rw [hv]; exact List.mem_cons_self
        · exact List.mem_cons_of_mem _ (h6 f' w' hst hv)

end Loops

end Verif.Validation
