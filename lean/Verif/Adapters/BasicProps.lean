import Verif.Adapters.Basic

/-! C84: what every adapted reader does. -/

namespace Verif.Adapters.Basic

variable {A G B : Type}

/-- **C84.** The frame an adapter works on is the frame of the reader: directly or from the agreed attribute, same content, same instants, in
UTC without a time zone. -/
theorem adapted_frame_partial (empty : B) (prop : Name) (v : Value B) (f : Frame B) (h : Holds prop v f) :
    ∃ g, basicAdapt empty prop v = .ok g ∧ g.body = f.body ∧ isNaive g.index ∧ shown g.index = instants f.index := by
  obtain ⟨idx, body⟩ := f
  cases h with
  | direct =>
    cases idx with
    | naive s => exact ⟨⟨.naive s, body⟩, rfl, rfl, trivial, rfl⟩
    | aware s => exact ⟨⟨.naive (s.map (fun x => x.1 - x.2)), body⟩, rfl, rfl, trivial, rfl⟩
  | attr attrs _ ha =>
    cases idx with
    | naive s => exact ⟨⟨.naive s, body⟩, by simp only [basicAdapt, getDataframe, ha, dropTz], rfl, trivial, rfl⟩
    | aware s => exact ⟨⟨.naive (s.map (fun x => x.1 - x.2)), body⟩, by simp only [basicAdapt, getDataframe, ha, dropTz, toUtc], rfl, trivial, rfl⟩

/-- **C84.** A reader that returns nothing gives an empty frame; an object without the agreed attribute is refused. -/
theorem adapted_nothing (empty : B) (prop : Name) (v : Value B) (h : ∀ f, ¬ Holds prop v f) :
    (v = .none ∧ basicAdapt empty prop v = .ok ⟨.naive [], empty⟩) ∨ (v ≠ .none ∧ basicAdapt empty prop v = .error .attributeError) := by
  cases v with
  | none => exact .inl ⟨rfl, rfl⟩
  | frame f => exact absurd (.direct f) (h f)
  | object attrs =>
    refine .inr ⟨by simp, ?_⟩
    cases ha : attrs prop with
    | none => simp only [basicAdapt, getDataframe, ha, dropTz]
    | some a =>
      cases a with
      | frame f => exact absurd (.attr attrs f ha) (h f)
      | something => simp only [basicAdapt, getDataframe, ha, dropTz]

/-- the adapters of a stack applied one after the other, the innermost (last) first: each makes a frame of what it gets (`adapted_frame_partial`,
`adapted_nothing`) and processes it; the first exception ends the call -/
def applyAll (empty : B) (Ls : List (Layer B)) (v : Except Err (Value B)) : Except Err (Value B) :=
  Ls.foldr (fun L v => v.bind (fun x => (basicAdapt empty L.prop x).bind (fun f => (L.process f).map Value.frame))) v

theorem layerAdapt_eq (empty : B) (L : Layer B) (v : Value B) :
    layerAdapt empty L v = (basicAdapt empty L.prop v).bind (fun f => (L.process f).map Value.frame) := by
  unfold layerAdapt
  cases basicAdapt empty L.prop v with
  | error e => rfl
  | ok f => cases h : L.process f <;> simp [Except.bind, Except.map, h]

/-- **C84.** Calling `read`, `read_ts` or the method named when every adapter of the stack was built gives the value of the reader's method of
that name for the same arguments, passed through the adapters from the inside out. -/
theorem stack_call (empty : B) (R : Reader A G B) (Ls : List (Layer B)) (m : Name) (args : A)
    (hm : m = "read".toList ∨ m = "read_ts".toList ∨ (m ≠ [] ∧ ∀ L ∈ Ls, L.readName = some m)) :
    call empty R Ls m args =
      applyAll empty Ls (match R.methods m with | none => .error .attributeError | some f => f args) := by
  induction Ls with
  | nil => cases h : R.methods m <;> simp [call, applyAll, h]
  | cons L Ls ih =>
    have hh : hasMethod L m = true := by
      unfold hasMethod
      rcases hm with h | h | ⟨hne, h⟩
      · simp [h]
      · simp [h]
      · simp [h L (by simp), hne]
    have ih := ih (by
      rcases hm with h | h | ⟨hne, h⟩
      · exact .inl h
      · exact .inr (.inl h)
      · exact .inr (.inr ⟨hne, fun L' h' => h L' (List.mem_cons_of_mem _ h')⟩))
    unfold call
    rw [if_pos hh, ih]
    unfold applyAll
    rw [List.foldr_cons]
    generalize List.foldr (fun L v => Except.bind v (fun x => (basicAdapt empty L.prop x).bind (fun f => (L.process f).map Value.frame)))
      (match R.methods m with | none => Except.error .attributeError | some f => f args) Ls = w
    cases w with
    | error e => rfl
    | ok v => exact layerAdapt_eq empty L v

/-- **C84.** Any other method fails: one adapter that was not told about the method is enough, wherever it is in the stack, unless an inner
call failed before. -/
theorem stack_call_unknown (empty : B) (R : Reader A G B) (Ls : List (Layer B)) (m : Name) (args : A) (h1 : m ≠ "read".toList)
    (h2 : m ≠ "read_ts".toList) (L : Layer B) (hL : L ∈ Ls) (h3 : L.readName ≠ some m) :
    call empty R Ls m args = .error .attributeError := by
  induction Ls with
  | nil => simp at hL
  | cons L' Ls ih =>
    unfold call
    by_cases hh : hasMethod L' m = true
    · rw [if_pos hh]
      rcases List.mem_cons.mp hL with rfl | hmem
      · exfalso
        unfold hasMethod at hh
        simp only [Bool.or_eq_true, decide_eq_true_eq, h1, h2, or_false] at hh
        cases hr : L.readName with
        | none => simp [hr] at hh
        | some r =>
          simp only [hr, Bool.and_eq_true, decide_eq_true_eq] at hh
          exact h3 (by rw [hr, hh.2])
      · rw [ih hmem]
    · rw [if_neg hh]

/-- **C84.** The grid of an adapted reader is the grid of the reader, `None` if it has none. -/
theorem stack_grid (R : Reader A G B) (Ls : List (Layer B)) : grid R Ls = R.grid := by
  induction Ls with
  | nil => rfl
  | cons _ _ ih => exact ih

/-- **C84.** Adapting twice is adapting once: a second `BasicAdapter` changes nothing. -/
theorem adapt_twice (empty : B) (p q : Name) (v : Value B) (f : Frame B) (h : basicAdapt empty p v = .ok f) :
    basicAdapt empty q (.frame f) = .ok f := by
  have hn : isNaive f.index := by
    cases v with
    | none => simp only [basicAdapt, Except.ok.injEq] at h; subst h; trivial
    | frame g =>
      obtain ⟨g', e1, -, e3, -⟩ := adapted_frame_partial empty p (.frame g) g (.direct g)
      rw [e1] at h
      rw [← Except.ok.inj h]
      exact e3
    | object attrs =>
      by_cases ha : ∃ g, attrs p = some (.frame g)
      · obtain ⟨g, ha⟩ := ha
        obtain ⟨g', e1, -, e3, -⟩ := adapted_frame_partial empty p (.object attrs) g (.attr attrs g ha)
        rw [e1] at h
        rw [← Except.ok.inj h]
        exact e3
      · rcases adapted_nothing empty p (.object attrs) (by intro g hg; cases hg with | attr _ _ hh => exact ha ⟨g, hh⟩) with ⟨e, -⟩ | ⟨-, e⟩
        · simp at e
        · rw [e] at h; simp at h
  obtain ⟨idx, body⟩ := f
  cases idx with
  | naive s => rfl
  | aware s => exact absurd hn (by simp [isNaive])

/-- **C84.** Reading again from a reader that keeps its frame gives the same frame. -/
theorem cached_read_repeatable (empty : B) (p : Name) (kept f k : Frame B) (h : readCached empty p kept = .ok (f, k)) :
    readCached empty p k = .ok (f, k) := by
  unfold readCached at h
  cases hb : basicAdapt empty p (.frame kept) with
  | error e => rw [hb] at h; simp at h
  | ok g =>
    rw [hb] at h
    simp only [Except.ok.injEq, Prod.mk.injEq] at h
    obtain ⟨rfl, rfl⟩ := h
    unfold readCached
    rw [adapt_twice empty p p _ _ hb]

/-- **C84, negation.** But the frame the reader keeps is changed: after an adapted read the reader's own frame has lost its time zone, and its
time stamps read differently. -/
theorem cached_read_changes_reader : ∃ kept : Frame ℕ, ∃ f k, readCached 0 "data".toList kept = .ok (f, k) ∧ k ≠ kept ∧
    shown k.index ≠ shown kept.index :=
  ⟨⟨.aware [(7200, 3600)], 1⟩, ⟨.naive [3600], 1⟩, ⟨.naive [3600], 1⟩, by decide +kernel, by decide +kernel, by decide +kernel⟩

/-- **C84.** Readers whose frames have no time zone are left alone. -/
theorem cached_read_naive (empty : B) (p : Name) (kept : Frame B) (h : isNaive kept.index) : readCached empty p kept = .ok (kept, kept) := by
  obtain ⟨idx, body⟩ := kept
  cases idx with
  | naive s => rfl
  | aware s => exact absurd h (by simp [isNaive])

/-- two adapters around a reader with the method `read_bulk`: the outer one must be told about it as well -/
def exReader : Reader ℕ Unit ℕ := ⟨fun m => if m = "read_bulk".toList then some (fun n => .ok (.frame ⟨.aware [(10, 3)], n⟩)) else none, none⟩

def exLayer (r : Option Name) (k : ℕ) : Layer ℕ := ⟨"data".toList, r, fun f => .ok ⟨f.index, f.body * 10 + k⟩⟩

example : (match call 0 exReader [exLayer (some "read_bulk".toList) 1, exLayer (some "read_bulk".toList) 2] "read_bulk".toList 5 with
    | .ok (.frame f) => some f | _ => none) = some ⟨.naive [7], 521⟩ := by decide +kernel

example : (match call 0 exReader [exLayer (some "read_bulk".toList) 1, exLayer none 2] "read_bulk".toList 5 with
    | .error .attributeError => true | _ => false) = true := by decide +kernel

example : (exLayer none 2).readName ≠ some "read_bulk".toList ∧ "read_bulk".toList ≠ "read".toList ∧ "read_bulk".toList ≠ "read_ts".toList := by
  decide +kernel

/-- the theorems applied to the reader above -/
example := stack_call 0 exReader [exLayer (some "read_bulk".toList) 1, exLayer (some "read_bulk".toList) 2] "read_bulk".toList 5
  (.inr (.inr ⟨by decide, by simp [exLayer]⟩))
example := stack_call_unknown 0 exReader [exLayer none 1, exLayer (some "read_bulk".toList) 2] "read_bulk".toList 5 (by decide) (by decide)
  (exLayer none 1) (by simp) (by simp [exLayer])
example (f k) (h : readCached 0 "data".toList (⟨.aware [(10, 3)], 5⟩ : Frame ℕ) = .ok (f, k)) := cached_read_repeatable 0 "data".toList ⟨.aware [(10, 3)], 5⟩ f k h
example := cached_read_naive 0 "data".toList (⟨.naive [7], 5⟩ : Frame ℕ) trivial

end Verif.Adapters.Basic
