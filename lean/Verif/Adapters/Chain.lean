import Verif.Adapters.Props

/-!
C137: adapters around adapters (`src/pytesmo/validation_framework/adapters.py`): an adapted reader is a reader and can be adapted again.
-/

set_option linter.unusedSectionVars false

namespace Verif.Adapters

variable {N T K : Type} [DecidableEq N] [LinearOrder K]

/-- adapters.py:111-123, 233-251: reading through `SelfMaskingAdapter`s around each other; the first filter belongs to the innermost adapter.
An exception of an inner reader is raised. -/
def selfMaskingChain : List (N × Op K × K) → DF N T K → Except Err (DF N T K)
  | [], d => .ok d
  | (column, op, threshold) :: fs, d =>
    match selfMaskingAdapt op threshold column (some d) with
    | .error e => .error e
    | .ok d' => selfMaskingChain fs d'

/-- specification: the filters can be used with these columns -/
def Usable (cols : List N) (fs : List (N × Op K × K)) : Prop := ∀ f ∈ fs, f.2.1.valid = true ∧ f.1 ∈ cols

/-- specification: a filter other than "!=" and callables -/
def Comparison (op : Op K) : Prop := op = .lt ∨ op = .le ∨ op = .eq ∨ op = .ge ∨ op = .gt

theorem self_masking_eq (op : Op K) (t : K) (c : N) (d : DF N T K) (hop : op.valid = true) (hc : c ∈ d.cols) :
    selfMaskingAdapt op t c (some d) = .ok ⟨d.cols, d.rows.filter (fun r => op.apply (r.2 c) t)⟩ := by
  unfold selfMaskingAdapt basicAdapt
  rw [if_pos hop]
  simp only [Option.getD_some]
  rw [if_pos hc, applyMask_map]

theorem chain_eq (fs : List (N × Op K × K)) (d : DF N T K) (h : Usable d.cols fs) :
    selfMaskingChain fs d = .ok ⟨d.cols, d.rows.filter (fun r => fs.all (fun f => f.2.1.apply (r.2 f.1) f.2.2))⟩ := by
  induction fs generalizing d with
  | nil => simp [selfMaskingChain]
  | cons f fs ih =>
    obtain ⟨h1, h2⟩ := h f List.mem_cons_self
    unfold selfMaskingChain
    rw [self_masking_eq _ _ _ _ h1 h2]
    simp only
    rw [ih ⟨d.cols, d.rows.filter (fun r => f.2.1.apply (r.2 f.1) f.2.2)⟩ (fun g hg => h g (List.mem_cons_of_mem _ hg))]
    simp only [List.filter_filter, List.all_cons]
    congr 2
    apply List.filter_congr
    intro r _
    rw [Bool.and_comm]

theorem advanced_eq (fs : List (N × Op K × K)) (ign : Bool) (d : DF N T K) (hne : fs ≠ []) (h : Usable d.cols fs) :
    advancedMaskingAdapt fs ign (some d) = .ok (dropnaAll ⟨d.cols, d.rows.filter (fun r => fs.all
      (fun f => f.2.1.apply (r.2 f.1) f.2.2 || (ign && (r.2 f.1).isNone)))⟩) := by
  unfold advancedMaskingAdapt basicAdapt
  simp only [Option.getD_some]
  rw [maskLoop_none ign d fs hne h]
  simp only
  rw [applyMask_map]

/-- **C137 (partial).** `SelfMaskingAdapter`s around each other give what one `AdvancedMaskingAdapter` with all the filters gives, except
that the latter also drops the rows without any value. Missing for the full claim: see `chain_keeps_empty_rows`. -/
theorem chain_is_advanced_partial (fs : List (N × Op K × K)) (d : DF N T K) (hne : fs ≠ []) (h : Usable d.cols fs) :
    ∃ out, selfMaskingChain fs d = .ok out ∧ advancedMaskingAdapt fs false (some d) = .ok (dropnaAll out) := by
  refine ⟨_, chain_eq fs d h, ?_⟩
  rw [advanced_eq fs false d hne h]
  simp

/-- **C137.** If one of the filters is a comparison other than "!=", both are the same. -/
theorem chain_is_advanced (fs : List (N × Op K × K)) (d : DF N T K) (h : Usable d.cols fs) (hc : ∃ f ∈ fs, Comparison f.2.1) :
    advancedMaskingAdapt fs false (some d) = selfMaskingChain fs d := by
  obtain ⟨f, hf, hop⟩ := hc
  rw [advanced_eq fs false d (List.ne_nil_of_mem hf) h, chain_eq fs d h]
  unfold dropnaAll
  simp only [Bool.false_and, Bool.or_false, List.filter_filter]
  congr 2
  apply List.filter_congr
  intro r _
  cases hall : fs.all (fun f => f.2.1.apply (r.2 f.1) f.2.2) with
  | false => simp
  | true =>
    have hfa := List.all_eq_true.1 hall f hf
    have hs : (r.2 f.1).isSome = true := by
      cases hv : r.2 f.1 with
      | none =>
        rw [hv] at hfa
        rcases hop with e | e | e | e | e <;> rw [e] at hfa <;> simp [Op.apply] at hfa
      | some v => rfl
    simp only [Bool.and_true]
    exact List.any_eq_true.2 ⟨f.1, (h f hf).2, hs⟩

/-- **C137.** The order of the adapters, or of the filters of one adapter, does not matter. -/
theorem chain_order (fs gs : List (N × Op K × K)) (hp : fs.Perm gs) (d : DF N T K) (h : Usable d.cols fs) (ign : Bool) :
    selfMaskingChain fs d = selfMaskingChain gs d ∧ advancedMaskingAdapt fs ign (some d) = advancedMaskingAdapt gs ign (some d) := by
  have hg : Usable d.cols gs := fun f hf => h f (hp.mem_iff.2 hf)
  constructor
  · rw [chain_eq fs d h, chain_eq gs d hg]
    congr 2
    apply List.filter_congr
    intro r _
    exact hp.all_eq
  · by_cases hne : fs = []
    · subst hne
      rw [List.nil_perm.1 hp]
    · have hne' : gs ≠ [] := fun e => hne (by subst e; exact hp.eq_nil)
      rw [advanced_eq fs ign d hne h, advanced_eq gs ign d hne' hg]
      congr 3
      apply List.filter_congr
      intro r _
      exact hp.all_eq

/-- **C137.** Reading through the adapters raises exactly if one of them cannot be used, whatever the data. -/
theorem chain_raises (fs : List (N × Op K × K)) (d : DF N T K) : (∃ e, selfMaskingChain fs d = .error e) ↔ ¬ Usable d.cols fs := by
  constructor
  · rintro ⟨e, he⟩ h
    rw [chain_eq fs d h] at he
    cases he
  · intro h
    induction fs generalizing d with
    | nil => exact absurd (fun f hf => absurd hf List.not_mem_nil) h
    | cons f fs ih =>
      unfold selfMaskingChain
      by_cases h1 : f.2.1.valid = true
      · by_cases h2 : f.1 ∈ d.cols
        · rw [self_masking_eq _ _ _ _ h1 h2]
          refine ih _ (fun hu => h ?_)
          intro g hg
          rcases List.mem_cons.1 hg with rfl | hg
          · exact ⟨h1, h2⟩
          · exact hu g hg
        · refine ⟨.keyError, ?_⟩
          unfold selfMaskingAdapt basicAdapt
          rw [if_pos h1]
          simp only [Option.getD_some]
          rw [if_neg h2]
      · unfold selfMaskingAdapt
        rw [if_neg h1]
        exact ⟨_, rfl⟩

/-- **C137.** The filters can be divided among two `AdvancedMaskingAdapter`s around each other. -/
theorem advanced_split (fs gs : List (N × Op K × K)) (hf : fs ≠ []) (hg : gs ≠ []) (ign : Bool) (d : DF N T K) (h : Usable d.cols (fs ++ gs)) :
    ∃ inner, advancedMaskingAdapt fs ign (some d) = .ok inner ∧
      advancedMaskingAdapt gs ign (some inner) = advancedMaskingAdapt (fs ++ gs) ign (some d) := by
  have h1 : Usable d.cols fs := fun f hm => h f (List.mem_append_left _ hm)
  have h2 : Usable d.cols gs := fun f hm => h f (List.mem_append_right _ hm)
  refine ⟨_, advanced_eq fs ign d hf h1, ?_⟩
  rw [advanced_eq gs ign _ hg (by exact h2), advanced_eq (fs ++ gs) ign d (by simp [hf]) h]
  unfold dropnaAll
  simp only [List.filter_filter, List.all_append]
  congr 2
  apply List.filter_congr
  intro r _
  generalize (d.cols.any fun c => (r.2 c).isSome) = a
  generalize (fs.all fun f => f.2.1.apply (r.2 f.1) f.2.2 || (ign && (r.2 f.1).isNone)) = b
  generalize (gs.all fun f => f.2.1.apply (r.2 f.1) f.2.2 || (ign && (r.2 f.1).isNone)) = c
  cases a <;> cases b <;> cases c <;> rfl

/-- **C137, negation.** With "!=" a row without any value is kept by the chain and dropped by `AdvancedMaskingAdapter`. -/
theorem chain_keeps_empty_rows :
    let d : DF String ℕ ℚ := ⟨["sm", "flag"], [(0, fun _ => none), (1, fun _ => some 5)]⟩
    ((selfMaskingChain [("flag", .ne, 1)] d).map (fun o => o.rows.map Prod.fst)).toOption = some [0, 1] ∧
      ((advancedMaskingAdapt [("flag", .ne, 1)] false (some d)).map (fun o => o.rows.map Prod.fst)).toOption = some [1] := by
  decide +kernel

/-! ### Masks and new columns -/

theorem zip_map_self {A B C : Type} (l : List A) (f : A → B) (g : A × B → C) : (l.zip (l.map f)).map g = l.map (fun a => g (a, f a)) := by
  rw [List.zip_map_right, List.map_map]
  induction l with
  | nil => rfl
  | cons a l ih => simp_all [List.zip_cons_cons]

/-- **C137.** Masking by a column and adding a combined column (of another name) can be done in any order. -/
theorem combine_masking (func : List (Option K) → Option K) (columns : Option (List N)) (newName c : N) (op : Op K) (t : K) (d : DF N T K)
    (hop : op.valid = true) (hc : c ∈ d.cols) (hn : c ≠ newName) (hcols : ∀ cs, columns = some cs → ∀ x ∈ cs, x ∈ d.cols) :
    ∃ combined masked, combineAdapt func columns newName (some d) = .ok combined ∧ selfMaskingAdapt op t c (some d) = .ok masked ∧
      selfMaskingAdapt op t c (some combined) = combineAdapt func columns newName (some masked) := by
  have key : ∀ e : DF N T K, e.cols = d.cols → combineAdapt func columns newName (some e) =
      .ok (setColumn e newName (e.rows.map (fun r => func ((columns.getD d.cols).map r.2)))) := by
    intro e he
    unfold combineAdapt basicAdapt
    simp only [Option.getD_some]
    have hne : e.cols ≠ [] := by rw [he]; exact List.ne_nil_of_mem hc
    by_cases hr : e.rows = []
    · rw [if_pos (.inl hr)]; simp [hr]
    · rw [if_neg (by simp [hr, hne]), if_pos]
      · simp only [he]
      rw [List.all_eq_true]
      intro x hx
      cases columns with
      | none => simpa using hx
      | some cs => simpa [he] using hcols cs rfl x hx
  refine ⟨_, _, key d rfl, self_masking_eq op t c d hop hc, ?_⟩
  rw [key ⟨d.cols, d.rows.filter (fun r => op.apply (r.2 c) t)⟩ rfl]
  rw [self_masking_eq op t c _ hop (by unfold setColumn; simp only; split <;> simp [hc])]
  unfold setColumn
  simp only [zip_map_self, List.filter_map]
  congr 3
  apply List.filter_congr
  intro r _
  simp [hn]

/-- subtraction of the mean of the values. Stands for the anomalies in the example below (adapters.py:369-378). -/
def minusMean (l : List (ℕ × Option ℚ)) : List (Option ℚ) :=
  let vs := l.filterMap Prod.snd
  l.map (fun p => p.2.map (· - vs.sum / vs.length))

/-- **C137, negation.** Anomalies and masks cannot be exchanged: an `AnomalyAdapter` for all columns replaces the flags as well, and a
mask around it compares anomalies of flags. Here the outer mask `flag == 0` keeps nothing, the inner one keeps the rows 0 and 1. -/
theorem anomaly_masking_order :
    let d : DF String ℕ ℚ := ⟨["sm", "flag"], [(0, fun c => if c = "sm" then some 1 else some 0), (1, fun c => if c = "sm" then some 3 else some 0),
      (2, fun c => if c = "sm" then some 8 else some 1)]⟩
    (((anomalyAdapt minusMean none (some d)).bind (fun o => selfMaskingAdapt .eq 0 "flag" (some o))).map (fun o => o.rows.map (fun r => (r.1, r.2 "sm")))).toOption = some [] ∧
      (((selfMaskingAdapt .eq 0 "flag" (some d)).bind (fun o => anomalyAdapt minusMean none (some o))).map (fun o => o.rows.map (fun r => (r.1, r.2 "sm")))).toOption =
        some [(0, some (-1)), (1, some 1)] := by
  decide +kernel

/-! ### Concrete cases -/

example : ¬ Usable ["sm", "flag"] [("flag", Op.eq, (0 : ℚ)), ("temperature", Op.gt, 0)] := by
  intro h
  have := (h ("temperature", Op.gt, 0) (by simp)).2
  revert this
  decide

/-- soil moisture and a flag at three times -/
def exChain : DF String ℕ ℚ := ⟨["sm", "flag"], [(0, fun c => if c = "sm" then some 1 else some 0), (1, fun c => if c = "sm" then none else some 0),
  (2, fun c => if c = "sm" then some 8 else some 1)]⟩

example : Usable exChain.cols [("flag", Op.eq, (0 : ℚ)), ("sm", Op.lt, 5)] := by
  intro f hf
  simp only [List.mem_cons, List.not_mem_nil, or_false] at hf
  rcases hf with rfl | rfl <;> exact ⟨rfl, by decide⟩

example : ((selfMaskingChain [("flag", .eq, 0), ("sm", .lt, 5)] exChain).map (fun o => o.rows.map Prod.fst)).toOption = some [0] ∧
    ((advancedMaskingAdapt [("sm", .lt, 5), ("flag", .eq, 0)] false (some exChain)).map (fun o => o.rows.map Prod.fst)).toOption = some [0] := by
  decide +kernel

end Verif.Adapters
