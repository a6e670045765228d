import Mathlib.Data.List.Induction
import Mathlib.Data.List.Nodup
import Mathlib.Tactic.Common

/-!
C144: whose dictionary holds the options of a `ColumnCombineAdapter` (`src/pytesmo/validation_framework/adapters.py:458-509`).
Dictionaries live in memory; a program makes dictionaries, assigns to them and builds adapters in any order.
-/

namespace Verif.Adapters.Options

variable {V : Type}

/-- dictionaries in memory, addresses of those the program has names for, addresses kept by the adapters. Used for adapters.py:503-506. -/
structure Memory (V : Type) where
  heap : List (String → Option V)
  program : List ℕ
  adapters : List ℕ

/-- statements of a program. Used for adapters.py:458-509. -/
inductive Op (V : Type)
  /-- `d = {...}` -/
  | dict (d : String → Option V)
  /-- `d[k] = v` for the dictionary with number `n` of the program -/
  | assign (n : ℕ) (k : String) (v : V)
  /-- `ColumnCombineAdapter(reader, func, func_kwargs)` with a dictionary of the program or without -/
  | adapter (n : Option ℕ)

/-- `d[k] = v` in memory. Used for adapters.py:506. -/
def store (heap : List (String → Option V)) (a : ℕ) (k : String) (v : V) : List (String → Option V) :=
  heap.modify a (fun d => Function.update d k (some v))

/-- adapters.py:503-506: without options a new dictionary is made; `func_kwargs["axis"] = 1` is assigned in either case. A name that does not exist
stops the statement. `one` is the value 1. -/
def step (one : V) (s : Memory V) : Op V → Memory V
  | .dict d => { s with heap := s.heap ++ [d], program := s.program ++ [s.heap.length] }
  | .assign n k v => match s.program[n]? with
    | some a => { s with heap := store s.heap a k v }
    | none => s
  | .adapter (some n) => match s.program[n]? with
    | some a => { s with heap := store s.heap a "axis" one, adapters := s.adapters ++ [a] }
    | none => s
  | .adapter none =>
    { s with heap := store (s.heap ++ [fun _ => none]) s.heap.length "axis" one, adapters := s.adapters ++ [s.heap.length] }

/-- a program. Used for adapters.py:458-509. -/
def run (one : V) (p : List (Op V)) : Memory V := p.foldl (step one) ⟨[], [], []⟩

/-- adapters.py:520: the options passed to `DataFrame.apply` by adapter `i` -/
def options (s : Memory V) (i : ℕ) : Option (String → Option V) := s.adapters[i]? >>= fun a => s.heap[a]?

/-- the dictionary with number `n` of the program. Used for adapters.py:503. -/
def named (s : Memory V) (n : ℕ) : Option (String → Option V) := s.program[n]? >>= fun a => s.heap[a]?

/-! ### Specification -/

/-- specification: does the statement assign to the entry `axis` -/
def setsAxis : Op V → Prop
  | .assign _ k _ => k = "axis"
  | _ => False

/-- the state of a program: addresses exist, and no two names mean the same dictionary -/
structure Ok (s : Memory V) : Prop where
  program : ∀ a ∈ s.program, a < s.heap.length
  adapters : ∀ a ∈ s.adapters, a < s.heap.length
  nodup : s.program.Nodup

theorem store_length (heap : List (String → Option V)) (a : ℕ) (k : String) (v : V) : (store heap a k v).length = heap.length := by
  simp [store]

theorem store_at (heap : List (String → Option V)) (a b : ℕ) (k : String) (v : V) :
    (store heap a k v)[b]? = if a = b then heap[b]?.map (fun d => Function.update d k (some v)) else heap[b]? := by
  unfold store
  rw [List.getElem?_modify]
  split <;> simp

theorem step_ok (one : V) (s : Memory V) (h : Ok s) (o : Op V) : Ok (step one s o) := by
  rcases o with d | ⟨n, k, v⟩ | n
  · refine ⟨?_, ?_, ?_⟩
    · intro a ha
      simp only [step, List.mem_append, List.mem_singleton, List.length_append, List.length_singleton] at ha ⊢
      rcases ha with ha | rfl
      · have := h.program a ha; omega
      · omega
    · intro a ha
      have := h.adapters a ha
      simp only [step, List.length_append, List.length_singleton]
      omega
    · refine List.nodup_append.2 ⟨h.nodup, by simp, ?_⟩
      intro a ha b hb hab
      simp only [List.mem_singleton] at hb
      have := h.program a ha
      omega
  · cases e : s.program[n]? with
    | none => simpa only [step, e] using h
    | some a =>
      simp only [step, e]
      exact ⟨fun b hb => by simpa [store_length] using h.program b hb, fun b hb => by simpa [store_length] using h.adapters b hb, h.nodup⟩
  · cases n with
    | none =>
      refine ⟨fun b hb => ?_, fun b hb => ?_, h.nodup⟩
      · have := h.program b hb
        simp only [step, store_length, List.length_append, List.length_singleton]
        omega
      · simp only [step, store_length, List.length_append, List.length_singleton, List.mem_append, List.mem_singleton] at hb ⊢
        rcases hb with hb | rfl
        · have := h.adapters b hb; omega
        · omega
    | some n =>
      cases e : s.program[n]? with
      | none => simpa only [step, e] using h
      | some a =>
        simp only [step, e]
        refine ⟨fun b hb => by simpa [store_length] using h.program b hb, fun b hb => ?_, h.nodup⟩
        simp only [List.mem_append, List.mem_singleton] at hb
        rw [store_length]
        rcases hb with hb | rfl
        · exact h.adapters b hb
        · exact h.program b (List.mem_of_getElem? e)

theorem run_snoc (one : V) (p : List (Op V)) (o : Op V) : run one (p ++ [o]) = step one (run one p) o := by
  simp [run, List.foldl_append]

theorem run_ok (one : V) (p : List (Op V)) : Ok (run one p) := by
  induction p using List.reverseRecOn with
  | nil => exact ⟨by simp [run], by simp [run], by simp [run]⟩
  | append_singleton p o ih => rw [run_snoc]; exact step_ok one _ ih o

/-! ### Theorems -/

/-- **C144 (columns are combined row by row).** In every program that does not assign to `axis` itself, all adapters use `axis = 1`. -/
theorem options_axis (one : V) (p : List (Op V)) (hp : ∀ o ∈ p, ¬ setsAxis o) (i : ℕ) (hi : i < (run one p).adapters.length) :
    ∃ d, options (run one p) i = some d ∧ d "axis" = some one := by
  suffices H : ∀ a ∈ (run one p).adapters, ∃ d, (run one p).heap[a]? = some d ∧ d "axis" = some one by
    obtain ⟨d, hd, h1⟩ := H _ (List.getElem_mem hi)
    exact ⟨d, by simp [options, List.getElem?_eq_getElem hi, hd], h1⟩
  clear hi
  induction p using List.reverseRecOn with
  | nil => simp [run]
  | append_singleton p o ih =>
    have ih := ih (fun o ho => hp o (List.mem_append_left _ ho))
    have ho := hp o (by simp)
    have hok := run_ok one p
    rw [run_snoc]
    set s := run one p
    have keep : ∀ (a b : ℕ) (k : String) (v : V), (∃ d, s.heap[b]? = some d ∧ d "axis" = some one) → (k = "axis" → v = one) →
        ∃ d, (store s.heap a k v)[b]? = some d ∧ d "axis" = some one := by
      rintro a b k v ⟨d, hd, h1⟩ hk
      rw [store_at]
      by_cases hab : a = b
      · rw [if_pos hab, hd]
        refine ⟨_, rfl, ?_⟩
        by_cases hk' : k = "axis"
        · subst hk'; simp [hk rfl]
        · show Function.update d k (some v) "axis" = _
          rw [Function.update_of_ne (fun e => hk' e.symm)]; exact h1
      · rw [if_neg hab]; exact ⟨d, hd, h1⟩
    rcases o with d | ⟨n, k, v⟩ | n
    · intro a ha
      obtain ⟨e, he, h1⟩ := ih a ha
      refine ⟨e, ?_, h1⟩
      show (s.heap ++ [d])[a]? = _
      rw [List.getElem?_append_left (hok.adapters a ha)]
      exact he
    · cases e : s.program[n]? with
      | none => simpa only [step, e] using ih
      | some b =>
        simp only [step, e]
        exact fun a ha => keep b a k v (ih a ha) (fun h => absurd h ho)
    · cases n with
      | none =>
        intro a ha
        simp only [step, List.mem_append, List.mem_singleton] at ha ⊢
        rw [store_at]
        rcases ha with ha | rfl
        · have hlt := hok.adapters a ha
          rw [if_neg (by omega), List.getElem?_append_left hlt]
          exact ih a ha
        · rw [if_pos rfl, List.getElem?_append_right (Nat.le_refl _)]
          simp
      | some n =>
        cases e : s.program[n]? with
        | none => simpa only [step, e] using ih
        | some b =>
          simp only [step, e]
          intro a ha
          simp only [List.mem_append, List.mem_singleton] at ha
          rcases ha with ha | rfl
          · exact keep b a _ _ (ih a ha) (fun _ => rfl)
          · have hlt := hok.program a (List.mem_of_getElem? e)
            rw [store_at, if_pos rfl, List.getElem?_eq_getElem hlt]
            exact ⟨_, rfl, by simp⟩

/-- **C144 (own options).** An adapter built without options uses `axis = 1` and nothing else for ever, whatever the program does afterwards. -/
theorem own_options (one : V) (p q : List (Op V)) :
    options (run one (p ++ [.adapter none] ++ q)) (run one p).adapters.length = some (fun k => if k = "axis" then some one else none) := by
  have hok := run_ok one p
  set a := (run one p).heap.length with ha
  suffices H : (run one (p ++ [.adapter none] ++ q)).adapters[(run one p).adapters.length]? = some a ∧ a ∉ (run one (p ++ [.adapter none] ++ q)).program ∧
      (run one (p ++ [.adapter none] ++ q)).heap[a]? = some (fun k => if k = "axis" then some one else none) by
    unfold options
    rw [H.1]
    exact H.2.2
  induction q using List.reverseRecOn with
  | nil =>
    rw [List.append_nil, run_snoc]
    refine ⟨?_, fun h => absurd (hok.program a h) (by omega), ?_⟩
    · simp [step, ha]
    · simp only [step]
      rw [store_at, if_pos ha.symm, List.getElem?_append_right (by omega)]
      simp only [ha, Nat.sub_self, List.getElem?_cons_zero, Option.map_some, Option.some.injEq]
      funext k
      by_cases hk : k = "axis" <;> simp [Function.update, hk]
  | append_singleton q o ih =>
    obtain ⟨h1, h2, h3⟩ := ih
    have hok' := run_ok one (p ++ [.adapter none] ++ q)
    rw [← List.append_assoc, run_snoc]
    set s := run one (p ++ [.adapter none] ++ q)
    have hlt : a < s.heap.length := (List.getElem?_eq_some_iff.1 h3).1
    have hi : (run one p).adapters.length < s.adapters.length := (List.getElem?_eq_some_iff.1 h1).1
    have other : ∀ b ∈ s.program, b ≠ a := fun b hb e => h2 (e ▸ hb)
    rcases o with d | ⟨n, k, v⟩ | n
    · refine ⟨h1, ?_, ?_⟩
      · simp only [step, List.mem_append, List.mem_singleton, not_or]
        exact ⟨h2, by omega⟩
      · show (s.heap ++ [d])[a]? = _
        rw [List.getElem?_append_left hlt, h3]
    · cases e : s.program[n]? with
      | none => simpa only [step, e] using ⟨h1, h2, h3⟩
      | some b =>
        simp only [step, e]
        exact ⟨h1, h2, by rw [store_at, if_neg (other b (List.mem_of_getElem? e)), h3]⟩
    · cases n with
      | none =>
        simp only [step]
        refine ⟨by rw [List.getElem?_append_left hi, h1], h2, ?_⟩
        rw [store_at, if_neg (by omega), List.getElem?_append_left hlt, h3]
      | some n =>
        cases e : s.program[n]? with
        | none => simpa only [step, e] using ⟨h1, h2, h3⟩
        | some b =>
          simp only [step, e]
          exact ⟨by rw [List.getElem?_append_left hi, h1], h2, by rw [store_at, if_neg (other b (List.mem_of_getElem? e)), h3]⟩

/-- **C144 (negation: arguments are changed).** Building an adapter with options of the program sets `axis` in the dictionary of the program,
whatever it was, and changes nothing else. For all programs. -/
theorem argument_changed (one : V) (p : List (Op V)) (n : ℕ) (d : String → Option V) (hn : named (run one p) n = some d) (m : ℕ) :
    named (run one (p ++ [.adapter (some n)])) m =
      if m = n then some (Function.update d "axis" (some one)) else named (run one p) m := by
  have hok := run_ok one p
  rw [run_snoc]
  set s := run one p
  unfold named at hn ⊢
  cases e : s.program[n]? with
  | none => rw [e] at hn; cases hn
  | some a =>
    rw [e] at hn
    simp only [step, e]
    by_cases hm : m = n
    · subst hm
      rw [if_pos rfl, e]
      show (store s.heap a "axis" one)[a]? = _
      rw [store_at, if_pos rfl]
      have : s.heap[a]? = some d := hn
      rw [this]
      rfl
    · rw [if_neg hm]
      cases e' : s.program[m]? with
      | none => rfl
      | some b =>
        have hab : a ≠ b := by
          rintro rfl
          obtain ⟨h1, e1⟩ := List.getElem?_eq_some_iff.1 e
          obtain ⟨h2, e2⟩ := List.getElem?_eq_some_iff.1 e'
          exact hm ((List.Nodup.getElem_inj_iff hok.nodup).1 (e2.trans e1.symm))
        show (store s.heap a "axis" one)[b]? = s.heap[b]?
        rw [store_at, if_neg hab]

/-- **C144 (negation: adapters follow the dictionary).** An assignment of the program to a dictionary changes the options of every adapter built with
it, for all programs: `i` is an adapter that uses the dictionary with number `n`. -/
theorem adapter_follows (one : V) (p : List (Op V)) (n i a : ℕ) (hn : (run one p).program[n]? = some a) (hi : (run one p).adapters[i]? = some a)
    (k : String) (v : V) : ∃ d, options (run one (p ++ [.assign n k v])) i = some d ∧ d k = some v := by
  have hok := run_ok one p
  rw [run_snoc]
  set s := run one p
  simp only [options, step, hn, hi]
  have hlt := hok.program a (List.mem_of_getElem? hn)
  refine ⟨Function.update s.heap[a] k (some v), ?_, by simp⟩
  show (store s.heap a k v)[a]? = _
  rw [store_at, if_pos rfl, List.getElem?_eq_getElem hlt]
  rfl

/-! ### Concrete cases -/

/-- `d = {"axis": 0, "skipna": 7}`; an adapter with `d`, one without options; then `d["axis"] = 0`: the first adapter now uses `axis = 0`. -/
theorem options_sample :
    let d : String → Option ℕ := fun k => if k = "axis" then some 0 else if k = "skipna" then some 7 else none
    let p : List (Op ℕ) := [.dict d, .adapter (some 0), .adapter none]
    ((named (run 1 p) 0).bind (· "axis"), (named (run 1 p) 0).bind (· "skipna")) = (some 1, some 7) ∧
    ((options (run 1 p) 0).bind (· "axis"), (options (run 1 p) 1).bind (· "skipna")) = (some 1, none) ∧
    (options (run 1 (p ++ [.assign 0 "axis" 0])) 0).bind (· "axis") = some 0 ∧
    (options (run 1 (p ++ [.assign 0 "axis" 0])) 1).bind (· "axis") = some 1 := by
  decide +kernel

/-- the hypotheses of `options_axis` and `adapter_follows` -/
example : (∀ o ∈ [Op.dict (fun _ => some 3), .adapter (some 0), .assign 0 "skipna" 5], ¬ setsAxis o) ∧
    (run 1 [Op.dict (fun _ => some 3), .adapter (some 0)]).program[0]? = some 0 ∧ (run 1 [Op.dict (fun _ => some 3), .adapter (some 0)]).adapters[0]? = some 0 := by
  refine ⟨?_, rfl, rfl⟩
  simp [setsAxis]

end Verif.Adapters.Options
