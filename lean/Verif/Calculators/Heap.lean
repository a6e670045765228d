import Mathlib.Data.List.Nodup
import Mathlib.Data.List.Basic
import Mathlib.Order.Basic
import Mathlib.Data.Nat.Init
import Mathlib.Algebra.Order.Group.Nat

/-!
C141: results of the metrics calculators and the arrays they are made of (`src/pytesmo/validation_framework/metric_calculators.py`).

A result is a dictionary of arrays with one element. The other models of the calculators treat its entries as values; here the arrays are objects:
the memory is the list of their elements, an address is a position in it, a dictionary holds addresses. New arrays are put at the end.
`default` stands for the element at an address outside of the memory, which does not exist in Python.
-/

namespace Verif.Calculators.Heap

variable {V : Type}

/-- keys and values in order of insertion. Used for metric_calculators.py:178-187, metric_calculators.py:206. -/
abbrev Entries (A : Type) := List (String × A)

/-- `d[k]`. Used for metric_calculators.py:208-210. -/
def get {A : Type} : Entries A → String → Option A
  | [], _ => none
  | (k', a) :: d, k => if k' = k then some a else get d k

/-- `d[k] = a` for the dictionary. Used for metric_calculators.py:187, metric_calculators.py:1776. -/
def setKey {A : Type} : Entries A → String → A → Entries A
  | [], k, a => [(k, a)]
  | (k', b) :: d, k, a => if k' = k then (k', a) :: d else (k', b) :: setKey d k a

/-- `d.update(e)`. Used for metric_calculators.py:187, metric_calculators.py:277. -/
def update {A : Type} (d e : Entries A) : Entries A := e.foldl (fun d p => setKey d p.1 p.2) d

/-- a dictionary of new arrays. Used for metric_calculators.py:178-183, metric_calculators.py:95-149. -/
def alloc (h : List V) : Entries V → Entries ℕ × List V
  | [] => ([], h)
  | (k, v) :: e => ((k, h.length) :: (alloc (h ++ [v]) e).1, (alloc (h ++ [v]) e).2)

/-- metric_calculators.py:176-190 and 277: the template of a calculator, from its own entries, the metadata template of the user (whose arrays are
not copied) and the entries for the metrics -/
def construct (h : List V) (own : Entries V) (mt : Entries ℕ) (metrics : Entries V) : Entries ℕ × List V :=
  let a := alloc h own
  let b := alloc a.2 metrics
  (update (update a.1 mt) b.1, b.2)

/-- metric_calculators.py:206 `copy.deepcopy(self.result_template)`: an array that was copied already (`memo`) is not copied again -/
def deepcopy [Inhabited V] : Entries ℕ → List (ℕ × ℕ) → List V → Entries ℕ × List V
  | [], _, h => ([], h)
  | (k, a) :: d, memo, h =>
    match memo.lookup a with
    | some b => ((k, b) :: (deepcopy d memo h).1, (deepcopy d memo h).2)
    | none =>
      let r := deepcopy d ((a, h.length) :: memo) (h ++ [h.getD a default])
      ((k, h.length) :: r.1, r.2)

/-- what calculators and users do with a result: `d[k][0] = v` or `d[k] = np.array([v])`. Used for metric_calculators.py:208-216,
metric_calculators.py:1776. -/
inductive Op (V : Type)
  | write (k : String) (v : V)
  | rebind (k : String) (v : V)

/-- one of them; `none` for a KeyError. Used for metric_calculators.py:208-216. -/
def exec (s : List V × Entries ℕ) : Op V → Option (List V × Entries ℕ)
  | .write k v =>
    match get s.2 k with
    | none => none
    | some a => some (s.1.set a v, s.2)
  | .rebind k v => some (s.1 ++ [v], setKey s.2 k s.1.length)

/-- all of them: the memory at the end, and the dictionary unless an error was raised. Used for metric_calculators.py:208-227. -/
def run : List V × Entries ℕ → List (Op V) → List V × Option (Entries ℕ)
  | s, [] => (s.1, some s.2)
  | s, op :: ops =>
    match exec s op with
    | none => (s.1, none)
    | some s' => run s' ops

/-- metric_calculators.py:192-227 `calc_metrics` with everything that is written into the result afterwards -/
def calcMetrics [Inhabited V] (h : List V) (T : Entries ℕ) (ops : List (Op V)) : List V × Option (Entries ℕ) :=
  run ((deepcopy T [] h).2, (deepcopy T [] h).1) ops

/-- A history: calls of calculators, and changes of results by their owner. Used for metric_calculators.py:192-227. -/
inductive Action (V : Type)
  | call (t : ℕ) (ops : List (Op V))
  | change (j : ℕ) (op : Op V)

/-- memory and results so far. Used for metric_calculators.py:192-227. -/
def step [Inhabited V] (Ts : List (Entries ℕ)) (s : List V × List (Entries ℕ)) : Action V → List V × List (Entries ℕ)
  | .call t ops =>
    match Ts[t]? with
    | none => s
    | some T =>
      match (calcMetrics s.1 T ops).2 with
      | none => ((calcMetrics s.1 T ops).1, s.2)
      | some d => ((calcMetrics s.1 T ops).1, s.2 ++ [d])
  | .change j op =>
    match s.2[j]? with
    | none => s
    | some d =>
      match exec (s.1, d) op with
      | none => s
      | some s' => (s'.1, s.2.set j s'.2)

/-! ### Specification: dictionaries of values -/

/-- what a dictionary contains -/
def content [Inhabited V] (h : List V) (d : Entries ℕ) : Entries V := d.map (fun e => (e.1, h.getD e.2 default))

/-- the arrays of a dictionary -/
def addrs (d : Entries ℕ) : List ℕ := d.map Prod.snd

/-- the same with values -/
def pureExec (c : Entries V) : Op V → Option (Entries V)
  | .write k v => if k ∈ c.map Prod.fst then some (setKey c k v) else none
  | .rebind k v => some (setKey c k v)

def pureRun (c : Entries V) : List (Op V) → Option (Entries V)
  | [] => some c
  | op :: ops => (pureExec c op).bind (fun c' => pureRun c' ops)

def pureStep (Cs : List (Entries V)) (rs : List (Entries V)) : Action V → List (Entries V)
  | .call t ops =>
    match (Cs[t]?).bind (fun C => pureRun C ops) with
    | none => rs
    | some c => rs ++ [c]
  | .change j op =>
    match (rs[j]?).bind (fun c => pureExec c op) with
    | none => rs
    | some c => rs.set j c

/-! ### Lemmas -/

theorem get_isSome {A : Type} (d : Entries A) (k : String) : (get d k).isSome = true ↔ k ∈ d.map Prod.fst := by
  induction d with
  | nil => simp [get]
  | cons e d ih =>
    obtain ⟨k', a⟩ := e
    unfold get
    by_cases h : k' = k
    · simp [h]
    · simp only [if_neg h, ih, List.map_cons, List.mem_cons]
      exact ⟨.inr, fun h' => h'.resolve_left (fun e => h e.symm)⟩

theorem get_setKey {A : Type} (d : Entries A) (k k' : String) (a : A) : get (setKey d k a) k' = if k = k' then some a else get d k' := by
  induction d with
  | nil => rfl
  | cons e d ih =>
    obtain ⟨k0, b⟩ := e
    unfold setKey
    by_cases h : k0 = k
    · subst h
      simp only [if_true, get]
      by_cases h' : k0 = k' <;> simp [h']
    · rw [if_neg h, get, ih, get]
      by_cases h' : k0 = k'
      · rw [if_pos h', if_pos h', if_neg (fun e => h (h'.trans e.symm))]
      · rw [if_neg h', if_neg h']

/-- specification: the value that was stored last under the name -/
def lastStored (k : String) (start : Option V) (ops : List (Op V)) : Option V :=
  ops.foldl (fun o op => match op with
    | .write k' v => if k' = k then some v else o
    | .rebind k' v => if k' = k then some v else o) start

/-- **C141 (fields).** Every field holds the value stored last under its name, or that of the template. -/
theorem field_value (c c' : Entries V) (ops : List (Op V)) (h : pureRun c ops = some c') (k : String) : get c' k = lastStored k (get c k) ops := by
  induction ops generalizing c with
  | nil => obtain rfl := Option.some.inj h; rfl
  | cons op ops ih =>
    unfold pureRun at h
    cases hp : pureExec c op with
    | none => rw [hp] at h; cases h
    | some c1 =>
      rw [hp] at h
      rw [ih c1 h]
      unfold lastStored
      rw [List.foldl_cons]
      congr 1
      cases op with
      | write k' v =>
        unfold pureExec at hp
        simp only at hp
        split at hp
        · obtain rfl := Option.some.inj hp
          exact get_setKey c k' k v
        · cases hp
      | rebind k' v =>
        obtain rfl := Option.some.inj hp
        exact get_setKey c k' k v

theorem get_mem (d : Entries ℕ) (k : String) (a : ℕ) (h : get d k = some a) : a ∈ addrs d := by
  induction d with
  | nil => simp [get] at h
  | cons e d ih =>
    obtain ⟨k', b⟩ := e
    unfold get at h
    split at h
    · cases h; simp [addrs]
    · exact List.mem_cons_of_mem _ (ih h)

theorem addrs_setKey (d : Entries ℕ) (k : String) (a x : ℕ) (h : x ∈ addrs (setKey d k a)) : x = a ∨ x ∈ addrs d := by
  induction d with
  | nil => simpa [setKey, addrs] using h
  | cons e d ih =>
    obtain ⟨k', b⟩ := e
    unfold setKey at h
    split at h
    · rcases List.mem_cons.1 h with h | h
      exacts [.inl h, .inr (List.mem_cons_of_mem _ h)]
    · rcases List.mem_cons.1 h with h | h
      · exact .inr (by rw [h]; simp [addrs])
      · rcases ih h with h | h
        exacts [.inl h, .inr (List.mem_cons_of_mem _ h)]

theorem nodup_setKey (d : Entries ℕ) (k : String) (a : ℕ) (hd : (addrs d).Nodup) (ha : a ∉ addrs d) : (addrs (setKey d k a)).Nodup := by
  induction d with
  | nil => simp [setKey, addrs]
  | cons e d ih =>
    obtain ⟨k', b⟩ := e
    have h1 : b ∉ addrs d := (List.nodup_cons.1 hd).1
    have h2 : (addrs d).Nodup := (List.nodup_cons.1 hd).2
    have h3 : a ≠ b ∧ a ∉ addrs d := by
      constructor
      · rintro rfl; exact ha (by simp [addrs])
      · exact fun h => ha (List.mem_cons_of_mem _ h)
    unfold setKey
    split
    · exact List.nodup_cons.2 ⟨h3.2, h2⟩
    · refine List.nodup_cons.2 ⟨?_, ih h2 h3.2⟩
      intro h
      rcases addrs_setKey d k a b h with h | h
      exacts [h3.1 h.symm, h1 h]

variable [Inhabited V]

theorem content_congr (h h' : List V) (d : Entries ℕ) (hh : ∀ x ∈ addrs d, h'[x]? = h[x]?) : content h' d = content h d := by
  unfold content
  refine List.map_congr_left ?_
  intro e he
  rw [List.getD_eq_getElem?_getD, List.getD_eq_getElem?_getD, hh e.2 (List.mem_map.2 ⟨e, he, rfl⟩)]

theorem content_setKey (h : List V) (d : Entries ℕ) (k : String) (a : ℕ) : content h (setKey d k a) = setKey (content h d) k (h.getD a default) := by
  induction d with
  | nil => rfl
  | cons e d ih =>
    obtain ⟨k', b⟩ := e
    have hc : content h ((k', b) :: d) = (k', h.getD b default) :: content h d := rfl
    rw [hc]
    unfold setKey
    split
    · rfl
    · rw [← ih]; rfl

theorem content_write (h : List V) (d : Entries ℕ) (k : String) (v : V) (a : ℕ) (ha : get d k = some a) (hn : (addrs d).Nodup)
    (hb : ∀ x ∈ addrs d, x < h.length) : content (h.set a v) d = setKey (content h d) k v := by
  induction d with
  | nil => simp [get] at ha
  | cons e d ih =>
    obtain ⟨k', b⟩ := e
    have h1 : b ∉ addrs d := (List.nodup_cons.1 hn).1
    have h2 : (addrs d).Nodup := (List.nodup_cons.1 hn).2
    have hc : ∀ g : List V, content g ((k', b) :: d) = (k', g.getD b default) :: content g d := fun _ => rfl
    rw [hc, hc]
    unfold get at ha
    unfold setKey
    split at ha
    · rename_i hk
      obtain rfl := Option.some.inj ha
      rw [if_pos hk, content_congr h (h.set b v) d]
      · rw [List.getD_eq_getElem?_getD, List.getElem?_set_self (hb b (by simp [addrs]))]
        rfl
      · intro x hx
        exact List.getElem?_set_ne (fun e : b = x => h1 (by rw [e]; exact hx))
    · rename_i hk
      have hab : a ≠ b := fun e => h1 (e ▸ get_mem d k a ha)
      rw [if_neg hk, ih ha h2 (fun x hx => hb x (List.mem_cons_of_mem _ hx)), List.getD_eq_getElem?_getD, List.getElem?_set_ne hab,
        ← List.getD_eq_getElem?_getD]

theorem keys_content (h : List V) (d : Entries ℕ) : (content h d).map Prod.fst = d.map Prod.fst := by
  simp [content, Function.comp_def]

/-- one operation on a dictionary with arrays of its own -/
theorem exec_spec (h : List V) (d : Entries ℕ) (op : Op V) (hn : (addrs d).Nodup) (hb : ∀ x ∈ addrs d, x < h.length) :
    (exec (h, d) op = none ∧ pureExec (content h d) op = none) ∨
    ∃ h' d', exec (h, d) op = some (h', d') ∧ pureExec (content h d) op = some (content h' d') ∧ h.length ≤ h'.length ∧
      (∀ x < h.length, x ∉ addrs d → h'[x]? = h[x]?) ∧ (addrs d').Nodup ∧ (∀ x ∈ addrs d', (x ∈ addrs d ∨ h.length ≤ x) ∧ x < h'.length) := by
  cases op with
  | write k v =>
    cases hg : get d k with
    | none =>
      left
      refine ⟨by simp [exec, hg], ?_⟩
      have : k ∉ d.map Prod.fst := fun hk => by
        have := (get_isSome d k).2 hk
        rw [hg] at this
        cases this
      simp only [pureExec, keys_content]
      rw [if_neg this]
    | some a =>
      right
      have hk : k ∈ d.map Prod.fst := (get_isSome d k).1 (by rw [hg]; rfl)
      refine ⟨h.set a v, d, by simp [exec, hg], ?_, by simp, ?_, hn, ?_⟩
      · simp only [pureExec, keys_content]
        rw [if_pos hk, content_write h d k v a hg hn hb]
      · intro x _ hx
        exact List.getElem?_set_ne (fun e : a = x => hx (by rw [← e]; exact get_mem d k a hg))
      · intro x hx
        exact ⟨.inl hx, by simpa using hb x hx⟩
  | rebind k v =>
    right
    refine ⟨h ++ [v], setKey d k h.length, rfl, ?_, by simp, ?_, ?_, ?_⟩
    · rw [content_setKey, content_congr h (h ++ [v]) d]
      · simp [pureExec, List.getD_eq_getElem?_getD]
      · intro x hx
        exact List.getElem?_append_left (hb x hx)
    · intro x hx _
      exact List.getElem?_append_left hx
    · exact nodup_setKey d k _ hn (fun hm => absurd (hb _ hm) (lt_irrefl _))
    · intro x hx
      rcases addrs_setKey d k _ x hx with rfl | hx
      · exact ⟨.inr (le_refl _), by simp⟩
      · exact ⟨.inl hx, by have := hb x hx; simp only [List.length_append, List.length_singleton]; omega⟩

/-- all operations -/
theorem run_spec (ops : List (Op V)) : ∀ (h : List V) (d : Entries ℕ), (addrs d).Nodup → (∀ x ∈ addrs d, x < h.length) →
    h.length ≤ (run (h, d) ops).1.length ∧ (∀ x < h.length, x ∉ addrs d → (run (h, d) ops).1[x]? = h[x]?) ∧
    (run (h, d) ops).2.map (content (run (h, d) ops).1) = pureRun (content h d) ops ∧
    ∀ d', (run (h, d) ops).2 = some d' → (addrs d').Nodup ∧ ∀ x ∈ addrs d', (x ∈ addrs d ∨ h.length ≤ x) ∧ x < (run (h, d) ops).1.length := by
  induction ops with
  | nil =>
    intro h d hn hb
    refine ⟨le_refl _, fun _ _ _ => rfl, rfl, ?_⟩
    intro d' hd'
    obtain rfl : d = d' := Option.some.inj hd'
    exact ⟨hn, fun x hx => ⟨.inl hx, hb x hx⟩⟩
  | cons op ops ih =>
    intro h d hn hb
    rcases exec_spec h d op hn hb with ⟨e1, e2⟩ | ⟨h', d', e1, e2, hl, hf, hn', hb'⟩
    · have hr : run (h, d) (op :: ops) = (h, none) := by simp [run, e1]
      rw [hr]
      refine ⟨le_refl _, fun _ _ _ => rfl, ?_, ?_⟩
      · simp [pureRun, e2]
      · intro d' hd'; cases hd'
    · have hr : run (h, d) (op :: ops) = run (h', d') ops := by simp [run, e1]
      rw [hr]
      obtain ⟨i1, i2, i3, i4⟩ := ih h' d' hn' (fun x hx => (hb' x hx).2)
      refine ⟨le_trans hl i1, ?_, ?_, ?_⟩
      · intro x hx hd
        rw [i2 x (lt_of_lt_of_le hx hl) (fun hm => ?_), hf x hx hd]
        rcases (hb' x hm).1 with h1 | h1
        · exact hd h1
        · omega
      · rw [i3]
        simp [pureRun, e2]
      · intro d'' hd''
        obtain ⟨j1, j2⟩ := i4 d'' hd''
        refine ⟨j1, fun x hx => ⟨?_, (j2 x hx).2⟩⟩
        rcases (j2 x hx).1 with h1 | h1
        · exact (hb' x h1).1
        · exact .inr (le_trans hl h1)

/-- a copy of a template whose arrays are different objects -/
theorem deepcopy_spec (d : Entries ℕ) : ∀ (memo : List (ℕ × ℕ)) (h : List V), (addrs d).Nodup → (∀ x ∈ addrs d, x < h.length ∧ memo.lookup x = none) →
    content (deepcopy d memo h).2 (deepcopy d memo h).1 = content h d ∧ h.length ≤ (deepcopy d memo h).2.length ∧
    (∀ x < h.length, (deepcopy d memo h).2[x]? = h[x]?) ∧ (addrs (deepcopy d memo h).1).Nodup ∧
    ∀ x ∈ addrs (deepcopy d memo h).1, h.length ≤ x ∧ x < (deepcopy d memo h).2.length := by
  induction d with
  | nil => intro memo h _ _; exact ⟨rfl, le_refl _, fun _ _ => rfl, by simp [deepcopy, addrs], by simp [deepcopy, addrs]⟩
  | cons e d ih =>
    intro memo h hn hb
    obtain ⟨k, a⟩ := e
    have h1 : a ∉ addrs d := (List.nodup_cons.1 hn).1
    have h2 : (addrs d).Nodup := (List.nodup_cons.1 hn).2
    obtain ⟨ha, hm⟩ := hb a (by simp [addrs])
    have hd : deepcopy ((k, a) :: d) memo h =
        ((k, h.length) :: (deepcopy d ((a, h.length) :: memo) (h ++ [h.getD a default])).1, (deepcopy d ((a, h.length) :: memo) (h ++ [h.getD a default])).2) := by
      rw [deepcopy, hm]
    obtain ⟨i1, i2, i3, i4, i5⟩ := ih ((a, h.length) :: memo) (h ++ [h.getD a default]) h2 (by
      intro x hx
      obtain ⟨q1, q2⟩ := hb x (List.mem_cons_of_mem _ hx)
      refine ⟨by simp only [List.length_append, List.length_singleton]; omega, ?_⟩
      rw [List.lookup_cons]
      have : (x == a) = false := by
        rw [beq_eq_false_iff_ne]
        rintro rfl
        exact h1 hx
      rw [this]
      exact q2)
    rw [hd]
    generalize hr : deepcopy d ((a, h.length) :: memo) (h ++ [h.getD a default]) = r at i1 i2 i3 i4 i5
    have hlen : (h ++ [h.getD a default]).length = h.length + 1 := by simp
    rw [hlen] at i2 i3 i5
    refine ⟨?_, by simp only; omega, ?_, ?_, ?_⟩
    · have c1 : content r.2 ((k, h.length) :: r.1) = (k, r.2.getD h.length default) :: content r.2 r.1 := rfl
      have c2 : content h ((k, a) :: d) = (k, h.getD a default) :: content h d := rfl
      simp only
      rw [c1, c2, i1, content_congr h (h ++ [h.getD a default]) d]
      · have e := i3 h.length (by omega)
        rw [List.getD_eq_getElem?_getD (l := r.2), e]
        simp
      · intro x hx
        exact List.getElem?_append_left (hb x (List.mem_cons_of_mem _ hx)).1
    · intro x hx
      simp only
      rw [i3 x (by omega), List.getElem?_append_left hx]
    · refine List.nodup_cons.2 ⟨?_, i4⟩
      intro hx
      have := (i5 _ hx).1
      omega
    · intro x hx
      rcases List.mem_cons.1 hx with h | h
      · rw [h]; simp only; omega
      · have := i5 x h
        simp only
        omega

/-- **C141 (one call).** A call changes no array that existed before (the template, the metadata template of the user, other results), also if it
fails; its result consists of new arrays and is the one computed with values. -/
theorem call_private (h : List V) (T : Entries ℕ) (hn : (addrs T).Nodup) (hb : ∀ x ∈ addrs T, x < h.length) (ops : List (Op V)) :
    (∀ x < h.length, (calcMetrics h T ops).1[x]? = h[x]?) ∧
    (calcMetrics h T ops).2.map (content (calcMetrics h T ops).1) = pureRun (content h T) ops ∧
    h.length ≤ (calcMetrics h T ops).1.length ∧
    ∀ d, (calcMetrics h T ops).2 = some d → (addrs d).Nodup ∧ ∀ x ∈ addrs d, h.length ≤ x ∧ x < (calcMetrics h T ops).1.length := by
  obtain ⟨c1, c2, c3, c4, c5⟩ := deepcopy_spec T [] h hn (fun x hx => ⟨hb x hx, rfl⟩)
  obtain ⟨r1, r2, r3, r4⟩ := run_spec ops (deepcopy T [] h).2 (deepcopy T [] h).1 c4 (fun x hx => (c5 x hx).2)
  unfold calcMetrics
  refine ⟨?_, ?_, le_trans c2 r1, ?_⟩
  · intro x hx
    rw [r2 x (lt_of_lt_of_le hx c2) (fun hm => absurd (c5 x hm).1 (not_le.2 hx)), c3 x hx]
  · rw [r3, c1]
  · intro d hd
    obtain ⟨q1, q2⟩ := r4 d hd
    refine ⟨q1, fun x hx => ⟨?_, (q2 x hx).2⟩⟩
    rcases (q2 x hx).1 with h1 | h1
    exacts [(c5 x h1).1, le_trans c2 h1]

/-- the results are made of arrays of their own, behind the first `n` of the memory -/
structure Owned (n : ℕ) (h : List V) (rs : List (Entries ℕ)) : Prop where
  nodup : ∀ d ∈ rs, (addrs d).Nodup
  apart : rs.Pairwise (fun d e => ∀ x ∈ addrs d, x ∉ addrs e)
  inside : ∀ d ∈ rs, ∀ x ∈ addrs d, n ≤ x ∧ x < h.length

theorem set_mid {A : Type} (l1 l2 : List A) (a b : A) : (l1 ++ a :: l2).set l1.length b = l1 ++ b :: l2 := by
  induction l1 with
  | nil => rfl
  | cons c l1 ih => simp only [List.cons_append, List.length_cons, List.set_cons_succ, ih]

theorem split_at {A : Type} (l : List A) (j : ℕ) (a : A) (h : l[j]? = some a) : ∃ l1 l2, l = l1 ++ a :: l2 ∧ l1.length = j := by
  induction l generalizing j with
  | nil => simp at h
  | cons c l ih =>
    cases j with
    | zero =>
      obtain rfl : c = a := by simpa using h
      exact ⟨[], l, rfl, rfl⟩
    | succ j =>
      obtain ⟨l1, l2, e1, e2⟩ := ih j (by simpa using h)
      exact ⟨c :: l1, l2, by rw [e1]; rfl, by simp [e2]⟩

/-- **C141 (histories).** Calculators whose templates have no array twice (the templates may share arrays with each other): after any history of
calls and of changes of results, every result is what its own call and its own changes make of the values of the template. No call and no change has
an effect on another result, on a later call, or on an array that existed before the history. -/
theorem history (h0 : List V) (Ts : List (Entries ℕ)) (hT : ∀ T ∈ Ts, (addrs T).Nodup ∧ ∀ x ∈ addrs T, x < h0.length) (acts : List (Action V)) :
    (acts.foldl (step Ts) (h0, [])).2.map (content (acts.foldl (step Ts) (h0, [])).1) = acts.foldl (pureStep (Ts.map (content h0))) [] ∧
    ∀ x < h0.length, (acts.foldl (step Ts) (h0, [])).1[x]? = h0[x]? := by
  have key : ∀ (acts : List (Action V)) (s : List V × List (Entries ℕ)) (p : List (Entries V)), h0.length ≤ s.1.length →
      (∀ x < h0.length, s.1[x]? = h0[x]?) → Owned h0.length s.1 s.2 → s.2.map (content s.1) = p →
      (acts.foldl (step Ts) s).2.map (content (acts.foldl (step Ts) s).1) = acts.foldl (pureStep (Ts.map (content h0))) p ∧
      ∀ x < h0.length, (acts.foldl (step Ts) s).1[x]? = h0[x]? := by
    intro acts
    induction acts with
    | nil => intro s p _ hx _ hp; exact ⟨hp, hx⟩
    | cons a acts ih =>
      intro s p hl hx ho hp
      rw [List.foldl_cons, List.foldl_cons]
      obtain ⟨h, rs⟩ := s
      simp only at hl hx ho hp
      cases a with
      | call t ops =>
        cases hTt : Ts[t]? with
        | none =>
          have e1 : step Ts (h, rs) (.call t ops) = (h, rs) := by simp [step, hTt]
          have e2 : pureStep (Ts.map (content h0)) p (.call t ops) = p := by simp [pureStep, hTt]
          rw [e1, e2]
          exact ih _ _ hl hx ho hp
        | some T =>
          obtain ⟨t1, t2⟩ := hT T (List.mem_of_getElem? hTt)
          obtain ⟨q1, q2, q3, q4⟩ := call_private h T t1 (fun x hm => lt_of_lt_of_le (t2 x hm) hl) ops
          have hcT : content h T = content h0 T := content_congr h0 h T (fun x hm => hx x (t2 x hm))
          rw [hcT] at q2
          have old : ∀ d ∈ rs, content (calcMetrics h T ops).1 d = content h d := fun d hd =>
            content_congr h _ d (fun x hm => q1 x (ho.inside d hd x hm).2)
          have hxs : ∀ x < h0.length, (calcMetrics h T ops).1[x]? = h0[x]? := fun x hm => by
            rw [q1 x (lt_of_lt_of_le hm hl), hx x hm]
          have hin : ∀ d ∈ rs, ∀ x ∈ addrs d, h0.length ≤ x ∧ x < (calcMetrics h T ops).1.length := fun d hd x hm =>
            ⟨(ho.inside d hd x hm).1, lt_of_lt_of_le (ho.inside d hd x hm).2 q3⟩
          have hmap : rs.map (content (calcMetrics h T ops).1) = p := by
            rw [← hp]; exact List.map_congr_left old
          cases hr : (calcMetrics h T ops).2 with
          | none =>
            have e1 : step Ts (h, rs) (.call t ops) = ((calcMetrics h T ops).1, rs) := by simp [step, hTt, hr]
            have e2 : pureStep (Ts.map (content h0)) p (.call t ops) = p := by
              rw [hr] at q2
              simp [pureStep, hTt, ← q2]
            rw [e1, e2]
            exact ih _ _ (le_trans hl q3) hxs ⟨ho.nodup, ho.apart, hin⟩ hmap
          | some d =>
            have e1 : step Ts (h, rs) (.call t ops) = ((calcMetrics h T ops).1, rs ++ [d]) := by simp [step, hTt, hr]
            have e2 : pureStep (Ts.map (content h0)) p (.call t ops) = p ++ [content (calcMetrics h T ops).1 d] := by
              rw [hr] at q2
              simp [pureStep, hTt, ← q2]
            rw [e1, e2]
            obtain ⟨d1, d2⟩ := q4 d hr
            refine ih _ _ (le_trans hl q3) hxs ⟨?_, ?_, ?_⟩ ?_
            · intro e he
              rcases List.mem_append.1 he with he | he
              · exact ho.nodup e he
              · rw [List.mem_singleton.1 he]; exact d1
            · refine List.pairwise_append.2 ⟨ho.apart, List.pairwise_singleton _ _, ?_⟩
              intro e he d' hd' x hxe hxd
              rw [List.mem_singleton.1 hd'] at hxd
              exact absurd (ho.inside e he x hxe).2 (not_lt.2 (d2 x hxd).1)
            · intro e he x hm
              rcases List.mem_append.1 he with he | he
              · exact hin e he x hm
              · rw [List.mem_singleton.1 he] at hm
                exact ⟨le_trans hl (d2 x hm).1, (d2 x hm).2⟩
            · rw [List.map_append, hmap]; rfl
      | change j op =>
        have hpj : p[j]? = (rs[j]?).map (content h) := by rw [← hp, List.getElem?_map]
        cases hj : rs[j]? with
        | none =>
          have e1 : step Ts (h, rs) (.change j op) = (h, rs) := by simp [step, hj]
          have e2 : pureStep (Ts.map (content h0)) p (.change j op) = p := by
            rw [hj] at hpj
            simp [pureStep, hpj]
          rw [e1, e2]
          exact ih _ _ hl hx ho hp
        | some d =>
          rw [hj] at hpj
          have hd := List.mem_of_getElem? hj
          rcases exec_spec h d op (ho.nodup d hd) (fun x hm => (ho.inside d hd x hm).2) with ⟨x1, x2⟩ | ⟨h', d', x1, x2, x3, x4, x5, x6⟩
          · have e1 : step Ts (h, rs) (.change j op) = (h, rs) := by simp [step, hj, x1]
            have e2 : pureStep (Ts.map (content h0)) p (.change j op) = p := by simp [pureStep, hpj, x2]
            rw [e1, e2]
            exact ih _ _ hl hx ho hp
          · have e1 : step Ts (h, rs) (.change j op) = (h', rs.set j d') := by simp [step, hj, x1]
            have e2 : pureStep (Ts.map (content h0)) p (.change j op) = p.set j (content h' d') := by simp [pureStep, hpj, x2]
            rw [e1, e2]
            obtain ⟨l1, l2, s1, s3⟩ := split_at rs j d hj
            have s2 : rs.set j d' = l1 ++ d' :: l2 := by rw [s1, ← s3, set_mid]
            have hap : (l1 ++ d :: l2).Pairwise (fun d e => ∀ x ∈ addrs d, x ∉ addrs e) := s1 ▸ ho.apart
            obtain ⟨a1, a2, a3⟩ := List.pairwise_append.1 hap
            obtain ⟨a4, a5⟩ := List.pairwise_cons.1 a2
            have m1 : ∀ e ∈ l1, e ∈ rs := fun e he => by rw [s1]; exact List.mem_append.2 (.inl he)
            have m2 : ∀ e ∈ l2, e ∈ rs := fun e he => by rw [s1]; exact List.mem_append.2 (.inr (List.mem_cons_of_mem _ he))
            have far1 : ∀ e ∈ l1, ∀ x ∈ addrs e, x ∉ addrs d := fun e he => a3 e he d (by simp)
            have far2 : ∀ e ∈ l2, ∀ x ∈ addrs e, x ∉ addrs d := fun e he x hxe hxd => a4 e he x hxd hxe
            have new : ∀ e ∈ rs, (∀ x ∈ addrs e, x ∉ addrs d) → ∀ x ∈ addrs e, x ∉ addrs d' := by
              intro e he hf x hxe hxd
              rcases (x6 x hxd).1 with h1 | h1
              · exact hf x hxe h1
              · exact absurd (ho.inside e he x hxe).2 (not_lt.2 h1)
            have same : ∀ e ∈ rs, (∀ x ∈ addrs e, x ∉ addrs d) → content h' e = content h e := fun e he hf =>
              content_congr h h' e (fun x hxe => x4 x (ho.inside e he x hxe).2 (hf x hxe))
            refine ih _ _ (le_trans hl x3) ?_ ⟨?_, ?_, ?_⟩ ?_
            · intro x hm
              rw [x4 x (lt_of_lt_of_le hm hl) (fun hxd => absurd (ho.inside d hd x hxd).1 (not_le.2 hm)), hx x hm]
            · rw [s2]
              intro e he
              rcases List.mem_append.1 he with he | he
              · exact ho.nodup e (m1 e he)
              · rcases List.mem_cons.1 he with rfl | he
                exacts [x5, ho.nodup e (m2 e he)]
            · rw [s2]
              refine List.pairwise_append.2 ⟨a1, List.pairwise_cons.2 ⟨?_, a5⟩, ?_⟩
              · intro e he x hxd hxe
                exact new e (m2 e he) (far2 e he) x hxe hxd
              · intro e he e' he'
                rcases List.mem_cons.1 he' with rfl | he'
                · exact new e (m1 e he) (far1 e he)
                · exact a3 e he e' (List.mem_cons_of_mem _ he')
            · rw [s2]
              intro e he x hm
              have hold : ∀ e ∈ rs, x ∈ addrs e → h0.length ≤ x ∧ x < h'.length := fun e he hm =>
                ⟨(ho.inside e he x hm).1, lt_of_lt_of_le (ho.inside e he x hm).2 x3⟩
              rcases List.mem_append.1 he with he | he
              · exact hold e (m1 e he) hm
              · rcases List.mem_cons.1 he with rfl | he
                · refine ⟨?_, (x6 x hm).2⟩
                  rcases (x6 x hm).1 with h1 | h1
                  · exact (ho.inside d hd x h1).1
                  · exact le_trans hl h1
                · exact hold e (m2 e he) hm
            · have hset : p.set j (content h' d') = l1.map (content h) ++ content h' d' :: l2.map (content h) := by
                rw [← hp, s1, List.map_append, List.map_cons]
                have := set_mid (l1.map (content h)) (l2.map (content h)) (content h d) (content h' d')
                rw [List.length_map, s3] at this
                exact this
              simp only
              rw [hset, s2, List.map_append, List.map_cons, List.map_congr_left (fun e he => same e (m1 e he) (far1 e he)),
                List.map_congr_left (fun e he => same e (m2 e he) (far2 e he))]
  exact key acts (h0, []) [] (le_refl _) (fun _ _ => rfl) ⟨by simp, List.Pairwise.nil, by simp⟩ rfl

/-! ### The constructor -/

theorem alloc_spec (e : Entries V) : ∀ h : List V, content (alloc h e).2 (alloc h e).1 = e ∧ h.length ≤ (alloc h e).2.length ∧
    (∀ x < h.length, (alloc h e).2[x]? = h[x]?) ∧ (addrs (alloc h e).1).Nodup ∧ ∀ x ∈ addrs (alloc h e).1, h.length ≤ x ∧ x < (alloc h e).2.length := by
  induction e with
  | nil => intro h; exact ⟨rfl, le_refl _, fun _ _ => rfl, by simp [alloc, addrs], by simp [alloc, addrs]⟩
  | cons p e ih =>
    intro h
    obtain ⟨k, v⟩ := p
    obtain ⟨i1, i2, i3, i4, i5⟩ := ih (h ++ [v])
    have ha : alloc h ((k, v) :: e) = ((k, h.length) :: (alloc (h ++ [v]) e).1, (alloc (h ++ [v]) e).2) := rfl
    rw [ha]
    generalize alloc (h ++ [v]) e = r at i1 i2 i3 i4 i5
    have hlen : (h ++ [v]).length = h.length + 1 := by simp
    rw [hlen] at i2 i3 i5
    refine ⟨?_, by simp only; omega, ?_, ?_, ?_⟩
    · have c1 : content r.2 ((k, h.length) :: r.1) = (k, r.2.getD h.length default) :: content r.2 r.1 := rfl
      have e := i3 h.length (by omega)
      simp only
      rw [c1, i1, List.getD_eq_getElem?_getD (l := r.2), e]
      simp
    · intro x hx
      simp only
      rw [i3 x (by omega), List.getElem?_append_left hx]
    · refine List.nodup_cons.2 ⟨?_, i4⟩
      intro hx
      have := (i5 _ hx).1
      omega
    · intro x hx
      rcases List.mem_cons.1 hx with h | h
      · rw [h]; simp only; omega
      · have := i5 x h
        simp only
        omega

theorem content_update (h : List V) (e : Entries ℕ) : ∀ d : Entries ℕ, content h (update d e) = update (content h d) (content h e) := by
  induction e with
  | nil => intro d; rfl
  | cons p e ih =>
    intro d
    have h1 : update d (p :: e) = update (setKey d p.1 p.2) e := rfl
    have h2 : update (content h d) (content h (p :: e)) = update (setKey (content h d) p.1 (h.getD p.2 default)) (content h e) := rfl
    rw [h1, h2, ih, content_setKey]

omit [Inhabited V] in
theorem update_addrs (e : Entries ℕ) : ∀ d : Entries ℕ, (addrs d).Nodup → (addrs e).Nodup → (∀ x ∈ addrs d, x ∉ addrs e) →
    (addrs (update d e)).Nodup ∧ ∀ x ∈ addrs (update d e), x ∈ addrs d ∨ x ∈ addrs e := by
  induction e with
  | nil => intro d hd _ _; exact ⟨hd, fun x hx => .inl hx⟩
  | cons p e ih =>
    intro d hd he hde
    have h1 : p.2 ∉ addrs e := (List.nodup_cons.1 he).1
    have h2 : (addrs e).Nodup := (List.nodup_cons.1 he).2
    have hp : p.2 ∉ addrs d := fun h => hde _ h (by simp [addrs])
    obtain ⟨i1, i2⟩ := ih (setKey d p.1 p.2) (nodup_setKey d p.1 p.2 hd hp) h2 (by
      intro x hx hxe
      rcases addrs_setKey d p.1 p.2 x hx with rfl | hx
      exacts [h1 hxe, hde x hx (List.mem_cons_of_mem _ hxe)])
    refine ⟨i1, fun x hx => ?_⟩
    rcases i2 x hx with h | h
    · rcases addrs_setKey d p.1 p.2 x h with rfl | h
      exacts [.inr (by simp [addrs]), .inl h]
    · exact .inr (List.mem_cons_of_mem _ h)

/-- **C141 (constructor).** A calculator built with a metadata template of different arrays has a template as `history` needs it, with the values of
its parts, and leaves the memory of the user as it is. -/
theorem construct_ready (h : List V) (own : Entries V) (mt : Entries ℕ) (metrics : Entries V) (hn : (addrs mt).Nodup) (hb : ∀ x ∈ addrs mt, x < h.length) :
    (addrs (construct h own mt metrics).1).Nodup ∧ (∀ x ∈ addrs (construct h own mt metrics).1, x < (construct h own mt metrics).2.length) ∧
    content (construct h own mt metrics).2 (construct h own mt metrics).1 = update (update own (content h mt)) metrics ∧
    ∀ x < h.length, (construct h own mt metrics).2[x]? = h[x]? := by
  obtain ⟨a1, a2, a3, a4, a5⟩ := alloc_spec own h
  obtain ⟨b1, b2, b3, b4, b5⟩ := alloc_spec metrics (alloc h own).2
  unfold construct
  simp only
  generalize alloc h own = a at a1 a2 a3 a4 a5 b1 b2 b3 b4 b5
  generalize alloc a.2 metrics = b at b1 b2 b3 b4 b5
  obtain ⟨u1, u2⟩ := update_addrs mt a.1 a4 hn (fun x hx hm => absurd (hb x hm) (not_lt.2 (a5 x hx).1))
  have hu : ∀ x ∈ addrs (update a.1 mt), x < a.2.length := by
    intro x hx
    rcases u2 x hx with h1 | h1
    exacts [(a5 x h1).2, lt_of_lt_of_le (hb x h1) a2]
  obtain ⟨w1, w2⟩ := update_addrs b.1 (update a.1 mt) u1 b4 (fun x hx hm => absurd (hu x hx) (not_lt.2 (b5 x hm).1))
  refine ⟨w1, ?_, ?_, ?_⟩
  · intro x hx
    rcases w2 x hx with h1 | h1
    exacts [lt_of_lt_of_le (hu x h1) b2, (b5 x h1).2]
  · rw [content_update, content_update, b1]
    congr 2
    · rw [content_congr a.2 b.2 a.1 (fun x hx => b3 x (a5 x hx).2), a1]
    · rw [content_congr a.2 b.2 mt (fun x hx => b3 x (lt_of_lt_of_le (hb x hx) a2)), content_congr h a.2 mt (fun x hx => a3 x (hb x hx))]
  · intro x hx
    rw [b3 x (lt_of_lt_of_le hx a2), a3 x hx]

/-! ### Fields with the same array -/

theorem deepcopy_shares (d : Entries ℕ) : ∀ (memo : List (ℕ × ℕ)) (h : List V), ∃ f : ℕ → ℕ, (∀ a b, memo.lookup a = some b → f a = b) ∧
    ∀ k a, get d k = some a → get (deepcopy d memo h).1 k = some (f a) := by
  induction d with
  | nil =>
    intro memo h
    refine ⟨fun a => (memo.lookup a).getD 0, fun a b hab => by simp [hab], ?_⟩
    intro k a hk
    simp [get] at hk
  | cons e d ih =>
    intro memo h
    obtain ⟨k0, a0⟩ := e
    cases hm : memo.lookup a0 with
    | some b =>
      obtain ⟨f, f1, f2⟩ := ih memo h
      refine ⟨f, f1, ?_⟩
      intro k a hk
      have hd : (deepcopy ((k0, a0) :: d) memo h).1 = (k0, b) :: (deepcopy d memo h).1 := by rw [deepcopy, hm]
      rw [hd]
      unfold get at hk ⊢
      split at hk
      · rename_i hkk
        obtain rfl := Option.some.inj hk
        rw [if_pos hkk, f1 _ _ hm]
      · rename_i hkk
        rw [if_neg hkk]
        exact f2 k a hk
    | none =>
      obtain ⟨f, f1, f2⟩ := ih ((a0, h.length) :: memo) (h ++ [h.getD a0 default])
      have hf0 : f a0 = h.length := f1 a0 h.length (by simp)
      refine ⟨f, ?_, ?_⟩
      · intro a b hab
        refine f1 a b ?_
        rw [List.lookup_cons]
        have : (a == a0) = false := by
          rw [beq_eq_false_iff_ne]
          rintro rfl
          rw [hm] at hab
          cases hab
        rw [this]
        exact hab
      · intro k a hk
        have hd : (deepcopy ((k0, a0) :: d) memo h).1 = (k0, h.length) :: (deepcopy d ((a0, h.length) :: memo) (h ++ [h.getD a0 default])).1 := by
          rw [deepcopy, hm]
        rw [hd]
        unfold get at hk ⊢
        split at hk
        · rename_i hkk
          obtain rfl := Option.some.inj hk
          rw [if_pos hkk, hf0]
        · rename_i hkk
          rw [if_neg hkk]
          exact f2 k a hk

theorem get_content (h : List V) (d : Entries ℕ) (k : String) : get (content h d) k = (get d k).map (fun a => h.getD a default) := by
  induction d with
  | nil => rfl
  | cons e d ih =>
    obtain ⟨k', a⟩ := e
    have hc : content h ((k', a) :: d) = (k', h.getD a default) :: content h d := rfl
    rw [hc]
    unfold get
    split
    · rfl
    · exact ih

/-- **C141 (negation).** Two metadata fields given by the same array have the same value in every result, whatever metadata the locations have. -/
theorem shared_fields (h : List V) (T : Entries ℕ) (k k' : String) (a : ℕ) (hk : get T k = some a) (hk' : get T k' = some a) (ops : List (Op V))
    (hw : ∀ op ∈ ops, ∃ k v, op = .write k v) (d : Entries ℕ) (hd : (calcMetrics h T ops).2 = some d) :
    get (content (calcMetrics h T ops).1 d) k = get (content (calcMetrics h T ops).1 d) k' := by
  obtain ⟨f, -, f2⟩ := deepcopy_shares T [] h
  have same : ∀ (ops : List (Op V)) (s : List V × Entries ℕ), (∀ op ∈ ops, ∃ k v, op = .write k v) → ∀ d, (run s ops).2 = some d → d = s.2 := by
    intro ops
    induction ops with
    | nil => intro s _ d hd; exact (Option.some.inj hd).symm
    | cons op ops ih =>
      intro s hw d hd
      obtain ⟨k, v, rfl⟩ := hw op (by simp)
      unfold run exec at hd
      simp only at hd
      cases hg : get s.2 k with
      | none => rw [hg] at hd; cases hd
      | some b =>
        rw [hg] at hd
        exact ih (s.1.set b v, s.2) (fun op ho => hw op (List.mem_cons_of_mem _ ho)) d hd
  obtain rfl := same ops _ hw d hd
  rw [get_content, get_content, f2 k a hk, f2 k' a hk']

/-! ### Concrete cases -/

/-- values of the example: memory with two arrays of the user, a template with a location, two metadata fields and one metric -/
def sampleT : Entries ℕ × List ℤ := construct [7, 8] [("gpi", -1), ("status", -1)] [("depth", 0), ("network", 1)] [("n_obs", 0)]

example : content sampleT.2 sampleT.1 = [("gpi", -1), ("status", -1), ("depth", 7), ("network", 8), ("n_obs", 0)] ∧ (addrs sampleT.1).Nodup ∧
    ∀ x ∈ addrs sampleT.1, x < sampleT.2.length := by
  decide +kernel

/-- two calls with a change of the first result between them, and a call with an unknown field -/
example : (([.call 0 [.write "gpi" 3, .write "depth" 20], .change 0 (.write "depth" 99), .call 0 [.write "depth" 30, .write "unknown" 1],
      .call 0 [.write "gpi" 4, .rebind "status" 5]] : List (Action ℤ)).foldl (step [sampleT.1]) (sampleT.2, [])).2.map
      (content (([.call 0 [.write "gpi" 3, .write "depth" 20], .change 0 (.write "depth" 99), .call 0 [.write "depth" 30, .write "unknown" 1],
      .call 0 [.write "gpi" 4, .rebind "status" 5]] : List (Action ℤ)).foldl (step [sampleT.1]) (sampleT.2, [])).1) =
    [[("gpi", 3), ("status", -1), ("depth", 99), ("network", 8), ("n_obs", 0)], [("gpi", 4), ("status", 5), ("depth", 7), ("network", 8), ("n_obs", 0)]] := by
  decide +kernel

/-- **C141 (negation, concrete).** A metadata template with the same array for two fields: a location of depth 20 in network 5 gets depth 5. -/
theorem shared_wrong :
    let c := construct [0] [("gpi", (-1 : ℤ))] [("depth", 0), ("network", 0)] []
    let r := calcMetrics c.2 c.1 [.write "gpi" 3, .write "depth" 20, .write "network" 5]
    r.2.map (content r.1) = some [("gpi", 3), ("depth", 5), ("network", 5)] ∧
      pureRun (content c.2 c.1) [.write "gpi" 3, .write "depth" 20, .write "network" 5] = some [("gpi", 3), ("depth", 20), ("network", 5)] := by
  decide +kernel

/-- **C141 (negation).** The calculator keeps the arrays of the user: changing them after the constructor changes the values in later results. -/
theorem template_kept :
    let c := construct [7] [("gpi", (-1 : ℤ))] [("depth", 0)] []
    let r := calcMetrics (c.2.set 0 9) c.1 []
    content c.2 c.1 = [("gpi", -1), ("depth", 7)] ∧ r.2.map (content r.1) = some [("gpi", -1), ("depth", 9)] := by
  decide +kernel

/-- the hypotheses of `field_value` and `construct_ready` -/
example : get [("gpi", (3 : ℤ)), ("depth", 30)] "depth" = lastStored "depth" (some (-1)) [.write "gpi" 3, .write "depth" 20, .write "depth" 30] :=
  field_value [("gpi", -1), ("depth", -1)] _ _ (by decide +kernel) "depth"

example : content (construct [7, 8] [("gpi", (-1 : ℤ))] [("depth", 0), ("network", 1)] [("n_obs", 0)]).2
      (construct [7, 8] [("gpi", (-1 : ℤ))] [("depth", 0), ("network", 1)] [("n_obs", 0)]).1 =
    update (update [("gpi", -1)] (content [7, 8] [("depth", 0), ("network", 1)])) [("n_obs", 0)] :=
  (construct_ready [7, 8] [("gpi", -1)] [("depth", 0), ("network", 1)] [("n_obs", 0)] (by decide) (by decide)).2.2.1

end Verif.Calculators.Heap
