import Mathlib.Data.List.Nodup
import Mathlib.Data.List.Range
import Mathlib.Data.List.Perm.Basic
import Verif.DfMetrics.Spec

set_option linter.unusedSectionVars false

namespace Verif.DfMetrics

/-! ### Combinations -/

theorem mem_combinations {α : Type} (n : ℕ) (l c : List α) : c ∈ combinations n l ↔ c.length = n ∧ c.Sublist l := by
  induction l generalizing n c with
  | nil =>
    cases n with
    | zero => simp [combinations]
    | succ n =>
      simp only [combinations, List.not_mem_nil, List.sublist_nil, false_iff, not_and]
      rintro h rfl; simp at h
  | cons a l ih =>
    cases n with
    | zero =>
      simp only [combinations, List.mem_singleton, List.length_eq_zero_iff]
      constructor
      · rintro rfl; simp
      · exact fun h => h.1
    | succ n =>
      simp only [combinations, List.mem_append, List.mem_map, ih]
      constructor
      · rintro (⟨d, ⟨h1, h2⟩, rfl⟩ | ⟨h1, h2⟩)
        · exact ⟨by simp [h1], h2.cons_cons a⟩
        · exact ⟨h1, h2.cons a⟩
      · rintro ⟨h1, h2⟩
        cases h2 with
        | cons _ h => exact Or.inr ⟨h1, h⟩
        | cons_cons _ h => exact Or.inl ⟨_, ⟨by simpa using h1, h⟩, rfl⟩

theorem combinations_nodup {α : Type} (n : ℕ) (l : List α) (h : l.Nodup) : (combinations n l).Nodup := by
  induction l generalizing n with
  | nil => cases n <;> simp [combinations]
  | cons a l ih =>
    rw [List.nodup_cons] at h
    cases n with
    | zero => simp [combinations]
    | succ n =>
      simp only [combinations]
      rw [List.nodup_append]
      refine ⟨(ih n h.2).map (fun _ _ e => by simpa using e), ih (n + 1) h.2, ?_⟩
      rintro c hc d hd rfl
      obtain ⟨e, _, rfl⟩ := List.mem_map.mp hc
      have := ((mem_combinations _ _ _).mp hd).2
      exact h.1 (this.subset (by simp))

theorem mem_permutations {α : Type} [DecidableEq α] (n : ℕ) (l c : List α) (hl : l.Nodup) :
    c ∈ permutations n l ↔ c.length = n ∧ c.Nodup ∧ ∀ x ∈ c, x ∈ l := by
  induction n generalizing l c with
  | zero =>
    simp only [permutations, List.mem_singleton, List.length_eq_zero_iff]
    constructor
    · rintro rfl; simp
    · exact fun h => h.1
  | succ n ih =>
    simp only [permutations, List.mem_flatMap, List.mem_map]
    constructor
    · rintro ⟨a, ha, d, hd, rfl⟩
      obtain ⟨h1, h2, h3⟩ := (ih _ _ (hl.erase a)).mp hd
      refine ⟨by simp [h1], ?_, ?_⟩
      · rw [List.nodup_cons]
        exact ⟨fun h => ((hl.mem_erase_iff).mp (h3 a h)).1 rfl, h2⟩
      · intro x hx
        rcases List.mem_cons.mp hx with rfl | hx
        · exact ha
        · exact List.mem_of_mem_erase (h3 x hx)
    · rintro ⟨h1, h2, h3⟩
      cases c with
      | nil => simp at h1
      | cons a d =>
        rw [List.nodup_cons] at h2
        refine ⟨a, h3 a (by simp), d, (ih _ _ (hl.erase a)).mpr ⟨by simpa using h1, h2.2, ?_⟩, rfl⟩
        intro x hx
        rw [hl.mem_erase_iff]
        exact ⟨by rintro rfl; exact h2.1 hx, h3 x (List.mem_cons_of_mem _ hx)⟩

theorem permutations_nodup {α : Type} [DecidableEq α] (n : ℕ) (l : List α) (hl : l.Nodup) :
    (permutations n l).Nodup := by
  induction n generalizing l with
  | zero => simp [permutations]
  | succ n ih =>
    simp only [permutations]
    rw [List.nodup_flatMap]
    refine ⟨fun a _ => (ih _ (hl.erase a)).map (fun _ _ e => by simpa using e), ?_⟩
    refine hl.imp ?_
    intro a b hab c hc hd
    obtain ⟨x, _, rfl⟩ := List.mem_map.mp hc
    obtain ⟨y, _, e⟩ := List.mem_map.mp hd
    simp at e; exact hab e.1.symm

theorem sublist_range_iff (c : List ℕ) (K : ℕ) : c.Sublist (List.range K) ↔ c.Pairwise (· < ·) ∧ ∀ x ∈ c, x < K := by
  constructor
  · intro h
    exact ⟨List.pairwise_lt_range.sublist h, fun x hx => List.mem_range.mp (h.subset hx)⟩
  · rintro ⟨h1, h2⟩
    have e : c = (List.range K).filter (fun x => x ∈ c) := by
      apply List.Perm.eq_of_pairwise (le := (· < ·)) (fun a b _ _ h1 h2 => absurd h1 (by omega)) h1
        (List.pairwise_lt_range.filter _)
      rw [List.perm_ext_iff_of_nodup (h1.imp (fun h => by omega)) (List.nodup_range.filter _)]
      intro a
      simp only [List.mem_filter, List.mem_range, decide_eq_true_eq]
      exact ⟨fun h => ⟨h2 a h, h⟩, fun h => h.2⟩
    rw [e]
    exact List.filter_sublist

/-! ### The loop -/

section
variable {V R : Type}

/-- the mask array still holds the finiteness of the data -/
def Agree (fin : V → Bool) (mat : ℕ → ℕ → V) (K N : ℕ) (mask : ℕ → ℕ → Bool) : Prop :=
  ∀ c, c < K → ∀ r, r < N → mask c r = fin (mat c r)

theorem filter_range_congr (N : ℕ) (p q : ℕ → Bool) (h : ∀ r, r < N → p r = q r) :
    (List.range N).filter p = (List.range N).filter q :=
  List.filter_congr (fun r hr => h r (List.mem_range.mp hr))

theorem loop_eq (fin : V → Bool) (method : List (List V) → Except Err (List R)) (mat : ℕ → ℕ → V) (K N : ℕ)
    (combs : List (List ℕ)) (mask : ℕ → ℕ → Bool) (hm : Agree fin mat K N mask)
    (hstep : ∀ mask, Agree fin mat K N mask → ∀ comb ∈ combs, ∃ valid mask', logicalAnd mask comb = .ok (valid, mask') ∧
      (∀ r, r < N → valid r = comb.all (fun i => fin (mat i r))) ∧ Agree fin mat K N mask') :
    loop method mat N mask combs = evaluateAll fin method mat N combs := by
  induction combs generalizing mask with
  | nil => rfl
  | cons comb combs ih =>
    obtain ⟨valid, mask', h1, h2, h3⟩ := hstep mask hm comb (by simp)
    have ih' := ih mask' h3 (fun m hm c hc => hstep m hm c (List.mem_cons_of_mem _ hc))
    have hf : (List.range N).filter valid = completeRows fin mat N comb := filter_range_congr N _ _ h2
    unfold loop evaluateAll evaluate
    simp only [h1, ih']
    have hany : (List.range N).any valid = true ↔ completeRows fin mat N comb ≠ [] := by
      rw [← hf, List.any_eq_true, Ne, List.filter_eq_nil_iff]
      push Not
      rfl
    by_cases hc : completeRows fin mat N comb = []
    · have : ¬ (List.range N).any valid = true := fun h => hany.mp h hc
      rw [if_neg this, if_pos hc]
      cases evaluateAll fin method mat N combs <;> rfl
    · rw [if_pos (hany.mpr hc), if_neg hc]
      have hargs : (if (List.range N).all valid then comb.map (fun i => (List.range N).map (mat i))
          else comb.map (fun i => compress N valid (mat i))) = restricted fin mat N comb := by
        unfold restricted
        split
        · rename_i hall
          have : completeRows fin mat N comb = List.range N := by
            rw [← hf, List.filter_eq_self]; exact List.all_eq_true.mp hall
          rw [this]
        · unfold compress; rw [hf]
      rw [hargs]
      cases method (restricted fin mat N comb) <;> rfl

theorem step_two (fin : V → Bool) (mat : ℕ → ℕ → V) (K N : ℕ) (mask : ℕ → ℕ → Bool) (hm : Agree fin mat K N mask)
    (comb : List ℕ) (hlen : comb.length = 2) (hlt : ∀ x ∈ comb, x < K) :
    ∃ valid mask', logicalAnd mask comb = .ok (valid, mask') ∧
      (∀ r, r < N → valid r = comb.all (fun i => fin (mat i r))) ∧ Agree fin mat K N mask' := by
  match comb, hlen with
  | [i, j], _ =>
    refine ⟨_, _, rfl, ?_, hm⟩
    intro r hr
    simp [hm i (hlt i (by simp)) r hr, hm j (hlt j (by simp)) r hr]

theorem step_three (fin : V → Bool) (mat : ℕ → ℕ → V) (K N : ℕ)
    (hu : ∀ i j r, i < K → j < K → r < N → fin (mat i r) = fin (mat j r))
    (mask : ℕ → ℕ → Bool) (hm : Agree fin mat K N mask)
    (comb : List ℕ) (hlen : comb.length = 3) (hlt : ∀ x ∈ comb, x < K) :
    ∃ valid mask', logicalAnd mask comb = .ok (valid, mask') ∧
      (∀ r, r < N → valid r = comb.all (fun i => fin (mat i r))) ∧ Agree fin mat K N mask' := by
  match comb, hlen with
  | [i, j, k], _ =>
    have hi := hlt i (by simp)
    have hj := hlt j (by simp)
    have hk := hlt k (by simp)
    refine ⟨_, _, rfl, ?_, ?_⟩
    · intro r hr
      simp only [List.all_cons, List.all_nil, Bool.and_true, hm i hi r hr, hm j hj r hr, hu j i r hj hi hr, hu k i r hk hi hr,
        Bool.and_self]
    · intro c hc r hr
      simp only
      split
      · rename_i e
        subst e
        simp only [hm i hi r hr, hm j hj r hr, hu j c r hj hc hr, hu i c r hi hc hr, Bool.and_self]
      · exact hm c hc r hr

theorem evaluateAll_spec (fin : V → Bool) (method : List (List V) → Except Err (List R)) (mat : ℕ → ℕ → V) (N : ℕ)
    (combs : List (List ℕ)) (res : List (List ℕ × Option (List R)))
    (h : evaluateAll fin method mat N combs = .ok res) :
    res.map Prod.fst = combs ∧ ∀ e ∈ res, evaluate fin method mat N e.1 = .ok e := by
  induction combs generalizing res with
  | nil => simp [evaluateAll] at h; subst h; simp
  | cons c cs ih =>
    unfold evaluateAll at h
    cases he : evaluate fin method mat N c with
    | error e => simp [he] at h
    | ok x =>
      rw [he] at h
      cases hr : evaluateAll fin method mat N cs with
      | error e => simp [hr] at h
      | ok xs =>
        simp [hr] at h
        subst h
        obtain ⟨i1, i2⟩ := ih xs hr
        have hx : x.1 = c := by
          unfold evaluate at he
          split at he
          · simp at he; subst he; rfl
          · split at he
            · simp at he
            · simp at he; subst he; rfl
        refine ⟨by simp [i1, hx], ?_⟩
        intro e hmem
        rcases List.mem_cons.mp hmem with rfl | hmem
        · rw [hx]; exact he
        · exact i2 e hmem

theorem evaluateAll_error (fin : V → Bool) (method : List (List V) → Except Err (List R)) (mat : ℕ → ℕ → V) (N : ℕ)
    (combs : List (List ℕ)) (comb : List ℕ) (hc : comb ∈ combs)
    (h : ∀ c ∈ combs, ∀ e, evaluate fin method mat N c = .error e → e = .indexError)
    (e : Err) (he : evaluate fin method mat N comb = .error e) :
    evaluateAll fin method mat N combs = .error .indexError := by
  induction combs with
  | nil => simp at hc
  | cons c cs ih =>
    unfold evaluateAll
    cases hev : evaluate fin method mat N c with
    | error e' => rw [h c (by simp) e' hev]
    | ok x =>
      rcases List.mem_cons.mp hc with rfl | hc
      · rw [he] at hev; simp at hev
      · simp only
        rw [ih hc (fun c hc => h c (List.mem_cons_of_mem _ hc))]

end

/-! ### Matrices -/

theorem find_reverse_of_mem {α β : Type} [DecidableEq α] (l : List (α × β)) (hn : (l.map Prod.fst).Nodup) (e : α × β)
    (he : e ∈ l) : l.reverse.find? (fun x => decide (x.1 = e.1)) = some e := by
  have key : ∀ (l : List (α × β)), (l.map Prod.fst).Nodup → e ∈ l → l.find? (fun x => decide (x.1 = e.1)) = some e := by
    intro l
    induction l with
    | nil => simp
    | cons a l ih =>
      intro hn he
      simp only [List.map_cons, List.nodup_cons] at hn
      rcases List.mem_cons.mp he with rfl | he
      · simp
      · have : a.1 ≠ e.1 := fun h => hn.1 (h ▸ List.mem_map.mpr ⟨e, he, rfl⟩)
        rw [List.find?_cons_of_neg (by simpa using this)]
        exact ih hn.2 he
  apply key
  · rw [List.map_reverse, List.nodup_reverse]; exact hn
  · simpa using he

theorem find_reverse_none {α β : Type} [DecidableEq α] (l : List (α × β)) (k : α) (h : ∀ e ∈ l, e.1 ≠ k) :
    l.reverse.find? (fun x => decide (x.1 = k)) = none := by
  rw [List.find?_eq_none]
  intro x hx
  simpa using h x (by simpa using hx)

theorem tril_nodup (K : ℕ) : (tril K).Nodup := by
  unfold tril
  rw [List.nodup_flatMap]
  refine ⟨fun i _ => (List.nodup_range.filter _).map (fun _ _ e => by simpa using e), ?_⟩
  refine List.nodup_range.imp ?_
  intro a b hab c hc hd
  obtain ⟨x, _, rfl⟩ := List.mem_map.mp hc
  obtain ⟨y, _, e⟩ := List.mem_map.mp hd
  simp at e; exact hab e.1.symm

theorem zip_keys_nodup {α β : Type} (a : List α) (b : List β) (h : a.Nodup) : ((a.zip b).map Prod.fst).Nodup := by
  refine h.sublist ?_
  clear h
  induction a generalizing b with
  | nil => simp
  | cons x a ih =>
    cases b with
    | nil => simp
    | cons y b => simpa using ih b

theorem copyLower_of_mem {W : Type} (K : ℕ) (m : ℕ → ℕ → Option W) (i j a b : ℕ)
    (h : ((i, j), (a, b)) ∈ (tril K).zip (triu K)) : copyLower K m i j = m a b := by
  unfold copyLower
  have := find_reverse_of_mem _ (zip_keys_nodup (tril K) (triu K) (tril_nodup K)) _ h
  simp only at this
  rw [this]

theorem copyLower_upper {W : Type} (K : ℕ) (m : ℕ → ℕ → Option W) (i j : ℕ) (h : i ≤ j) :
    copyLower K m i j = m i j := by
  unfold copyLower
  rw [find_reverse_none]
  rintro ⟨⟨a, b⟩, c⟩ he
  have := (List.of_mem_zip he).1
  unfold tril at this
  simp only [List.mem_flatMap, List.mem_map, List.mem_filter, decide_eq_true_eq, Prod.mk.injEq] at this
  obtain ⟨x, _, y, ⟨_, hy⟩, rfl, rfl⟩ := this
  intro e
  simp only [Prod.mk.injEq] at e
  omega

end Verif.DfMetrics
