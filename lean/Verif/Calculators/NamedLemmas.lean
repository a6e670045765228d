import Mathlib.Data.List.Infix
import Mathlib.Data.List.Nodup
import Mathlib.Data.List.Forall2
import Mathlib.Data.List.ProdSigma
import Verif.Common.ListAux
import Verif.Calculators.Named
import Verif.Calculators.Props

/-! Joined names: splitting and joining, pairs of columns, lookup tables. -/

set_option linter.unusedSectionVars false

namespace Verif.Calculators

variable {K : Type}

/-! ### Splitting -/

/-- the separator occurs neither in the name nor across its end when the separator follows -/
def Free (sep x : Name) : Prop := ¬ sep <:+: x ++ sep.dropLast

instance (sep x : Name) : Decidable (Free sep x) := inferInstanceAs (Decidable (¬ _))

theorem Free.tail {sep : Name} {c : Char} {x : Name} (h : Free sep (c :: x)) : Free sep x :=
  fun hi => h (hi.trans (List.suffix_cons c _).isInfix)

theorem Free.not_prefix {sep : Name} {c : Char} {x : Name} (h : Free sep (c :: x)) (t : Name) : ¬ sep <+: (c :: x) ++ sep ++ t := by
  intro hp
  apply h
  have h2 : (c :: x) ++ sep.dropLast <+: (c :: x) ++ sep ++ t := by
    rw [List.append_assoc, List.prefix_append_right_inj]
    exact (List.dropLast_prefix sep).trans (List.prefix_append sep t)
  exact (List.prefix_of_prefix_length_le hp h2 (by simp; omega)).isInfix

theorem Free.not_prefix' {sep : Name} {c : Char} {x : Name} (h : Free sep (c :: x)) : ¬ sep <+: c :: x := by
  intro hp
  exact h (hp.isInfix.trans (List.prefix_append _ _).isInfix)

theorem splitGo_skip (sep s acc t : Name) : splitGo sep s.length acc (s ++ t) = splitGo sep 0 acc t := by
  induction s with
  | nil => rfl
  | cons c s ih =>
    show splitGo sep s.length acc (s ++ t) = _
    exact ih

theorem splitGo_sep (sep : Name) (hs : sep ≠ []) (x : Name) (hx : Free sep x) (acc t : Name) :
    splitGo sep 0 acc (x ++ sep ++ t) = (acc.reverse ++ x) :: splitGo sep 0 [] t := by
  induction x generalizing acc with
  | nil =>
    obtain ⟨c, s, rfl⟩ := List.exists_cons_of_ne_nil hs
    simp only [List.nil_append, List.cons_append, List.append_nil]
    rw [splitGo, if_pos (by rw [List.isPrefixOf_iff_prefix]; exact List.prefix_append (c :: s) t)]
    show acc.reverse :: splitGo (c :: s) s.length [] (s ++ t) = _
    rw [splitGo_skip]
  | cons c x ih =>
    rw [List.cons_append, List.cons_append, splitGo, if_neg, ih hx.tail]
    · simp
    · rw [List.isPrefixOf_iff_prefix]
      exact hx.not_prefix t

theorem splitGo_end (sep x : Name) (hx : Free sep x) (acc : Name) : splitGo sep 0 acc x = [acc.reverse ++ x] := by
  induction x generalizing acc with
  | nil => simp [splitGo]
  | cons c x ih =>
    rw [splitGo, if_neg, ih hx.tail]
    · simp
    · rw [List.isPrefixOf_iff_prefix]
      exact hx.not_prefix'

/-- splitting undoes joining -/
theorem split_join (sep : Name) (hs : sep ≠ []) (l : List Name) (hl : l ≠ []) (hf : ∀ x ∈ l, Free sep x) : pySplit sep (pyJoin sep l) = l := by
  induction l with
  | nil => exact absurd rfl hl
  | cons a l ih =>
    match l, ih with
    | [], _ => exact splitGo_end sep a (hf a (by simp)) []
    | b :: l, ih =>
      show splitGo sep 0 [] (a ++ sep ++ pyJoin sep (b :: l)) = _
      rw [splitGo_sep sep hs a (hf a (by simp))]
      simp only [List.reverse_nil, List.nil_append, List.cons.injEq, true_and]
      exact ih (by simp) (fun x hx => hf x (List.mem_cons_of_mem _ hx))

theorem join_injective (sep : Name) (hs : sep ≠ []) (l l' : List Name) (hl : l ≠ []) (hl' : l' ≠ []) (hf : ∀ x ∈ l, Free sep x)
    (hf' : ∀ x ∈ l', Free sep x) (h : pyJoin sep l = pyJoin sep l') : l = l' := by
  rw [← split_join sep hs l hl hf, h, split_join sep hs l' hl' hf']

/-- only the first part has to be free -/
theorem append_injective (sep : Name) (hs : sep ≠ []) (a b t u : Name) (ha : Free sep a) (hb : Free sep b) (h : a ++ sep ++ t = b ++ sep ++ u) :
    a = b ∧ t = u := by
  have h1 := splitGo_sep sep hs a ha [] t
  have h2 := splitGo_sep sep hs b hb [] u
  rw [h, h2] at h1
  simp only [List.reverse_nil, List.nil_append, List.cons.injEq] at h1
  obtain ⟨h3, -⟩ := h1
  subst h3
  refine ⟨rfl, ?_⟩
  simpa using h

theorem sepAnd_ne : sepAnd ≠ [] := by decide
theorem sepBetween_ne : sepBetween ≠ [] := by decide

/-! ### Pairs -/

theorem pairsOf_map {α β : Type} (f : α → β) (l : List α) : pairsOf (l.map f) = (pairsOf l).map (fun p => (f p.1, f p.2)) := by
  induction l with
  | nil => rfl
  | cons a l ih => simp only [List.map_cons, pairsOf, ih, List.map_append, List.map_map]; rfl

theorem mem_pairsOf {α : Type} (l : List α) (p : α × α) :
    p ∈ pairsOf l ↔ ∃ i j : ℕ, i < j ∧ l[i]? = some p.1 ∧ l[j]? = some p.2 := by
  induction l with
  | nil => simp [pairsOf]
  | cons a l ih =>
    simp only [pairsOf, List.mem_append, List.mem_map, ih]
    constructor
    · rintro (⟨b, hb, rfl⟩ | ⟨i, j, hij, h1, h2⟩)
      · obtain ⟨j, hj⟩ := List.mem_iff_getElem?.mp hb
        exact ⟨0, j + 1, by omega, by simp, by simpa using hj⟩
      · exact ⟨i + 1, j + 1, by omega, by simpa using h1, by simpa using h2⟩
    · rintro ⟨i, j, hij, h1, h2⟩
      obtain ⟨j, rfl⟩ : ∃ k, j = k + 1 := ⟨j - 1, by omega⟩
      match i with
      | 0 =>
        left
        simp only [List.getElem?_cons_zero, Option.some.injEq, List.getElem?_cons_succ] at h1 h2
        exact ⟨p.2, List.mem_of_getElem? h2, by rw [h1]⟩
      | i + 1 =>
        right
        simp only [List.getElem?_cons_succ] at h1 h2
        exact ⟨i, j, by omega, h1, h2⟩

theorem mem_of_pairsOf {α : Type} (l : List α) (p : α × α) (h : p ∈ pairsOf l) : p.1 ∈ l ∧ p.2 ∈ l := by
  obtain ⟨i, j, _, h1, h2⟩ := (mem_pairsOf l p).mp h
  exact ⟨List.mem_of_getElem? h1, List.mem_of_getElem? h2⟩

theorem pairsOf_nodup {α : Type} (l : List α) (h : l.Nodup) : (pairsOf l).Nodup := by
  induction l with
  | nil => exact List.nodup_nil
  | cons a l ih =>
    rw [List.nodup_cons] at h
    rw [pairsOf, List.nodup_append]
    refine ⟨h.2.map (fun x y hxy => by simpa using hxy), ih h.2, ?_⟩
    intro x hx y hy hxy
    obtain ⟨b, _, rfl⟩ := List.mem_map.mp hx
    subst hxy
    exact h.1 (mem_of_pairsOf l _ hy).1

theorem pairsOf_ne {α : Type} (l : List α) (h : l.Nodup) (p : α × α) (hp : p ∈ pairsOf l) : p.1 ≠ p.2 := by
  obtain ⟨i, j, hij, h1, h2⟩ := (mem_pairsOf l p).mp hp
  intro he
  rw [he, ← h2] at h1
  have hj : j < l.length := by
    rcases Nat.lt_or_ge j l.length with h | h
    · exact h
    · rw [List.getElem?_eq_none h] at h2; exact absurd h2 (by simp)
  rw [List.getElem?_inj (by omega) h] at h1
  omega

theorem mem_orderedPairs (l : List Name) (h : l.Nodup) (p : Name × Name) : p ∈ orderedPairs l ↔ p.1 ∈ l ∧ p.2 ∈ l ∧ p.1 ≠ p.2 := by
  simp only [orderedPairs, List.mem_flatMap, List.mem_map]
  constructor
  · rintro ⟨a, ha, b, hb, rfl⟩
    rw [h.mem_erase_iff] at hb
    exact ⟨ha, hb.2, fun he => hb.1 he.symm⟩
  · rintro ⟨h1, h2, h3⟩
    exact ⟨p.1, h1, p.2, (h.mem_erase_iff).mpr ⟨fun he => h3 he.symm, h2⟩, rfl⟩

theorem orderedPairs_nodup (l : List Name) (h : l.Nodup) : (orderedPairs l).Nodup := by
  unfold orderedPairs
  rw [List.nodup_flatMap]
  refine ⟨fun a _ => (h.erase a).map (fun x y hxy => by simpa using hxy), ?_⟩
  refine List.Pairwise.imp ?_ h
  intro a b hab x hx hy
  obtain ⟨_, _, rfl⟩ := List.mem_map.mp hx
  obtain ⟨_, _, h2⟩ := List.mem_map.mp hy
  exact hab (congrArg Prod.fst h2).symm

/-! ### Lookup tables -/

/-- the name at the position of the column -/
theorem lut_ok (P : List (Name × Name)) (hn : (P.map Prod.fst).Nodup) (e : Name × Name) (he : e ∈ P) :
    lutGet (makeLut (P.map Prod.snd) (P.map Prod.fst)) e.1 = .ok e.2 := by
  have hz : (P.map Prod.fst).zip (P.map Prod.snd) = P := by
    clear hn he
    induction P with
    | nil => rfl
    | cons a P ih => simp [ih]
  unfold lutGet makeLut
  rw [hz]
  have : P.reverse.lookup e.1 = some e.2 := by
    have hnr : (P.reverse.map Prod.fst).Nodup := by rw [List.map_reverse, List.nodup_reverse]; exact hn
    have her : e ∈ P.reverse := by simpa using he
    generalize P.reverse = Q at hnr her
    clear hn he hz
    induction Q with
    | nil => simp at her
    | cons f Q ih =>
      obtain ⟨a, b⟩ := f
      rw [List.map_cons, List.nodup_cons] at hnr
      rw [List.lookup_cons]
      rcases List.mem_cons.mp her with rfl | h
      · simp
      · have hne : e.1 ≠ a := fun h1 => hnr.1 (h1 ▸ List.mem_map.mpr ⟨e, h, rfl⟩)
        have : (e.1 == a) = false := by simpa using hne
        rw [this]
        exact ih hnr.2 h
  rw [this]

theorem pairKey_ok (P : List (Name × Name)) (hn : (P.map Prod.fst).Nodup) (hf : ∀ e ∈ P, Free sepAnd e.1) (e e' : Name × Name) (he : e ∈ P) (he' : e' ∈ P) :
    pairKey (makeLut (P.map Prod.snd) (P.map Prod.fst)) (pyJoin sepAnd [e.1, e'.1]) = .ok (pyJoin sepAnd [e.2, e'.2]) := by
  unfold pairKey
  rw [split_join sepAnd sepAnd_ne [e.1, e'.1] (by simp) (by
    intro x hx
    simp only [List.mem_cons, List.not_mem_nil, or_false] at hx
    rcases hx with rfl | rfl
    · exact hf e he
    · exact hf e' he')]
  simp only [lutPart, List.getElem?_cons_zero, List.getElem?_cons_succ, lut_ok P hn e he, lut_ok P hn e' he']
  rfl

/-! ### Tables -/

/-- lookup in a table of joined names -/
theorem table_lookup (ps : List (Name × Name)) (v : Name × Name → Option K) (hj : (ps.map (fun p => pyJoin sepAnd [p.1, p.2])).Nodup) (p : Name × Name)
    (hp : p ∈ ps) : ((ps.map (fun p => pyJoin sepAnd [p.1, p.2])).zip (ps.map v)).lookup (pyJoin sepAnd [p.1, p.2]) = some (v p) := by
  induction ps with
  | nil => simp at hp
  | cons q ps ih =>
    rw [List.map_cons, List.nodup_cons] at hj
    simp only [List.map_cons, List.zip_cons_cons, List.lookup_cons]
    rcases List.mem_cons.mp hp with rfl | h
    · simp
    · have hne : pyJoin sepAnd [p.1, p.2] ≠ pyJoin sepAnd [q.1, q.2] := fun h1 => hj.1 (h1 ▸ List.mem_map.mpr ⟨p, h, rfl⟩)
      have : (pyJoin sepAnd [p.1, p.2] == pyJoin sepAnd [q.1, q.2]) = false := by simpa using hne
      rw [this]
      exact ih hj.2 h

theorem joined_nodup (ps : List (Name × Name)) (h : ps.Nodup) (hf : ∀ p ∈ ps, Free sepAnd p.1 ∧ Free sepAnd p.2) :
    (ps.map (fun p => pyJoin sepAnd [p.1, p.2])).Nodup := by
  refine List.Nodup.map_on ?_ h
  intro x hx y hy hxy
  have := join_injective sepAnd sepAnd_ne [x.1, x.2] [y.1, y.2] (by simp) (by simp)
    (by intro z hz; simp only [List.mem_cons, List.not_mem_nil, or_false] at hz; rcases hz with rfl | rfl; exacts [(hf x hx).1, (hf x hx).2])
    (by intro z hz; simp only [List.mem_cons, List.not_mem_nil, or_false] at hz; rcases hz with rfl | rfl; exacts [(hf y hy).1, (hf y hy).2]) hxy
  simp only [List.cons.injEq, and_true] at this
  exact Prod.ext this.1 this.2

/-- `mapM` with a function that always succeeds on the list -/
theorem mapM_ok {α β : Type} (l : List α) (f : α → Except Err β) (g : α → β) (h : ∀ a ∈ l, f a = .ok (g a)) : l.mapM f = .ok (l.map g) := by
  induction l with
  | nil => rfl
  | cons a l ih =>
    rw [List.mapM_cons, h a (by simp), ih (fun b hb => h b (List.mem_cons_of_mem _ hb))]
    rfl

theorem pairTable_ok (F : NamedFuncs K) (m : String) (f : Frame K) (hn : f.cols.Nodup) (hf : ∀ c ∈ f.cols, Free sepAnd c) (v : Name → Name → Option K)
    (hv : ∀ a ∈ f.cols, ∀ b ∈ f.cols, a ≠ b → pairValue F m f (a, b) = .ok (v a b)) :
    ∃ t, pairTable F m f = .ok t ∧ ∀ p ∈ pairsOf f.cols, t.lookup (pyJoin sepAnd [p.1, p.2]) = some (v p.1 p.2) := by
  have key : ∀ ps : List (Name × Name), ps.Nodup → (∀ p ∈ ps, p.1 ∈ f.cols ∧ p.2 ∈ f.cols ∧ p.1 ≠ p.2) → (∀ p ∈ pairsOf f.cols, p ∈ ps) →
      ∃ t, (do
        let vs ← ps.mapM (pairValue F m f)
        let names := ps.map (fun p : Name × Name => pyJoin sepAnd [p.1, p.2])
        if names.Nodup then (Except.ok (names.zip vs) : Except Err (List (Name × Option K))) else .error .valueError) = .ok t ∧
        ∀ p ∈ pairsOf f.cols, t.lookup (pyJoin sepAnd [p.1, p.2]) = some (v p.1 p.2) := by
    intro ps h1 h2 h3
    have hj := joined_nodup ps h1 (fun p hp => ⟨hf _ (h2 p hp).1, hf _ (h2 p hp).2.1⟩)
    rw [mapM_ok ps _ (fun p : Name × Name => v p.1 p.2) (fun p hp => hv _ (h2 p hp).1 _ (h2 p hp).2.1 (h2 p hp).2.2)]
    refine ⟨_, if_pos hj, ?_⟩
    intro p hp
    exact table_lookup ps (fun p => v p.1 p.2) hj p (h3 p hp)
  unfold pairTable
  by_cases hm : m = "BIAS"
  · rw [if_pos hm]
    exact key _ (orderedPairs_nodup _ hn) (fun p hp => (mem_orderedPairs _ hn p).mp hp)
      (fun p hp => (mem_orderedPairs _ hn p).mpr ⟨(mem_of_pairsOf _ p hp).1, (mem_of_pairsOf _ p hp).2, pairsOf_ne _ hn p hp⟩)
  · rw [if_neg hm]
    exact key _ (pairsOf_nodup _ hn) (fun p hp => ⟨(mem_of_pairsOf _ p hp).1, (mem_of_pairsOf _ p hp).2, pairsOf_ne _ hn p hp⟩) (fun p hp => hp)

end Verif.Calculators
