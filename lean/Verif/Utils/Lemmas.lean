import Verif.Utils.Model
import Mathlib.Tactic.Linarith
import Mathlib.Data.Finset.Dedup
import Mathlib.Data.Finset.Card
import Mathlib.Data.List.Nodup
import Mathlib.Data.List.Range

/-! The array as blocks of smaller, equal and larger values. -/

namespace Verif.Utils
set_option linter.unusedSectionVars false

section
variable {K : Type} [Field K] [LinearOrder K] [IsStrictOrderedRing K]

/-- ascending order -/
def Asc (l : List K) : Prop := l.Pairwise (· ≤ ·)

theorem asc_split {l : List K} (h : Asc l) (v : K) (hv : v ∈ l) :
    ∃ A B k, l = A ++ List.replicate (k + 1) v ++ B ∧ (∀ a ∈ A, a < v) ∧ (∀ b ∈ B, v < b) ∧ Asc A ∧ Asc B := by
  induction l with
  | nil => simp at hv
  | cons x l ih =>
    have hx := (List.pairwise_cons.1 h).1
    have hl := (List.pairwise_cons.1 h).2
    by_cases hvl : v ∈ l
    · obtain ⟨A, B, k, rfl, hA, hB, aA, aB⟩ := ih hl hvl
      rcases lt_or_eq_of_le (hx v hvl) with hlt | heq
      · refine ⟨x :: A, B, k, by simp, ?_, hB, ?_, aB⟩
        · intro a ha
          rcases List.mem_cons.1 ha with rfl | ha
          · exact hlt
          · exact hA a ha
        · refine List.pairwise_cons.2 ⟨fun a ha => hx a (by simp [ha]), aA⟩
      · subst heq
        have hAn : A = [] := by
          cases A with
          | nil => rfl
          | cons a A => exact absurd (hx a (by simp)) (not_le.2 (hA a (by simp)))
        subst hAn
        exact ⟨[], B, k + 1, by simp [List.replicate_succ], by simp, hB, aA, aB⟩
    · rcases List.mem_cons.1 hv with rfl | hv
      · refine ⟨[], l, 0, by simp, by simp, ?_, List.Pairwise.nil, hl⟩
        intro b hb
        exact lt_of_le_of_ne (hx b hb) (fun h => hvl (h ▸ hb))
      · exact absurd hv hvl

theorem positions_blocks (A B : List K) (k : ℕ) (v : K) (hA : v ∉ A) (hB : v ∉ B) :
    positions (A ++ List.replicate k v ++ B) v = List.range' A.length k := by
  unfold positions
  have hl : (A ++ List.replicate k v ++ B).length = A.length + (k + B.length) := by simp [Nat.add_assoc]
  rw [hl, List.range_eq_range', ← List.range'_append_1, ← List.range'_append_1, List.filter_append, List.filter_append]
  have h1 : (List.range' 0 A.length).filter
      (fun i => decide ((A ++ List.replicate k v ++ B)[i]? = some v)) = [] := by
    rw [List.filter_eq_nil_iff]
    intro i hi
    have hi' : i < A.length := by simpa using hi
    rw [List.append_assoc, List.getElem?_append_left hi']
    intro h
    exact hA (List.mem_of_getElem? (of_decide_eq_true h))
  have h3 : (List.range' (0 + A.length + k) B.length).filter
      (fun i => decide ((A ++ List.replicate k v ++ B)[i]? = some v)) = [] := by
    rw [List.filter_eq_nil_iff]
    intro i hi
    rw [List.mem_range'_1] at hi
    rw [List.getElem?_append_right (by simp; omega)]
    intro h
    exact hB (List.mem_of_getElem? (of_decide_eq_true h))
  have h2 : (List.range' (0 + A.length) k).filter
      (fun i => decide ((A ++ List.replicate k v ++ B)[i]? = some v)) = List.range' (0 + A.length) k := by
    rw [List.filter_eq_self]
    intro i hi
    rw [List.mem_range'_1] at hi
    rw [List.getElem?_append_left (by simp; omega), List.getElem?_append_right (by omega), List.getElem?_replicate,
      if_pos (by omega)]
    simp
  rw [h1, h2, h3]
  simp

theorem card_append {A B : List K} (h : ∀ a ∈ A, ∀ b ∈ B, a < b) :
    (A ++ B).toFinset.card = A.toFinset.card + B.toFinset.card := by
  rw [List.toFinset_append, Finset.card_union_of_disjoint]
  rw [Finset.disjoint_left]
  intro x hx hx'
  exact lt_irrefl _ (h x (List.mem_toFinset.1 hx) x (List.mem_toFinset.1 hx'))

theorem card_replicate (k : ℕ) (v : K) : (List.replicate (k + 1) v).toFinset.card = 1 := by
  rw [List.toFinset_replicate_of_ne_zero (by omega)]; simp

/-- entries that occur once stay as they are and stay alone -/
def Keeps (l l' : List K) : Prop := List.Forall₂ (fun x y => l.count x = 1 → y = x ∧ l'.count x = 1) l l'

theorem Keeps.refl (l : List K) : Keeps l l := List.forall₂_same.2 (fun _ _ h => ⟨rfl, h⟩)

theorem Keeps.trans {a b c : List K} (h : Keeps a b) (h' : Keeps b c) : Keeps a c := by
  unfold Keeps at *
  have : ∀ (x y z : List K), List.Forall₂ (fun x y => a.count x = 1 → y = x ∧ b.count x = 1) x y →
      List.Forall₂ (fun x y => b.count x = 1 → y = x ∧ c.count x = 1) y z →
      List.Forall₂ (fun x y => a.count x = 1 → y = x ∧ c.count x = 1) x z := by
    intro x y z h1
    induction h1 generalizing z with
    | nil => intro h2; cases h2; exact .nil
    | cons hh _ ih =>
      intro h2
      cases h2 with
      | cons hh' ht =>
        refine .cons ?_ (ih _ ht)
        intro hc
        obtain ⟨e, hb⟩ := hh hc
        subst e
        exact hh' hb
  exact this a b c h h'

/-- what one replacement does to an array in ascending order -/
structure Step (l l' : List K) : Prop where
  asc : Asc l'
  head : l'.head? = l.head?
  last : l'.getLast? = l.getLast?
  keeps : Keeps l l'

theorem Step.refl {l : List K} (h : Asc l) : Step l l := ⟨h, rfl, rfl, Keeps.refl l⟩

theorem Step.trans {a b c : List K} (h : Step a b) (h' : Step b c) : Step a c :=
  ⟨h'.asc, h'.head.trans h.head, h'.last.trans h.last, h.keeps.trans h'.keeps⟩

theorem Step.length {l l' : List K} (h : Step l l') : l'.length = l.length := (List.Forall₂.length_eq h.keeps).symm

/-- replacing the middle part, which has only repeated values, by values strictly between its neighbours -/
theorem step_middle {A M M' B : List K} (hl : M.length = M'.length)
    (hM : ∀ x ∈ M, 2 ≤ M.count x)
    (a : Asc (A ++ M' ++ B))
    (hA : ∀ x ∈ A, x ∉ M') (hB : ∀ x ∈ B, x ∉ M')
    (h1 : (A ++ M' ++ B).head? = (A ++ M ++ B).head?) (h2 : (A ++ M' ++ B).getLast? = (A ++ M ++ B).getLast?) :
    Step (A ++ M ++ B) (A ++ M' ++ B) := by
  refine ⟨a, h1, h2, ?_⟩
  unfold Keeps
  refine List.rel_append (List.rel_append ?_ ?_) ?_
  · refine List.forall₂_same.2 (fun x hx hc => ⟨rfl, ?_⟩)
    simp only [List.count_append] at hc ⊢
    have h0 : M'.count x = 0 := List.count_eq_zero.2 (hA x hx)
    have : 0 < A.count x := List.count_pos_iff.2 hx
    omega
  · rw [List.forall₂_iff_get]
    refine ⟨hl, fun i h h' hc => ?_⟩
    have := hM (M.get ⟨i, h⟩) (List.get_mem _ _)
    simp only [List.count_append] at hc
    omega
  · refine List.forall₂_same.2 (fun x hx hc => ⟨rfl, ?_⟩)
    simp only [List.count_append] at hc ⊢
    have h0 : M'.count x = 0 := List.count_eq_zero.2 (hB x hx)
    have : 0 < B.count x := List.count_pos_iff.2 hx
    omega

end
end Verif.Utils
