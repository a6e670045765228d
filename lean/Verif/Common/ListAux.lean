import Mathlib.Data.List.Forall2
import Mathlib.Data.List.Nodup

/-! General list lemmas without modelling content. -/

namespace Verif

theorem map_fst_zip_sublist {α β : Type} : ∀ (l : List α) (m : List β),
    ((l.zip m).map Prod.fst).Sublist l
  | [], _ => by simp
  | a :: l, [] => by simp
  | a :: l, b :: m => by simpa using map_fst_zip_sublist l m

theorem mapM_except_ok {ε α β : Type} {f : α → Except ε β} : ∀ {l : List α} {r : List β},
    l.mapM f = .ok r → List.Forall₂ (fun a b => f a = .ok b) l r
  | [], r, h => by
    simp only [List.mapM_nil, pure, Except.pure, Except.ok.injEq] at h
    subst h; exact List.Forall₂.nil
  | a :: l, r, h => by
    rw [List.mapM_cons] at h
    simp only [bind, Except.bind, pure, Except.pure] at h
    cases hfa : f a with
    | error e => rw [hfa] at h; simp at h
    | ok b =>
      rw [hfa] at h
      simp only at h
      cases hl : l.mapM f with
      | error e => rw [hl] at h; simp at h
      | ok bs =>
        rw [hl] at h
        simp only [Except.ok.injEq] at h
        subst h
        exact List.Forall₂.cons hfa (mapM_except_ok hl)

theorem mapM_except_of_forall {ε α β : Type} {f : α → Except ε β} : ∀ {l : List α} {r : List β},
    List.Forall₂ (fun a b => f a = .ok b) l r → l.mapM f = .ok r
  | [], _, h => by cases h; rfl
  | a :: l, _, h => by
    cases h with
    | cons h1 h2 =>
      rw [List.mapM_cons, h1, mapM_except_of_forall h2]; rfl

theorem mapM_except_map {ε α β : Type} {f : α → Except ε β} (g : α → β) : ∀ (l : List α),
    (∀ a ∈ l, f a = .ok (g a)) → l.mapM f = .ok (l.map g)
  | [], _ => rfl
  | a :: l, h => by
    rw [List.mapM_cons, h a (by simp), mapM_except_map g l (fun b hb => h b (List.mem_cons_of_mem _ hb))]; rfl

end Verif
