import Mathlib.Algebra.CharP.Defs
import Mathlib.Algebra.BigOperators.Group.List.Basic
import Mathlib.Data.List.Induction
import Mathlib.Tactic.Ring
import Mathlib.Tactic.FieldSimp
import Mathlib.Tactic.LinearCombination
import Verif.Moments.Model
import Verif.Moments.Spec

set_option linter.unusedSectionVars false

namespace Verif.Moments

variable {K : Type} [Field K] [CharZero K]

/-- sum of `f` over the list -/
def S {α : Type} (l : List α) (f : α → K) : K := (l.map f).sum

@[simp] theorem S_nil {α : Type} (f : α → K) : S ([] : List α) f = 0 := by simp [S]
@[simp] theorem S_cons {α : Type} (a : α) (l : List α) (f : α → K) : S (a :: l) f = f a + S l f := by simp [S]
@[simp] theorem S_append {α : Type} (l m : List α) (f : α → K) : S (l ++ m) f = S l f + S m f := by simp [S]

theorem S_add {α : Type} (l : List α) (f g : α → K) : S l (fun a => f a + g a) = S l f + S l g := by
  induction l with
  | nil => simp
  | cons a l ih => simp [ih]; ring
theorem S_mul {α : Type} (l : List α) (c : K) (f : α → K) : S l (fun a => c * f a) = c * S l f := by
  induction l with
  | nil => simp
  | cons a l ih => simp [ih]; ring
theorem S_const {α : Type} (l : List α) (c : K) : S l (fun _ => c) = (l.length : K) * c := by
  induction l with
  | nil => simp
  | cons a l ih => simp [ih]; ring

theorem S_congr {α : Type} (l : List α) (f g : α → K) (h : ∀ a ∈ l, f a = g a) : S l f = S l g := by
  unfold S; rw [List.map_congr_left h]

/-- sum of products of deviations from arbitrary centres -/
theorem S_dev {α : Type} (l : List α) (f g : α → K) (a b : K) :
    S l (fun p => (f p - a) * (g p - b)) =
      S l (fun p => f p * g p) - a * S l g - b * S l f + (l.length : K) * (a * b) := by
  induction l with
  | nil => simp
  | cons p l ih => simp [ih]; ring

theorem mean_map {α : Type} (l : List α) (f : α → K) : mean (l.map f) = S l f / (l.length : K) := by
  simp [mean, S]

theorem len_mul_mean {α : Type} (l : List α) (f : α → K) : (l.length : K) * mean (l.map f) = S l f := by
  rw [mean_map]
  cases l with
  | nil => simp
  | cons a l =>
    have : ((a :: l).length : K) ≠ 0 := by exact_mod_cast (by simp)
    field_simp

theorem pcov_eq (l : List (K × K)) :
    (l.length : K) * pcov l = S l (fun p => p.1 * p.2) -
      (l.length : K) * (mean (l.map Prod.fst) * mean (l.map Prod.snd)) := by
  unfold pcov
  rw [len_mul_mean, S_dev]
  rw [← len_mul_mean l Prod.fst, ← len_mul_mean l Prod.snd]
  ring

theorem pvar_eq {α : Type} (l : List α) (f : α → K) :
    (l.length : K) * pvar (l.map f) = S l (fun p => f p * f p) -
      (l.length : K) * (mean (l.map f) * mean (l.map f)) := by
  unfold pvar
  rw [List.map_map, len_mul_mean]
  have : S l ((fun a => (a - mean (l.map f)) ^ 2) ∘ f) =
      S l (fun p => (f p - mean (l.map f)) * (f p - mean (l.map f))) := by
    apply S_congr; intro a _; simp [sq]
  rw [this, S_dev, ← len_mul_mean l f]
  ring

/-- Invariant: the state describes the observations `l`. -/
structure Inv (l : List (K × K)) (s : State K) : Prop where
  nobs : s.nobs = (l.length : K)
  mx : (l.length : K) * s.mx = S l Prod.fst
  my : (l.length : K) * s.my = S l Prod.snd
  M2x : s.M2x = S l (fun p => p.1 * p.1) - (l.length : K) * (s.mx * s.mx)
  M2y : s.M2y = S l (fun p => p.2 * p.2) - (l.length : K) * (s.my * s.my)
  C : s.C = S l (fun p => p.1 * p.2) - (l.length : K) * (s.mx * s.my)

theorem Inv_init : Inv ([] : List (K × K)) init := by
  constructor <;> simp [init]

theorem Inv_step (l : List (K × K)) (s : State K) (p : K × K) (h : Inv l s) : Inv (l ++ [p]) (step s p) := by
  have hn : ((l.length : K) + 1) ≠ 0 := by exact_mod_cast Nat.succ_ne_zero l.length
  obtain ⟨h1, h2, h3, h4, h5, h6⟩ := h
  have hmx : (step s p).mx * ((l.length : K) + 1) = s.mx * (l.length : K) + p.1 := by
    simp only [step, h1]; field_simp; ring
  have hmy : (step s p).my * ((l.length : K) + 1) = s.my * (l.length : K) + p.2 := by
    simp only [step, h1]; field_simp; ring
  have e2x : (step s p).M2x = s.M2x + (p.1 - (step s p).mx) * (p.1 - s.mx) := rfl
  have e2y : (step s p).M2y = s.M2y + (p.2 - (step s p).my) * (p.2 - s.my) := rfl
  have eC : (step s p).C = s.C + (p.1 - (step s p).mx) * (p.2 - s.my) := rfl
  have e1 : (step s p).nobs = s.nobs + 1 := rfl
  constructor
  · rw [e1, h1]; simp
  · simp; linear_combination h2 + hmx
  · simp; linear_combination h3 + hmy
  · rw [e2x, h4]; simp
    linear_combination ((step s p).mx + s.mx) * hmx
  · rw [e2y, h5]; simp
    linear_combination ((step s p).my + s.my) * hmy
  · rw [eC, h6]; simp
    linear_combination (step s p).mx * hmy + s.my * hmx

theorem Inv_foldl (l m : List (K × K)) (s : State K) (h : Inv l s) : Inv (l ++ m) (m.foldl step s) := by
  induction m generalizing l s with
  | nil => simpa using h
  | cons p m ih =>
    have := ih (l ++ [p]) (step s p) (Inv_step l s p h)
    simpa using this

theorem Inv_mean {l : List (K × K)} {s : State K} (h : Inv l s) (hl : l ≠ []) :
    s.mx = mean (l.map Prod.fst) ∧ s.my = mean (l.map Prod.snd) := by
  have hn : (l.length : K) ≠ 0 := by
    have : l.length ≠ 0 := by simpa using hl
    exact_mod_cast this
  constructor
  · rw [mean_map, eq_div_iff hn, ← h.mx]; ring
  · rw [mean_map, eq_div_iff hn, ← h.my]; ring

theorem Inv_var {l : List (K × K)} {s : State K} (h : Inv l s) (hl : l ≠ []) :
    s.M2x = (l.length : K) * pvar (l.map Prod.fst) ∧ s.M2y = (l.length : K) * pvar (l.map Prod.snd) ∧
    s.C = (l.length : K) * pcov l := by
  obtain ⟨hx, hy⟩ := Inv_mean h hl
  refine ⟨?_, ?_, ?_⟩
  · rw [pvar_eq, ← hx, h.M2x]
  · rw [pvar_eq, ← hy, h.M2y]
  · rw [pcov_eq, ← hx, ← hy, h.C]

end Verif.Moments
