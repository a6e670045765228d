import Mathlib.Algebra.Order.Field.Basic
import Mathlib.Algebra.BigOperators.Group.List.Basic
import Mathlib.Algebra.Order.Group.Abs
import Mathlib.Tactic.Linarith
import Mathlib.Tactic.Ring
import Mathlib.Tactic.FieldSimp
import Verif.Filters.Model
import Verif.Filters.Spec

set_option linter.unusedSectionVars false

namespace Verif.Filters

section
variable {K : Type} [Field K] [LinearOrder K] [IsStrictOrderedRing K]

theorem validObs_cons (nan : K) (o : K × Option K) (l : List (K × Option K)) :
    validObs nan (o :: l) = match usable nan o.2 with
      | none => validObs nan l
      | some v => (o.1, v) :: validObs nan l := by
  obtain ⟨t, x⟩ := o
  cases x with
  | none => simp [validObs, usable]
  | some v =>
    by_cases h : v = nan
    · simp [validObs, usable, h]
    · simp [validObs, usable, h]

theorem validObs_append (nan : K) (l m : List (K × Option K)) :
    validObs nan (l ++ m) = validObs nan l ++ validObs nan m := by
  simp [validObs]

theorem validObs_reverse (nan : K) (l : List (K × Option K)) :
    validObs nan l.reverse = (validObs nan l).reverse := by
  simp [validObs, List.filterMap_reverse]

/-- values in reach with the limit given -/
def reach (nan limit t : K) (obs : List (K × Option K)) : List K :=
  ((validObs nan obs).filter (fun o => |o.1 - t| ≤ limit)).map Prod.snd

theorem reach_append (nan limit t : K) (l m : List (K × Option K)) :
    reach nan limit t (l ++ m) = reach nan limit t l ++ reach nan limit t m := by
  simp [reach, validObs_append]

theorem reach_reverse (nan limit t : K) (l : List (K × Option K)) :
    reach nan limit t l.reverse = (reach nan limit t l).reverse := by
  simp [reach, validObs_reverse, List.filter_reverse, List.map_reverse]

theorem reach_nil_of_far (nan limit t : K) (l : List (K × Option K)) (h : ∀ b ∈ l, limit < |b.1 - t|) :
    reach nan limit t l = [] := by
  induction l with
  | nil => simp [reach, validObs]
  | cons o l ih =>
    have ih := ih (fun b hb => h b (List.mem_cons_of_mem _ hb))
    have ho := h o (List.mem_cons_self ..)
    unfold reach at *
    rw [validObs_cons]
    cases usable nan o.2 with
    | none => exact ih
    | some v =>
      simp only [List.filter_cons]
      rw [if_neg (by simpa using ho)]
      exact ih

theorem accumulate_eq (nan limit t : K) (l : List (K × Option K)) (s : K × Nat)
    (h : l.Pairwise (fun a b => |a.1 - t| ≤ |b.1 - t|)) :
    accumulate nan limit t l s = (s.1 + (reach nan limit t l).sum, s.2 + (reach nan limit t l).length) := by
  induction l generalizing s with
  | nil => simp [accumulate, reach, validObs]
  | cons o l ih =>
    rw [List.pairwise_cons] at h
    unfold accumulate
    cases hu : usable nan o.2 with
    | none =>
      simp only
      rw [ih s h.2]
      simp [reach, validObs_cons, hu]
    | some v =>
      simp only
      by_cases hr : |o.1 - t| ≤ limit
      · rw [if_pos hr, ih _ h.2]
        have : reach nan limit t (o :: l) = v :: reach nan limit t l := by
          simp [reach, validObs_cons, hu, hr]
        rw [this]
        simp only [List.sum_cons, List.length_cons, Prod.mk.injEq]
        constructor
        · ring
        · omega
      · rw [if_neg hr]
        have : reach nan limit t (o :: l) = [] := by
          apply reach_nil_of_far
          intro b hb
          rw [not_le] at hr
          rcases List.mem_cons.mp hb with rfl | hb
          · exact hr
          · exact lt_of_lt_of_le hr (h.1 b hb)
        rw [this]
        simp

theorem usable_isSome (nan : K) (x : Option K) :
    (usable nan x).isSome = true ↔ ¬ (x = none ∨ x = some nan) := by
  cases x with
  | none => simp [usable]
  | some v => by_cases h : v = nan <;> simp [usable, h]

theorem boxcarLoop_eq (nan window : K) (fillna : Bool) (minObs : Int) (before after : List (K × Option K))
    (h : (before.reverse ++ after).Pairwise (fun a b => a.1 ≤ b.1)) :
    boxcarLoop nan (window / 2) fillna minObs before after =
      after.map (boxcarSpec (before.reverse ++ after) window nan fillna minObs) := by
  induction after generalizing before with
  | nil => rfl
  | cons o after ih =>
    unfold boxcarLoop
    have h' : ((o :: before).reverse ++ after).Pairwise (fun a b => a.1 ≤ b.1) := by
      simpa using h
    rw [ih _ h']
    have he : (o :: before).reverse ++ after = before.reverse ++ o :: after := by simp
    rw [he, List.map_cons]
    congr 1
    rw [List.pairwise_append] at h
    obtain ⟨hb, ha, hba⟩ := h
    have ha' := List.pairwise_cons.mp ha
    -- forward
    have hf : (o :: after).Pairwise (fun a b => |a.1 - o.1| ≤ |b.1 - o.1|) := by
      rw [List.pairwise_cons]
      constructor
      · intro b _; simp
      · refine ha'.2.imp_of_mem ?_
        intro a b hma hmb hab
        have h1 := ha'.1 a hma
        have h2 := ha'.1 b hmb
        rw [abs_of_nonneg (by linarith), abs_of_nonneg (by linarith)]
        linarith
    have hbk : before.Pairwise (fun a b => |a.1 - o.1| ≤ |b.1 - o.1|) := by
      rw [List.pairwise_reverse] at hb
      refine hb.imp_of_mem ?_
      intro a b hma hmb hab
      have h1 := hba a (by simpa using hma) o (by simp)
      have h2 := hba b (by simpa using hmb) o (by simp)
      rw [abs_of_nonpos (by linarith), abs_of_nonpos (by linarith)]
      linarith
    rw [accumulate_eq _ _ _ _ _ hf, accumulate_eq _ _ _ _ _ hbk]
    unfold boxcarSpec
    simp only
    have hin : inReach nan window o.1 (before.reverse ++ o :: after) =
        (reach nan (window / 2) o.1 before).reverse ++ reach nan (window / 2) o.1 (o :: after) := by
      rw [← reach_reverse, ← reach_append]; rfl
    rw [hin]
    set A := reach nan (window / 2) o.1 before with hA
    set B := reach nan (window / 2) o.1 (o :: after) with hB
    by_cases hu : (o.2 = none ∨ o.2 = some nan) ∧ fillna = false
    · rw [if_pos hu, if_neg]
      have := (usable_isSome nan o.2).not.mpr (not_not.mpr hu.1)
      simp only [Bool.or_eq_true, not_or]
      exact ⟨this, by simp [hu.2]⟩
    · rw [if_neg hu, if_pos]
      · unfold average
        have hsum : (A.reverse ++ B).sum = 0 + B.sum + A.sum := by
          rw [List.sum_append, List.sum_reverse]; ring
        have hlen : (A.reverse ++ B).length = 0 + B.length + A.length := by
          rw [List.length_append, List.length_reverse]; omega
        have hnil : A.reverse ++ B = [] ↔ 0 + B.length + A.length = 0 := by
          rw [← hlen, List.length_eq_zero_iff]
        simp only [hsum, hlen, hnil]
        by_cases h1 : minObs ≤ ((0 + B.length + A.length : Nat) : Int)
        · rw [if_pos h1]
          by_cases h2 : 0 + B.length + A.length = 0
          · rw [if_pos h2, if_pos (Or.inr h2)]
          · rw [if_neg h2, if_neg]
            rintro (h3 | h3)
            · omega
            · exact h2 h3
        · rw [if_neg h1, if_pos (Or.inl (by omega))]
      · rw [Bool.or_eq_true, usable_isSome]
        by_cases hx : o.2 = none ∨ o.2 = some nan
        · right
          by_contra hc
          exact hu ⟨hx, by simpa using hc⟩
        · exact Or.inl hx

end

section
/-- normaliser and weighted sum seen from time `t` -/
noncomputable def wsum (ctime : ℤ) (nan : ℝ) (past : List (ℝ × Option ℝ)) (t : ℝ) : ℝ :=
  ((validObs nan past).map (fun p => expWeight ctime t p.1)).sum
noncomputable def wxsum (ctime : ℤ) (nan : ℝ) (past : List (ℝ × Option ℝ)) (t : ℝ) : ℝ :=
  ((validObs nan past).map (fun p => expWeight ctime t p.1 * p.2)).sum

theorem expWeight_shift (ctime : ℤ) (t t' tk : ℝ) :
    expWeight ctime t' tk = Real.exp (-(t' - t) / (ctime : ℝ)) * expWeight ctime t tk := by
  unfold expWeight
  rw [← Real.exp_add]
  congr 1
  ring

theorem wsum_shift (ctime : ℤ) (nan : ℝ) (past : List (ℝ × Option ℝ)) (t t' : ℝ) :
    wsum ctime nan past t' = Real.exp (-(t' - t) / (ctime : ℝ)) * wsum ctime nan past t := by
  unfold wsum
  rw [← List.sum_map_mul_left]
  congr 1
  apply List.map_congr_left
  intro p _
  exact expWeight_shift ..

theorem wxsum_shift (ctime : ℤ) (nan : ℝ) (past : List (ℝ × Option ℝ)) (t t' : ℝ) :
    wxsum ctime nan past t' = Real.exp (-(t' - t) / (ctime : ℝ)) * wxsum ctime nan past t := by
  unfold wxsum
  rw [← List.sum_map_mul_left]
  congr 1
  apply List.map_congr_left
  intro p _
  rw [expWeight_shift ctime t t']; ring

theorem expWeight_self (ctime : ℤ) (t : ℝ) : expWeight ctime t t = 1 := by simp [expWeight]

/-- Invariant of `exp_filter`. -/
def ExpInv (ctime : ℤ) (nan : ℝ) (past : List (ℝ × Option ℝ)) : Option ExpState → Prop
  | none => validObs nan past = []
  | some s => 0 < wsum ctime nan past s.lastJd ∧ s.gain * wsum ctime nan past s.lastJd = 1 ∧
      s.lastFiltered * wsum ctime nan past s.lastJd = wxsum ctime nan past s.lastJd

theorem expLoop_eq (ctime : ℤ) (nan : ℝ) (past rest : List (ℝ × Option ℝ)) (s : Option ExpState)
    (h : ExpInv ctime nan past s) :
    (expLoop ctime nan s rest).length = rest.length ∧
    ∀ (i : Nat) (o : ℝ × Option ℝ), rest[i]? = some o →
      (expLoop ctime nan s rest)[i]? = some (expSpec ctime nan (past ++ rest.take (i + 1)) o) := by
  induction rest generalizing past s with
  | nil => simp [expLoop]
  | cons o rest ih =>
    have key : ExpInv ctime nan (past ++ [o]) (expStep ctime nan s o).1 ∧
        (expStep ctime nan s o).2 = expSpec ctime nan (past ++ [o]) o := by
      have hvs : validObs nan (past ++ [o]) = validObs nan past ++ validObs nan [o] := validObs_append ..
      have hv1 := validObs_cons nan o []
      unfold expStep
      have hus := usable_isSome nan o.2
      cases hu : usable nan o.2 with
      | none =>
        rw [hu] at hv1 hus
        simp only at hv1 ⊢
        have hv : validObs nan (past ++ [o]) = validObs nan past := by
          rw [hvs, hv1]; simp [validObs]
        constructor
        · cases s with
          | none => simpa [ExpInv, hv] using h
          | some s => simpa [ExpInv, wsum, wxsum, hv] using h
        · unfold expSpec
          rw [if_pos]
          by_contra hc
          simpa using hus.mpr hc
      | some v =>
        rw [hu] at hv1 hus
        simp only at hv1
        have hv : validObs nan (past ++ [o]) = validObs nan past ++ [(o.1, v)] := by
          rw [hvs, hv1]; simp [validObs]
        have hspec : expSpec ctime nan (past ++ [o]) o =
            some (wxsum ctime nan (past ++ [o]) o.1 / wsum ctime nan (past ++ [o]) o.1) := by
          unfold expSpec
          rw [if_neg (hus.mp rfl)]
          rfl
        have hw : ∀ t, wsum ctime nan (past ++ [o]) t = wsum ctime nan past t + expWeight ctime t o.1 := by
          intro t; simp [wsum, hv]
        have hwx : ∀ t, wxsum ctime nan (past ++ [o]) t =
            wxsum ctime nan past t + expWeight ctime t o.1 * v := by
          intro t; simp [wxsum, hv]
        rw [hspec]
        cases s with
        | none =>
          simp only [ExpInv] at h ⊢
          have h1 : wsum ctime nan past o.1 = 0 := by simp [wsum, h]
          have h2 : wxsum ctime nan past o.1 = 0 := by simp [wxsum, h]
          simp [hw, hwx, h1, h2, expWeight_self]
        | some s =>
          simp only [ExpInv] at h ⊢
          obtain ⟨hpos, hg, hf⟩ := h
          rw [hw, hwx, expWeight_self, wsum_shift ctime nan past s.lastJd o.1,
            wxsum_shift ctime nan past s.lastJd o.1]
          set e := Real.exp (-(o.1 - s.lastJd) / (ctime : ℝ)) with he
          have hepos : 0 < e := Real.exp_pos _
          set S := wsum ctime nan past s.lastJd with hS
          set X := wxsum ctime nan past s.lastJd with hX
          have hgain : s.gain = 1 / S := by rw [eq_div_iff hpos.ne']; exact hg
          have hfil : s.lastFiltered = X / S := by rw [eq_div_iff hpos.ne']; exact hf
          have hD : 0 < e * S + 1 := by positivity
          have hG : s.gain / (s.gain + e) = 1 / (e * S + 1) := by
            rw [hgain]; field_simp; ring
          rw [hG, hfil]
          refine ⟨⟨hD, ?_, ?_⟩, ?_⟩
          · field_simp
          · field_simp; ring
          · congr 1; field_simp; ring
    unfold expLoop
    obtain ⟨k1, k2⟩ := key
    obtain ⟨l1, l2⟩ := ih (past ++ [o]) _ k1
    refine ⟨by simp [l1], ?_⟩
    intro i x hx
    cases i with
    | zero =>
      simp only [List.getElem?_cons_zero, Option.some.injEq] at hx ⊢
      subst hx
      simpa using k2
    | succ i =>
      simp only [List.getElem?_cons_succ] at hx ⊢
      rw [l2 i x hx]
      simp [List.take_succ_cons]

end
end Verif.Filters
