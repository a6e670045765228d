import Verif.Calculators.Model
import Verif.Pairwise.Invariance

/-! C93, end to end: what `PairwiseIntercomparisonMetrics.calc_metrics` returns does not depend on the order of the rows of the data frame, nor on
the rows with missing values. -/

namespace Verif.Calculators

open Verif.Pairwise Verif.Moments

/-! ### Specification -/

/-- both frames have the same complete rows, in any order; they may differ in rows with a missing value -/
def SameCompleteRows (f g : Frame ℝ) : Prop :=
  ((f.rows.map Prod.snd).filter (fun r => decide (∀ v ∈ r, v.isSome))).Perm
    ((g.rows.map Prod.snd).filter (fun r => decide (∀ v ∈ r, v.isSome)))

/-! ### Proofs -/

theorem mapM_option {α β : Type} (f : α → Option β) (l : List α) :
    l.mapM f = if ∀ a ∈ l, (f a).isSome then some (l.filterMap f) else none := by
  induction l with
  | nil => simp
  | cons a l ih =>
    rw [List.mapM_cons, ih]
    cases h : f a with
    | none => simp [h]
    | some b =>
      simp only [List.forall_mem_cons, h, Option.isSome_some, true_and, List.filterMap_cons]
      split <;> rfl

theorem dropna_perm {f g : Frame ℝ} (h : SameCompleteRows f g) : (dropna f).Perm (dropna g) := by
  have e : ∀ f : Frame ℝ, dropna f =
      ((f.rows.map Prod.snd).filter (fun r => decide (∀ v ∈ r, v.isSome))).map (fun r => r.filterMap id) := by
    intro f
    unfold dropna
    rw [List.filter_map, List.map_map]
    congr 1
    apply List.filter_congr
    intro r _
    rw [Bool.eq_iff_iff, List.all_eq_true, Function.comp, decide_eq_true_iff]
  rw [e, e]
  exact h.map _

theorem pairwiseWrites_perm (F : PairFuncs) (o : PairOptions) (hb : o.bootstrap = false)
    (hs : ∀ l l' : Pairs, l.Perm l' → F.spearman l = F.spearman l') (hk : ∀ l l' : Pairs, l.Perm l' → F.kendall l = F.kendall l')
    {l l' : Pairs} (h : l.Perm l') :
    pairwiseWrites F o l (momentsWelford l) = pairwiseWrites F o l' (momentsWelford l') := by
  have hu : ∀ u, ubrmsdCi F.chi2ppf l u 0.05 = ubrmsdCi F.chi2ppf l' u 0.05 := by
    intro u; unfold ubrmsdCi; rw [num_perm h]
  unfold pairwiseWrites bootPart
  simp only [hb, moments_perm h, h.length_eq, hs l l' h, hk l l' h, hu, Bool.false_eq_true, if_false]

/-- C93: two frames with the same complete rows, in any order and with any incomplete rows in between, give the same results - or the same exception.
Spearman's and Kendall's coefficients are assumed not to depend on the order of the pairs; with bootstrapped intervals the resampling is random
and nothing is claimed. -/
theorem pairwise_rows_irrelevant (F : PairFuncs) (o : PairOptions) (hb : o.bootstrap = false)
    (hs : ∀ l l' : Pairs, l.Perm l' → F.spearman l = F.spearman l') (hk : ∀ l l' : Pairs, l.Perm l' → F.kendall l = F.kendall l')
    (minObs : ℕ) (template : Dict ℝ) (mt : Option (Dict ℝ)) (data data' : Frame ℝ) (info : Info ℝ) (h : SameCompleteRows data data') :
    pairwiseCalc F o minObs template mt data info = pairwiseCalc F o minObs template mt data' info := by
  have hp := dropna_perm h
  have hall : (∀ a ∈ dropna data, (firstTwo a).isSome) ↔ ∀ a ∈ dropna data', (firstTwo a).isSome :=
    ⟨fun k a ha => k a (hp.mem_iff.mpr ha), fun k a ha => k a (hp.mem_iff.mp ha)⟩
  unfold pairwiseCalc
  simp only [hp.length_eq, mapM_option, hall]
  have hw := pairwiseWrites_perm F o hb hs hk (hp.filterMap firstTwo)
  by_cases hc : ∀ a ∈ dropna data', (firstTwo a).isSome
  · simp only [if_pos hc, hw]
  · simp only [if_neg hc]

/-- concrete case: rows exchanged and a row with a missing value left out -/
example : SameCompleteRows ⟨[], [(1, [some 1, some 2]), (1, [none, some 4]), (2, [some 3, some 5])]⟩
    ⟨[], [(2, [some 3, some 5]), (1, [some 1, some 2])]⟩ := by
  unfold SameCompleteRows
  simp only [List.map_cons, List.map_nil]
  rw [List.filter_cons_of_pos (by simp), List.filter_cons_of_neg (by simp), List.filter_cons_of_pos (by simp), List.filter_nil,
    List.filter_cons_of_pos (by simp), List.filter_cons_of_pos (by simp), List.filter_nil]
  exact List.Perm.swap _ _ _

end Verif.Calculators
