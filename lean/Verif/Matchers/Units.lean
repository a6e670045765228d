import Verif.Matchers.Props
import Verif.Collocation.FrameUnits

/-!
C99, second part: the temporal matchers of a validation with data in other units and on another clock.
-/

set_option linter.unusedSectionVars false

namespace Verif.Matchers

open Verif.Collocation

variable {α K : Type} [LinearOrder α] [Field K] [LinearOrder K] [IsStrictOrderedRing K]

/-! ### Specification -/

/-- the data of data set `n` in other units, on another clock -/
def reunit (a b : K) (u : α → K → K) (e : α × DF α K) : α × DF α K := (e.1, ⟨e.2.columns, e.2.rows.map (reclock a b (u e.1))⟩)

/-- matched data in other units: every column in the units of its data set -/
def reunitMatched (a b : K) (u : α → K → K) (m : DF (α × α) K) : DF (α × α) K :=
  ⟨m.columns, m.rows.map (recolumn a b (m.columns.map (fun c => u c.1)))⟩

/-! ### Proofs -/

theorem combinations_map {β γ : Type} (f : β → γ) (n : ℕ) (l : List β) :
    DfMetrics.combinations n (l.map f) = (DfMetrics.combinations n l).map (List.map f) := by
  induction l generalizing n with
  | nil => cases n <;> rfl
  | cons x l ih =>
    cases n with
    | zero => rfl
    | succ n =>
      simp only [List.map_cons, DfMetrics.combinations, ih, List.map_append, List.map_map]
      rfl

section
variable {a : K} (ha : 0 < a) (b : K) (u : α → K → K)

theorem named_frame (e : α × DF α K) : (nameMultiindex e.2 e.1).frame = ⟨e.2.columns.length, e.2.rows⟩ := by
  simp [nameMultiindex, DF.frame]

theorem named_reunit (e : α × DF α K) :
    (nameMultiindex (reunit a b u e).2 (reunit a b u e).1).frame = reclockFrame a b (u e.1) (nameMultiindex e.2 e.1).frame := by
  rw [named_frame, named_frame]
  rfl

theorem columnFuns_names (l : List (α × DF α K)) :
    columnFuns (l.map (fun e => ((nameMultiindex e.2 e.1).frame, u e.1))) =
      (l.flatMap (fun e => (nameMultiindex e.2 e.1).columns)).map (fun c => u c.1) := by
  unfold columnFuns
  rw [List.flatMap_map, List.map_flatMap]
  congr 1
  funext e
  simp only [nameMultiindex, DF.frame, List.length_map, List.map_map, Function.comp_def]
  exact List.map_const'.symm

include ha in
theorem collocate_units (comb : Combined) (ref : α × DF α K) (others : List (α × DF α K)) (hr : WellFormed ref.2)
    (hwf : ∀ e ∈ others, WellFormed e.2) {window : K} (hw : 0 ≤ window) :
    collocate comb (a * window) (nameMultiindex (reunit a b u ref).2 (reunit a b u ref).1)
        ((others.map (reunit a b u)).map (fun e => nameMultiindex e.2 e.1)) =
      (collocate comb window (nameMultiindex ref.2 ref.1) (others.map (fun e => nameMultiindex e.2 e.1))).map (reunitMatched a b u) := by
  have wf : ∀ e : α × DF α K, WellFormed e.2 → (nameMultiindex e.2 e.1).frame.Wf := by
    intro e he r hr
    rw [named_frame] at hr ⊢
    exact he r hr
  have h := combined_units ha b comb ((nameMultiindex ref.2 ref.1).frame, u ref.1) (wf ref hr)
    (others.map (fun e => ((nameMultiindex e.2 e.1).frame, u e.1)))
    (fun f hf => by obtain ⟨e, he, rfl⟩ := List.mem_map.mp hf; exact wf e (hwf e he)) hw
  simp only [List.map_map, Function.comp_def] at h
  unfold collocate
  rw [named_reunit]
  simp only [List.map_map, Function.comp_def, named_reunit]
  rw [h]
  cases combinedCollocation { dropna := true, dropduplicates := true } comb true (nameMultiindex ref.2 ref.1).frame
      (others.map (fun e => (nameMultiindex e.2 e.1).frame)) window with
  | error e => rfl
  | ok rows =>
    simp only [Except.map]
    have hc : (columnFuns (((nameMultiindex ref.2 ref.1).frame, u ref.1) :: others.map (fun e => ((nameMultiindex e.2 e.1).frame, u e.1)))) =
        ((nameMultiindex ref.2 ref.1).columns ++ (others.map (fun e => nameMultiindex e.2 e.1)).flatMap DF.columns).map (fun c => u c.1) := by
      rw [List.flatMap_map]
      exact columnFuns_names u (ref :: others)
    rw [hc]
    congr 1
    unfold reunitMatched
    congr 1
    rw [List.flatMap_map, List.flatMap_map]
    rfl

theorem put_units (d : List (List α × DF (α × α) K)) (k : List α) (v : DF (α × α) K) :
    put (d.map (fun e => (e.1, reunitMatched a b u e.2))) k (reunitMatched a b u v) =
      (put d k v).map (fun e => (e.1, reunitMatched a b u e.2)) := by
  unfold put
  have e : (d.map (fun e => (e.1, reunitMatched a b u e.2))).map Prod.fst = d.map Prod.fst := by rw [List.map_map]; rfl
  rw [e]
  by_cases h : k ∈ d.map Prod.fst
  · rw [if_pos h, if_pos h, List.map_map, List.map_map]
    apply List.map_congr_left
    intro x _
    simp only [Function.comp]
    split <;> rfl
  · rw [if_neg h, if_neg h, List.map_append]
    rfl

include ha in
theorem combLoop_units (ref : α × DF α K) (hr : WellFormed ref.2) {window : K} (hw : 0 ≤ window) (Ss : List (List (α × DF α K)))
    (hwf : ∀ S ∈ Ss, ∀ e ∈ S, WellFormed e.2) (d : List (List α × DF (α × α) K)) :
    combLoop (a * window) ref.1 (nameMultiindex (reunit a b u ref).2 ref.1) (Ss.map (List.map (reunit a b u)))
        (d.map (fun e => (e.1, reunitMatched a b u e.2))) =
      (combLoop window ref.1 (nameMultiindex ref.2 ref.1) Ss d).map (List.map (fun e => (e.1, reunitMatched a b u e.2))) := by
  induction Ss generalizing d with
  | nil => rfl
  | cons S Ss ih =>
    simp only [List.map_cons, combLoop, basicMatch]
    have h := collocate_units ha b u .all ref S hr (hwf S List.mem_cons_self) hw
    rw [show (reunit a b u ref).1 = ref.1 from rfl] at h
    rw [h]
    cases collocate .all window (nameMultiindex ref.2 ref.1) (S.map (fun e => nameMultiindex e.2 e.1)) with
    | error e => rfl
    | ok joined =>
      simp only [Except.map, Except.bind]
      have e1 : (reunitMatched a b u joined).rows.length = joined.rows.length := by simp [reunitMatched]
      have e2 : (S.map (reunit a b u)).map Prod.fst = S.map Prod.fst := by rw [List.map_map]; rfl
      rw [e1, e2]
      have ih' := ih (fun T hT => hwf T (List.mem_cons_of_mem _ hT))
      by_cases h0 : joined.rows.length ≠ 0
      · rw [if_pos h0, if_pos h0, put_units]
        exact ih' _
      · rw [if_neg h0, if_neg h0]
        exact ih' _

theorem lookup_reunit (dict : List (α × DF α K)) (n : α) :
    (dict.map (reunit a b u)).lookup n = (dict.lookup n).map (fun d => (reunit a b u (n, d)).2) := by
  induction dict with
  | nil => rfl
  | cons e dict ih =>
    rw [List.map_cons, show reunit a b u e = (e.1, (reunit a b u e).2) from rfl, List.lookup_cons,
      show e = (e.1, e.2) from rfl, List.lookup_cons]
    by_cases h : n = e.1
    · subst h; simp
    · have : (n == e.1) = false := by simpa using h
      simp only [this, ih]

theorem mem_of_lookup {β : Type} {l : List (α × β)} {k : α} {v : β} (h : l.lookup k = some v) : (k, v) ∈ l := by
  induction l with
  | nil => cases h
  | cons e l ih =>
    rw [show e = (e.1, e.2) from rfl, List.lookup_cons] at h
    by_cases hk : k = e.1
    · subst hk
      simp only [beq_self_eq_true, Option.some.injEq] at h
      rw [← h]
      exact List.mem_cons_self
    · rw [show (k == e.1) = false by simpa using hk] at h
      exact List.mem_cons_of_mem _ (ih h)

theorem filter_reunit (dict : List (α × DF α K)) (n : α) :
    (dict.map (reunit a b u)).filter (fun e => decide (e.1 ≠ n)) = (dict.filter (fun e => decide (e.1 ≠ n))).map (reunit a b u) := by
  rw [List.filter_map]
  rfl

include ha in
/-- The default matcher: data in other units, on another clock, give the same matches in these units, on this clock. -/
theorem combinatoryMatcher_units (dict : List (α × DF α K)) (hwf : ∀ e ∈ dict, WellFormed e.2) {window : K} (hw : 0 ≤ window) (refkey : α) (n : ℕ) :
    combinatoryMatcher (a * window) (dict.map (reunit a b u)) refkey n =
      (combinatoryMatcher window dict refkey n).map (List.map (fun e => (e.1, reunitMatched a b u e.2))) := by
  unfold combinatoryMatcher
  rw [lookup_reunit]
  cases hl : dict.lookup refkey with
  | none => rfl
  | some ref =>
    simp only [Option.map_some]
    by_cases hn : n = 0
    · rw [if_pos hn, if_pos hn]; rfl
    · rw [if_neg hn, if_neg hn, filter_reunit, combinations_map]
      refine combLoop_units ha b u (refkey, ref) (hwf _ (mem_of_lookup hl)) hw _ ?_ []
      intro S hS e he
      obtain ⟨-, hsub⟩ := (DfMetrics.mem_combinations _ _ _).mp hS
      exact hwf e (List.mem_of_mem_filter (hsub.subset he))

include ha in
/-- The combined matcher: data in other units, on another clock, give the same matches in these units, on this clock. -/
theorem combinedMatcher_units (dict : List (α × DF α K)) (hwf : ∀ e ∈ dict, WellFormed e.2) {hour : K} {window : Option K}
    (hw : 0 ≤ window.getD hour) (refname : α) (n : Option ℕ) :
    combinedMatcher (a * hour) (window.map (a * ·)) (dict.map (reunit a b u)) refname n =
      (combinedMatcher hour window dict refname n).map (List.map (fun e => (e.1, reunitMatched a b u e.2))) := by
  unfold combinedMatcher
  rw [List.length_map]
  by_cases hn : n.any (fun n => decide (dict.length ≠ n)) = true
  · rw [if_pos hn, if_pos hn]; rfl
  · rw [if_neg hn, if_neg hn, lookup_reunit]
    cases hl : dict.lookup refname with
    | none => rfl
    | some ref =>
      simp only [Option.map_some]
      have hw' : (window.map (a * ·)).getD (a * hour) = a * window.getD hour := by cases window <;> rfl
      rw [filter_reunit, hw']
      have h := collocate_units ha b u .any (refname, ref) (dict.filter (fun e => decide (e.1 ≠ refname))) (hwf _ (mem_of_lookup hl))
        (fun e he => hwf e (List.mem_of_mem_filter he)) hw
      rw [show (reunit a b u (refname, ref)).1 = refname from rfl] at h
      rw [h]
      cases collocate .any (window.getD hour) (nameMultiindex ref refname)
          ((dict.filter (fun e => decide (e.1 ≠ refname))).map (fun e => nameMultiindex e.2 e.1)) with
      | error e => rfl
      | ok m =>
        simp only [Except.map, Except.bind, List.map_cons, List.map_nil, List.map_map]
        rfl

end

end Verif.Matchers
