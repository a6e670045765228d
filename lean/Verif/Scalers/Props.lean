import Verif.Scalers.Model
import Mathlib.Data.List.Forall2
import Mathlib.Algebra.Field.Rat
import Mathlib.Algebra.Order.Ring.Rat

/-! C39: histories of calls of `CDFStoreParamsScaler.scale`. -/

set_option linter.unusedSectionVars false

namespace Verif.Scalers

open Verif.Cdf (Params Fitted fit predict)

variable {K : Type} [Field K] [LinearOrder K]

theorem scale_store (P : Params K) (s : Store K) (data : Frame K) (ri gpi : ℕ) :
    (∀ g d, s g = some d → (scale P s data ri gpi).2 g = some d) ∧ (∀ g, g ≠ gpi → (scale P s data ri gpi).2 g = s g) := by
  have hget : ∀ d s', getParameters P s data ri gpi = .ok (d, s') → (∀ g d, s g = some d → s' g = some d) ∧ ∀ g, g ≠ gpi → s' g = s g := by
    intro d s' h
    unfold getParameters at h
    cases hs : s gpi with
    | some d0 =>
      rw [hs] at h
      simp only [Except.ok.injEq, Prod.mk.injEq] at h
      rw [← h.2]
      exact ⟨fun _ _ h => h, fun _ _ => rfl⟩
    | none =>
      rw [hs] at h
      simp only at h
      split at h
      · simp at h
      · simp only [Except.ok.injEq, Prod.mk.injEq] at h
        rw [← h.2]
        constructor
        · intro g d' hg
          simp only
          rw [if_neg]
          · exact hg
          · rintro rfl; rw [hs] at hg; simp at hg
        · intro g hg
          simp only
          rw [if_neg hg]
  unfold scale
  split
  · exact ⟨fun _ _ h => h, fun _ _ => rfl⟩
  · rename_i d s' h
    split <;> exact hget d s' h

/-- **C39.** Parameters in the storage are never changed or removed, whatever calls follow. -/
theorem stored_for_ever (P : Params K) (s : Store K) (cs : List (Call K)) (g : ℕ) (d : Dict K) (h : s g = some d) : (run P s cs).2 g = some d := by
  induction cs generalizing s with
  | nil => exact h
  | cons c cs ih => exact ih _ ((scale_store P s c.data c.ri c.gpi).1 g d h)

/-- calls at other grid points leave a point as it is -/
theorem other_points (P : Params K) (s : Store K) (cs : List (Call K)) (g : ℕ) (h : ∀ c ∈ cs, c.gpi ≠ g) : (run P s cs).2 g = s g := by
  induction cs generalizing s with
  | nil => rfl
  | cons c cs ih =>
    rw [← (scale_store P s c.data c.ri c.gpi).2 g (Ne.symm (h c List.mem_cons_self))]
    exact ih _ (fun c' h' => h c' (List.mem_cons_of_mem _ h'))

/-! ### Specification -/

/-- `out` is `data` with every column but the reference mapped by the function of its name -/
def ScaledBy (F : String → Option (Fitted K)) (refname : String) (data out : Frame K) : Prop :=
  List.Forall₂ (fun c o => o.1 = c.1 ∧ ((c.1 = refname ∧ o.2 = c.2) ∨ (c.1 ≠ refname ∧ ∃ f, F c.1 = some f ∧ o.2 = predict f c.2))) data out

theorem applyParameters_spec (d : Dict K) (refname : String) (data out : Frame K) :
    applyParameters d refname data = .ok out ↔ ScaledBy (fun c => d.lookup (paramName c refname)) refname data out := by
  induction data generalizing out with
  | nil =>
    unfold applyParameters ScaledBy
    constructor
    · intro h; rw [← Except.ok.inj h]; exact .nil
    · intro h; cases h; rfl
  | cons c cs ih =>
    unfold applyParameters
    constructor
    · intro h
      split at h
      · rename_i hc
        simp only [bind, Except.bind] at h
        split at h
        · simp at h
        · rename_i rest hr
          rw [← Except.ok.inj h]
          exact .cons ⟨rfl, .inl ⟨hc, rfl⟩⟩ ((ih rest).mp hr)
      · rename_i hc
        split at h
        · simp at h
        · rename_i f hf
          simp only [bind, Except.bind] at h
          split at h
          · simp at h
          · rename_i rest hr
            rw [← Except.ok.inj h]
            exact .cons ⟨rfl, .inr ⟨hc, f, hf, rfl⟩⟩ ((ih rest).mp hr)
    · intro h
      cases h with
      | cons h1 h2 =>
        rename_i o os
        have hr := (ih os).mpr h2
        obtain ⟨h0, ⟨h3, h4⟩ | ⟨h3, f, h4, h5⟩⟩ := h1
        · rw [if_pos h3]
          simp only [bind, Except.bind, hr]
          rw [show c = o from Prod.ext h0.symm h4.symm]
        · rw [if_neg h3]
          simp only at h4
          rw [h4]
          simp only [bind, Except.bind, hr]
          rw [show (c.1, predict f c.2) = o from Prod.ext h0.symm h5.symm]

/-- **C39.** With stored parameters every call, after any history, maps each column by the parameters stored under its name, and calculates
nothing. -/
theorem stored_parameters_used_partial (P : Params K) (s : Store K) (cs : List (Call K)) (c : Call K) (d : Dict K) (h : s c.gpi = some d) (r : String × List (Option K))
    (hr : c.data[c.ri]? = some r) (out : Frame K) :
    (scale P (run P s cs).2 c.data c.ri c.gpi).1 = .ok out ↔ ScaledBy (fun n => d.lookup (n ++ "_" ++ r.1)) r.1 c.data out := by
  have hs := stored_for_ever P s cs c.gpi d h
  unfold scale getParameters
  rw [hs]
  simp only [hr]
  exact applyParameters_spec d r.1 c.data out

theorem lookup_filter_ne (d : Dict K) (k k' : String) (h : k' ≠ k) : (d.filter (fun e => e.1 ≠ k)).lookup k' = d.lookup k' := by
  induction d with
  | nil => rfl
  | cons e d ih =>
    obtain ⟨a, v⟩ := e
    rw [List.filter_cons]
    by_cases ha : a = k
    · subst ha
      simp only [ne_eq, not_true_eq_false, decide_false, Bool.false_eq_true, if_false]
      rw [ih, List.lookup_cons, show (k' == a) = false from by simpa using h]
    · simp only [ne_eq, ha, not_false_eq_true, decide_true, if_true]
      rw [List.lookup_cons, List.lookup_cons, ih]

theorem lookup_filter_eq (d : Dict K) (k : String) : (d.filter (fun e => e.1 ≠ k)).lookup k = none := by
  induction d with
  | nil => rfl
  | cons e d ih =>
    obtain ⟨a, v⟩ := e
    rw [List.filter_cons]
    by_cases ha : a = k
    · simp only [ne_eq, ha, not_true_eq_false, decide_false, Bool.false_eq_true, if_false]
      exact ih
    · simp only [ne_eq, ha, not_false_eq_true, decide_true, if_true]
      rw [List.lookup_cons, show (k == a) = false from by simpa using Ne.symm ha]
      exact ih

theorem lookup_append_single (d : Dict K) (k k' : String) (v : Fitted K) :
    (d ++ [(k, v)]).lookup k' = (d.lookup k').or (if k' = k then some v else none) := by
  induction d with
  | nil =>
    rw [List.nil_append, List.lookup_cons, List.lookup_nil]
    by_cases h : k' = k
    · simp [h]
    · rw [show (k' == k) = false from by simpa using h, if_neg h]; rfl
  | cons e d ih =>
    rw [List.cons_append, List.lookup_cons, List.lookup_cons, ih]
    cases (k' == e.1) <;> rfl

theorem lookup_put (d : Dict K) (k k' : String) (v : Fitted K) : (put d k v).lookup k' = if k' = k then some v else d.lookup k' := by
  unfold put
  rw [lookup_append_single]
  by_cases h : k' = k
  · rw [if_pos h, if_pos h, h, lookup_filter_eq]; rfl
  · rw [if_neg h, if_neg h, lookup_filter_ne _ _ _ h]
    cases d.lookup k' <;> rfl

theorem paramName_inj (a b r : String) : paramName a r = paramName b r ↔ a = b := by
  unfold paramName
  constructor
  · intro h
    rw [String.append_assoc, String.append_assoc] at h
    have h2 := congrArg String.toList h
    simp only [String.toList_append] at h2
    exact String.toList_inj.mp (List.append_cancel_right h2)
  · rintro rfl; rfl

/-- the parameters of a first calculation: the last column of each name is fitted to the reference -/
theorem calc_spec (P : Params K) (refname : String) (ref : List (Option K)) (data : Frame K) (d0 d : Dict K) (hnd : (data.map Prod.fst).Nodup)
    (h : data.foldlM (calcStep P refname ref) d0 = .ok d) :
    (∀ c ∈ data, c.1 ≠ refname → ∃ f, fit P c.2 ref = .ok f ∧ d.lookup (paramName c.1 refname) = some f) ∧
      ∀ k, (∀ c ∈ data, c.1 ≠ refname → k ≠ paramName c.1 refname) → d.lookup k = d0.lookup k := by
  induction data generalizing d0 with
  | nil =>
    simp only [List.foldlM_nil, pure, Except.pure, Except.ok.injEq] at h
    subst h
    exact ⟨by simp, fun _ _ => rfl⟩
  | cons c data ih =>
    rw [List.map_cons, List.nodup_cons] at hnd
    rw [List.foldlM_cons] at h
    simp only [bind, Except.bind] at h
    split at h
    · simp at h
    · rename_i d1 hd1
      obtain ⟨h1, h2⟩ := ih d1 hnd.2 h
      unfold calcStep at hd1
      split at hd1
      · rename_i hc
        obtain rfl := Except.ok.inj hd1
        constructor
        · intro c' hc' hne
          rcases List.mem_cons.mp hc' with rfl | hm
          · exact absurd hc hne
          · exact h1 c' hm hne
        · intro k hk
          exact h2 k (fun c' hc' => hk c' (List.mem_cons_of_mem _ hc'))
      · rename_i hc
        split at hd1
        · simp at hd1
        · rename_i f hf
          obtain rfl := Except.ok.inj hd1
          constructor
          · intro c' hc' hne
            rcases List.mem_cons.mp hc' with rfl | hm
            · refine ⟨f, hf, ?_⟩
              rw [h2, lookup_put, if_pos rfl]
              intro c'' hc'' _ heq
              rw [paramName_inj] at heq
              exact hnd.1 (heq ▸ List.mem_map_of_mem hc'')
            · exact h1 c' hm hne
          · intro k hk
            rw [h2 k (fun c' hc' => hk c' (List.mem_cons_of_mem _ hc')), lookup_put, if_neg (hk c List.mem_cons_self hc)]

/-- **C39.** The first call at a grid point without stored parameters: each column is matched to the reference with the CDFs of this very
call, and the parameters are stored. -/
theorem first_call (P : Params K) (s : Store K) (c : Call K) (h : s c.gpi = none) (r : String × List (Option K)) (hr : c.data[c.ri]? = some r)
    (hnd : (c.data.map Prod.fst).Nodup) (hfit : ∀ x ∈ c.data, x.1 ≠ r.1 → ∃ f, fit P x.2 r.2 = .ok f) :
    ∃ out d, scale P s c.data c.ri c.gpi = (.ok out, fun g => if g = c.gpi then some d else s g) ∧
      (∀ x ∈ c.data, x.1 ≠ r.1 → ∃ f, fit P x.2 r.2 = .ok f ∧ d.lookup (x.1 ++ "_" ++ r.1) = some f) ∧
      List.Forall₂ (fun x o => o.1 = x.1 ∧ (x.1 = r.1 → o.2 = x.2) ∧ (x.1 ≠ r.1 → ∃ f, fit P x.2 r.2 = .ok f ∧ o.2 = predict f x.2)) c.data out := by
  have hcalc : ∀ (data : Frame K) (d0 : Dict K), (∀ x ∈ data, x.1 ≠ r.1 → ∃ f, fit P x.2 r.2 = .ok f) →
      ∃ d, data.foldlM (calcStep P r.1 r.2) d0 = .ok d := by
    intro data
    induction data with
    | nil => intro d0 _; exact ⟨d0, rfl⟩
    | cons x data ih =>
      intro d0 hx
      rw [List.foldlM_cons]
      simp only [bind, Except.bind]
      by_cases hxr : x.1 = r.1
      · simp only [calcStep, hxr, if_true]
        exact ih d0 (fun y hy => hx y (List.mem_cons_of_mem _ hy))
      · obtain ⟨f, hf⟩ := hx x List.mem_cons_self hxr
        simp only [calcStep, hxr, if_false, hf]
        exact ih _ (fun y hy => hx y (List.mem_cons_of_mem _ hy))
  obtain ⟨d, hd⟩ := hcalc c.data [] hfit
  obtain ⟨h1, -⟩ := calc_spec P r.1 r.2 c.data [] d hnd hd
  have happ : ∀ data : Frame K, (∀ x ∈ data, x.1 ≠ r.1 → ∃ f, fit P x.2 r.2 = .ok f ∧ d.lookup (paramName x.1 r.1) = some f) →
      ∃ out, ScaledBy (fun n => d.lookup (paramName n r.1)) r.1 data out ∧
        List.Forall₂ (fun x o => o.1 = x.1 ∧ (x.1 = r.1 → o.2 = x.2) ∧ (x.1 ≠ r.1 → ∃ f, fit P x.2 r.2 = .ok f ∧ o.2 = predict f x.2)) data out := by
    intro data
    induction data with
    | nil => intro _; exact ⟨[], .nil, .nil⟩
    | cons x data ih =>
      intro hx
      obtain ⟨out, i1, i2⟩ := ih (fun y hy => hx y (List.mem_cons_of_mem _ hy))
      by_cases hxr : x.1 = r.1
      · exact ⟨x :: out, .cons ⟨rfl, .inl ⟨hxr, rfl⟩⟩ i1, .cons ⟨rfl, fun _ => rfl, fun hc => absurd hxr hc⟩ i2⟩
      · obtain ⟨f, hf, hl⟩ := hx x List.mem_cons_self hxr
        exact ⟨(x.1, predict f x.2) :: out, .cons ⟨rfl, .inr ⟨hxr, f, hl, rfl⟩⟩ i1,
          .cons ⟨rfl, fun hc => absurd hc hxr, fun _ => ⟨f, hf, rfl⟩⟩ i2⟩
  obtain ⟨out, o1, o2⟩ := happ c.data h1
  refine ⟨out, d, ?_, h1, o2⟩
  unfold scale getParameters calcParameters
  rw [h, hr]
  simp only [hd]
  rw [(applyParameters_spec d r.1 c.data out).mpr o1]

/-- **C39.** If the parameters cannot be calculated, nothing is stored: the next call tries again. -/
theorem failed_fit_not_stored (P : Params K) (s : Store K) (c : Call K) (h : s c.gpi = none) (e : Err) (hc : calcParameters P c.data c.ri = .error e) :
    scale P s c.data c.ri c.gpi = (.error e, s) := by
  unfold scale getParameters
  rw [h, hc]

/-- **C39.** A reference column that does not exist is an `IndexError`, with and without stored parameters, and nothing is stored. -/
theorem missing_reference (P : Params K) (s : Store K) (c : Call K) (h : c.data.length ≤ c.ri) :
    scale P s c.data c.ri c.gpi = (.error .indexError, s) := by
  have hn : c.data[c.ri]? = none := List.getElem?_eq_none h
  unfold scale getParameters calcParameters
  rw [hn]
  cases s c.gpi <;> rfl

/-- a successful call leaves its parameters in the storage -/
theorem scale_ok (P : Params K) (s : Store K) (c : Call K) (r : String × List (Option K)) (hr : c.data[c.ri]? = some r) (out : Frame K)
    (h : (scale P s c.data c.ri c.gpi).1 = .ok out) :
    ∃ d, (scale P s c.data c.ri c.gpi).2 c.gpi = some d ∧ ScaledBy (fun n => d.lookup (n ++ "_" ++ r.1)) r.1 c.data out := by
  unfold scale at h ⊢
  cases hg : getParameters P s c.data c.ri c.gpi with
  | error e => rw [hg] at h; simp at h
  | ok p =>
    obtain ⟨d, s'⟩ := p
    rw [hg] at h
    simp only [hr] at h ⊢
    refine ⟨d, ?_, (applyParameters_spec d r.1 c.data out).mp h⟩
    unfold getParameters at hg
    cases hs : s c.gpi with
    | some d0 =>
      rw [hs] at hg
      simp only [Except.ok.injEq, Prod.mk.injEq] at hg
      rw [← hg.2, hs, hg.1]
    | none =>
      rw [hs] at hg
      simp only at hg
      split at hg
      · simp at hg
      · simp only [Except.ok.injEq, Prod.mk.injEq] at hg
        rw [← hg.2, hg.1]
        simp

/-- **C39.** Two calls at a location with any calls before and in between: if both succeed, columns of the same name are mapped by the same
function (same reference name). -/
theorem same_mapping (P : Params K) (s : Store K) (c1 c2 : Call K) (cs : List (Call K)) (hg : c1.gpi = c2.gpi)
    (r1 r2 : String × List (Option K)) (h1 : c1.data[c1.ri]? = some r1) (h2 : c2.data[c2.ri]? = some r2) (hr : r1.1 = r2.1) (o1 o2 : Frame K)
    (e1 : (scale P s c1.data c1.ri c1.gpi).1 = .ok o1)
    (e2 : (scale P (run P (scale P s c1.data c1.ri c1.gpi).2 cs).2 c2.data c2.ri c2.gpi).1 = .ok o2) :
    ∃ F : String → Option (Fitted K), ScaledBy F r1.1 c1.data o1 ∧ ScaledBy F r1.1 c2.data o2 := by
  obtain ⟨d, hd, hsc⟩ := scale_ok P s c1 r1 h1 o1 e1
  refine ⟨fun n => d.lookup (n ++ "_" ++ r1.1), hsc, ?_⟩
  rw [hr]
  rw [hg] at hd
  rw [hg] at e2
  exact (stored_parameters_used_partial P _ cs c2 d hd r2 h2 o2).mp e2

/-! ### Violations -/

theorem applyParameters_keyError (d : Dict K) (refname : String) (data : Frame K) (c : String × List (Option K)) (hc : c ∈ data) (hne : c.1 ≠ refname)
    (hd : d.lookup (paramName c.1 refname) = none) : ∃ e, applyParameters d refname data = .error e := by
  cases h : applyParameters d refname data with
  | error e => exact ⟨e, rfl⟩
  | ok out =>
    exfalso
    have hs := (applyParameters_spec d refname data out).mp h
    clear h
    unfold ScaledBy at hs
    induction hs with
    | nil => simp at hc
    | cons h1 _ ih =>
      rcases List.mem_cons.mp hc with rfl | hm
      · obtain ⟨-, ⟨h3, -⟩ | ⟨-, f, h4, -⟩⟩ := h1
        · exact hne h3
        · simp only at h4; rw [hd] at h4; simp at h4
      · exact ih hm

/-- **C39, negation.** A later call at the same location with a column that was not in the first call fails: nothing is calculated for it.
In a validation of three data sets in pairs this is the second pair at every location. -/
theorem new_column_fails (P : Params K) (s : Store K) (cs : List (Call K)) (c : Call K) (d : Dict K) (hs : s c.gpi = some d)
    (r x : String × List (Option K)) (hr : c.data[c.ri]? = some r) (hx : x ∈ c.data) (hxr : x.1 ≠ r.1) (hd : d.lookup (x.1 ++ "_" ++ r.1) = none) :
    ∃ e, (scale P (run P s cs).2 c.data c.ri c.gpi).1 = .error e := by
  have hs' := stored_for_ever P s cs c.gpi d hs
  unfold scale getParameters
  rw [hs']
  simp only [hr]
  exact applyParameters_keyError d r.1 c.data x hx hxr hd

def exP : Params ℚ := ⟨1, some (true, [0, 100]), none, false, true⟩
def exRef : List (Option ℚ) := [some 0, some 10, some 20]
def exA : List (Option ℚ) := [some 0, some 1, some 2]
def exB : List (Option ℚ) := [some 0, some 100, some 200]

/-- the pairs (a, ref) and then (b, ref) at the same grid point -/
theorem second_pair_fails :
    (run exP (fun _ => none) [⟨[("a", exA), ("ref", exRef)], 1, 7⟩, ⟨[("b", exB), ("ref", exRef)], 1, 7⟩, ⟨[("b", exB), ("ref", exRef)], 1, 8⟩]).1.map
      Except.toOption = [some [("a", exRef), ("ref", exRef)], none, some [("b", exRef), ("ref", exRef)]] := by decide +kernel

/-- **C39, negation.** Names with underscores collide: the parameters of "a" to "b_c" are used for "a_b" to "c". -/
theorem names_collide :
    (run exP (fun _ => none) [⟨[("a", exA), ("b_c", exRef)], 1, 7⟩, ⟨[("a_b", exB), ("c", exRef)], 1, 7⟩]).1.map
      Except.toOption = [some [("a", exRef), ("b_c", exRef)], some [("a_b", [some 0, some 1000, some 2000]), ("c", exRef)]] := by decide +kernel

/-- the theorems applied to the calls above -/
example := first_call exP (fun _ => none) ⟨[("a", exA), ("ref", exRef)], 1, 7⟩ rfl ("ref", exRef) rfl (by decide) (by
  intro x hx hne
  simp only [List.mem_cons, List.not_mem_nil, or_false] at hx
  rcases hx with rfl | rfl
  · have h : (fit exP exA exRef).toOption.isSome = true := by decide +kernel
    show ∃ f, fit exP exA exRef = .ok f
    cases hf : fit exP exA exRef with
    | error e => rw [hf] at h; cases h
    | ok f => exact ⟨f, rfl⟩
  · exact absurd rfl hne)
example := other_points exP (fun _ => none) [⟨[("a", exA), ("ref", exRef)], 1, 7⟩, ⟨[("b", exB), ("ref", exRef)], 1, 8⟩] 9 (by simp)
example (o1 o2 : Frame ℚ) (e1 : (scale exP (fun _ => none) [("a", exA), ("ref", exRef)] 1 7).1 = .ok o1)
    (e2 : (scale exP (run exP (scale exP (fun _ => none) [("a", exA), ("ref", exRef)] 1 7).2 []).2 [("a", exB), ("ref", exRef)] 1 7).1 = .ok o2) :=
  same_mapping exP (fun _ => none) ⟨[("a", exA), ("ref", exRef)], 1, 7⟩ ⟨[("a", exB), ("ref", exRef)], 1, 7⟩ [] rfl ("ref", exRef) ("ref", exRef) rfl rfl rfl o1 o2 e1 e2
example : ((scale exP (run exP (scale exP (fun _ => none) [("a", exA), ("ref", exRef)] 1 7).2 []).2 [("a", exB), ("ref", exRef)] 1 7).1).toOption.isSome = true := by
  decide +kernel
example (d) := new_column_fails exP (fun g => if g = 7 then some (("a_ref", d) :: []) else none) [] ⟨[("b", exB), ("ref", exRef)], 1, 7⟩ [("a_ref", d)] rfl ("ref", exRef)
  ("b", exB) rfl (by simp) (by decide) (by simp [List.lookup])
example := missing_reference exP (fun _ => none) ⟨[("a", []), ("ref", [])], 2, 7⟩ (by decide)
example (e) (h : calcParameters exP [("a", []), ("ref", [])] 1 = .error e) := failed_fit_not_stored exP (fun _ => none) ⟨[("a", []), ("ref", [])], 1, 7⟩ rfl e h
example : (calcParameters exP [("a", []), ("ref", [])] 1).toOption = none := by decide +kernel

end Verif.Scalers
