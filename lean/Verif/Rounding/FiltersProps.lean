import Verif.Rounding.MetricsProps
import Verif.Rounding.Filters
import Verif.Filters.Spec
import Verif.Filters.Lemmas

/-!
C105: rounding errors of the smoothing filters. The specification takes the usable observations (`Filters.validObs`) whose computed
distance from the observation is at most the limit, and their exact mean.
-/

namespace Verif.Rounding

open Verif.Filters (validObs usable usable_isSome validObs_cons validObs_append validObs_reverse)

section
set_option linter.unusedSectionVars false
variable {K : Type} [Field K] [LinearOrder K] [IsStrictOrderedRing K]

/-- values of the usable observations at a computed distance of at most `limit` from `t` -/
def near (rnd : K → K) (nan limit t : K) (obs : List (K × Option K)) : List K :=
  ((validObs nan obs).filter (fun o => |rnd (o.1 - t)| ≤ limit)).map Prod.snd

/-- `r` is the mean of the values `vs` up to the rounding of their sum and of the division -/
def MeanUpTo (u : K) (vs : List K) (r : K) : Prop :=
  |r - vs.sum / vs.length| ≤ ((1 + u) ^ (vs.length + 1) - 1) * ((vs.map (fun v => |v|)).sum / vs.length)

/-- the result for observation `o` of the series `obs` -/
def BoxcarOk (rnd : K → K) (u nan limit : K) (fillna : Bool) (minObs : Int) (obs : List (K × Option K)) (o : K × Option K) (out : Option K) : Prop :=
  let vs := near rnd nan limit o.1 obs
  if ((o.2 = none ∨ o.2 = some nan) ∧ fillna = false) ∨ (vs.length : Int) < minObs ∨ vs = [] then out = none
  else ∃ r, out = some r ∧ MeanUpTo u vs r

theorem near_append (rnd : K → K) (nan limit t : K) (l m : List (K × Option K)) :
    near rnd nan limit t (l ++ m) = near rnd nan limit t l ++ near rnd nan limit t m := by
  simp [near, validObs_append]

theorem near_reverse (rnd : K → K) (nan limit t : K) (l : List (K × Option K)) :
    near rnd nan limit t l.reverse = (near rnd nan limit t l).reverse := by
  simp [near, validObs_reverse, List.filter_reverse, List.map_reverse]

theorem near_nil (rnd : K → K) (nan limit t : K) (l : List (K × Option K)) (h : ∀ b ∈ l, limit < |rnd (b.1 - t)|) :
    near rnd nan limit t l = [] := by
  induction l with
  | nil => simp [near, validObs]
  | cons o l ih =>
    have ih := ih (fun b hb => h b (List.mem_cons_of_mem _ hb))
    have ho := h o List.mem_cons_self
    unfold near at ih ⊢
    rw [validObs_cons]
    cases hu : usable nan o.2 with
    | none => exact ih
    | some v =>
      simp only [List.filter_cons]
      rw [if_neg (by simpa using ho)]
      exact ih

theorem accumulate_eq (rnd : K → K) (nan limit t : K) (l : List (K × Option K)) (s : K × Nat)
    (h : l.Pairwise (fun a b => |rnd (a.1 - t)| ≤ |rnd (b.1 - t)|)) :
    accumulate rnd nan limit t l s =
      ((near rnd nan limit t l).foldl (fun s v => rnd (s + v)) s.1, s.2 + (near rnd nan limit t l).length) := by
  induction l generalizing s with
  | nil => simp [accumulate, near, validObs]
  | cons o l ih =>
    rw [List.pairwise_cons] at h
    unfold accumulate
    cases hu : usable nan o.2 with
    | none =>
      simp only
      rw [ih s h.2]
      simp [near, validObs_cons, hu]
    | some v =>
      simp only
      by_cases hr : |rnd (o.1 - t)| ≤ limit
      · rw [if_pos hr, ih _ h.2]
        have : near rnd nan limit t (o :: l) = v :: near rnd nan limit t l := by
          simp [near, validObs_cons, hu, hr]
        rw [this]
        simp only [List.foldl_cons, List.length_cons, Prod.mk.injEq, true_and]
        omega
      · rw [if_neg hr]
        have : near rnd nan limit t (o :: l) = [] := by
          apply near_nil
          intro b hb
          rw [not_le] at hr
          rcases List.mem_cons.mp hb with rfl | hb
          · exact hr
          · exact lt_of_lt_of_le hr (h.1 b hb)
        rw [this]
        simp

/-- the value at one position, from the numbers in the window -/
def boxcarValue (rnd : K → K) (nan limit : K) (fillna : Bool) (minObs : Int) (before : List (K × Option K)) (o : K × Option K) (after : List (K × Option K)) : Option K :=
  if (usable nan o.2).isSome || fillna then
    average rnd minObs (((near rnd nan limit o.1 (o :: after)) ++ (near rnd nan limit o.1 before).reverse).foldl (fun s v => rnd (s + v)) 0,
      ((near rnd nan limit o.1 (o :: after)) ++ (near rnd nan limit o.1 before).reverse).length)
  else none

theorem step_eq (rnd : K → K) (hm : ∀ x y, x ≤ y → rnd x ≤ rnd y) (h0 : rnd 0 = 0) (nan limit : K) (fillna : Bool) (minObs : Int)
    (before : List (K × Option K)) (o : K × Option K) (after : List (K × Option K))
    (h : (before.reverse ++ o :: after).Pairwise (fun a b => a.1 ≤ b.1)) :
    (if (usable nan o.2).isSome || fillna then
        average rnd minObs (accumulate rnd nan limit o.1 before (accumulate rnd nan limit o.1 (o :: after) (0, 0)))
      else none) = boxcarValue rnd nan limit fillna minObs before.reverse o after := by
  rw [List.pairwise_append] at h
  obtain ⟨hb, ha, hba⟩ := h
  have ha' := List.pairwise_cons.mp ha
  have pos : ∀ x, 0 ≤ x → |rnd x| = rnd x := fun x hx => abs_of_nonneg (by have := hm 0 x hx; rwa [h0] at this)
  have neg : ∀ x, x ≤ 0 → |rnd x| = -rnd x := fun x hx => abs_of_nonpos (by have := hm x 0 hx; rwa [h0] at this)
  have hf : (o :: after).Pairwise (fun a b => |rnd (a.1 - o.1)| ≤ |rnd (b.1 - o.1)|) := by
    rw [List.pairwise_cons]
    constructor
    · intro b _; rw [sub_self, h0, abs_zero]; exact abs_nonneg _
    · refine ha'.2.imp_of_mem ?_
      intro a b hma hmb hab
      have h1 := ha'.1 a hma
      have h2 := ha'.1 b hmb
      rw [pos _ (by linarith), pos _ (by linarith)]
      exact hm _ _ (by linarith)
  have hbk : before.Pairwise (fun a b => |rnd (a.1 - o.1)| ≤ |rnd (b.1 - o.1)|) := by
    rw [List.pairwise_reverse] at hb
    refine hb.imp_of_mem ?_
    intro a b hma hmb hab
    have h1 := hba a (by simpa using hma) o (by simp)
    have h2 := hba b (by simpa using hmb) o (by simp)
    rw [neg _ (by linarith), neg _ (by linarith)]
    exact neg_le_neg (hm _ _ (by linarith))
  rw [accumulate_eq _ _ _ _ _ _ hf, accumulate_eq _ _ _ _ _ _ hbk]
  unfold boxcarValue
  rw [near_reverse, List.reverse_reverse, List.foldl_append, List.length_append]
  simp

theorem loop_eq (rnd : K → K) (hm : ∀ x y, x ≤ y → rnd x ≤ rnd y) (h0 : rnd 0 = 0) (nan limit : K) (fillna : Bool) (minObs : Int)
    (before after : List (K × Option K)) (h : (before.reverse ++ after).Pairwise (fun a b => a.1 ≤ b.1)) (i : ℕ) (o : K × Option K) (hi : after[i]? = some o) :
    (boxcarLoop rnd nan limit fillna minObs before after)[i]? =
      some (boxcarValue rnd nan limit fillna minObs (before.reverse ++ after.take i) o (after.drop (i + 1))) := by
  induction after generalizing before i with
  | nil => simp at hi
  | cons a after ih =>
    unfold boxcarLoop
    cases i with
    | zero =>
      have : a = o := by simpa using hi
      subst this
      rw [List.getElem?_cons_zero, step_eq rnd hm h0 _ _ _ _ _ _ _ h]
      simp
    | succ i =>
      rw [List.getElem?_cons_succ, ih (a :: before) (by simpa using h) i (by simpa using hi)]
      simp

theorem boxcarLoop_length (rnd : K → K) (nan limit : K) (fillna : Bool) (minObs : Int) (before after : List (K × Option K)) :
    (boxcarLoop rnd nan limit fillna minObs before after).length = after.length := by
  induction after generalizing before with
  | nil => rfl
  | cons a after ih => unfold boxcarLoop; simp [ih]

theorem mean_up_to {rnd : K → K} {u : K} (h : RelErr rnd u) (l vs : List K) (hp : l.Perm vs) (hv : vs ≠ []) :
    MeanUpTo u vs (rnd (l.foldl (fun s v => rnd (s + v)) 0 / l.length)) := by
  have h1 := fold_err h l 0
  rw [zero_add, abs_zero, zero_add] at h1
  have hpos : 0 < l.length := by rw [hp.length_eq]; exact List.length_pos_of_ne_nil hv
  have h2 := mean_err h l.length l.length hpos _ _ _ (abs_sum_le l) h1
  unfold MeanUpTo
  rw [hp.sum_eq, hp.length_eq] at h2
  rw [show absSum l = (vs.map (fun v => |v|)).sum from (hp.map _).sum_eq] at h2
  rw [hp.length_eq]
  exact h2

/-- C105: every value of the boxcar filter is the mean of the usable observations in its window up to the rounding errors of this
sum; nothing outside of the window has an influence. -/
theorem boxcar_err_partial {rnd : K → K} {u : K} (h : RelErr rnd u) (hm : ∀ x y, x ≤ y → rnd x ≤ rnd y) (rnd32 : K → K) (obs : List (K × Option K)) (window nan : K)
    (fillna : Bool) (minObs : Int) (hs : obs.Pairwise (fun a b => a.1 ≤ b.1)) :
    (boxcarFilter rnd rnd32 obs window nan fillna minObs).length = obs.length ∧
    ∀ (i : ℕ) (o : K × Option K), obs[i]? = some o → ∃ out, (boxcarFilter rnd rnd32 obs window nan fillna minObs)[i]? = some out ∧
      BoxcarOk rnd u nan (rnd (rnd32 window / 2)) fillna minObs obs o out := by
  refine ⟨boxcarLoop_length .., fun i o hi => ?_⟩
  refine ⟨_, loop_eq rnd hm h.zero _ _ _ _ [] obs (by simpa using hs) i o hi, ?_⟩
  generalize rnd (rnd32 window / 2) = limit
  have hobs : obs = obs.take i ++ o :: obs.drop (i + 1) := by
    have hlt : i < obs.length := (List.getElem?_eq_some_iff.mp hi).1
    have : o = obs[i] := ((List.getElem?_eq_some_iff.mp hi).2).symm
    rw [this, ← List.drop_eq_getElem_cons hlt, List.take_append_drop]
  rw [List.reverse_nil, List.nil_append]
  unfold BoxcarOk boxcarValue
  simp only
  set B := near rnd nan limit o.1 (obs.take i) with hB
  set A := near rnd nan limit o.1 (o :: obs.drop (i + 1)) with hA
  have hn : near rnd nan limit o.1 obs = B ++ A := by
    conv_lhs => rw [hobs]
    rw [near_append]
  rw [hn]
  have hperm : (A ++ B.reverse).Perm (B ++ A) := List.perm_append_comm.trans (List.Perm.append_right A (List.reverse_perm B))
  by_cases hu : (o.2 = none ∨ o.2 = some nan) ∧ fillna = false
  · rw [if_pos (Or.inl hu), if_neg]
    have := (usable_isSome nan o.2).not.mpr (not_not.mpr hu.1)
    simp only [Bool.or_eq_true, not_or]
    exact ⟨this, by simp [hu.2]⟩
  · have hgo : ((usable nan o.2).isSome || fillna) = true := by
      rw [Bool.or_eq_true, usable_isSome]
      by_cases hx : o.2 = none ∨ o.2 = some nan
      · right
        by_contra hc
        exact hu ⟨hx, by simpa using hc⟩
      · exact Or.inl hx
    rw [if_pos hgo]
    unfold average
    simp only [hperm.length_eq]
    by_cases h1 : minObs ≤ ((B ++ A).length : Int)
    · rw [if_pos h1]
      by_cases h2 : B ++ A = []
      · rw [if_pos (Or.inr (Or.inr h2)), if_pos (by rw [h2]; rfl)]
      · have hlen : ¬ (B ++ A).length = 0 := by rw [List.length_eq_zero_iff]; exact h2
        rw [if_neg hlen, if_neg]
        · refine ⟨_, rfl, ?_⟩
          have := mean_up_to h _ _ hperm h2
          rwa [hperm.length_eq] at this
        · rintro (h3 | h3 | h3)
          · exact hu h3
          · omega
          · exact h2 h3
    · rw [if_neg h1, if_pos (Or.inr (Or.inl (by omega)))]

/-- C105: the value at an observation depends only on the usable values in its window before and after it: series that agree there give
the same value to the last bit, whatever the other values are. -/
theorem boxcar_local {rnd : K → K} (hm : ∀ x y, x ≤ y → rnd x ≤ rnd y) (h0 : rnd 0 = 0) (rnd32 : K → K) (obs obs' : List (K × Option K)) (window nan : K)
    (fillna : Bool) (minObs : Int) (hs : obs.Pairwise (fun a b => a.1 ≤ b.1)) (hs' : obs'.Pairwise (fun a b => a.1 ≤ b.1)) (i j : ℕ) (o : K × Option K)
    (hi : obs[i]? = some o) (hj : obs'[j]? = some o)
    (hbefore : near rnd nan (rnd (rnd32 window / 2)) o.1 (obs.take i) = near rnd nan (rnd (rnd32 window / 2)) o.1 (obs'.take j))
    (hafter : near rnd nan (rnd (rnd32 window / 2)) o.1 (obs.drop (i + 1)) = near rnd nan (rnd (rnd32 window / 2)) o.1 (obs'.drop (j + 1))) :
    (boxcarFilter rnd rnd32 obs window nan fillna minObs)[i]? = (boxcarFilter rnd rnd32 obs' window nan fillna minObs)[j]? := by
  unfold boxcarFilter
  rw [loop_eq rnd hm h0 _ _ _ _ [] obs (by simpa using hs) i o hi, loop_eq rnd hm h0 _ _ _ _ [] obs' (by simpa using hs') j o hj]
  unfold boxcarValue
  rw [List.reverse_nil, List.nil_append, List.nil_append, hbefore]
  have e : ∀ l : List (K × Option K), near rnd nan (rnd (rnd32 window / 2)) o.1 (o :: l) =
      near rnd nan (rnd (rnd32 window / 2)) o.1 [o] ++ near rnd nan (rnd (rnd32 window / 2)) o.1 l := fun l => near_append rnd nan _ o.1 [o] l
  rw [e, e (obs'.drop (j + 1)), hafter]

/-- C105: the window with rounding: an observation within the limit is always taken, and one that is taken is not further away than the limit
up to the relative error `u`. -/
theorem boxcar_window {rnd : K → K} {u : K} (h : RelErr rnd u) (hm : ∀ x y, x ≤ y → rnd x ≤ rnd y) (hodd : ∀ x, rnd (-x) = -rnd x) (limit t t0 : K) (hl : rnd limit = limit) :
    (|t - t0| ≤ limit → |rnd (t - t0)| ≤ limit) ∧ (|rnd (t - t0)| ≤ limit → (1 - u) * |t - t0| ≤ limit) := by
  constructor
  · intro hd
    rw [abs_le] at hd ⊢
    have h1 := hm _ _ hd.1
    have h2 := hm _ _ hd.2
    rw [hodd, hl] at h1
    rw [hl] at h2
    exact ⟨h1, h2⟩
  · intro hd
    have h1 := h.err (t - t0)
    have h2 : |t - t0| ≤ |rnd (t - t0)| + |rnd (t - t0) - (t - t0)| := by
      have := abs_sub_le (t - t0) (rnd (t - t0)) 0
      rw [sub_zero, sub_zero, abs_sub_comm (t - t0) (rnd (t - t0))] at this
      linarith
    linarith

/-- one round of `exp_filter` at a usable observation after the first one -/
def ExpMoves (rnd : K → K) (last v f g : K) : Prop :=
  0 < g ∧ g ≤ 1 ∧ (last ≤ v → last ≤ f ∧ f ≤ rnd (last + rnd (v - last))) ∧ (v ≤ last → f ≤ last ∧ rnd (last + rnd (v - last)) ≤ f) ∧ (v = last → f = last)

/-- the rounding of `float` and `double` numbers: monotone, sign preserving, and exact on its own results -/
structure Exactly (rnd : K → K) : Prop where
  mono : ∀ x y, x ≤ y → rnd x ≤ rnd y
  zero : rnd 0 = 0
  idem : ∀ x, rnd (rnd x) = rnd x
  pos : ∀ x, 0 < x → 0 < rnd x

/-- C105: the gain stays above 0 and at most 1, and a filtered value never moves away from the new observation: it lies between the last filtered
value and last + (new - last) as computed. -/
theorem exp_step {rnd rnd32 ex : K → K} (h : Exactly rnd) (h32 : Exactly rnd32) (h1 : rnd32 1 = 1) (hex : ∀ x, 0 ≤ ex x) (ctime : ℤ) (nan : K)
    (s : ExpState K) (hg : 0 < s.gain ∧ s.gain ≤ 1 ∧ rnd32 s.gain = s.gain) (hl : rnd s.lastFiltered = s.lastFiltered) (t v : K) (hv : v ≠ nan) :
    ∃ s' f, expStep rnd rnd32 ex ctime nan (some s) (t, some v) = (some s', some f) ∧ s'.lastJd = t ∧ s'.lastFiltered = f ∧
      rnd32 s'.gain = s'.gain ∧ rnd f = f ∧ ExpMoves rnd s.lastFiltered v f s'.gain := by
  have hu : usable nan (some v) = some v := by simp [usable, hv]
  unfold expStep
  simp only [hu]
  set ef := rnd32 (ex (rnd (-(rnd (t - s.lastJd)) / (ctime : K)))) with hef
  have hef0 : 0 ≤ ef := by
    have := h32.mono 0 _ (hex (rnd (-(rnd (t - s.lastJd)) / (ctime : K))))
    rwa [h32.zero] at this
  set d := rnd32 (s.gain + ef) with hd
  have hd1 : s.gain ≤ d := by
    have := h32.mono s.gain (s.gain + ef) (by linarith)
    rwa [hg.2.2] at this
  have hd0 : 0 < d := lt_of_lt_of_le hg.1 hd1
  set g := rnd32 (s.gain / d) with hgd
  have hg0 : 0 < g := h32.pos _ (div_pos hg.1 hd0)
  have hg1 : g ≤ 1 := by
    have := h32.mono (s.gain / d) 1 ((div_le_one hd0).mpr hd1)
    rwa [h1] at this
  refine ⟨_, _, rfl, rfl, rfl, h32.idem _, h.idem _, hg0, hg1, ?_, ?_, ?_⟩
  · intro hle
    have e0 : 0 ≤ rnd (v - s.lastFiltered) := by
      have := h.mono 0 (v - s.lastFiltered) (by linarith)
      rwa [h.zero] at this
    have e1 : 0 ≤ rnd (g * rnd (v - s.lastFiltered)) := by
      have := h.mono 0 (g * rnd (v - s.lastFiltered)) (mul_nonneg hg0.le e0)
      rwa [h.zero] at this
    have e2 : rnd (g * rnd (v - s.lastFiltered)) ≤ rnd (v - s.lastFiltered) := by
      have := h.mono (g * rnd (v - s.lastFiltered)) (rnd (v - s.lastFiltered)) (mul_le_of_le_one_left e0 hg1)
      rwa [h.idem] at this
    constructor
    · have := h.mono s.lastFiltered (s.lastFiltered + rnd (g * rnd (v - s.lastFiltered))) (by linarith)
      rwa [hl] at this
    · exact h.mono _ _ (by linarith)
  · intro hle
    have e0 : rnd (v - s.lastFiltered) ≤ 0 := by
      have := h.mono (v - s.lastFiltered) 0 (by linarith)
      rwa [h.zero] at this
    have e1 : rnd (g * rnd (v - s.lastFiltered)) ≤ 0 := by
      have := h.mono (g * rnd (v - s.lastFiltered)) 0 (mul_nonpos_of_nonneg_of_nonpos hg0.le e0)
      rwa [h.zero] at this
    have e2 : rnd (v - s.lastFiltered) ≤ rnd (g * rnd (v - s.lastFiltered)) := by
      have hx : rnd (v - s.lastFiltered) ≤ g * rnd (v - s.lastFiltered) := by nlinarith
      have := h.mono _ _ hx
      rwa [h.idem] at this
    constructor
    · have := h.mono (s.lastFiltered + rnd (g * rnd (v - s.lastFiltered))) s.lastFiltered (by linarith)
      rwa [hl] at this
    · exact h.mono _ _ (by linarith)
  · intro he
    rw [he, sub_self, h.zero, mul_zero, h.zero, add_zero, hl]

/-- C105: the exponential filter of a constant series is that constant to the last bit, at every usable observation. -/
theorem exp_constant {rnd rnd32 ex : K → K} (h0 : rnd 0 = 0) (c : K) (hc : rnd c = c) (ctime : ℤ) (nan : K) (obs : List (K × Option K))
    (hobs : ∀ o ∈ obs, o.2 = none ∨ o.2 = some nan ∨ o.2 = some c) :
    expFilter rnd rnd32 ex obs ctime nan = obs.map (fun o => if o.2 = none ∨ o.2 = some nan then none else some c) := by
  have key : ∀ (obs : List (K × Option K)), (∀ o ∈ obs, o.2 = none ∨ o.2 = some nan ∨ o.2 = some c) → ∀ s : Option (ExpState K),
      (∀ s', s = some s' → s'.lastFiltered = c) →
      expLoop rnd rnd32 ex ctime nan s obs = obs.map (fun o => if o.2 = none ∨ o.2 = some nan then none else some c) := by
    intro obs
    induction obs with
    | nil => intro _ s _; rfl
    | cons o obs ih =>
      intro hobs s hs
      have ho := hobs o List.mem_cons_self
      have ih := ih (fun q hq => hobs q (List.mem_cons_of_mem _ hq))
      obtain ⟨t, x⟩ := o
      rw [List.map_cons]
      unfold expLoop
      simp only at ho ⊢
      by_cases hx : x = none ∨ x = some nan
      · have hu : usable nan x = none := by
          rcases hx with rfl | rfl <;> simp [usable]
        have hstep : expStep rnd rnd32 ex ctime nan s (t, x) = (s, none) := by simp [expStep, hu]
        rw [if_pos hx, hstep]
        simp only [ih s hs]
      · rw [if_neg hx]
        have hxc : x = some c := by
          rcases ho with h | h | h
          · exact absurd (Or.inl h) hx
          · exact absurd (Or.inr h) hx
          · exact h
        subst hxc
        have hu : usable nan (some c) = some c := by
          have : c ≠ nan := fun he => hx (Or.inr (by rw [he]))
          simp [usable, this]
        cases s with
        | none =>
          have hstep : expStep rnd rnd32 ex ctime nan none (t, some c) = (some ⟨1, t, c⟩, some c) := by simp [expStep, hu]
          rw [hstep]
          simp only
          rw [ih _ (fun s' he => by cases he; rfl)]
        | some s =>
          have hlast := hs s rfl
          have hstep : (expStep rnd rnd32 ex ctime nan (some s) (t, some c)).2 = some c ∧
              ∀ s', (expStep rnd rnd32 ex ctime nan (some s) (t, some c)).1 = some s' → s'.lastFiltered = c := by
            unfold expStep
            simp only [hu, hlast, sub_self, h0, mul_zero, add_zero, hc, true_and]
            intro s' he
            cases he
            rfl
          rw [hstep.1, ih _ hstep.2]
  exact key obs hobs none (by intro s' he; cases he)

end

open Verif.Rolling.Fl

/-- the exponent is determined by the size -/
theorem expo_unique (x : ℚ) (hx : x ≠ 0) (e : ℤ) (h1 : (2 : ℚ) ^ 52 ≤ |x| / 2 ^ e) (h2 : |x| / 2 ^ e < 2 ^ 53) : expo x = e := by
  obtain ⟨g1, g2⟩ := expo_spec x hx
  have p2 : (0 : ℚ) < 2 := by norm_num
  rw [le_div_iff₀ (zpow_pos p2 _)] at h1 g1
  rw [div_lt_iff₀ (zpow_pos p2 _)] at h2 g2
  have key : ∀ a b : ℤ, (2 : ℚ) ^ 52 * 2 ^ a ≤ |x| → |x| < 2 ^ 53 * 2 ^ b → a ≤ b := by
    intro a b ha hb
    have h := lt_of_le_of_lt ha hb
    rw [show (2 : ℚ) ^ 53 * 2 ^ b = 2 ^ 52 * 2 ^ (b + 1) by rw [zpow_add₀ p2.ne', zpow_one]; ring] at h
    have h3 := lt_of_mul_lt_mul_left h (by norm_num : (0 : ℚ) ≤ 2 ^ 52)
    have h4 := (zpow_lt_zpow_iff_right₀ (by norm_num : (1 : ℚ) < 2)).mp h3
    omega
  exact le_antisymm (key _ _ g1 h2) (key _ _ h1 g2)

/-- a `double` is not changed by rounding it again -/
theorem rnd64_idem (x : ℚ) : rnd64 (rnd64 x) = rnd64 x := by
  by_cases hx : x = 0
  · rw [hx]; simp [rnd64]
  · have hy : rnd64 x ≠ 0 := fun h0 => hx ((rnd_eq_zero rnd64_relErr (by norm_num) x).mp h0)
    obtain ⟨g1, g2⟩ := expo_spec x hx
    have hp : (0 : ℚ) < 2 ^ expo x := zpow_pos (by norm_num) _
    set m := nearestEven (x / 2 ^ expo x) with hm
    have e : rnd64 x = (m : ℚ) * 2 ^ expo x := rnd64_eq x hx
    have habs : |(m : ℚ)| = (nearestEven (|x| / 2 ^ expo x) : ℚ) := by
      rcases le_total 0 x with h0 | h0
      · rw [abs_of_nonneg h0, ← hm, abs_of_nonneg]
        have : nearestEven ((0 : ℤ) : ℚ) ≤ m := nearestEven_mono _ _ (by push_cast; exact div_nonneg h0 hp.le)
        rw [nearestEven_int] at this
        exact_mod_cast this
      · rw [abs_of_nonpos h0, neg_div, nearestEven_neg, ← hm, abs_of_nonpos]
        · push_cast; rfl
        · have : m ≤ nearestEven ((0 : ℤ) : ℚ) := nearestEven_mono _ _ (by push_cast; exact div_nonpos_of_nonpos_of_nonneg h0 hp.le)
          rw [nearestEven_int] at this
          exact_mod_cast this
    have lo : (2 : ℚ) ^ 52 ≤ |(m : ℚ)| := by
      rw [habs]
      have := nearestEven_mono (((2 ^ 52 : ℤ)) : ℚ) (|x| / 2 ^ expo x) (by push_cast; exact g1)
      rw [nearestEven_int] at this
      exact_mod_cast this
    have hi : |(m : ℚ)| ≤ 2 ^ 53 := by
      rw [habs]
      have := nearestEven_mono (|x| / 2 ^ expo x) (((2 ^ 53 : ℤ)) : ℚ) (by push_cast; exact g2.le)
      rw [nearestEven_int] at this
      exact_mod_cast this
    have hsize : |rnd64 x| / 2 ^ expo x = |(m : ℚ)| := by
      rw [e, abs_mul, abs_of_pos hp, mul_div_cancel_right₀ _ hp.ne']
    rcases hi.lt_or_eq with hlt | heq
    · have he : expo (rnd64 x) = expo x := expo_unique _ hy _ (by rw [hsize]; exact lo) (by rw [hsize]; exact hlt)
      rw [rnd64_eq _ hy, he, e, mul_div_cancel_right₀ _ hp.ne', nearestEven_int]
    · have hp1 : (0 : ℚ) < 2 ^ (expo x + 1) := zpow_pos (by norm_num) _
      have e1 : (2 : ℚ) ^ (expo x + 1) = 2 ^ expo x * 2 := by rw [zpow_add₀ (by norm_num), zpow_one]
      have hs1 : |rnd64 x| / 2 ^ (expo x + 1) = 2 ^ 52 := by
        rw [e1, ← div_div, hsize, heq]; norm_num
      have he : expo (rnd64 x) = expo x + 1 := expo_unique _ hy _ (by rw [hs1]) (by rw [hs1]; norm_num)
      have hz : ∃ z : ℤ, rnd64 x / 2 ^ (expo x + 1) = z := by
        rcases abs_choice (rnd64 x) with h | h
        · exact ⟨2 ^ 52, by rw [← h, hs1]; norm_num⟩
        · refine ⟨-2 ^ 52, ?_⟩
          have : rnd64 x = -|rnd64 x| := by rw [h, neg_neg]
          rw [this, neg_div, hs1]; norm_num
      obtain ⟨z, hz⟩ := hz
      rw [rnd64_eq _ hy, he, hz, nearestEven_int, ← hz, div_mul_cancel₀ _ hp1.ne']

/-- the rounding of `double` meets the hypotheses of `exp_step` -/
theorem rnd64_exactly : Exactly rnd64 :=
  ⟨rnd64_mono, rnd64_relErr.zero, rnd64_idem, fun x hx =>
    lt_of_le_of_ne (rnd_nonneg rnd64_relErr (by norm_num) x hx.le) (fun h0 => hx.ne' ((rnd_eq_zero rnd64_relErr (by norm_num) x).mp h0.symm))⟩

example := exp_constant (rnd := rnd64) (rnd32 := rnd64) (ex := fun x => rnd64 (1 + x)) (by decide +kernel) (rnd64 (1 / 10)) (by decide +kernel) 3 (-99)
  [(0, some (rnd64 (1 / 10))), (1, none), (5 / 2, some (-99)), (3, some (rnd64 (1 / 10)))] (by simp)

/-- C105, negation: the boxcar filter of a constant series is not that constant: three times 0.1 gives 0.10000000000000002. -/
theorem boxcar_constant_wrong :
    let c := rnd64 (1 / 10)
    let obs : List (ℚ × Option ℚ) := [(0, some c), (1, some c), (2, some c)]
    (boxcarFilter rnd64 rnd64 obs 4 (-999999) false 1)[1]? = some (some (c + 1 / 2 ^ 56)) := by
  decide +kernel

/-! ## Concrete cases -/

/-- a series with a NaN, a no-data value and a large value outside of the windows of the others -/
def exObs : List (ℚ × Option ℚ) :=
  [(0, some (rnd64 (1 / 10))), (1, none), (2, some (rnd64 (7 / 10))), (3, some (-999999)), (4, some (rnd64 (1 / 7))), (9, some (10 ^ 10))]

example : exObs.Pairwise (fun a b => a.1 ≤ b.1) ∧ exObs[2]? = some (2, some (rnd64 (7 / 10))) := by decide +kernel

example : near rnd64 (-999999) 2 2 exObs = [rnd64 (1 / 10), rnd64 (7 / 10), rnd64 (1 / 7)] := by decide +kernel

example : (boxcarFilter rnd64 rnd64 exObs 4 (-999999) false 1).map (·.isSome) = [true, false, true, false, true, true] := by decide +kernel

-- the value next to the large one changes nothing
example : (boxcarFilter rnd64 rnd64 exObs 4 (-999999) false 1)[2]? =
    (boxcarFilter rnd64 rnd64 (exObs.take 5) 4 (-999999) false 1)[2]? := by decide +kernel

example : near rnd64 (-999999) (rnd64 (rnd64 4 / 2)) 2 (exObs.drop 3) = near rnd64 (-999999) (rnd64 (rnd64 4 / 2)) 2 ((exObs.take 5).drop 3) := by decide +kernel

-- an observation just outside of the limit that is taken because its distance is rounded
example : rnd64 2 = 2 ∧ (2 : ℚ) < |2 + 1 / 2 ^ 60 - 0| ∧ |rnd64 (2 + 1 / 2 ^ 60 - 0)| ≤ 2 := by decide +kernel

-- one step of the exponential filter, with a gain of 1 / 2 after the step; `ex` is the constant 1 here
example : rnd64 1 = 1 ∧ (expStep rnd64 rnd64 (fun _ => 1) 10 (-999999) (some ⟨1, 0, rnd64 (1 / 10)⟩) (1, some (rnd64 (7 / 10)))).2 =
    some (rnd64 (rnd64 (1 / 10) + rnd64 (1 / 2 * rnd64 (rnd64 (7 / 10) - rnd64 (1 / 10))))) := by decide +kernel

-- with a gain of 1 the filtered value is not the new observation but passes it by
example : rnd64 (-1 + rnd64 (3 / 2 ^ 54 - -1)) ≠ 3 / 2 ^ 54 ∧ (3 : ℚ) / 2 ^ 54 < rnd64 (-1 + rnd64 (3 / 2 ^ 54 - -1)) := by decide +kernel

example : expFilter rnd64 rnd64 (fun _ => 1 / 3) [(0, none), (1, some (rnd64 (1 / 10))), (2, some (-999999)), (3, some (rnd64 (1 / 10))), (7, some (rnd64 (1 / 10)))] 10 (-999999) =
    [none, some (rnd64 (1 / 10)), none, some (rnd64 (1 / 10)), some (rnd64 (1 / 10))] := by decide +kernel

end Verif.Rounding
