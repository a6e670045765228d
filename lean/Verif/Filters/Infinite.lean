import Verif.Pairwise.Infinite
import Verif.Rounding.Filters

/-!
C140: infinite values in `boxcar_filter` and `exp_filter` (`src/pytesmo/time_series/filters.pyx`).

The numbers are those of `Pairwise.Infinite`. Dates are finite, their differences are rounded by `rd`. Missing results are NaN, as in the array
that is returned. Overflow of sums is covered by the function that stores results.
-/

set_option linter.unusedSectionVars false

namespace Verif.Filters.Infinite

open Verif Verif.Pairwise.Infinite

variable {K : Type} [Field K] [LinearOrder K]

/-- filters.pyx:86, 98, 148, 153, 164: `not ((x == nan) or isnan(x))` -/
def good (nan : K) : X K → Bool
  | .fin v => decide (v ≠ nan)
  | .inf _ => true
  | .nan => false

/-- filters.pyx:152-160 (forward) and 162-171 (backward), see `Filters.accumulate` -/
def accumulate (M : Machine K) (rd : K → K) (nan limit t0 : K) : List (K × X K) → X K × ℕ → X K × ℕ
  | [], s => s
  | o :: rest, s =>
    if good nan o.2 then
      if |rd (o.1 - t0)| ≤ limit then accumulate M rd nan limit t0 rest (add M s.1 o.2, s.2 + 1) else s
    else accumulate M rd nan limit t0 rest s

/-- filters.pyx:173-174 -/
def average (M : Machine K) (minObs : Int) (s : X K × ℕ) : X K := if minObs ≤ (s.2 : Int) then div M s.1 (.fin s.2) else .nan

/-- filters.pyx:147-174 -/
def boxcarLoop (M : Machine K) (rd : K → K) (nan limit : K) (fillna : Bool) (minObs : Int) : List (K × X K) → List (K × X K) → List (X K)
  | _, [] => []
  | before, o :: after =>
    let out :=
      if good nan o.2 || fillna then
        average M minObs (accumulate M rd nan limit o.1 before (accumulate M rd nan limit o.1 (o :: after) (.fin 0, 0)))
      else .nan
    out :: boxcarLoop M rd nan limit fillna minObs (o :: before) after

/-- filters.pyx:116-176 `boxcar_filter`; `limit` is half of the window (142) -/
def boxcarFilter (M : Machine K) (rd : K → K) (obs : List (K × X K)) (limit nan : K) (fillna : Bool) (minObs : Int) : List (X K) :=
  boxcarLoop M rd nan limit fillna minObs [] obs

/-- `gain`, `last_jd_var` and `last_filtered_var`. Used for filters.pyx:84-108. -/
structure State (K : Type) where
  gain : X K
  lastJd : K
  last : X K

/-- filters.pyx:84-108. `G` is the arithmetic of C `float`; `weight` gives `ef` for the time difference (100-101). -/
def expStep (M G : Machine K) (rd : K → K) (weight : K → X K) (nan : K) (s : Option (State K)) (o : K × X K) : Option (State K) × X K :=
  if good nan o.2 then
    match s with
    | none => (some ⟨.fin 1, o.1, o.2⟩, o.2)
    | some s =>
      let gain := div G s.gain (add G s.gain (weight (rd (o.1 - s.lastJd))))
      let f := add M s.last (mul M gain (sub M o.2 s.last))
      (some ⟨gain, o.1, f⟩, f)
  else (s, .nan)

/-- filters.pyx:97-108 -/
def expLoop (M G : Machine K) (rd : K → K) (weight : K → X K) (nan : K) : Option (State K) → List (K × X K) → List (X K)
  | _, [] => []
  | s, o :: rest => (expStep M G rd weight nan s o).2 :: expLoop M G rd weight nan (expStep M G rd weight nan s o).1 rest

/-- filters.pyx:50-110 `exp_filter` -/
def expFilter (M G : Machine K) (rd : K → K) (weight : K → X K) (obs : List (K × X K)) (nan : K) : List (X K) :=
  expLoop M G rd weight nan none obs

/-! ### Specification -/

/-- specification: the dates do not decrease -/
def Dated (obs : List (K × X K)) : Prop := obs.Pairwise (fun a b => a.1 ≤ b.1)

/-- specification: the observation is infinite -/
def IsInfinite (x : X K) : Prop := ∃ s, x = .inf s

/-- specification: missing values as NaN -/
def toX : Option K → X K
  | some v => .fin v
  | none => .nan

/-- specification: values that are no numbers as missing values -/
def forget : X K → Option K
  | .fin v => some v
  | _ => none

/-- specification: the series without infinite values -/
def cleaned (obs : List (K × X K)) : List (K × Option K) := obs.map (fun o => (o.1, forget o.2))

/-! ### Boxcar filter -/

theorem accumulate_keeps (M : Machine K) (rd : K → K) (nan limit t0 : K) (l : List (K × X K)) :
    ∀ s : X K × ℕ, ¬ IsNumber s.1 → ¬ IsNumber (accumulate M rd nan limit t0 l s).1 := by
  induction l with
  | nil => exact fun s h => h
  | cons o l ih =>
    intro s h
    unfold accumulate
    split
    · split
      · exact ih _ (add_spreads M _ _ (.inl h))
      · exact h
    · exact ih _ h

theorem accumulate_spoilt (M : Machine K) (rd : K → K) (nan limit t0 : K) (e : K × X K) (he : IsInfinite e.2) (hr : |rd (e.1 - t0)| ≤ limit)
    (l : List (K × X K)) (hl : l.Pairwise (fun a b => |rd (a.1 - t0)| ≤ |rd (b.1 - t0)|)) (hm : e ∈ l) :
    ∀ s : X K × ℕ, ¬ IsNumber (accumulate M rd nan limit t0 l s).1 := by
  induction l with
  | nil => cases hm
  | cons o l ih =>
    intro s
    obtain ⟨h1, h2⟩ := List.pairwise_cons.1 hl
    unfold accumulate
    rcases List.mem_cons.1 hm with rfl | hm
    · obtain ⟨b, hb⟩ := he
      rw [hb, if_pos (by rfl), if_pos hr]
      exact accumulate_keeps M rd nan limit t0 l _ (add_spreads M _ _ (.inr (by simp [IsNumber])))
    · split
      · rw [if_pos (le_trans (h1 e hm) hr)]
        exact ih h2 hm _
      · exact ih h2 hm _

theorem rest_beyond (rnd : K → K) (nan limit t0 : K) (l : List (K × Option K)) (h : ∀ o ∈ l, limit < |rnd (o.1 - t0)|) (s : K × ℕ) :
    Rounding.accumulate rnd nan limit t0 l s = s := by
  induction l with
  | nil => rfl
  | cons o l ih =>
    unfold Rounding.accumulate
    split
    · exact ih (fun p hp => h p (List.mem_cons_of_mem _ hp))
    · rw [if_neg (not_le.2 (h o (by simp)))]

theorem nothing_added (rnd : K → K) (nan limit t0 : K) (l : List (K × Option K)) (s : K × ℕ) (h : (Rounding.accumulate rnd nan limit t0 l s).2 = 0) :
    Rounding.accumulate rnd nan limit t0 l s = s := by
  have grows : ∀ (l : List (K × Option K)) (s : K × ℕ), s.2 ≤ (Rounding.accumulate rnd nan limit t0 l s).2 := by
    intro l
    induction l with
    | nil => exact fun s => le_refl _
    | cons o l ih =>
      intro s
      unfold Rounding.accumulate
      split
      · exact ih s
      · split
        · exact le_trans (Nat.le_succ s.2) (ih (_, s.2 + 1))
        · exact le_refl _
  induction l with
  | nil => rfl
  | cons o l ih =>
    unfold Rounding.accumulate at h ⊢
    split at h
    · exact ih h
    · split at h
      · rename_i v _ _
        have := grows l (rnd (s.1 + v), s.2 + 1)
        simp only at this
        omega
      · rename_i hle
        rw [if_neg hle]

theorem accumulate_clear (rnd sq : K → K) (nan limit t0 : K) (l : List (K × X K))
    (hl : l.Pairwise (fun a b => |rnd (a.1 - t0)| ≤ |rnd (b.1 - t0)|)) (hi : ∀ o ∈ l, IsInfinite o.2 → limit < |rnd (o.1 - t0)|) :
    ∀ s : K × ℕ, accumulate (rounded rnd sq) rnd nan limit t0 l (.fin s.1, s.2) =
      (.fin (Rounding.accumulate rnd nan limit t0 (cleaned l) s).1, (Rounding.accumulate rnd nan limit t0 (cleaned l) s).2) := by
  induction l with
  | nil => exact fun s => rfl
  | cons o l ih =>
    intro s
    obtain ⟨h1, h2⟩ := List.pairwise_cons.1 hl
    have ih' := ih h2 (fun p hp => hi p (List.mem_cons_of_mem _ hp))
    obtain ⟨t, v⟩ := o
    have hc : cleaned ((t, v) :: l) = (t, forget v) :: cleaned l := rfl
    rw [hc]
    unfold accumulate Rounding.accumulate
    rcases v with v | b | _
    · by_cases hv : v = nan
      · simp only [good, forget, usable, hv, ne_eq, not_true_eq_false, decide_false, Bool.false_eq_true, if_false, if_true]
        exact ih' s
      · simp only [good, forget, usable, hv, ne_eq, not_false_eq_true, decide_true, if_true, if_false]
        split
        · exact ih' (rnd (s.1 + v), s.2 + 1)
        · rfl
    · have hfar := hi (t, .inf b) (by simp) ⟨b, rfl⟩
      simp only [good, forget, usable, if_true]
      rw [if_neg (not_le.2 hfar), rest_beyond]
      intro p hp
      obtain ⟨q, hq, rfl⟩ := List.mem_map.1 hp
      exact lt_of_lt_of_le hfar (h1 q hq)
    · simp only [good, forget, usable, Bool.false_eq_true, if_false]
      exact ih' s

theorem loop_get (M : Machine K) (rd : K → K) (nan limit : K) (fillna : Bool) (minObs : Int) (after : List (K × X K)) :
    ∀ (before : List (K × X K)) (i : ℕ) (o : K × X K), after[i]? = some o →
      (boxcarLoop M rd nan limit fillna minObs before after)[i]? = some (if good nan o.2 || fillna then
        average M minObs (accumulate M rd nan limit o.1 ((after.take i).reverse ++ before) (accumulate M rd nan limit o.1 (after.drop i) (.fin 0, 0)))
      else .nan) := by
  induction after with
  | nil => intro before i o h; simp at h
  | cons a after ih =>
    intro before i o h
    cases i with
    | zero =>
      obtain rfl : a = o := by simpa using h
      rfl
    | succ i =>
      have := ih (a :: before) i o (by simpa using h)
      simp only [boxcarLoop, List.getElem?_cons_succ, List.take_succ_cons, List.reverse_cons, List.drop_succ_cons, List.append_assoc,
        List.singleton_append]
      exact this

theorem rounding_loop_get (rnd : K → K) (nan limit : K) (fillna : Bool) (minObs : Int) (after : List (K × Option K)) :
    ∀ (before : List (K × Option K)) (i : ℕ) (o : K × Option K), after[i]? = some o →
      (Rounding.boxcarLoop rnd nan limit fillna minObs before after)[i]? = some (if (usable nan o.2).isSome || fillna then
        Rounding.average rnd minObs (Rounding.accumulate rnd nan limit o.1 ((after.take i).reverse ++ before)
          (Rounding.accumulate rnd nan limit o.1 (after.drop i) (0, 0)))
      else none) := by
  induction after with
  | nil => intro before i o h; simp at h
  | cons a after ih =>
    intro before i o h
    cases i with
    | zero =>
      obtain rfl : a = o := by simpa using h
      rfl
    | succ i =>
      have := ih (a :: before) i o (by simpa using h)
      simp only [Rounding.boxcarLoop, List.getElem?_cons_succ, List.take_succ_cons, List.reverse_cons, List.drop_succ_cons, List.append_assoc,
        List.singleton_append]
      exact this

variable [IsStrictOrderedRing K]

/-- seen from observation `i`, time differences grow forward and backward -/
theorem reaches_grow (rd : K → K) (hm : Monotone rd) (h0 : rd 0 = 0) (obs : List (K × X K)) (hd : Dated obs) (i : ℕ) (o : K × X K)
    (ho : obs[i]? = some o) :
    (obs.drop i).Pairwise (fun a b => |rd (a.1 - o.1)| ≤ |rd (b.1 - o.1)|) ∧
      ((obs.take i).reverse).Pairwise (fun a b => |rd (a.1 - o.1)| ≤ |rd (b.1 - o.1)|) := by
  have hi : i < obs.length := by
    by_contra h
    rw [List.getElem?_eq_none (not_lt.1 h)] at ho
    cases ho
  have hg : obs[i] = o := by
    rw [List.getElem?_eq_getElem hi] at ho
    exact Option.some.inj ho
  have hdrop : obs.drop i = o :: obs.drop (i + 1) := by rw [List.drop_eq_getElem_cons hi, hg]
  have hsplit : Dated (obs.take i ++ o :: obs.drop (i + 1)) := by rw [← hdrop, List.take_append_drop]; exact hd
  obtain ⟨hA, hB, hAB⟩ := List.pairwise_append.1 hsplit
  constructor
  · rw [hdrop]
    have hge : ∀ b ∈ o :: obs.drop (i + 1), o.1 ≤ b.1 := by
      intro b hb
      rcases List.mem_cons.1 hb with rfl | hb
      exacts [le_refl _, (List.pairwise_cons.1 hB).1 b hb]
    refine List.Pairwise.imp_of_mem ?_ hB
    intro a b ha _ hab
    have h1 : 0 ≤ rd (a.1 - o.1) := by rw [← h0]; exact hm (sub_nonneg.2 (hge a ha))
    have h2 : rd (a.1 - o.1) ≤ rd (b.1 - o.1) := hm (sub_le_sub_right hab _)
    rw [abs_of_nonneg h1, abs_of_nonneg (le_trans h1 h2)]
    exact h2
  · rw [List.pairwise_reverse]
    refine List.Pairwise.imp_of_mem ?_ hA
    intro a b ha hb hab
    have h1 : rd (b.1 - o.1) ≤ 0 := by
      rw [← h0]; exact hm (sub_nonpos.2 (hAB b hb o (by simp)))
    have h2 : rd (a.1 - o.1) ≤ rd (b.1 - o.1) := hm (sub_le_sub_right hab _)
    rw [abs_of_nonpos h1, abs_of_nonpos (le_trans h2 h1)]
    exact neg_le_neg h2

theorem mem_parts (obs : List (K × X K)) (i j : ℕ) (e : K × X K) (he : obs[j]? = some e) : e ∈ (obs.take i).reverse ∨ e ∈ obs.drop i := by
  have := List.mem_of_getElem? he
  rw [← List.take_append_drop i obs] at this
  rcases List.mem_append.1 this with h | h
  exacts [.inl (List.mem_reverse.2 h), .inr h]

/-- **C140 (boxcar filter, in reach).** With an infinite observation in its window a result is never a number: whatever the other values, the
rounding, overflow, `min_obs` and `fillna`. -/
theorem boxcar_spoilt (M : Machine K) (rd : K → K) (hm : Monotone rd) (h0 : rd 0 = 0) (obs : List (K × X K)) (hd : Dated obs) (limit nan : K)
    (fillna : Bool) (minObs : Int) (i j : ℕ) (o e : K × X K) (ho : obs[i]? = some o) (he : obs[j]? = some e) (hinf : IsInfinite e.2)
    (hr : |rd (e.1 - o.1)| ≤ limit) :
    ∃ r, (boxcarFilter M rd obs limit nan fillna minObs)[i]? = some r ∧ ¬ IsNumber r := by
  refine ⟨_, loop_get M rd nan limit fillna minObs obs [] i o ho, ?_⟩
  obtain ⟨hf, hb⟩ := reaches_grow rd hm h0 obs hd i o ho
  split
  · unfold average
    split
    · apply div_spreads
      rw [List.append_nil]
      rcases mem_parts obs i j e he with h | h
      · exact accumulate_spoilt M rd nan limit o.1 e hinf hr _ hb h _
      · exact accumulate_keeps M rd nan limit o.1 _ _ (accumulate_spoilt M rd nan limit o.1 e hinf hr _ hf h _)
    · simp [IsNumber]
  · simp [IsNumber]

/-- **C140 (boxcar filter, out of reach).** Without an infinite observation in its window a result is that of the series from which the infinite
observations were removed (C105), without overflow. -/
theorem boxcar_clear (rnd sq : K → K) (hm : Monotone rnd) (h0 : rnd 0 = 0) (obs : List (K × X K)) (hd : Dated obs) (limit nan : K) (hlim : 0 ≤ limit)
    (fillna : Bool) (minObs : Int) (i : ℕ) (o : K × X K) (ho : obs[i]? = some o)
    (hinf : ∀ e ∈ obs, IsInfinite e.2 → limit < |rnd (e.1 - o.1)|) :
    (boxcarFilter (rounded rnd sq) rnd obs limit nan fillna minObs)[i]? =
      (Rounding.boxcarLoop rnd nan limit fillna minObs [] (cleaned obs))[i]?.map toX := by
  obtain ⟨hf, hb⟩ := reaches_grow rnd hm h0 obs hd i o ho
  have ho' : (cleaned obs)[i]? = some (o.1, forget o.2) := by
    unfold cleaned
    rw [List.getElem?_map, ho]
    rfl
  unfold boxcarFilter
  rw [loop_get _ rnd nan limit fillna minObs obs [] i o ho, rounding_loop_get rnd nan limit fillna minObs _ [] i _ ho', Option.map_some]
  congr 1
  have hg : good nan o.2 = (usable nan (forget o.2)).isSome := by
    have hmem := List.mem_of_getElem? ho
    rcases h : o.2 with v | b | _
    · by_cases hv : v = nan <;> simp [good, usable, forget, hv]
    · have := hinf o hmem ⟨b, h⟩
      rw [sub_self, h0, abs_zero] at this
      exact absurd hlim (not_le.2 this)
    · rfl
  rw [hg]
  split
  · have e1 := accumulate_clear rnd sq nan limit o.1 (obs.drop i) hf (fun e he => hinf e (List.mem_of_mem_drop he)) (0, 0)
    have e2 := accumulate_clear rnd sq nan limit o.1 (obs.take i).reverse hb (fun e he => hinf e (List.mem_of_mem_take (List.mem_reverse.1 he)))
      (Rounding.accumulate rnd nan limit o.1 (cleaned (obs.drop i)) (0, 0))
    rw [List.append_nil, List.append_nil, e1, e2]
    have c1 : cleaned (obs.drop i) = (cleaned obs).drop i := by simp [cleaned, List.map_drop]
    have c2 : cleaned (obs.take i).reverse = ((cleaned obs).take i).reverse := by simp [cleaned, List.map_take]
    rw [c1, c2]
    have hr0 : (Rounding.accumulate rnd nan limit o.1 ((cleaned obs).take i).reverse
        (Rounding.accumulate rnd nan limit o.1 ((cleaned obs).drop i) (0, 0))).2 = 0 →
        Rounding.accumulate rnd nan limit o.1 ((cleaned obs).take i).reverse
          (Rounding.accumulate rnd nan limit o.1 ((cleaned obs).drop i) (0, 0)) = (0, 0) := by
      intro h
      have h1 := nothing_added rnd nan limit o.1 _ _ h
      rw [h1] at h ⊢
      exact nothing_added rnd nan limit o.1 _ _ h
    generalize Rounding.accumulate rnd nan limit o.1 ((cleaned obs).take i).reverse (Rounding.accumulate rnd nan limit o.1 ((cleaned obs).drop i) (0, 0)) = r at hr0 ⊢
    unfold average Rounding.average
    split
    · by_cases hr : r.2 = 0
      · rw [if_pos hr, hr0 hr]
        simp [div, toX]
      · rw [if_neg hr]
        simp only [div, rounded, toX, if_neg (Nat.cast_ne_zero.2 hr : ((r.2 : ℕ) : K) ≠ 0)]
    · rfl
  · rfl

/-! ### Exponential filter -/

theorem exp_keeps (M G : Machine K) (rd : K → K) (weight : K → X K) (nan : K) (obs : List (K × X K)) :
    ∀ s : State K, ¬ IsNumber s.last → ∀ r ∈ expLoop M G rd weight nan (some s) obs, ¬ IsNumber r := by
  induction obs with
  | nil => intro s _ r hr; cases hr
  | cons o obs ih =>
    intro s hs r hr
    have hf : ∀ g, ¬ IsNumber (add M s.last (mul M g (sub M o.2 s.last))) := fun g => add_spreads M _ _ (.inl hs)
    unfold expLoop expStep at hr
    split at hr
    · rcases List.mem_cons.1 hr with rfl | hr
      exacts [hf _, ih _ (hf _) r hr]
    · rcases List.mem_cons.1 hr with rfl | hr
      exacts [by simp [IsNumber], ih s hs r hr]

/-- **C140 (exponential filter, after).** From an infinite observation on no result is a number any more, however much time has passed: for all
data, dates, weights, roundings and overflows. -/
theorem exp_spoilt (M G : Machine K) (rd : K → K) (weight : K → X K) (nan : K) (obs : List (K × X K)) (k m : ℕ) (hkm : k ≤ m) (e : K × X K)
    (he : obs[k]? = some e) (hinf : IsInfinite e.2) (r : X K) (hr : (expFilter M G rd weight obs nan)[m]? = some r) : ¬ IsNumber r := by
  unfold expFilter at hr
  generalize (none : Option (State K)) = s at hr
  induction obs generalizing k m s with
  | nil => simp at he
  | cons o obs ih =>
    cases k with
    | zero =>
      obtain rfl : o = e := by simpa using he
      obtain ⟨b, hb⟩ := hinf
      have hg : good nan o.2 = true := by rw [hb]; rfl
      have hmem := List.mem_of_getElem? hr
      unfold expLoop expStep at hmem
      rw [if_pos hg] at hmem
      cases s with
      | none =>
        have hn : ¬ IsNumber o.2 := by rw [hb]; simp [IsNumber]
        rcases List.mem_cons.1 hmem with rfl | hmem
        exacts [hn, exp_keeps M G rd weight nan obs _ hn r hmem]
      | some s =>
        have key : ∀ g, ¬ IsNumber (add M s.last (mul M g (sub M o.2 s.last))) := by
          intro g
          refine add_spreads M _ _ (.inr (mul_spreads M _ _ (.inr (sub_spreads M _ _ (.inl ?_)))))
          rw [hb]; simp [IsNumber]
        rcases List.mem_cons.1 hmem with rfl | hmem
        exacts [key _, exp_keeps M G rd weight nan obs _ (key _) r hmem]
    | succ k =>
      cases m with
      | zero => omega
      | succ m =>
        rw [expLoop, List.getElem?_cons_succ] at hr
        exact ih k m (by omega) (by simpa using he) _ hr

/-- the weight of a time difference without overflow, filters.pyx:100-101 -/
def weightOf (rnd rnd32 ex : K → K) (ctime : ℤ) (d : K) : X K := .fin (rnd32 (ex (rnd (-d / (ctime : K)))))

/-- **C140 (exponential filter, before).** Results before the first infinite observation are those of the series from which the infinite
observations were removed (C105), without overflow. -/
theorem exp_before (rnd rnd32 ex sq : K → K) (ctime : ℤ) (nan : K) (hpos : ∀ x, 0 < x → 0 < rnd32 x) (hex : ∀ x, 0 < ex x) (obs : List (K × X K))
    (n : ℕ) (hinf : ∀ k < n, ∀ e, obs[k]? = some e → ¬ IsInfinite e.2) :
    (expFilter (rounded rnd sq) (rounded rnd32 sq) rnd (weightOf rnd rnd32 ex ctime) obs nan).take n =
      ((Rounding.expFilter rnd rnd32 ex (cleaned obs) ctime nan).map toX).take n := by
  have key : ∀ (obs : List (K × X K)) (n : ℕ), (∀ k < n, ∀ e, obs[k]? = some e → ¬ IsInfinite e.2) →
      ∀ (s : Option (State K)) (s' : Option (Rounding.ExpState K)),
        s = s'.map (fun t => ⟨.fin t.gain, t.lastJd, .fin t.lastFiltered⟩) → (∀ t, s' = some t → 0 < t.gain) →
        (expLoop (rounded rnd sq) (rounded rnd32 sq) rnd (weightOf rnd rnd32 ex ctime) nan s obs).take n =
          ((Rounding.expLoop rnd rnd32 ex ctime nan s' (cleaned obs)).map toX).take n := by
    intro obs
    induction obs with
    | nil => intro n _ s s' _ _; rfl
    | cons o obs ih =>
      intro n hn s s' hs hg
      cases n with
      | zero => simp
      | succ n =>
        have ih' := ih n (fun k hk e he => hn (k + 1) (by omega) e (by simpa using he))
        obtain ⟨t, v⟩ := o
        have hc : cleaned ((t, v) :: obs) = (t, forget v) :: cleaned obs := rfl
        rw [hc, expLoop, Rounding.expLoop]
        simp only [List.map_cons, List.take_succ_cons]
        have skip : good nan v = false → usable nan (forget v) = none →
            (expStep (rounded rnd sq) (rounded rnd32 sq) rnd (weightOf rnd rnd32 ex ctime) nan s (t, v)) = (s, .nan) ∧
              Rounding.expStep rnd rnd32 ex ctime nan s' (t, forget v) = (s', none) := by
          intro h1 h2
          constructor
          · unfold expStep; simp only [h1, Bool.false_eq_true, if_false]
          · unfold Rounding.expStep; simp only [h2]
        rcases v with v | b | _
        · by_cases hv : v = nan
          · obtain ⟨e1, e2⟩ := skip (by simp [good, hv]) (by simp [usable, forget, hv])
            rw [e1, e2]
            simp only [toX]
            rw [ih' s s' hs hg]
          · have h1 : good nan (.fin v) = true := by simp [good, hv]
            have h2 : usable nan (forget (.fin v)) = some v := by simp [usable, forget, hv]
            unfold expStep Rounding.expStep
            simp only [h1, h2, if_true]
            cases s' with
            | none =>
              subst hs
              simp only [Option.map_none, toX]
              exact congrArg _ (ih' _ (some ⟨1, t, v⟩) rfl (by intro t' h; cases h; exact one_pos))
            | some w =>
              subst hs
              have hw := hg w rfl
              have hden : 0 < rnd32 (w.gain + rnd32 (ex (rnd (-(rnd (t - w.lastJd)) / (ctime : K))))) :=
                hpos _ (add_pos hw (hpos _ (hex _)))
              have hgain : 0 < rnd32 (w.gain / rnd32 (w.gain + rnd32 (ex (rnd (-(rnd (t - w.lastJd)) / (ctime : K)))))) :=
                hpos _ (div_pos hw hden)
              simp only [Option.map_some, weightOf, add, div, sub, mul, rounded, if_neg hden.ne', toX]
              have := ih' _ (some ⟨_, t, rnd (w.lastFiltered + rnd (rnd32 (w.gain / rnd32 (w.gain + rnd32 (ex (rnd (-(rnd (t - w.lastJd)) / (ctime : K)))))) *
                rnd (v - w.lastFiltered)))⟩) rfl (by intro t' h; cases h; exact hgain)
              simp only [Option.map_some, rounded] at this
              rw [← this]
        · exact absurd ⟨b, rfl⟩ (hn 0 (by omega) (t, .inf b) (by simp))
        · obtain ⟨e1, e2⟩ := skip rfl rfl
          rw [e1, e2]
          simp only [toX]
          rw [ih' s s' hs hg]
  exact key obs n hinf none none rfl (by intro t h; cases h)

/-! ### Concrete cases -/

open Verif.Rolling.Fl (rnd64)

/-- four observations, the second is infinite -/
def sample : List (ℚ × X ℚ) := [(0, .fin 1), (1, .inf false), (10, .fin 3), (11, .fin 5)]

theorem sample_dated : Dated sample := by unfold Dated sample; decide +kernel

/-- The boxcar filter with a window of two days gives infinite values near the infinite observation and means elsewhere. -/
example : boxcarFilter (double id) rnd64 sample 1 (-999999) false 1 = [.inf false, .inf false, .fin 4, .fin 4] := by decide +kernel

/-- the hypotheses of `boxcar_clear` hold for the third observation -/
example : sample[2]? = some (10, .fin 3) ∧ ∀ e ∈ sample, IsInfinite e.2 → (1 : ℚ) < |id (e.1 - 10)| := by
  refine ⟨rfl, ?_⟩
  intro e he h
  obtain ⟨b, hb⟩ := h
  simp only [sample, List.mem_cons, List.not_mem_nil, or_false] at he
  rcases he with rfl | rfl | rfl | rfl
  · cases hb
  · norm_num
  · cases hb
  · cases hb

/-- **C140 (exponential filter, negation).** 2740 years after an infinite observation, with a weight of 0, the result is still NaN. Without the
infinite observation it is the new value. -/
theorem exp_forever :
    expFilter (double id) (double id) rnd64 (fun d => .fin (if d < 10 then 1 / 2 else 0)) [(0, .fin 1), (1, .inf false), (1000001, .fin 3)] (-999999) =
      [.fin 1, .inf false, .nan] ∧
    expFilter (double id) (double id) rnd64 (fun d => .fin (if d < 10 then 1 / 2 else 0)) [(0, .fin 1), (1, .nan), (1000001, .fin 3)] (-999999) =
      [.fin 1, .nan, .fin 3] := by
  decide +kernel

/-- the hypotheses of `exp_before` hold for the first result of the sample -/
example : (expFilter (rounded id id) (rounded id id) id (weightOf id id (fun _ => (1 / 2 : ℚ)) 10) sample (-999999)).take 1 = [.fin 1] := by
  rw [exp_before id id (fun _ => 1 / 2) id 10 (-999999) (fun x h => h) (fun _ => by norm_num) sample 1]
  · decide +kernel
  · intro k hk e he h
    obtain rfl : k = 0 := by omega
    obtain ⟨b, hb⟩ := h
    have : e = (0, .fin 1) := by simpa [sample] using he.symm
    rw [this] at hb
    cases hb

/-- the hypotheses of `boxcar_spoilt` (first result) and `exp_spoilt` (last result) -/
example : (∃ r, (boxcarFilter (double id) id sample 1 (-999999) false 1)[0]? = some r ∧ ¬ IsNumber r) ∧
    ∀ r, (expFilter (rounded id id) (rounded id id) id (weightOf id id (fun _ => (1 / 2 : ℚ)) 10) sample (-999999))[3]? = some r → ¬ IsNumber r := by
  refine ⟨boxcar_spoilt (double id) id monotone_id rfl sample ?_ 1 (-999999) false 1 0 1 (0, .fin 1) (1, .inf false) rfl rfl ⟨false, rfl⟩ (by norm_num), ?_⟩
  · simp [Dated, sample]
    norm_num
  · exact fun r hr => exp_spoilt _ _ _ _ _ sample 1 3 (by norm_num) (1, .inf false) rfl ⟨false, rfl⟩ r hr

end Verif.Filters.Infinite
