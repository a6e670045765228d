import Verif.Pairwise.Infinite
import Verif.Rounding.Linreg

/-!
C142: values that are not finite in the scaling methods `min_max`, `mean_std` and `linreg` (`src/pytesmo/scaling.py`), with the numbers of `Pairwise.Infinite`.
The arrays are not empty (`np.min` raises otherwise, C19).
-/

set_option linter.unusedSectionVars false

namespace Verif.Scaling.Infinite

open Verif Verif.Pairwise.Infinite

variable {K : Type} [Field K] [LinearOrder K]

/-- `np.min`. Used for scaling.py:160-162. -/
def smallest (l : List (X K)) : X K := l.foldl (extreme true) (.inf false)

/-- `np.max`. Used for scaling.py:160-162. -/
def largest (l : List (X K)) : X K := l.foldl (extreme false) (.inf true)

/-- scaling.py:143-162 `min_max(src, ref)` -/
def minMax (M : Machine K) (src ref : List (X K)) : List (X K) :=
  src.map (fun v => add M (mul M (div M (sub M v (smallest src)) (sub M (largest src) (smallest src))) (sub M (largest ref) (smallest ref))) (smallest ref))

/-- `np.std`: deviations from the mean, squared, mean, square root. Used for scaling.py:250. -/
def npStd (M : Machine K) (order : List (X K) → Rounding.Tree (X K)) (v : List (X K)) : X K :=
  sqrt M (Pairwise.Infinite.npMean M order (v.map (fun x => mul M (sub M x (Pairwise.Infinite.npMean M order v)) (sub M x (Pairwise.Infinite.npMean M order v)))))

/-- scaling.py:233-250 `mean_std(src, ref)` -/
def meanStd (M : Machine K) (order : List (X K) → Rounding.Tree (X K)) (src ref : List (X K)) : List (X K) :=
  src.map (fun v => add M (mul M (div M (sub M v (Pairwise.Infinite.npMean M order src)) (npStd M order src)) (npStd M order ref)) (Pairwise.Infinite.npMean M order ref))

/-- scaling.py:165-184 `linreg_stored_params(src, slope, intercept)` -/
def linregStored (M : Machine K) (src : List (X K)) (slope intercept : X K) : List (X K) :=
  src.map (fun v => add M (mul M (abs slope) v) intercept)

/-- a covariance of `np.cov(x, y, bias=1)`, used by `linregress` (scaling.py:207) -/
def regCov (M : Machine K) (order : List (X K) → Rounding.Tree (X K)) (l : List (X K × X K)) : X K :=
  mul M (total M (order (l.map (fun p => mul M (sub M p.1 (Pairwise.Infinite.npMean M order (l.map Prod.fst))) (sub M p.2 (Pairwise.Infinite.npMean M order (l.map Prod.snd)))))))
    (div M (.fin 1) (.fin l.length))

/-- the slope of `linregress` (scaling.py:207) -/
def regSlope (M : Machine K) (order : List (X K) → Rounding.Tree (X K)) (l : List (X K × X K)) : X K :=
  div M (regCov M order l) (regCov M order (l.map (fun p => (p.1, p.1))))

/-- the intercept of `linregress` (scaling.py:207) -/
def regIntercept (M : Machine K) (order : List (X K) → Rounding.Tree (X K)) (l : List (X K × X K)) : X K :=
  sub M (Pairwise.Infinite.npMean M order (l.map Prod.snd)) (mul M (regSlope M order l) (Pairwise.Infinite.npMean M order (l.map Prod.fst)))

/-- scaling.py:212-230 `linreg(src, ref)` for pairs of values, not all equal in the source (`linregress` raises an exception otherwise) -/
def linreg (M : Machine K) (order : List (X K) → Rounding.Tree (X K)) (l : List (X K × X K)) : List (X K) :=
  linregStored M (l.map Prod.fst) (regSlope M order l) (regIntercept M order l)

/-- scaling.py:57-93 `scale(df, method, reference_index)` for a frame with different column names: the reference is dropped, the other columns are
scaled, the reference is inserted again -/
def scaleFrame (f : List (X K) → List (X K) → List (X K)) (df : List (String × List (X K))) (i : ℕ) : Option (List (String × List (X K))) :=
  df[i]?.map (fun ref => ((df.eraseIdx i).map (fun c => (c.1, f c.2 ref.2))).insertIdx i ref)

/-! ### Specification -/

/-- specification: some value is no number -/
def HasNone (l : List (X K)) : Prop := ∃ v ∈ l, ¬ IsNumber v

/-! ### Lemmas -/

theorem extreme_nan_left (b : Bool) (a : X K) : extreme b .nan a = .nan := by cases a <;> rfl
theorem extreme_nan_right (b : Bool) (a : X K) : extreme b a .nan = .nan := by cases a <;> rfl

theorem fold_nan (b : Bool) (l : List (X K)) : l.foldl (extreme b) .nan = .nan := by
  induction l with
  | nil => rfl
  | cons a l ih => rw [List.foldl_cons, extreme_nan_left, ih]

/-- NaN is the minimum and the maximum of a list that contains it -/
theorem fold_has_nan (b : Bool) (l : List (X K)) (h : .nan ∈ l) (s : X K) : l.foldl (extreme b) s = .nan := by
  induction l generalizing s with
  | nil => cases h
  | cons a l ih =>
    rw [List.foldl_cons]
    rcases List.mem_cons.1 h with h | h
    · rw [← h, extreme_nan_right, fold_nan]
    · exact ih h _

theorem extreme_one (b : Bool) (s a : X K) (hs : s ≠ .nan) (ha : a ≠ .nan) : extreme b s a = s ∨ extreme b s a = a := by
  rcases s with s | t | _ <;> rcases a with a | u | _ <;> first | exact absurd rfl hs | exact absurd rfl ha | skip
  all_goals exact (ite_eq_or_eq _ _ _).symm

/-- a limit that is reached stays -/
theorem fold_limit (b : Bool) (l : List (X K)) (hn : .nan ∉ l) (s : X K) (hs : s ≠ .nan) (h : s = .inf b ∨ .inf b ∈ l) :
    l.foldl (extreme b) s = .inf b := by
  induction l generalizing s with
  | nil => exact h.resolve_right (by simp)
  | cons a l ih =>
    have ha : a ≠ .nan := fun e => hn (by simp [e])
    have hl : .nan ∉ l := fun e => hn (List.mem_cons_of_mem _ e)
    have hne : extreme b s a ≠ .nan := by
      rcases extreme_one b s a hs ha with e | e <;> rw [e] <;> assumption
    rw [List.foldl_cons]
    refine ih hl _ hne ?_
    rcases h with h | h
    · left
      subst h
      cases a <;> cases b <;> simp_all [extreme, lt]
    · rcases List.mem_cons.1 h with h | h
      · left
        subst h
        rcases s with s | t | _
        · cases b <;> simp [extreme, lt]
        · cases b <;> cases t <;> simp [extreme, lt]
        · exact absurd rfl hs
      · exact .inr h

/-- the minimum of numbers and positive infinite values is a number -/
theorem smallest_number (l : List (X K)) (hl : ∀ x ∈ l, x ≠ .nan ∧ x ≠ .inf true) (s : X K) (hs : s ≠ .nan ∧ s ≠ .inf true)
    (h : IsNumber s ∨ ∃ v, .fin v ∈ l) : IsNumber (l.foldl (extreme true) s) := by
  induction l generalizing s with
  | nil => exact h.resolve_right (by simp)
  | cons a l ih =>
    have ha := hl a (by simp)
    rw [List.foldl_cons]
    have hne : extreme true s a ≠ .nan ∧ extreme true s a ≠ .inf true := by
      rcases extreme_one true s a hs.1 ha.1 with e | e <;> rw [e] <;> assumption
    refine ih (fun x hx => hl x (List.mem_cons_of_mem _ hx)) _ hne ?_
    rcases h with h | ⟨v, h⟩
    · left
      rcases s with s | t | _
      · rcases a with a | u | _
        · rcases extreme_one true (.fin s) (.fin _) (by simp) (by simp) with e | e <;> rw [e] <;> trivial
        · cases u
          · simp [extreme, lt, IsNumber]
          · exact absurd rfl ha.2
        · exact absurd rfl ha.1
      · exact absurd h (by simp [IsNumber])
      · exact absurd h (by simp [IsNumber])
    · rcases List.mem_cons.1 h with h | h
      · left
        subst h
        rcases s with s | t | _
        · rcases extreme_one true (.fin s) (.fin _) (by simp) (by simp) with e | e <;> rw [e] <;> trivial
        · cases t
          · simp [extreme, lt, IsNumber]
          · exact absurd rfl hs.2
        · exact absurd rfl hs.1
      · exact .inr ⟨v, h⟩

theorem limit_cases (b : Bool) (l : List (X K)) (s : X K) (hs : s ≠ .nan) (h : .nan ∈ l ∨ .inf b ∈ l) : ¬ IsNumber (l.foldl (extreme b) s) := by
  by_cases hn : (.nan : X K) ∈ l
  · rw [fold_has_nan b l hn]; simp [IsNumber]
  · rw [fold_limit b l hn s hs (.inr (h.resolve_left hn))]; simp [IsNumber]

/-! ### Theorems -/

/-- **C142 (frames).** Scaling a frame with any method: the reference stays as it is, every other column is scaled on its own, at its place. -/
theorem frame_columns (f : List (X K) → List (X K) → List (X K)) (df : List (String × List (X K))) (i : ℕ) (ref : String × List (X K)) (hr : df[i]? = some ref) :
    ∃ out, scaleFrame f df i = some out ∧ out.length = df.length ∧
      ∀ j c, df[j]? = some c → out[j]? = some (if j = i then c else (c.1, f c.2 ref.2)) := by
  have hi : i < df.length := (List.getElem?_eq_some_iff.1 hr).1
  have hlen : ((df.eraseIdx i).map (fun c => (c.1, f c.2 ref.2))).length = df.length - 1 := by
    rw [List.length_map, List.length_eraseIdx_of_lt hi]
  refine ⟨((df.eraseIdx i).map (fun c => (c.1, f c.2 ref.2))).insertIdx i ref, by rw [scaleFrame, hr]; rfl, ?_, ?_⟩
  · rw [List.length_insertIdx_of_le_length (by omega), hlen]
    omega
  · intro j c hj
    rcases lt_trichotomy j i with h | h | h
    · rw [List.getElem?_insertIdx_of_lt h, List.getElem?_map, List.getElem?_eraseIdx_of_lt h, hj, if_neg (by omega)]
      rfl
    · subst h
      rw [hr] at hj
      obtain rfl := Option.some.inj hj
      rw [List.getElem?_insertIdx_self, if_pos (by omega), if_pos rfl]
    · rw [List.getElem?_insertIdx_of_gt h, List.getElem?_map, List.getElem?_eraseIdx_of_ge (by omega), Nat.sub_add_cancel (by omega), hj, if_neg (by omega)]
      rfl

/-- **C142 (minimum and maximum).** If the source has NaN or a negative infinite value, or the reference has a value that is no number, no scaled
value is a number. -/
theorem min_max_spoilt (M : Machine K) (src ref : List (X K)) (h : .nan ∈ src ∨ .inf true ∈ src ∨ HasNone ref) (r : X K) (hr : r ∈ minMax M src ref) :
    ¬ IsNumber r := by
  obtain ⟨v, -, rfl⟩ := List.mem_map.1 hr
  have src' : (.nan ∈ src ∨ .inf true ∈ src) → ¬ IsNumber (add M (mul M (div M (sub M v (smallest src)) (sub M (largest src) (smallest src)))
      (sub M (largest ref) (smallest ref))) (smallest ref)) := fun h =>
    add_spreads M _ _ (.inl (mul_spreads M _ _ (.inl (div_spreads M _ _ (sub_spreads M _ _ (.inr (limit_cases true src _ (by simp) h)))))))
  rcases h with h | h | ⟨x, hx, hn⟩
  · exact src' (.inl h)
  · exact src' (.inr h)
  · rcases x with x | b | _
    · exact absurd trivial hn
    · cases b
      · refine add_spreads M _ _ (.inl (mul_spreads M _ _ (.inr (sub_spreads M _ _ (.inl ?_)))))
        exact limit_cases false ref _ (by simp) (.inr hx)
      · exact add_spreads M _ _ (.inr (limit_cases true ref _ (by simp) (.inr hx)))
    · exact add_spreads M _ _ (.inr (limit_cases true ref _ (by simp) (.inl hx)))

variable [IsStrictOrderedRing K]

/-- a sum with an infinite summand is that infinity or NaN -/
theorem total_infinite (M : Machine K) (t : Rounding.Tree (X K)) (b : Bool) (h : .inf b ∈ t.leaves) : total M t = .inf b ∨ total M t = .nan := by
  induction t with
  | leaf w => simp only [Rounding.Tree.leaves, List.mem_singleton] at h; subst h; exact .inl rfl
  | node l r hl hr =>
    simp only [Rounding.Tree.leaves, List.mem_append] at h
    show add M (total M l) (total M r) = _ ∨ add M (total M l) (total M r) = _
    rcases h with h | h
    · rcases hl h with e | e <;> rw [e]
      · rcases total M r with x | c | _
        · exact .inl rfl
        · by_cases hc : b = c <;> simp [add, hc]
        · exact .inr rfl
      · exact .inr (add_nan_left M _)
    · rcases hr h with e | e <;> rw [e]
      · rcases total M l with x | c | _
        · exact .inl rfl
        · by_cases hc : c = b <;> simp [add, hc]
        · exact .inr rfl
      · exact .inr (add_nan_right M _)

theorem total_nan (M : Machine K) (t : Rounding.Tree (X K)) (h : .nan ∈ t.leaves) : total M t = .nan := by
  induction t with
  | leaf w => simp only [Rounding.Tree.leaves, List.mem_singleton] at h; subst h; rfl
  | node l r hl hr =>
    simp only [Rounding.Tree.leaves, List.mem_append] at h
    show add M (total M l) (total M r) = _
    rcases h with h | h
    · rw [hl h, add_nan_left]
    · rw [hr h, add_nan_right]

theorem sum_nan (M : Machine K) (order : List (X K) → Rounding.Tree (X K)) (ho : AddsAll order) (v : List (X K)) (h : .nan ∈ v) :
    total M (order v) = .nan :=
  total_nan M _ ((ho v (List.ne_nil_of_mem h)).mem_iff.2 h)

/-- the deviation of a value that is no number from the mean is NaN -/
theorem deviation_nan (M : Machine K) (order : List (X K) → Rounding.Tree (X K)) (ho : AddsAll order) (v : List (X K)) (x : X K) (hx : x ∈ v)
    (hn : ¬ IsNumber x) : sub M x (Pairwise.Infinite.npMean M order v) = .nan := by
  have hm : x ∈ (order v).leaves := (ho v (List.ne_nil_of_mem hx)).mem_iff.2 hx
  rcases x with x | b | _
  · exact absurd trivial hn
  · unfold Pairwise.Infinite.npMean
    rcases total_infinite M _ b hm with e | e <;> rw [e]
    · simp [div, sub, not_lt.2 (Nat.cast_nonneg (α := K) v.length)]
    · rw [div_nan_left, sub_nan_right]
  · exact sub_nan_left M _

theorem std_nan (M : Machine K) (order : List (X K) → Rounding.Tree (X K)) (ho : AddsAll order) (v : List (X K)) (h : HasNone v) :
    npStd M order v = .nan := by
  obtain ⟨x, hx, hn⟩ := h
  unfold npStd
  have : (.nan : X K) ∈ v.map (fun x => mul M (sub M x (Pairwise.Infinite.npMean M order v)) (sub M x (Pairwise.Infinite.npMean M order v))) :=
    List.mem_map.2 ⟨x, hx, by rw [deviation_nan M order ho v x hx hn, mul_nan_left]⟩
  conv_lhs => rw [Pairwise.Infinite.npMean]
  rw [sum_nan M order ho _ this, div_nan_left]
  rfl

/-- **C142 (mean and standard deviation).** If the source or the reference has a value that is no number, every scaled value is NaN: for all data,
orders of additions, roundings and overflows. -/
theorem mean_std_spoilt (M : Machine K) (order : List (X K) → Rounding.Tree (X K)) (ho : AddsAll order) (src ref : List (X K))
    (h : HasNone src ∨ HasNone ref) : meanStd M order src ref = List.replicate src.length .nan := by
  refine List.eq_replicate_iff.2 ⟨by simp [meanStd], fun r hr => ?_⟩
  obtain ⟨v, -, rfl⟩ := List.mem_map.1 hr
  rcases h with h | h
  · rw [std_nan M order ho src h, div_nan_right, mul_nan_left, add_nan_left]
  · rw [std_nan M order ho ref h, mul_nan_right, add_nan_left]

/-- **C142 (stored regression).** Scaling with stored parameters affects the value itself only: it is a number exactly where source and parameters
are, without overflow. -/
theorem linreg_stored (rnd sq : K → K) (src : List (X K)) (slope intercept : K) (i : ℕ) :
    (linregStored (rounded rnd sq) src (.fin slope) (.fin intercept))[i]? = src[i]?.map (fun v => match v with
      | .fin v => .fin (rnd (rnd (|slope| * v) + intercept))
      | .inf b => if slope = 0 then .nan else .inf b
      | .nan => .nan) := by
  unfold linregStored
  rw [List.getElem?_map]
  congr 1
  funext v
  rcases v with v | b | _
  · rfl
  · by_cases h : slope = 0
    · simp [Pairwise.Infinite.abs, mul, add, h]
    · have h' : |slope| ≠ 0 := abs_ne_zero.2 h
      simp [Pairwise.Infinite.abs, mul, add, h, h', not_lt.2 (abs_nonneg slope)]
  · rfl

/-- **C142 (regression).** If the source or the reference of `linreg` has a value that is no number, slope and intercept are NaN, and all
values scaled with these parameters, now (`linreg`) or later (`linreg_stored_params` for any data). -/
theorem linreg_spoilt (M : Machine K) (order : List (X K) → Rounding.Tree (X K)) (ho : AddsAll order) (l : List (X K × X K)) (h : Spoilt l) :
    regSlope M order l = .nan ∧ regIntercept M order l = .nan ∧ linreg M order l = List.replicate l.length .nan ∧
      ∀ src, linregStored M src (regSlope M order l) (regIntercept M order l) = List.replicate src.length .nan := by
  obtain ⟨p, hp, hn⟩ := h
  have hc : regCov M order l = .nan := by
    unfold regCov
    rw [sum_nan M order ho _ (List.mem_map.2 ⟨p, hp, ?_⟩), mul_nan_left]
    rcases hn with hn | hn
    · rw [deviation_nan M order ho (l.map Prod.fst) p.1 (List.mem_map.2 ⟨p, hp, rfl⟩) hn, mul_nan_left]
    · rw [deviation_nan M order ho (l.map Prod.snd) p.2 (List.mem_map.2 ⟨p, hp, rfl⟩) hn, mul_nan_right]
  have hs : regSlope M order l = .nan := by rw [regSlope, hc, div_nan_left]
  have hi : regIntercept M order l = .nan := by rw [regIntercept, hs, mul_nan_left, sub_nan_right]
  have all : ∀ src, linregStored M src (regSlope M order l) (regIntercept M order l) = List.replicate src.length .nan := by
    intro src
    refine List.eq_replicate_iff.2 ⟨by simp [linregStored], fun r hr => ?_⟩
    obtain ⟨v, -, rfl⟩ := List.mem_map.1 hr
    rw [hi, add_nan_right]
  exact ⟨hs, hi, by rw [linreg, all, List.length_map], all⟩

/-- **C142 (frames, mean and standard deviation).** In a scaled frame a column is all NaN if it or the reference has a value that is no number. -/
theorem frame_spoilt (M : Machine K) (order : List (X K) → Rounding.Tree (X K)) (ho : AddsAll order) (df : List (String × List (X K))) (i j : ℕ)
    (ref c : String × List (X K)) (hr : df[i]? = some ref) (hc : df[j]? = some c) (hij : j ≠ i) (h : HasNone c.2 ∨ HasNone ref.2) :
    ∃ out, scaleFrame (meanStd M order) df i = some out ∧ out[j]? = some (c.1, List.replicate c.2.length .nan) ∧ out[i]? = some ref := by
  obtain ⟨out, e, -, hout⟩ := frame_columns (meanStd M order) df i ref hr
  refine ⟨out, e, ?_, by rw [hout i ref hr, if_pos rfl]⟩
  rw [hout j c hc, if_neg hij, mean_std_spoilt M order ho c.2 ref.2 h]

/-- specification: the arithmetic of C127 with the sums of the trees `order` -/
def regArith (rnd : K → K) (order : List K → Rounding.Tree K) : Rounding.RegArith K :=
  ⟨rnd, fun l => (order l).sum rnd, fun l => (order l).sum rnd, fun l => (order l).sum rnd, fun l => (order l).sum rnd, fun a b => rnd (a * b)⟩

/-- **C142 (numbers, regression).** For numbers without overflow, whose computed variance is not 0, `linreg` is that of C127. -/
theorem numbers_linreg (rnd sq : K → K) (order : List K → Rounding.Tree K) (orderX : List (X K) → Rounding.Tree (X K))
    (ho : ∀ v, orderX (v.map .fin) = liftTree (order v)) (l : List (K × K)) (hl : l ≠ [])
    (hv : Rounding.covF (regArith rnd order) (regArith rnd order).dotXX (l.map (fun p => (p.1, p.1))) ≠ 0) :
    linreg (rounded rnd sq) orderX (lift l) = (Rounding.linregF (regArith rnd order) l).map .fin := by
  have mean : ∀ v : List K, v ≠ [] → Pairwise.Infinite.npMean (rounded rnd sq) orderX (v.map .fin) = .fin (Rounding.npMeanF rnd (fun l => (order l).sum rnd) v) := by
    intro v hv
    have h0 : ((v.length : ℕ) : K) ≠ 0 := Nat.cast_ne_zero.2 (by simpa using hv)
    unfold Pairwise.Infinite.npMean Rounding.npMeanF
    rw [ho, total_lift, List.length_map]
    simp only [div, if_neg h0, rounded]
  have fst : ∀ l : List (K × K), (lift l).map Prod.fst = (l.map Prod.fst).map .fin := fun l => by
    simp [lift, List.map_map, Function.comp_def]
  have snd : ∀ l : List (K × K), (lift l).map Prod.snd = (l.map Prod.snd).map .fin := fun l => by
    simp [lift, List.map_map, Function.comp_def]
  have hc : ∀ l : List (K × K), l ≠ [] → regCov (rounded rnd sq) orderX (lift l) = .fin (Rounding.covF (regArith rnd order) (regArith rnd order).dotXX l) := by
    intro l hl
    have h0 : ((l.length : ℕ) : K) ≠ 0 := Nat.cast_ne_zero.2 (by simpa using hl)
    unfold regCov
    rw [fst, snd, mean _ (by simpa using hl), mean _ (by simpa using hl)]
    have : (lift l).map (fun p => mul (rounded rnd sq) (sub (rounded rnd sq) p.1 (.fin (Rounding.npMeanF rnd (fun l => (order l).sum rnd) (l.map Prod.fst))))
        (sub (rounded rnd sq) p.2 (.fin (Rounding.npMeanF rnd (fun l => (order l).sum rnd) (l.map Prod.snd))))) =
        (l.map (fun p => rnd (rnd (p.1 - Rounding.npMeanF rnd (fun l => (order l).sum rnd) (l.map Prod.fst)) *
          rnd (p.2 - Rounding.npMeanF rnd (fun l => (order l).sum rnd) (l.map Prod.snd))))).map .fin := by
      simp only [lift, List.map_map]
      rfl
    have hlen : (lift l).length = l.length := by simp [lift]
    rw [this, ho, total_lift, hlen]
    simp only [div, if_neg h0, rounded, mul]
    rfl
  have hs : regSlope (rounded rnd sq) orderX (lift l) = .fin (Rounding.slopeF (regArith rnd order) l) := by
    unfold regSlope
    have : (lift l).map (fun p => (p.1, p.1)) = lift (l.map (fun p => (p.1, p.1))) := by simp [lift, List.map_map, Function.comp_def]
    rw [this, hc l hl, hc _ (by simpa using hl)]
    simp only [div, if_neg hv, rounded]
    rfl
  have hi : regIntercept (rounded rnd sq) orderX (lift l) = .fin (Rounding.interceptF (regArith rnd order) l) := by
    unfold regIntercept
    rw [hs, fst, snd, mean _ (by simpa using hl), mean _ (by simpa using hl)]
    rfl
  unfold linreg Rounding.linregF linregStored Rounding.linregStored
  rw [hs, hi, fst]
  simp only [List.map_map]
  rfl

/-- **C142 (negation).** A positive infinite value in the source of `min_max`: every number of the source becomes the smallest value of the
reference. For all such data. -/
theorem min_max_infinite (rnd sq : K → K) (h0 : rnd 0 = 0) (src : List (X K)) (hs : ∀ x ∈ src, x ≠ .nan ∧ x ≠ .inf true) (hinf : .inf false ∈ src)
    (ref : List K) (lo : K) (hlo : lo ∈ ref) (hlo' : ∀ x ∈ ref, lo ≤ x) (hst : rnd lo = lo) (i : ℕ) (v : K) (hv : src[i]? = some (.fin v)) :
    (minMax (rounded rnd sq) src (ref.map .fin))[i]? = some (.fin lo) := by
  have hmin : IsNumber (smallest src) := smallest_number src hs _ (by simp) (.inr ⟨v, List.mem_of_getElem? hv⟩)
  have hmax : largest src = .inf false := by
    have := fold_limit false src (fun h => (hs _ h).1 rfl) (.inf true) (by simp) (.inr hinf)
    exact this
  have hr : smallest (ref.map .fin) = .fin lo := extreme_smallest ref lo hlo hlo'
  obtain ⟨hi, hhi, hhi'⟩ : ∃ m ∈ ref, ∀ x ∈ ref, x ≤ m := by
    have hne : ref ≠ [] := List.ne_nil_of_mem hlo
    clear hlo hlo' hr
    induction ref with
    | nil => exact absurd rfl hne
    | cons a l ih =>
      cases l with
      | nil => exact ⟨a, by simp, by simp⟩
      | cons b l =>
        obtain ⟨m, hm, hm'⟩ := ih (by simp)
        rcases le_total a m with h | h
        · exact ⟨m, List.mem_cons_of_mem _ hm, fun x hx => by rcases List.mem_cons.1 hx with rfl | hx; exacts [h, hm' x hx]⟩
        · exact ⟨a, by simp, fun x hx => by rcases List.mem_cons.1 hx with rfl | hx; exacts [le_refl _, le_trans (hm' x hx) h]⟩
  have hr' : largest (ref.map .fin) = .fin hi := extreme_largest ref hi hhi hhi'
  unfold minMax
  rw [List.getElem?_map, hv, Option.map_some, hmax, hr, hr']
  rcases hm : smallest src with m | b | _
  · simp only [sub, div, mul, add, rounded, zero_mul, h0, zero_add, hst]
  · rw [hm] at hmin; exact absurd hmin (by simp [IsNumber])
  · rw [hm] at hmin; exact absurd hmin (by simp [IsNumber])

/-- **C142 (numbers).** For numbers without overflow `min_max` and `mean_std` are those of C108, with extremes, means and standard deviations of the
machine. -/
theorem numbers_scaled (rnd sq : K → K) (order : List K → Rounding.Tree K) (orderX : List (X K) → Rounding.Tree (X K))
    (ho : ∀ v, orderX (v.map .fin) = liftTree (order v)) (src ref : List K) (hs : src ≠ []) (hr : ref ≠ []) (mn mx rmn rmx : K)
    (h1 : mn ∈ src ∧ ∀ x ∈ src, mn ≤ x) (h2 : mx ∈ src ∧ ∀ x ∈ src, x ≤ mx) (h3 : rmn ∈ ref ∧ ∀ x ∈ ref, rmn ≤ x) (h4 : rmx ∈ ref ∧ ∀ x ∈ ref, x ≤ rmx)
    (m s rm rs : K) (hm : m = Rounding.npMean rnd order src) (hrm : rm = Rounding.npMean rnd order ref)
    (hsd : s = sq (Rounding.npMean rnd order (src.map (fun x => rnd (rnd (x - m) * rnd (x - m))))))
    (hrsd : rs = sq (Rounding.npMean rnd order (ref.map (fun x => rnd (rnd (x - rm) * rnd (x - rm))))))
    (hnn : 0 ≤ Rounding.npMean rnd order (src.map (fun x => rnd (rnd (x - m) * rnd (x - m)))))
    (hnn' : 0 ≤ Rounding.npMean rnd order (ref.map (fun x => rnd (rnd (x - rm) * rnd (x - rm))))) :
    (rnd (mx - mn) ≠ 0 → minMax (rounded rnd sq) (src.map .fin) (ref.map .fin) = (src.map (Rounding.minMaxValue rnd mn mx rmn rmx)).map .fin) ∧
    (s ≠ 0 → meanStd (rounded rnd sq) orderX (src.map .fin) (ref.map .fin) = (Rounding.meanStd rnd m s rm rs src).map .fin) := by
  have mean : ∀ v : List K, v ≠ [] → Pairwise.Infinite.npMean (rounded rnd sq) orderX (v.map .fin) = .fin (Rounding.npMean rnd order v) := by
    intro v hv
    have h0 : ((v.length : ℕ) : K) ≠ 0 := Nat.cast_ne_zero.2 (by simpa using hv)
    unfold Pairwise.Infinite.npMean Rounding.npMean
    rw [ho, total_lift, List.length_map]
    simp only [div, if_neg h0, rounded]
  have std : ∀ v : List K, v ≠ [] → 0 ≤ Rounding.npMean rnd order (v.map (fun x =>
      rnd (rnd (x - Rounding.npMean rnd order v) * rnd (x - Rounding.npMean rnd order v)))) → npStd (rounded rnd sq) orderX (v.map .fin) =
      .fin (sq (Rounding.npMean rnd order (v.map (fun x => rnd (rnd (x - Rounding.npMean rnd order v) * rnd (x - Rounding.npMean rnd order v)))))) := by
    intro v hv hn
    unfold npStd
    rw [mean v hv]
    have : (v.map X.fin).map (fun x => mul (rounded rnd sq) (sub (rounded rnd sq) x (.fin (Rounding.npMean rnd order v)))
        (sub (rounded rnd sq) x (.fin (Rounding.npMean rnd order v)))) =
        (v.map (fun x => rnd (rnd (x - Rounding.npMean rnd order v) * rnd (x - Rounding.npMean rnd order v)))).map .fin := by
      rw [List.map_map, List.map_map]
      rfl
    rw [this, mean _ (by simpa using hv)]
    simp only [sqrt, if_neg (not_lt.2 hn), rounded]
  have a1 : smallest (src.map .fin) = .fin mn := extreme_smallest src mn h1.1 h1.2
  have a2 : largest (src.map .fin) = .fin mx := extreme_largest src mx h2.1 h2.2
  have a3 : smallest (ref.map .fin) = .fin rmn := extreme_smallest ref rmn h3.1 h3.2
  have a4 : largest (ref.map .fin) = .fin rmx := extreme_largest ref rmx h4.1 h4.2
  constructor
  · intro hd
    unfold minMax
    rw [a1, a2, a3, a4, List.map_map, List.map_map]
    refine List.map_congr_left (fun v _ => ?_)
    simp only [Function.comp, sub, div, mul, add, rounded, if_neg hd, Rounding.minMaxValue]
  · intro hd
    subst hm hrm
    unfold meanStd Rounding.meanStd
    rw [std src hs hnn, std ref hr hnn', mean src hs, mean ref hr, ← hsd, ← hrsd, List.map_map, List.map_map]
    refine List.map_congr_left (fun v _ => ?_)
    simp only [Function.comp, sub, div, mul, add, rounded, if_neg hd]

/-! ### Concrete cases -/

open Verif.Rolling.Fl (rnd64)

/-- Scaled to 10, 20, 30 the values 1, 2, 3 become 10, 20, 30; with an infinite value instead of 3 the numbers all become 10. -/
theorem min_max_sample :
    minMax (double id) [.fin 1, .fin 2, .fin 3] [.fin 10, .fin 20, .fin 30] = [.fin 10, .fin 20, .fin 30] ∧
    minMax (double id) [.fin 1, .fin 2, .inf false] [.fin 10, .fin 20, .fin 30] = [.fin 10, .fin 10, .nan] ∧
    minMax (double id) [.fin 1, .fin 2, .inf true] [.fin 10, .fin 20, .fin 30] = [.nan, .nan, .nan] := by
  decide +kernel


/-- The values 1, 3 scaled to 10, 30 (mean 20, standard deviation 10) become 10, 30; with an infinite value in the source or the reference nothing is
a number. -/
theorem mean_std_sample :
    meanStd (double (fun x => if x = 100 then 10 else x)) (chain (.fin 0)) [.fin 1, .fin 3] [.fin 10, .fin 30] = [.fin 10, .fin 30] ∧
    meanStd (double (fun x => if x = 100 then 10 else x)) (chain (.fin 0)) [.fin 1, .inf false] [.fin 10, .fin 30] = [.nan, .nan] ∧
    meanStd (double (fun x => if x = 100 then 10 else x)) (chain (.fin 0)) [.fin 1, .fin 3] [.fin 10, .inf true] = [.nan, .nan] := by
  decide +kernel

theorem linreg_sample :
    linregStored (double id) [.fin 1, .inf true, .nan, .fin 4] (.fin (-2)) (.fin 5) = [.fin 7, .inf true, .nan, .fin 13] ∧
    linregStored (double id) [.fin 1, .inf true] (.fin 0) (.fin 5) = [.fin 5, .nan] := by
  decide +kernel

/-- The points (1, 10), (3, 30) are on the line 10 x; with an infinite reference value the stored parameters are NaN. -/
theorem regression_sample :
    linreg (double id) (chain (.fin 0)) [(.fin 1, .fin 10), (.fin 3, .fin 30)] = [.fin 10, .fin 30] ∧
    regSlope (double id) (chain (.fin 0)) [(.fin 1, .fin 10), (.fin 3, .inf false)] = .nan ∧
    linreg (double id) (chain (.fin 0)) [(.fin 1, .fin 10), (.fin 3, .inf false)] = [.nan, .nan] := by
  decide +kernel

/-- the hypotheses of `numbers_linreg` -/
example : Rounding.covF (regArith id (chain 0)) (regArith id (chain 0)).dotXX ([((1 : ℚ), (10 : ℚ)), (3, 30)].map (fun p => (p.1, p.1))) ≠ 0 := by
  decide +kernel

example : HasNone [(.fin 1 : X ℚ), .inf true] := ⟨.inf true, by simp, by simp [IsNumber]⟩

/-- the hypotheses of the negation are met by the second case of `min_max_sample` -/
example (sq : ℚ → ℚ) : (minMax (rounded rnd64 sq) [.fin 1, .fin 2, .inf false] ([20, 10, 30].map .fin))[1]? = some (.fin 10) :=
  min_max_infinite rnd64 sq (by decide +kernel) _ (by simp) (by simp) [20, 10, 30] 10 (by simp) (by simp; norm_num) (by decide +kernel) 1 2 rfl

/-- those of `numbers_scaled` -/
example : (Rounding.npMean id (chain 0) [(1 : ℚ), 3]) = 2 ∧
    minMax (rounded id id) ([(1 : ℚ), 3].map .fin) ([10, 30].map .fin) = ([1, 3].map (Rounding.minMaxValue id 1 3 10 30)).map .fin ∧
    meanStd (rounded id id) (chain (.fin 0)) ([(1 : ℚ), 3].map .fin) ([10, 30].map .fin) = (Rounding.meanStd id 2 1 20 100 [1, 3]).map .fin := by
  have h := numbers_scaled id id (chain 0) (chain (.fin 0)) chain_lift [(1 : ℚ), 3] [10, 30] (by simp) (by simp) 1 3 10 30
    (by simp) (by simp) (by simp; norm_num) (by simp; norm_num) 2 1 20 100 (by decide +kernel) (by decide +kernel)
    (by decide +kernel) (by decide +kernel) (by decide +kernel) (by decide +kernel)
  exact ⟨by decide +kernel, h.1 (by norm_num), h.2 (by norm_num)⟩

/-- a frame with an infinite value in one column: the reference `b` and the column `c` are as without it -/
theorem frame_sample :
    scaleFrame (meanStd (double (fun x => if x = 100 then 10 else x)) (sequence (.fin 0)))
      [("a", [.fin 1, .inf true]), ("b", [.fin 10, .fin 30]), ("c", [.fin 1, .fin 3])] 1 =
      some [("a", [.nan, .nan]), ("b", [.fin 10, .fin 30]), ("c", [.fin 10, .fin 30])] := by
  decide +kernel

/-- those of `mean_std_spoilt`, `min_max_spoilt`, `linreg_spoilt` and `linreg_stored`, in double precision and with any square root -/
example (sq : ℚ → ℚ) : meanStd (double sq) (sequence (.fin 0)) [.fin 1, .inf true, .fin 5] [.fin 3, .fin 4, .fin 9] = [.nan, .nan, .nan] ∧
    (∀ r ∈ minMax (double sq) [.fin 1, .fin 2] [.fin 3, .inf false], ¬ IsNumber r) ∧
    linreg (double sq) (sequence (.fin 0)) [(.fin 1, .fin 3), (.fin 2, .nan)] = [.nan, .nan] ∧
    (linregStored (rounded rnd64 sq) [.fin 4, .inf false] (.fin (-2)) (.fin 1))[1]? = some (.inf false) := by
  refine ⟨mean_std_spoilt (double sq) _ sequence_addsAll _ _ (.inl ⟨.inf true, by simp, by simp [IsNumber]⟩),
    min_max_spoilt (double sq) _ _ (.inr (.inr ⟨.inf false, by simp, by simp [IsNumber]⟩)),
    (linreg_spoilt (double sq) _ sequence_addsAll _ ⟨(.fin 2, .nan), by simp, .inr (by simp [IsNumber])⟩).2.2.1, ?_⟩
  rw [linreg_stored]
  norm_num

end Verif.Scaling.Infinite
