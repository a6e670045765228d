import Verif.Rolling.Props
import Verif.Pairwise.Invariance

/-!
C102: rolling metrics on another clock, in other units, for exchanged series, in reversed time, for other `min_periods` and
other observations outside the window.
-/

namespace Verif.Rolling

open Verif.Moments Verif.Pairwise

/-! ## Specification -/

/-- R with its sign turned over if `flip`, the same p-value, the RMSD times a factor -/
def Out.change (flip : Bool) (k : ℝ) (o : Out) : Out :=
  ⟨o.pr.map (fun r => (if flip then -r.1 else r.1, r.2)), o.rmsd.map (k * ·)⟩

/-! ## Clock -/

theorem scan_congr (c c' : ℕ → Prop) [DecidablePred c] [DecidablePred c'] (h : ∀ j, c j ↔ c' j) :
    ∀ (l : List ℕ) (v : ℕ), scan c v l = scan c' v l
  | [], _ => rfl
  | j :: js, v => by
    unfold scan
    by_cases hc : c j
    · rw [if_pos hc, if_pos ((h j).mp hc)]
    · rw [if_neg hc, if_neg (fun h' => hc ((h j).mpr h'))]
      exact scan_congr c c' h js j

theorem bounds_clock (ts : ℕ → ℝ) (n : ℕ) (w : ℝ) (center : Bool) (k b : ℝ) (hk : 0 < k) (i lo hi : ℕ) :
    bounds (fun j => k * ts j + b) n (k * w) center i lo hi = bounds ts n w center i lo hi := by
  have h1 : ∀ j, (k * ts j + b ≥ k * ts i + b - k * w) ↔ ts j ≥ ts i - w := by
    intro j
    rw [ge_iff_le, ge_iff_le, ← mul_le_mul_iff_right₀ hk (b := ts i - w)]
    constructor <;> intro h <;> linarith
  have h2 : ∀ j, (k * ts j + b > k * ts i + b + k * w) ↔ ts j > ts i + w := by
    intro j
    rw [gt_iff_lt, gt_iff_lt, ← mul_lt_mul_iff_right₀ hk (b := ts i + w)]
    constructor <;> intro h <;> linarith
  have h3 : ∀ j, (k * ts j + b > k * ts i + b - k * w) ↔ ts j > ts i - w := by
    intro j
    rw [gt_iff_lt, gt_iff_lt, ← mul_lt_mul_iff_right₀ hk (b := ts i - w)]
    constructor <;> intro h <;> linarith
  unfold bounds
  cases center with
  | true =>
    simp only [if_true]
    refine Prod.ext (scan_congr _ _ h1 _ _) ?_
    simp only
    by_cases hc : ts (n - 1) > ts i + w
    · rw [if_pos hc, if_pos ((h2 _).mpr hc)]
      exact scan_congr _ _ h2 _ _
    · rw [if_neg hc, if_neg (fun h => hc ((h2 _).mp h))]
  | false =>
    simp only [Bool.false_eq_true, if_false]
    exact Prod.ext (scan_congr _ _ h3 _ _) rfl

/-- C102, part 1: for time stamps and window on another clock (other time unit, other epoch) all outputs are the same, whatever the
order of the time stamps. -/
theorem rolling_clock (betainc : ℝ → ℝ → ℝ → ℝ) (ts : ℕ → ℝ) (d : ℕ → ℝ × ℝ) (n : ℕ) (w : ℝ) (center : Bool) (minPeriods : ℤ)
    (k b : ℝ) (hk : 0 < k) :
    rollingPrRmsd betainc (fun j => k * ts j + b) d n (k * w) center minPeriods = rollingPrRmsd betainc ts d n w center minPeriods := by
  have h : ∀ (l : List ℕ) (s : State), loop betainc (fun j => k * ts j + b) d n (k * w) center minPeriods s l =
      loop betainc ts d n w center minPeriods s l := by
    intro l
    induction l with
    | nil => intro s; rfl
    | cons i l ih =>
      intro s
      have hr : round betainc (fun j => k * ts j + b) d n (k * w) center minPeriods s i = round betainc ts d n w center minPeriods s i := by
        unfold round
        rw [bounds_clock ts n w center k b hk]
      rw [loop, loop, hr, ih]
  exact h _ _

example := rolling_clock (fun _ _ x => x) (fun j => (j : ℝ)) (fun j => ((j : ℝ), (j : ℝ) ^ 2)) 5 2 true 3 24 (1 / 2) (by norm_num)

/-! ## Fewer observations asked for -/

theorem loop_length (betainc : ℝ → ℝ → ℝ → ℝ) (ts : ℕ → ℝ) (d : ℕ → ℝ × ℝ) (n : ℕ) (w : ℝ) (center : Bool) (minPeriods : ℤ) :
    ∀ (l : List ℕ) (s : State), (loop betainc ts d n w center minPeriods s l).length = l.length
  | [], _ => rfl
  | i :: l, s => by
    rw [loop]
    simp [loop_length betainc ts d n w center minPeriods l]

theorem rolling_length (betainc : ℝ → ℝ → ℝ → ℝ) (ts : ℕ → ℝ) (d : ℕ → ℝ × ℝ) (n : ℕ) (w : ℝ) (center : Bool) (minPeriods : ℤ) :
    (rollingPrRmsd betainc ts d n w center minPeriods).length = n := by
  unfold rollingPrRmsd
  rw [loop_length, List.length_range]

/-- C102, part 2: `min_periods` only decides which outputs are NaN: for a larger number every output is NaN or what it was before, and
what was NaN stays NaN. -/
theorem rolling_min_periods (betainc : ℝ → ℝ → ℝ → ℝ) (ts : ℕ → ℝ) (d : ℕ → ℝ × ℝ) (n : ℕ) (w : ℝ) (center : Bool) (m m' : ℤ)
    (hm : m ≤ m') :
    List.Forall₂ (fun o o' : Out => o' = o ∨ o' = ⟨none, none⟩) (rollingPrRmsd betainc ts d n w center m)
      (rollingPrRmsd betainc ts d n w center m') := by
  have h : ∀ (l : List ℕ) (s : State), List.Forall₂ (fun o o' : Out => o' = o ∨ o' = ⟨none, none⟩)
      (loop betainc ts d n w center m s l) (loop betainc ts d n w center m' s l) := by
    intro l
    induction l with
    | nil => intro s; exact List.Forall₂.nil
    | cons i l ih =>
      intro s
      rw [loop, loop]
      refine List.Forall₂.cons ?_ ?_
      · unfold round
        simp only
        generalize ((bounds ts n w center i s.lower s.hi).2 : ℤ) - ((bounds ts n w center i s.lower s.hi).1 : ℤ) = q
        by_cases h1 : q = 0 ∨ q < m'
        · rw [if_pos h1]; exact Or.inr rfl
        · rw [if_neg h1, if_neg (fun h2 => h1 (h2.imp id (fun h3 => lt_of_lt_of_le h3 hm)))]
          exact Or.inl rfl
      · exact ih _
  exact h _ _

example := rolling_min_periods (fun _ _ x => x) (fun j => (j : ℝ)) (fun j => ((j : ℝ), (j : ℝ) ^ 2)) 5 2 true 3 4 (by norm_num)

/-! ## Outputs are functions of the window -/

/-- what the code uses for the output of `i`: `|t_j - t_i| ≤ w` if centred, the observations up to position `i` later than `t_i - w` otherwise -/
noncomputable def used (ts : ℕ → ℝ) (d : ℕ → ℝ × ℝ) (n : ℕ) (w : ℝ) (center : Bool) (i : ℕ) : List (ℝ × ℝ) :=
  if center then window ts d n w true i else window ts d (i + 1) w false i

/-- window sizes that are allowed -/
def Size (center : Bool) (w : ℝ) : Prop := if center then 0 ≤ w else 0 < w

theorem rolling_values (betainc : ℝ → ℝ → ℝ → ℝ) (ts : ℕ → ℝ) (d : ℕ → ℝ × ℝ) (n : ℕ) (w : ℝ) (center : Bool) (minPeriods : ℤ)
    (hw : Size center w) (hs : ∀ a b, a ≤ b → b < n → ts a ≤ ts b) :
    ∀ i, i < n → (rollingPrRmsd betainc ts d n w center minPeriods)[i]? =
      some ⟨expectedPr betainc minPeriods (used ts d n w center i), expectedRmsd minPeriods (used ts d n w center i)⟩ := by
  intro i hi
  cases center with
  | true =>
    obtain ⟨o, h1, h2, h3⟩ := (rolling_center_correct betainc ts d n w minPeriods hw hs).2 i hi
    rw [h1]
    cases o
    simp only at h2 h3
    rw [h2, h3]
    rfl
  | false =>
    obtain ⟨o, h1, h2, h3⟩ := rolling_trailing_positions_partial betainc ts d n w minPeriods hw hs i hi
    rw [h1]
    cases o
    simp only at h2 h3
    rw [h2, h3]
    rfl

theorem rolling_ext (betainc : ℝ → ℝ → ℝ → ℝ) (ts ts' : ℕ → ℝ) (d d' : ℕ → ℝ × ℝ) (n : ℕ) (w w' : ℝ) (center : Bool) (minPeriods : ℤ)
    (hw : Size center w) (hw' : Size center w') (hs : ∀ a b, a ≤ b → b < n → ts a ≤ ts b) (hs' : ∀ a b, a ≤ b → b < n → ts' a ≤ ts' b)
    (f : Out → Out)
    (h : ∀ i, i < n → (⟨expectedPr betainc minPeriods (used ts' d' n w' center i), expectedRmsd minPeriods (used ts' d' n w' center i)⟩ : Out) =
      f ⟨expectedPr betainc minPeriods (used ts d n w center i), expectedRmsd minPeriods (used ts d n w center i)⟩) :
    rollingPrRmsd betainc ts' d' n w' center minPeriods = (rollingPrRmsd betainc ts d n w center minPeriods).map f := by
  apply List.ext_getElem?
  intro i
  rw [List.getElem?_map]
  by_cases hi : i < n
  · rw [rolling_values betainc ts d n w center minPeriods hw hs i hi, rolling_values betainc ts' d' n w' center minPeriods hw' hs' i hi,
      Option.map_some, h i hi]
  · rw [List.getElem?_eq_none (by rw [rolling_length]; omega), List.getElem?_eq_none (by rw [rolling_length]; omega)]
    rfl

theorem used_map (ts : ℕ → ℝ) (d : ℕ → ℝ × ℝ) (g : ℝ × ℝ → ℝ × ℝ) (n : ℕ) (w : ℝ) (center : Bool) (i : ℕ) :
    used ts (fun j => g (d j)) n w center i = (used ts d n w center i).map g := by
  cases center <;> simp [used, window, List.map_map, Function.comp_def]

theorem used_mem (ts : ℕ → ℝ) (d : ℕ → ℝ × ℝ) (n : ℕ) (w : ℝ) (center : Bool) (hw : Size center w) (i : ℕ) (hi : i < n) :
    used ts d n w center i ≠ [] := by
  cases center with
  | true =>
    have hw : 0 ≤ w := hw
    refine List.ne_nil_of_mem (a := d i) ?_
    simp only [used, window, if_true, List.mem_map, List.mem_filter, List.mem_range, decide_eq_true_eq]
    exact ⟨i, ⟨hi, by simpa using hw⟩, rfl⟩
  | false =>
    have hw : 0 < w := hw
    refine List.ne_nil_of_mem (a := d i) ?_
    simp only [used, window, Bool.false_eq_true, if_false, List.mem_map, List.mem_filter, List.mem_range, decide_eq_true_eq]
    exact ⟨i, ⟨by omega, by linarith, le_refl _⟩, rfl⟩

theorem pvalue_neg (betainc : ℝ → ℝ → ℝ → ℝ) (r n : ℝ) : pvalue betainc (-r) n = pvalue betainc r n := by
  unfold pvalue
  rw [abs_neg]
  have h1 : -r * -r = r * r := by ring
  have h2 : (1 - -r) * (1 + -r) = (1 - r) * (1 + r) := by ring
  rw [h1, h2]

theorem pearson_perm {l l' : Pairs} (h : l.Perm l') : pearson l = pearson l' := by
  unfold pearson
  rw [pvar_perm (h.map Prod.fst), pvar_perm (h.map Prod.snd), pcov_perm h]

theorem meanSqDiff_perm {l l' : Pairs} (h : l.Perm l') : meanSqDiff l = meanSqDiff l' := mean_perm (h.map _)

/-- correlation in other units -/
theorem pearson_of_units (a b c d : ℝ) (ha : a ≠ 0) (hc : c ≠ 0) (l : Pairs) (hl : l ≠ []) :
    pearson (units a b c d l) = (pearson l).map (fun r => if decide (a * c < 0) then -r else r) := by
  unfold pearson
  rw [units_fst, units_snd, pvar_affine l hl, pvar_affine l hl, pcov_units a b c d l hl]
  have h1 : (a ^ 2 * pvar (l.map Prod.fst) = 0 ∨ c ^ 2 * pvar (l.map Prod.snd) = 0) ↔
      (pvar (l.map Prod.fst) = 0 ∨ pvar (l.map Prod.snd) = 0) := by
    simp [ha, hc]
  by_cases h : pvar (l.map Prod.fst) = 0 ∨ pvar (l.map Prod.snd) = 0
  · rw [if_pos (h1.mpr h), if_pos h]; rfl
  · rw [if_neg (fun h' => h (h1.mp h')), if_neg h, Real.sqrt_mul (sq_nonneg a), Real.sqrt_mul (sq_nonneg c), Real.sqrt_sq_eq_abs,
      Real.sqrt_sq_eq_abs]
    simp only [Option.map_some, Option.some.injEq, decide_eq_true_eq]
    generalize Real.sqrt (pvar (l.map Prod.fst)) = p
    generalize Real.sqrt (pvar (l.map Prod.snd)) = q
    have e1 : |a| * p * (|c| * q) = |a * c| * (p * q) := by rw [abs_mul]; ring
    rw [e1]
    have hac : a * c ≠ 0 := mul_ne_zero ha hc
    by_cases hn : a * c < 0
    · rw [if_pos hn, abs_of_neg hn, neg_mul, div_neg, mul_div_mul_left _ _ hac]
    · rw [if_neg hn, abs_of_nonneg (not_lt.mp hn), mul_div_mul_left _ _ hac]

theorem expectedPr_units (betainc : ℝ → ℝ → ℝ → ℝ) (m : ℤ) (a b c d : ℝ) (ha : a ≠ 0) (hc : c ≠ 0) (l : Pairs) (hl : l ≠ []) :
    expectedPr betainc m (units a b c d l) =
      (expectedPr betainc m l).map (fun r => (if decide (a * c < 0) then -r.1 else r.1, r.2)) := by
  unfold expectedPr
  rw [units_length, pearson_of_units a b c d ha hc l hl]
  by_cases h : (l.length : ℤ) < m
  · rw [if_pos h, if_pos h]; rfl
  · rw [if_neg h, if_neg h]
    cases pearson l with
    | none => rfl
    | some r =>
      simp only [Option.map_some, Option.some.injEq]
      by_cases hn : a * c < 0
      · simp [hn, pvalue_neg]
      · simp [hn]

theorem expectedRmsd_units (m : ℤ) (a b : ℝ) (l : Pairs) :
    expectedRmsd m (units a b a b l) = (expectedRmsd m l).map (|a| * ·) := by
  unfold expectedRmsd
  rw [units_length]
  by_cases h : (l.length : ℤ) < m
  · rw [if_pos h, if_pos h]; rfl
  · rw [if_neg h, if_neg h]
    simp only [Option.map_some, Option.some.injEq]
    have : meanSqDiff (units a b a b l) = a ^ 2 * meanSqDiff l := by
      unfold meanSqDiff units
      rw [List.map_map, mean_map, mean_map, ← mul_div_assoc, ← S_mul]
      congr 1
      · exact S_congr _ _ _ (fun p _ => by simp only [Function.comp]; ring)
    rw [this, Real.sqrt_mul (sq_nonneg a), Real.sqrt_sq_eq_abs]

/-- C102, part 3: for both series in other units (any gain other than 0, any offset) R and p-value are the same and the RMSD has the
size of the gain as its factor, in every window of both kinds. -/
theorem rolling_units (betainc : ℝ → ℝ → ℝ → ℝ) (ts : ℕ → ℝ) (d : ℕ → ℝ × ℝ) (n : ℕ) (w : ℝ) (center : Bool) (minPeriods : ℤ)
    (hw : Size center w) (hs : ∀ a b, a ≤ b → b < n → ts a ≤ ts b) (a b : ℝ) (ha : a ≠ 0) :
    rollingPrRmsd betainc ts (fun j => (a * (d j).1 + b, a * (d j).2 + b)) n w center minPeriods =
      (rollingPrRmsd betainc ts d n w center minPeriods).map (Out.change false |a|) := by
  refine rolling_ext betainc ts ts d _ n w w center minPeriods hw hw hs hs _ (fun i hi => ?_)
  have hl := used_mem ts d n w center hw i hi
  have hu : used ts (fun j => (a * (d j).1 + b, a * (d j).2 + b)) n w center i = units a b a b (used ts d n w center i) :=
    used_map ts d (fun p => (a * p.1 + b, a * p.2 + b)) n w center i
  rw [hu, expectedPr_units betainc minPeriods a b a b ha ha _ hl, expectedRmsd_units]
  have : decide (a * a < 0) = false := by simpa using mul_self_nonneg a
  rw [this]
  rfl

example := rolling_units (fun _ _ x => x) (fun j => (j : ℝ)) (fun j => ((j : ℝ), (j : ℝ) ^ 2)) 5 2 true 3 (by norm_num [Size])
  (fun a b hab _ => by exact_mod_cast hab) (-100) 7 (by norm_num)

/-- C102, part 4: separate units of the two series leave the p-values as they are, and R up to its sign, which changes if one of the series
is turned over. -/
theorem rolling_units_separate (betainc : ℝ → ℝ → ℝ → ℝ) (ts : ℕ → ℝ) (d : ℕ → ℝ × ℝ) (n : ℕ) (w : ℝ) (center : Bool) (minPeriods : ℤ)
    (hw : Size center w) (hs : ∀ a b, a ≤ b → b < n → ts a ≤ ts b) (a b c e : ℝ) (ha : a ≠ 0) (hc : c ≠ 0) :
    (rollingPrRmsd betainc ts (fun j => (a * (d j).1 + b, c * (d j).2 + e)) n w center minPeriods).map Out.pr =
      (rollingPrRmsd betainc ts d n w center minPeriods).map (fun o => (o.change (decide (a * c < 0)) 1).pr) := by
  apply List.ext_getElem?
  intro i
  rw [List.getElem?_map, List.getElem?_map]
  by_cases hi : i < n
  · have hl := used_mem ts d n w center hw i hi
    have hu : used ts (fun j => (a * (d j).1 + b, c * (d j).2 + e)) n w center i = units a b c e (used ts d n w center i) :=
      used_map ts d (fun p => (a * p.1 + b, c * p.2 + e)) n w center i
    rw [rolling_values betainc ts d n w center minPeriods hw hs i hi, rolling_values betainc ts _ n w center minPeriods hw hs i hi, hu,
      expectedPr_units betainc minPeriods a b c e ha hc _ hl]
    rfl
  · rw [List.getElem?_eq_none (by rw [rolling_length]; omega), List.getElem?_eq_none (by rw [rolling_length]; omega)]
    rfl

example := rolling_units_separate (fun _ _ x => x) (fun j => (j : ℝ)) (fun j => ((j : ℝ), (j : ℝ) ^ 2)) 5 2 false 3 (by norm_num [Size])
  (fun a b hab _ => by exact_mod_cast hab) (-100) 7 3 0 (by norm_num) (by norm_num)

/-! ## Exchanged series -/

theorem pearson_swap (l : Pairs) : pearson (l.map Prod.swap) = pearson l := by
  unfold pearson
  have e1 : (l.map Prod.swap).map Prod.fst = l.map Prod.snd := by rw [List.map_map]; rfl
  have e2 : (l.map Prod.swap).map Prod.snd = l.map Prod.fst := by rw [List.map_map]; rfl
  have e3 : pcov (l.map Prod.swap) = pcov l := by
    unfold pcov
    rw [e1, e2]
    rw [List.map_map]
    congr 2
    funext p
    simp only [Function.comp, Prod.swap]
    ring
  rw [e1, e2, e3, mul_comm (Real.sqrt _)]
  by_cases h : pvar (l.map Prod.fst) = 0 ∨ pvar (l.map Prod.snd) = 0
  · rw [if_pos h, if_pos h.symm]
  · rw [if_neg h, if_neg (fun h' => h h'.symm)]

/-- C102, part 5: R, p-value and RMSD are the same if the two series are exchanged. -/
theorem rolling_exchange (betainc : ℝ → ℝ → ℝ → ℝ) (ts : ℕ → ℝ) (d : ℕ → ℝ × ℝ) (n : ℕ) (w : ℝ) (center : Bool) (minPeriods : ℤ)
    (hw : Size center w) (hs : ∀ a b, a ≤ b → b < n → ts a ≤ ts b) :
    rollingPrRmsd betainc ts (fun j => ((d j).2, (d j).1)) n w center minPeriods = rollingPrRmsd betainc ts d n w center minPeriods := by
  rw [← List.map_id (rollingPrRmsd betainc ts d n w center minPeriods)]
  refine rolling_ext betainc ts ts d _ n w w center minPeriods hw hw hs hs _ (fun i hi => ?_)
  have hu : used ts (fun j => ((d j).2, (d j).1)) n w center i = (used ts d n w center i).map Prod.swap :=
    used_map ts d Prod.swap n w center i
  rw [hu]
  unfold expectedPr expectedRmsd
  rw [pearson_swap, List.length_map]
  have : meanSqDiff ((used ts d n w center i).map Prod.swap) = meanSqDiff (used ts d n w center i) := by
    unfold meanSqDiff
    rw [List.map_map]
    congr 2
    funext p
    simp only [Function.comp, Prod.swap]
    ring
  rw [this]
  rfl

example := rolling_exchange (fun _ _ x => x) (fun j => (j : ℝ)) (fun j => ((j : ℝ), (j : ℝ) ^ 2)) 5 2 false 3 (by norm_num [Size])
  (fun a b hab _ => by exact_mod_cast hab)

/-! ## Observations outside the window -/

/-- C102, part 6: an output only depends on the observations in its window: two calls on different series, of different length, have
the same output wherever the windows have the same observations, in any order. -/
theorem rolling_local (betainc : ℝ → ℝ → ℝ → ℝ) (ts ts' : ℕ → ℝ) (d d' : ℕ → ℝ × ℝ) (n n' : ℕ) (w w' : ℝ) (minPeriods : ℤ)
    (hw : 0 ≤ w) (hw' : 0 ≤ w') (hs : ∀ a b, a ≤ b → b < n → ts a ≤ ts b) (hs' : ∀ a b, a ≤ b → b < n' → ts' a ≤ ts' b)
    (i i' : ℕ) (hi : i < n) (hi' : i' < n') (h : (window ts d n w true i).Perm (window ts' d' n' w' true i')) :
    (rollingPrRmsd betainc ts d n w true minPeriods)[i]? = (rollingPrRmsd betainc ts' d' n' w' true minPeriods)[i']? := by
  rw [rolling_values betainc ts d n w true minPeriods hw hs i hi, rolling_values betainc ts' d' n' w' true minPeriods hw' hs' i' hi']
  have h : (used ts d n w true i).Perm (used ts' d' n' w' true i') := h
  unfold expectedPr expectedRmsd
  rw [pearson_perm h, meanSqDiff_perm h, h.length_eq]

/-- the search for the lower end stops at `i` at the latest and does not look further -/
theorem scan_agree (c c' : ℕ → Prop) [DecidablePred c] [DecidablePred c'] (i : ℕ) (h : ∀ j, j ≤ i → (c j ↔ c' j)) (hi : c i) :
    ∀ (m lo k k' v : ℕ), lo + m = i → i < lo + k → i < lo + k' →
      scan c v (List.range' lo k) = scan c' v (List.range' lo k') ∧ scan c v (List.range' lo k) ≤ i := by
  intro m
  induction m with
  | zero =>
    intro lo k k' v hm hk hk'
    obtain ⟨k, rfl⟩ : ∃ q, k = q + 1 := ⟨k - 1, by omega⟩
    obtain ⟨k', rfl⟩ : ∃ q, k' = q + 1 := ⟨k' - 1, by omega⟩
    have : lo = i := by omega
    subst this
    rw [List.range'_succ, List.range'_succ, scan, scan, if_pos hi, if_pos ((h _ (le_refl _)).mp hi)]
    exact ⟨rfl, le_refl _⟩
  | succ m ih =>
    intro lo k k' v hm hk hk'
    obtain ⟨k, rfl⟩ : ∃ q, k = q + 1 := ⟨k - 1, by omega⟩
    obtain ⟨k', rfl⟩ : ∃ q, k' = q + 1 := ⟨k' - 1, by omega⟩
    rw [List.range'_succ, List.range'_succ, scan, scan]
    by_cases hc : c lo
    · rw [if_pos hc, if_pos ((h lo (by omega)).mp hc)]
      exact ⟨rfl, by omega⟩
    · rw [if_neg hc, if_neg (fun h' => hc ((h lo (by omega)).mpr h'))]
      exact ih (lo + 1) k k' lo (by omega) (by omega) (by omega)

theorem round_agree (betainc : ℝ → ℝ → ℝ → ℝ) (ts ts' : ℕ → ℝ) (d d' : ℕ → ℝ × ℝ) (n n' : ℕ) (w : ℝ) (minPeriods : ℤ)
    (hw : 0 < w) (i : ℕ) (s : State) (hi : i < n) (hi' : i < n') (hlo : s.lower ≤ i) (hhi : s.hi = i)
    (h : ∀ j, j ≤ i → ts j = ts' j ∧ d j = d' j) :
    round betainc ts d n w false minPeriods s i = round betainc ts' d' n' w false minPeriods s i ∧
      (round betainc ts d n w false minPeriods s i).1.lower ≤ i ∧ (round betainc ts d n w false minPeriods s i).1.hi = i + 1 := by
  classical
  have hsc := scan_agree (fun j => ts j > ts i - w) (fun j => ts' j > ts' i - w) i
    (fun j hj => by rw [(h j hj).1, (h i (le_refl i)).1]) (by show ts i - w < ts i; linarith) (i - s.lower) s.lower (n - s.lower) (n' - s.lower) s.lower
    (by omega) (by omega) (by omega)
  have hb : bounds ts n w false i s.lower s.hi = bounds ts' n' w false i s.lower s.hi := by
    unfold bounds rangeAB
    simp only [Bool.false_eq_true, if_false]
    exact Prod.ext hsc.1 rfl
  have hb1 : (bounds ts n w false i s.lower s.hi).1 ≤ i := hsc.2
  have hb2 : (bounds ts n w false i s.lower s.hi).2 = i + 1 := rfl
  refine ⟨?_, hb1, hb2⟩
  unfold round
  simp only
  rw [← hb]
  have m1 : (rangeAB s.hi (bounds ts n w false i s.lower s.hi).2).map d = (rangeAB s.hi (bounds ts n w false i s.lower s.hi).2).map d' := by
    apply List.map_congr_left
    intro j hj
    unfold rangeAB at hj
    rw [List.mem_range'_1, hb2] at hj
    exact (h j (by omega)).2
  have m2 : (rangeAB s.lower (bounds ts n w false i s.lower s.hi).1).map d = (rangeAB s.lower (bounds ts n w false i s.lower s.hi).1).map d' := by
    apply List.map_congr_left
    intro j hj
    unfold rangeAB at hj
    rw [List.mem_range'_1] at hj
    exact (h j (by omega)).2
  rw [m1, m2]

/-- C102, part 7: trailing windows only look back: the outputs up to position `i` do not depend on later observations, of which there
may be any number, whatever the order of the time stamps. -/
theorem rolling_causal (betainc : ℝ → ℝ → ℝ → ℝ) (ts ts' : ℕ → ℝ) (d d' : ℕ → ℝ × ℝ) (n n' : ℕ) (w : ℝ) (minPeriods : ℤ)
    (hw : 0 < w) (i : ℕ) (hi : i < n) (hi' : i < n') (h : ∀ j, j ≤ i → ts j = ts' j ∧ d j = d' j) :
    (rollingPrRmsd betainc ts d n w false minPeriods)[i]? = (rollingPrRmsd betainc ts' d' n' w false minPeriods)[i]? := by
  have key : ∀ (m q k k' : ℕ) (s : State), q + m = i → i < q + k → i < q + k' → s.lower ≤ q → s.hi = q →
      (loop betainc ts d n w false minPeriods s (List.range' q k))[m]? = (loop betainc ts' d' n' w false minPeriods s (List.range' q k'))[m]? := by
    intro m
    induction m with
    | zero =>
      intro q k k' s hq hk hk' hlo hhi
      obtain ⟨k, rfl⟩ : ∃ q, k = q + 1 := ⟨k - 1, by omega⟩
      obtain ⟨k', rfl⟩ : ∃ q, k' = q + 1 := ⟨k' - 1, by omega⟩
      rw [List.range'_succ, List.range'_succ, loop, loop]
      simp only [List.getElem?_cons_zero, Option.some.injEq]
      exact congrArg Prod.snd (round_agree betainc ts ts' d d' n n' w minPeriods hw q s (by omega) (by omega) hlo hhi
        (fun j hj => h j (by omega))).1
    | succ m ih =>
      intro q k k' s hq hk hk' hlo hhi
      obtain ⟨k, rfl⟩ : ∃ q, k = q + 1 := ⟨k - 1, by omega⟩
      obtain ⟨k', rfl⟩ : ∃ q, k' = q + 1 := ⟨k' - 1, by omega⟩
      rw [List.range'_succ, List.range'_succ, loop, loop]
      simp only [List.getElem?_cons_succ]
      obtain ⟨r1, r2, r3⟩ := round_agree betainc ts ts' d d' n n' w minPeriods hw q s (by omega) (by omega) hlo hhi
        (fun j hj => h j (by omega))
      rw [← r1]
      exact ih (q + 1) k k' _ (by omega) (by omega) (by omega) (by omega) r3
  unfold rollingPrRmsd
  rw [List.range_eq_range', List.range_eq_range']
  exact key i 0 n n' init (by omega) (by omega) (by omega) (le_refl _) rfl

example := rolling_causal (fun _ _ x => x) (fun j => (j : ℝ)) (fun j => if j ≤ 3 then (j : ℝ) else 100) (fun j => ((j : ℝ), (j : ℝ) ^ 2))
  (fun j => if j ≤ 3 then ((j : ℝ), (j : ℝ) ^ 2) else (0, 0)) 5 7 2 3 (by norm_num) 3 (by norm_num) (by norm_num) (fun j hj => by simp [hj])

/-! ## Reversed time -/

theorem window_reverse (ts : ℕ → ℝ) (d : ℕ → ℝ × ℝ) (n : ℕ) (w : ℝ) (i : ℕ) (hi : i < n) :
    (window (fun j => -ts (n - 1 - j)) (fun j => d (n - 1 - j)) n w true (n - 1 - i)).Perm (window ts d n w true i) := by
  unfold window
  simp only [if_true]
  have hii : n - 1 - (n - 1 - i) = i := by omega
  have h1 : (List.range n).reverse = (List.range n).map (fun j => n - 1 - j) := by
    apply List.ext_getElem
    · simp
    · intro k h1 h2
      simp
  have h2 : (List.range n).filter (fun j => decide (|-ts (n - 1 - j) - -ts (n - 1 - (n - 1 - i))| ≤ w)) =
      (List.range n).filter ((fun j => decide (|ts j - ts i| ≤ w)) ∘ (fun j => n - 1 - j)) := by
    apply List.filter_congr
    intro j _
    simp only [Function.comp]
    rw [hii]
    have : -ts (n - 1 - j) - -ts i = -(ts (n - 1 - j) - ts i) := by ring
    rw [this, abs_neg]
  rw [h2]
  have h3 : ((List.range n).filter ((fun j => decide (|ts j - ts i| ≤ w)) ∘ (fun j => n - 1 - j))).map (fun j => d (n - 1 - j)) =
      (((List.range n).map (fun j => n - 1 - j)).filter (fun j => decide (|ts j - ts i| ≤ w))).map d := by
    rw [List.filter_map, List.map_map]
    rfl
  rw [h3, ← h1]
  exact ((List.reverse_perm _).filter _).map _

/-- C102, part 8: centred windows have no direction: for the series in reversed time the outputs are the reversed outputs. -/
theorem rolling_reverse (betainc : ℝ → ℝ → ℝ → ℝ) (ts : ℕ → ℝ) (d : ℕ → ℝ × ℝ) (n : ℕ) (w : ℝ) (minPeriods : ℤ)
    (hw : 0 ≤ w) (hs : ∀ a b, a ≤ b → b < n → ts a ≤ ts b) :
    rollingPrRmsd betainc (fun j => -ts (n - 1 - j)) (fun j => d (n - 1 - j)) n w true minPeriods =
      (rollingPrRmsd betainc ts d n w true minPeriods).reverse := by
  have hs' : ∀ a b, a ≤ b → b < n → -ts (n - 1 - a) ≤ -ts (n - 1 - b) := by
    intro a b hab hb
    exact neg_le_neg (hs (n - 1 - b) (n - 1 - a) (by omega) (by omega))
  apply List.ext_getElem?
  intro k
  by_cases hk : k < n
  · rw [List.getElem?_reverse (by rw [rolling_length]; exact hk), rolling_length]
    have := rolling_local betainc (fun j => -ts (n - 1 - j)) ts (fun j => d (n - 1 - j)) d n n w w minPeriods hw hw hs' hs
      (n - 1 - (n - 1 - k)) (n - 1 - k) (by omega) (by omega) (window_reverse ts d n w (n - 1 - k) (by omega))
    have e : n - 1 - (n - 1 - k) = k := by omega
    rw [e] at this
    exact this
  · rw [List.getElem?_eq_none (by rw [rolling_length]; omega), List.getElem?_eq_none (by rw [List.length_reverse, rolling_length]; omega)]

example := rolling_reverse (fun _ _ x => x) (fun j => (j : ℝ)) (fun j => ((j : ℝ), (j : ℝ) ^ 2)) 5 2 3 (by norm_num)
  (fun a b hab _ => by exact_mod_cast hab)

/-- hypotheses of the parts for five time stamps -/
example : Size true (2 : ℝ) ∧ Size false (2 : ℝ) ∧ (∀ a b : ℕ, a ≤ b → b < 5 → (fun j : ℕ => (j : ℝ)) a ≤ (fun j : ℕ => (j : ℝ)) b) ∧
    (window (fun j => (j : ℝ)) (fun j => ((j : ℝ), 0)) 1 0 true 0).Perm (window (fun j => (j : ℝ)) (fun j => ((j : ℝ), 0)) 2 0 true 0) := by
  refine ⟨by norm_num [Size], by norm_num [Size], fun a b h _ => by show (a : ℝ) ≤ b; exact_mod_cast h, ?_⟩
  have : window (fun j => (j : ℝ)) (fun j => ((j : ℝ), 0)) 1 0 true 0 = window (fun j => (j : ℝ)) (fun j => ((j : ℝ), 0)) 2 0 true 0 := by
    simp [window, List.range_succ]
  rw [this]

end Verif.Rolling
