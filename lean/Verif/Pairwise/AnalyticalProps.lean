import Verif.Pairwise.Analytical
import Mathlib.Data.List.Infix

/-! C80. -/

set_option linter.unusedSectionVars false

namespace Verif.Pairwise

open Verif.Moments

/-- the attributes whose name ends with `_ci` -/
theorem ci_attrs (E : CiEnv) (s : String) :
    (attrOf E (s ++ "_ci")).isSome = true ↔ s ∈ withInterval ∨ s = "has" ∨ s = "no" := by
  have hnames : (namespaceOf E).map Prod.fst = ["np", "stats", "warnings", "bias", "mse_bias", "mse_var", "mse_corr", "mse_decomposition",
      "RSS", "_ubrmsd", "rolling_pr_rmsd", "has_ci", "no_ci", "bias_ci", "_bias_ci_from_moments", "aad", "mad", "msd", "rmsd", "nrmsd",
      "ubrmsd", "ubrmsd_ci", "pearson_r", "pearson_r_ci", "spearman_r", "spearman_r_ci", "kendall_tau", "kendall_tau_ci",
      "index_of_agreement", "nash_sutcliffe"] := rfl
  have h1 : (attrOf E (s ++ "_ci")).isSome = true ↔ s ++ "_ci" ∈ (namespaceOf E).map Prod.fst := by
    unfold attrOf
    rw [List.lookup_isSome_iff]
    simp
  rw [h1, hnames]
  have h2 : ∀ t : String, s ++ "_ci" = t ↔ t.toList.drop (t.toList.length - 3) = ['_', 'c', 'i'] ∧
      s = String.ofList (t.toList.take (t.toList.length - 3)) := by
    intro t
    constructor
    · rintro rfl
      simp [String.toList_append]
    · rintro ⟨ha, rfl⟩
      apply String.toList_inj.mp
      rw [String.toList_append, String.toList_ofList]
      conv_rhs => rw [← List.take_append_drop (t.toList.length - 3) t.toList, ha]
      rfl
  simp only [List.mem_cons, h2, withInterval, List.not_mem_nil, or_false]
  simp [String.toList_ofList]
  tauto

/-- C80: `has_analytical_ci` is true for the five metrics with an interval, and for callables named "has" or "no". -/
theorem has_ci_iff (E : CiEnv) (s : String) (f : Pairs → Except CiErr (Option ℝ)) :
    hasAnalyticalCi E (.fn (some s) f) = .ok true ↔ s ∈ withInterval ∨ s = "has" ∨ s = "no" := by
  rw [← ci_attrs E s]
  simp [hasAnalyticalCi]

/-- C80: `has_analytical_ci` of a string or of a callable without a name raises AttributeError; for every other callable it answers. -/
theorem has_ci_total (E : CiEnv) (a : MetricArg) :
    (hasAnalyticalCi E a = .error .attributeError ↔ (∃ s, a = .str s) ∨ ∃ f, a = .fn none f) ∧
      ((∃ s f, a = .fn (some s) f) → ∃ b, hasAnalyticalCi E a = .ok b) := by
  cases a with
  | str s => simp [hasAnalyticalCi]
  | fn name f => cases name <;> simp [hasAnalyticalCi]

theorem fisher_finite (r w n : ℝ) (hn : 3 < n) (h1 : -1 < r) (h2 : r < 1) :
    fisherBounds r w n = (some (Real.tanh (Real.artanh r - w / Real.sqrt (n - 3))),
      some (Real.tanh (Real.artanh r + w / Real.sqrt (n - 3)))) := by
  unfold fisherBounds arctanhX overSqrt
  rw [if_pos ⟨h1, h2⟩, if_neg (by linarith), if_neg (by linarith)]
  simp [XR.add, XR.neg, tanhX, sub_eq_add_neg]

theorem fisher_one (w n : ℝ) (hn : 3 < n) : fisherBounds 1 w n = (some 1, some 1) := by
  unfold fisherBounds arctanhX overSqrt
  rw [if_neg (by norm_num), if_pos rfl, if_neg (by linarith), if_neg (by linarith)]
  simp [XR.add, XR.neg, tanhX]

theorem fisher_neg_one (w n : ℝ) (hn : 3 < n) : fisherBounds (-1) w n = (some (-1), some (-1)) := by
  unfold fisherBounds arctanhX overSqrt
  rw [if_neg (by norm_num), if_neg (by norm_num), if_pos rfl, if_neg (by linarith), if_neg (by linarith)]
  simp [XR.add, XR.neg, tanhX]

/-- a correlation in [-1, 1] and more than three observations: the interval encloses the estimate, a larger factor gives a wider one -/
theorem fisher_bounds (r w w' n : ℝ) (hn : 3 < n) (h1 : -1 ≤ r) (h2 : r ≤ 1) (hw : 0 ≤ w) (hww : w ≤ w') :
    BoundsEnclose (fisherBounds r w n) r ∧ BoundsWithin (fisherBounds r w n) (fisherBounds r w' n) := by
  rcases h1.lt_or_eq with h1 | rfl
  · rcases h2.lt_or_eq with h2 | rfl
    · rw [fisher_finite r w n hn h1 h2, fisher_finite r w' n hn h1 h2]
      have h3 := Real.tanh_artanh (x := r) ⟨h1, h2⟩
      have hs : 0 ≤ Real.sqrt (n - 3) := Real.sqrt_nonneg _
      have ha : 0 ≤ w / Real.sqrt (n - 3) := div_nonneg hw hs
      have hb : w / Real.sqrt (n - 3) ≤ w' / Real.sqrt (n - 3) := div_le_div_of_nonneg_right hww hs
      refine ⟨⟨_, _, rfl, ?_, ?_⟩, ⟨_, _, _, _, rfl, rfl, ?_, ?_⟩⟩
      · conv_rhs => rw [← h3]
        exact tanh_mono (by linarith)
      · conv_lhs => rw [← h3]
        exact tanh_mono (by linarith)
      · exact tanh_mono (by linarith)
      · exact tanh_mono (by linarith)
    · rw [fisher_one w n hn, fisher_one w' n hn]
      exact ⟨⟨_, _, rfl, le_refl _, le_refl _⟩, ⟨_, _, _, _, rfl, rfl, le_refl _, le_refl _⟩⟩
  · rw [fisher_neg_one w n hn, fisher_neg_one w' n hn]
    exact ⟨⟨_, _, rfl, le_refl _, le_refl _⟩, ⟨_, _, _, _, rfl, rfl, le_refl _, le_refl _⟩⟩

/-- the attributes used below -/
theorem attrs (E : CiEnv) :
    (∃ f, attrOf E "bias" = some (.metric f) ∧ ∀ l, f l = .ok (if l = [] then none else some (bias l))) ∧
    (∃ f, attrOf E "ubrmsd" = some (.metric f) ∧ ∀ l, f l = .ok (if l = [] then none else some (ubrmsd l 0))) ∧
    attrOf E "pearson_r" = some (.metric E.pearsonr) ∧ attrOf E "spearman_r" = some (.metric E.spearmanr) ∧
    attrOf E "kendall_tau" = some (.metric E.kendalltau) ∧
    (∃ g, attrOf E ("bias" ++ "_ci") = some (.ci g) ∧ ∀ l m a, g l m a = onValue (fun b => biasBounds E.tppf l b a) m) ∧
    (∃ g, attrOf E ("ubrmsd" ++ "_ci") = some (.ci g) ∧ ∀ l m a, g l m a = onValue (fun u => ubrmsdBounds E.chi2ppf l u a) m) ∧
    (∃ g, attrOf E ("pearson_r" ++ "_ci") = some (.ci g) ∧
      ∀ l m a, g l m a = onValue (fun r => fisherBounds r (E.normppf (1 - a / 2)) (num l)) m) ∧
    (∃ g, attrOf E ("spearman_r" ++ "_ci") = some (.ci g) ∧
      ∀ l m a, g l m a = onValue (fun r => fisherBounds r (E.normppf (1 - a / 2) * Real.sqrt (1 + r ^ 2 / 2)) (num l)) m) ∧
    (∃ g, attrOf E ("kendall_tau" ++ "_ci") = some (.ci g) ∧
      ∀ l m a, g l m a = onValue (fun r => fisherBounds r (E.normppf (1 - a / 2) * 0.431) (num l)) m) := by
  refine ⟨⟨_, rfl, fun _ => rfl⟩, ⟨_, rfl, fun _ => rfl⟩, rfl, rfl, rfl, ⟨_, rfl, fun _ _ _ => rfl⟩, ⟨_, rfl, fun _ _ _ => rfl⟩,
    ⟨_, rfl, fun _ _ _ => rfl⟩, ⟨_, rfl, fun _ _ _ => rfl⟩, ⟨_, rfl, fun _ _ _ => rfl⟩⟩

/-- a callable with the name of a metric with interval: the interval functions of that name around the value of the callable -/
theorem callable_eq (E : CiEnv) (s : String) (g : Pairs → Option ℝ → ℝ → Bounds) (hg : attrOf E (s ++ "_ci") = some (.ci g))
    (f : Pairs → Except CiErr (Option ℝ)) (l : Pairs) (m : Option ℝ) (hf : f l = .ok m) (alpha : ℝ) :
    ciOfCallable E (some s) f l alpha = .ok (m, g l m alpha) := by
  unfold ciOfCallable
  rw [hf]
  simp only [hg]

theorem str_eq (E : CiEnv) (s : String) (f : Pairs → Except CiErr (Option ℝ)) (h : attrOf E s = some (.metric f)) (l : Pairs) (alpha : ℝ) :
    withAnalyticalCi E (.str s) l alpha = ciOfCallable E (some s) f l alpha := by
  simp only [withAnalyticalCi, h]

/-- C80: the value of the metric with an interval of which it is an element; smaller `alpha` gives a wider interval. For the bias (two or
more observations) and the three correlations (more than three observations, any estimate in [-1, 1]); the metric can be given by name
or as the function of that name. Missing for the full claim: the ubRMSD (`ubrmsd_with_ci_partial`), fewer observations
(`correlation_few_observations`), and the other metrics named in the documentation (`documented_metrics_raise`). -/
theorem with_ci_partial (E : CiEnv) (hE : E.Good) (l : Pairs) (a a' : ℝ) (h0 : 0 < a') (haa : a' ≤ a) (ha : a ≤ 1) :
    (2 ≤ l.length → ∃ b b', withAnalyticalCi E (.str "bias") l a = .ok (some (mean (l.map Prod.fst) - mean (l.map Prod.snd)), b) ∧
      withAnalyticalCi E (.str "bias") l a' = .ok (some (mean (l.map Prod.fst) - mean (l.map Prod.snd)), b') ∧
      BoundsEnclose b (mean (l.map Prod.fst) - mean (l.map Prod.snd)) ∧ BoundsWithin b b') ∧
    (∀ s f r, (s, f) ∈ [("pearson_r", E.pearsonr), ("spearman_r", E.spearmanr), ("kendall_tau", E.kendalltau)] →
      3 < l.length → f l = .ok (some r) → -1 ≤ r → r ≤ 1 →
      ∃ b b', withAnalyticalCi E (.str s) l a = .ok (some r, b) ∧ withAnalyticalCi E (.fn (some s) f) l a = .ok (some r, b) ∧
        withAnalyticalCi E (.str s) l a' = .ok (some r, b') ∧ BoundsEnclose b r ∧ BoundsWithin b b') := by
  obtain ⟨⟨fb, hb, hb'⟩, -, hp, hs, hk, ⟨gb, hgb, hgb'⟩, -, ⟨gp, hgp, hgp'⟩, ⟨gs, hgs, hgs'⟩, ⟨gk, hgk, hgk'⟩⟩ := attrs E
  constructor
  · intro hl
    have hne : l ≠ [] := by rintro rfl; simp at hl
    have hv : fb l = .ok (some (bias l)) := by rw [hb', if_neg hne]
    have e : ∀ x, withAnalyticalCi E (.str "bias") l x = .ok (some (bias l), biasBounds E.tppf l (bias l) x) := by
      intro x
      rw [str_eq E _ fb hb, callable_eq E "bias" gb hgb fb l _ hv x, hgb']
      rfl
    have hc := bias_ci_correct E.tppf hE.t l (bias l)
    have hbb : ∀ x, biasBounds E.tppf l (bias l) x = (some (biasCi E.tppf l (bias l) x).1, some (biasCi E.tppf l (bias l) x).2) :=
      fun x => if_neg (by omega)
    rw [← bias_mean]
    refine ⟨_, _, e a, e a', ⟨_, _, hbb a, ?_, ?_⟩, ⟨_, _, _, _, hbb a, hbb a', ?_, ?_⟩⟩
    · exact (hc.1 a (lt_of_lt_of_le h0 haa) ha).1
    · exact (hc.1 a (lt_of_lt_of_le h0 haa) ha).2
    · exact (hc.2 a' a h0 haa ha).1
    · exact (hc.2 a' a h0 haa ha).2
  · intro s f r hsf hl hf h1 h2
    have hn : (3 : ℝ) < num l := by unfold num; exact_mod_cast hl
    have hz := hE.norm.nonneg (lt_of_lt_of_le h0 haa) ha
    have hzz := hE.norm.mono (1 - a / 2) (1 - a' / 2) (by linarith) (by linarith) (by linarith)
    have key : ∀ (g : Pairs → Option ℝ → ℝ → Bounds) (c : ℝ), 0 ≤ c → attrOf E s = some (.metric f) → attrOf E (s ++ "_ci") = some (.ci g) →
        (∀ x, g l (some r) x = fisherBounds r (E.normppf (1 - x / 2) * c) (num l)) →
        ∃ b b', withAnalyticalCi E (.str s) l a = .ok (some r, b) ∧ withAnalyticalCi E (.fn (some s) f) l a = .ok (some r, b) ∧
        withAnalyticalCi E (.str s) l a' = .ok (some r, b') ∧ BoundsEnclose b r ∧ BoundsWithin b b' := by
      intro g c hc hA hC hG
      have e : ∀ x, withAnalyticalCi E (.str s) l x = .ok (some r, g l (some r) x) := by
        intro x
        rw [str_eq E _ f hA]
        exact callable_eq E s g hC f l _ hf x
      have hfb := fisher_bounds r (E.normppf (1 - a / 2) * c) (E.normppf (1 - a' / 2) * c) (num l) hn h1 h2 (mul_nonneg hz hc)
        (mul_le_mul_of_nonneg_right hzz hc)
      refine ⟨_, _, e a, callable_eq E s g hC f l _ hf a, e a', ?_, ?_⟩
      · rw [hG]; exact hfb.1
      · rw [hG, hG]; exact hfb.2
    simp only [List.mem_cons, Prod.mk.injEq, List.not_mem_nil, or_false] at hsf
    rcases hsf with ⟨rfl, rfl⟩ | ⟨rfl, rfl⟩ | ⟨rfl, rfl⟩
    · exact key gp 1 (by norm_num) hp hgp (fun x => by rw [hgp', mul_one]; rfl)
    · exact key gs (Real.sqrt (1 + r ^ 2 / 2)) (Real.sqrt_nonneg _) hs hgs (fun x => by rw [hgs']; rfl)
    · exact key gk 0.431 (by norm_num) hk hgk (fun x => by rw [hgk']; rfl)

example := with_ci_partial ⟨fun q _ => q - 1 / 2, fun q _ => -2 * Real.log (1 - q), fun q => q - 1 / 2, fun _ => .ok (some (1 / 2)), fun _ => .ok none,
    fun _ => .ok none, fun _ _ => .ok none⟩ ⟨fun _ => ⟨fun a b _ h _ => by simpa using h, by norm_num⟩,
    ⟨fun a b _ h _ => by simpa using h, by norm_num⟩⟩ [(0, 0), (1, 1), (5, 2), (6, 2)] (1 / 10) (1 / 20) (by norm_num) (by norm_num) (by norm_num)

theorem pvar_diff (l : Pairs) (h : l ≠ []) :
    pvar (l.map (fun p => p.1 - p.2)) = pvar (l.map Prod.fst) + pvar (l.map Prod.snd) - 2 * pcov l := by
  have hn := len_pos (K := ℝ) l h
  have hvar := pvar_eq l (fun p : ℝ × ℝ => p.1 - p.2)
  have hdec := meanSqDiff_decomp l h
  have e2 : (l.length : ℝ) * meanSqDiff l = S l (fun p => (p.1 - p.2) * (p.1 - p.2)) := by
    unfold meanSqDiff; rw [len_mul_mean]; exact S_congr _ _ _ (fun p _ => sq _)
  have e3 : mean (l.map fun p => p.1 - p.2) = mean (l.map Prod.fst) - mean (l.map Prod.snd) := by
    rw [mean_map, mean_map, mean_map, S_sub]; ring
  rw [e3] at hvar
  apply mul_left_cancel₀ hn.ne'
  linear_combination hvar - e2 + (l.length : ℝ) * hdec

/-- C80, ubRMSD: the value is the standard deviation of the differences; the interval encloses it if the number of observations lies
between the quantiles. Missing: the other cases (`ubrmsd_with_ci_misses`). -/
theorem ubrmsd_with_ci_partial (E : CiEnv) (l : Pairs) (hl : 2 ≤ l.length) (a : ℝ) (h0 : 0 < a) (h1 : a < 1)
    (hpos : ∀ q, 0 < q → q < 1 → 0 < E.chi2ppf q (num l - 1))
    (hmono : ∀ p q, 0 < p → p ≤ q → q < 1 → E.chi2ppf p (num l - 1) ≤ E.chi2ppf q (num l - 1))
    (hlo : E.chi2ppf (a / 2) (num l - 1) ≤ num l) (hhi : num l ≤ E.chi2ppf (1 - a / 2) (num l - 1)) :
    ∃ b, withAnalyticalCi E (.str "ubrmsd") l a = .ok (some (Real.sqrt (pvar (l.map (fun p => p.1 - p.2)))), b) ∧
      BoundsEnclose b (Real.sqrt (pvar (l.map (fun p => p.1 - p.2)))) := by
  obtain ⟨-, ⟨fu, hu, hu'⟩, -, -, -, -, ⟨gu, hgu, hgu'⟩, -⟩ := attrs E
  have hne : l ≠ [] := by rintro rfl; simp at hl
  have hv : fu l = .ok (some (Real.sqrt (pvar (l.map (fun p => p.1 - p.2))))) := by
    rw [hu', if_neg hne, pvar_diff l hne, ← ubrmsd0_eq l hne]
    simp [ubrmsd]
  have hc := (ubrmsd_ci_partial E.chi2ppf l _ (Real.sqrt_nonneg (pvar (l.map (fun p => p.1 - p.2)))) hpos hmono).1 a h0 h1 hlo hhi
  refine ⟨_, by rw [str_eq E _ fu hu, callable_eq E "ubrmsd" gu hgu fu l _ hv a], _, _, ?_, hc.1, hc.2⟩
  rw [hgu']
  exact if_neg (by omega)

/-- C80 fails for the ubRMSD: with three observations the 50 % interval of a positive estimate does not contain it. (The quantile function
is that of the chi-square distribution with 2 degrees of freedom.) -/
theorem ubrmsd_with_ci_misses (E : CiEnv) (h2 : ∀ q, E.chi2ppf q 2 = -2 * Real.log (1 - q)) (l : Pairs) (hl : l.length = 3)
    (hpos : 0 < pvar (l.map (fun p => p.1 - p.2))) :
    ∃ b, withAnalyticalCi E (.str "ubrmsd") l (1 / 2) = .ok (some (Real.sqrt (pvar (l.map (fun p => p.1 - p.2)))), b) ∧
      ¬ BoundsEnclose b (Real.sqrt (pvar (l.map (fun p => p.1 - p.2)))) := by
  obtain ⟨-, ⟨fu, hu, hu'⟩, -, -, -, -, ⟨gu, hgu, hgu'⟩, -⟩ := attrs E
  have hne : l ≠ [] := by rintro rfl; simp at hl
  have hv : fu l = .ok (some (Real.sqrt (pvar (l.map (fun p => p.1 - p.2))))) := by
    rw [hu', if_neg hne, pvar_diff l hne, ← ubrmsd0_eq l hne]
    simp [ubrmsd]
  refine ⟨_, by rw [str_eq E _ fu hu, callable_eq E "ubrmsd" gu hgu fu l _ hv], ?_⟩
  rw [hgu']
  rintro ⟨lo, hi, he, h3, h4⟩
  have e : onValue (fun u => ubrmsdBounds E.chi2ppf l u (1 / 2)) (some (Real.sqrt (pvar (l.map (fun p => p.1 - p.2))))) =
      (some (ubrmsdCi E.chi2ppf l (Real.sqrt (pvar (l.map (fun p => p.1 - p.2)))) (1 / 2)).1,
       some (ubrmsdCi E.chi2ppf l (Real.sqrt (pvar (l.map (fun p => p.1 - p.2)))) (1 / 2)).2) := if_neg (by omega)
  rw [e, Prod.mk.injEq, Option.some.injEq, Option.some.injEq] at he
  refine ubrmsd_ci_misses_estimate E.chi2ppf h2 l hl _ (Real.sqrt_pos.mpr hpos) ⟨?_, ?_⟩
  · rw [he.1]; exact h3
  · rw [he.2]; exact h4

/-- C80 for few observations: with three the interval of a correlation is [-1, 1], whatever alpha < 1; with two both bounds are NaN. -/
theorem correlation_few_observations (E : CiEnv) (l : Pairs) (r alpha : ℝ) (hf : E.pearsonr l = .ok (some r))
    (hz : 0 < E.normppf (1 - alpha / 2)) :
    (l.length = 3 → -1 < r → r < 1 → withAnalyticalCi E (.str "pearson_r") l alpha = .ok (some r, (some (-1), some 1))) ∧
    (l.length = 3 → r = 1 → withAnalyticalCi E (.str "pearson_r") l alpha = .ok (some r, (none, some 1))) ∧
    (l.length = 2 → withAnalyticalCi E (.str "pearson_r") l alpha = .ok (some r, (none, none))) := by
  obtain ⟨-, -, hp, -, -, -, -, ⟨g, hg, hg'⟩, -⟩ := attrs E
  have e : withAnalyticalCi E (.str "pearson_r") l alpha = .ok (some r, fisherBounds r (E.normppf (1 - alpha / 2)) (num l)) := by
    rw [str_eq E _ _ hp, callable_eq E "pearson_r" g hg _ l _ hf, hg']
    rfl
  rw [e]
  refine ⟨?_, ?_, ?_⟩
  · intro hl h1 h2
    have hn : num l = 3 := by unfold num; rw [hl]; norm_num
    simp [fisherBounds, hn, overSqrt, arctanhX, h1, h2, hz, hz.ne', XR.add, XR.neg, tanhX]
  · intro hl h1
    have hn : num l = 3 := by unfold num; rw [hl]; norm_num
    subst h1
    simp [fisherBounds, hn, overSqrt, arctanhX, hz, hz.ne', XR.add, XR.neg, tanhX]
  · intro hl
    have hn : num l = 2 := by unfold num; rw [hl]; norm_num
    have h23 : (2 : ℝ) < 3 := by norm_num
    simp only [fisherBounds, hn, overSqrt, if_pos h23]
    cases arctanhX r <;> simp [XR.add, XR.neg, tanhX]

/-- C80: a metric without interval raises ValueError, also by name, but only after it was evaluated: an exception of the metric comes first. -/
theorem no_interval_raises (E : CiEnv) (s : String) (hs : s ∉ withInterval) (h1 : s ≠ "has") (h2 : s ≠ "no")
    (f : Pairs → Except CiErr (Option ℝ)) (l : Pairs) (alpha : ℝ) :
    withAnalyticalCi E (.fn (some s) f) l alpha = .error (match f l with | .ok _ => .valueError | .error e => e) := by
  have hn : attrOf E (s ++ "_ci") = none := by
    cases h : attrOf E (s ++ "_ci") with
    | none => rfl
    | some x =>
      have := (ci_attrs E s).mp (by rw [h]; rfl)
      tauto
  unfold withAnalyticalCi ciOfCallable
  cases h : f l <;> simp [hn, h]

/-- C80 fails for the documentation of the package: of the eight metrics it lists, `rmsd` and `nrmsd` have no interval (ValueError), and
`mse` does not exist (AttributeError). With empty arrays the first two raise ZeroDivisionError. -/
theorem documented_metrics_raise (E : CiEnv) (l : Pairs) (alpha : ℝ) :
    withAnalyticalCi E (.str "rmsd") l alpha = .error (if l = [] then .metric else .valueError) ∧
    withAnalyticalCi E (.str "nrmsd") l alpha = .error (if l = [] then .metric else .valueError) ∧
    withAnalyticalCi E (.str "mse") l alpha = .error .attributeError := by
  have key : ∀ s f, attrOf E s = some (.metric f) → s ∉ withInterval → s ≠ "has" → s ≠ "no" →
      (∃ v, f l = orZeroDivision l v) → withAnalyticalCi E (.str s) l alpha = .error (if l = [] then .metric else .valueError) := by
    rintro s f h1 h2 h3 h4 ⟨v, hv⟩
    rw [str_eq E _ _ h1]
    have : ciOfCallable E (some s) f l alpha = _ := no_interval_raises E s h2 h3 h4 f l alpha
    rw [this, hv]
    unfold orZeroDivision
    by_cases hl : l = []
    · rw [if_pos hl, if_pos hl]
    · rw [if_neg hl, if_neg hl]
  refine ⟨key "rmsd" _ rfl (by decide) (by decide) (by decide) ⟨_, rfl⟩, key "nrmsd" _ rfl (by decide) (by decide) (by decide) ⟨_, rfl⟩, rfl⟩

/-- C80: the interval is chosen by the name of the callable only. A function of the user that is called `bias` gets the interval of the
bias around its own value; one that is called `has` or `no` raises TypeError although `has_analytical_ci` is true; a callable without a
name (for instance `functools.partial`) raises AttributeError after its evaluation. -/
theorem interval_by_name (E : CiEnv) (f : Pairs → Except CiErr (Option ℝ)) (l : Pairs) (v alpha : ℝ) (hf : f l = .ok (some v))
    (hl : 2 ≤ l.length) :
    withAnalyticalCi E (.fn (some "bias") f) l alpha =
      .ok (some v, some (biasCi E.tppf l v alpha).1, some (biasCi E.tppf l v alpha).2) ∧
    (∀ s ∈ ["has", "no"], hasAnalyticalCi E (.fn (some s) f) = .ok true ∧
      withAnalyticalCi E (.fn (some s) f) l alpha = .error .typeError) ∧
    withAnalyticalCi E (.fn none f) l alpha = .error .attributeError := by
  obtain ⟨-, -, -, -, -, ⟨g, hg, hg'⟩, -⟩ := attrs E
  refine ⟨?_, ?_, ?_⟩
  · have : withAnalyticalCi E (.fn (some "bias") f) l alpha = _ := callable_eq E "bias" g hg f l _ hf alpha
    rw [this, hg']
    refine congrArg (fun b => Except.ok (some v, b)) ?_
    exact if_neg (by omega)
  · intro s hs
    refine ⟨(has_ci_iff E s f).mpr (Or.inr (by simpa using hs)), ?_⟩
    have hs : s = "has" ∨ s = "no" := by simpa using hs
    have : attrOf E (s ++ "_ci") = some .other := by rcases hs with rfl | rfl <;> rfl
    simp only [withAnalyticalCi, ciOfCallable, hf, this]
  · simp only [withAnalyticalCi, ciOfCallable, hf]

/-- External functions that meet the hypotheses; three observations with differences 0, 0, 3. -/
example : ∃ E : CiEnv, E.Good ∧ (∀ q, E.chi2ppf q 2 = -2 * Real.log (1 - q)) ∧ 0 < E.normppf (1 - (1 / 2) / 2) ∧
    E.pearsonr [(0, 0), (1, 1), (5, 2)] = .ok (some (1 / 2)) ∧
    0 < pvar ([((0 : ℝ), (0 : ℝ)), (1, 1), (5, 2)].map (fun p => p.1 - p.2)) := by
  refine ⟨⟨fun q _ => q - 1 / 2, fun q _ => -2 * Real.log (1 - q), fun q => q - 1 / 2, fun _ => .ok (some (1 / 2)), fun _ => .ok none,
    fun _ => .ok none, fun _ _ => .ok none⟩, ⟨fun _ => ⟨fun a b _ h _ => by simpa using h, by norm_num⟩,
    ⟨fun a b _ h _ => by simpa using h, by norm_num⟩⟩, fun _ => rfl, by norm_num, rfl, ?_⟩
  norm_num [pvar, mean]

end Verif.Pairwise
