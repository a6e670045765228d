import Verif.DfMetrics.Wrap
import Verif.DfMetrics.Props
import Verif.Pairwise.Props
import Verif.Pairwise.Exact

/-! C79: metrics of data frames. -/

set_option linter.unusedSectionVars false

namespace Verif.DfMetrics

open Verif.Pairwise

theorem commonRows_eq (mat : ℕ → ℕ → Option ℝ) (N i j : ℕ) :
    commonRows mat N i j = (completeRows Option.isSome mat N [i, j]).map (fun r => ((mat i r).getD 0, (mat j r).getD 0)) := by
  unfold commonRows completeRows
  induction List.range N with
  | nil => rfl
  | cons r l ih =>
    rw [List.filterMap_cons, List.filter_cons]
    cases h1 : mat i r with
    | none => simp [h1, ih]
    | some a =>
      cases h2 : mat j r with
      | none => simp [h1, h2, ih]
      | some b => simp [h1, h2, ih]

theorem asMethod_restricted (m : Metric) (mat : ℕ → ℕ → Option ℝ) (N i j : ℕ) :
    asMethod m (restricted Option.isSome mat N [i, j]) = m (commonRows mat N i j) := by
  unfold asMethod restricted
  simp only [List.map_cons, List.map_nil]
  rw [commonRows_eq]
  congr 1
  rw [List.zip_map', List.map_map]
  rfl

/-- the columns of a combination of two -/
theorem mem_pairs (K : ℕ) (symmetric : Bool) (c : List ℕ) (h : c ∈ nCombinations (List.range K) 2 .none (!symmetric)) :
    ∃ i j, c = [i, j] ∧ Wanted symmetric K i j := by
  have hc := mem_combs_lt _ _ _ _ _ h
  obtain ⟨i, j, rfl⟩ : ∃ i j, c = [i, j] := by
    match c, hc.1 with
    | [i, j], _ => exact ⟨i, j, rfl⟩
  refine ⟨i, j, rfl, hc.2 i (by simp), hc.2 j (by simp), ?_⟩
  unfold nCombinations at h
  cases symmetric
  · simp only [Bool.not_false, if_true, List.mem_filter, mem_permutations _ _ _ List.nodup_range] at h
    simpa using h.1.2.1
  · simp only [Bool.not_true, Bool.false_eq_true, if_false, List.mem_filter, mem_combinations, sublist_range_iff] at h
    simpa using h.1.2.1

theorem pairs_mem (K : ℕ) (symmetric : Bool) (i j : ℕ) (h : Wanted symmetric K i j) :
    [i, j] ∈ nCombinations (List.range K) 2 .none (!symmetric) := by
  obtain ⟨h1, h2, h3⟩ := h
  unfold nCombinations MustInclude.elements
  cases symmetric
  · simp only [Bool.not_false, if_true, List.mem_filter, mem_permutations _ _ _ List.nodup_range]
    refine ⟨⟨rfl, by simpa using h3, ?_⟩, by simp⟩
    simp [h1, h2]
  · simp only [Bool.not_true, Bool.false_eq_true, if_false, List.mem_filter, mem_combinations, sublist_range_iff]
    refine ⟨⟨rfl, by simpa using h3, ?_⟩, by simp⟩
    simp [h1, h2]

theorem pairs_nodup (K : ℕ) (symmetric : Bool) : (nCombinations (List.range K) 2 .none (!symmetric)).Nodup := by
  cases symmetric
  · exact (n_permutations_spec K 2 []).1
  · exact (n_combinations_spec K 2 []).1

theorem fieldNames_ok {W : Type} (l : List (List Col × W)) (f : List Col → List Char) (h : ∀ e ∈ l, joinCols e.1 = .ok (f e.1)) :
    fieldNames l = .ok (l.map (fun e => (f e.1, e.2))) := by
  induction l with
  | nil => rfl
  | cons e l ih =>
    obtain ⟨k, v⟩ := e
    unfold fieldNames
    rw [h _ (List.mem_cons_self ..), ih (fun e he => h e (List.mem_cons_of_mem _ he))]
    rfl

theorem joinCols_pair (cols : ℕ → Col) (nm : ℕ → List Char) (K i j : ℕ) (hn : ∀ i < K, cols i = .str (nm i)) (hi : i < K) (hj : j < K) :
    joinCols ([i, j].map cols) = .ok (pairName nm i j) := by
  simp only [List.map_cons, List.map_nil, hn i hi, hn j hj]
  rfl

theorem evaluateAll_exists {V R : Type} (fin : V → Bool) (method : List (List V) → Except Err (List R)) (mat : ℕ → ℕ → V) (N : ℕ)
    (combs : List (List ℕ)) (h : ∀ c ∈ combs, completeRows fin mat N c ≠ [] → ∃ v, method (restricted fin mat N c) = .ok v) :
    ∃ res, evaluateAll fin method mat N combs = .ok res := by
  induction combs with
  | nil => exact ⟨[], rfl⟩
  | cons c cs ih =>
    obtain ⟨res, hres⟩ := ih (fun c hc => h c (List.mem_cons_of_mem _ hc))
    have hc : ∃ x, evaluate fin method mat N c = .ok x := by
      unfold evaluate
      by_cases h0 : completeRows fin mat N c = []
      · rw [if_pos h0]
        exact ⟨_, rfl⟩
      · obtain ⟨v, hv⟩ := h c (List.mem_cons_self ..) h0
        rw [if_neg h0, hv]
        exact ⟨_, rfl⟩
    obtain ⟨x, hx⟩ := hc
    refine ⟨x :: res, ?_⟩
    unfold evaluateAll
    rw [hx, hres]

/-- the probing call of `nwise_apply` -/
theorem probe_eq (m : Metric) (mat : ℕ → ℕ → Option ℝ) (N : ℕ) :
    asMethod m [((List.range N).filter (fun r => !(mat 0 r).isNone && !(mat 1 r).isNone)).map (mat 0),
      ((List.range N).filter (fun r => !(mat 0 r).isNone && !(mat 1 r).isNone)).map (mat 1)] = m (commonRows mat N 0 1) := by
  rw [← asMethod_restricted m mat N 0 1]
  have h : (List.range N).filter (fun r => !(mat 0 r).isNone && !(mat 1 r).isNone) = completeRows Option.isSome mat N [0, 1] := by
    unfold completeRows
    apply List.filter_congr
    intro r _
    cases h0 : mat 0 r <;> cases h1 : mat 1 r <;> simp [h0, h1]
  rw [h]
  rfl

/-- **C79.** A metric of a data frame: if the metric does not raise for the columns that have common rows, nor for the first two columns,
and the joined names are distinct names of fields, the result has exactly one field for each pair of columns (each ordered pair for a
metric that is not symmetric) with the metric of the rows that both columns have; NaN without such rows. -/
theorem wrapped_metric_partial (m : Metric) (symmetric : Bool) (cols : ℕ → Col) (nm : ℕ → List Char) (mat : ℕ → ℕ → Option ℝ) (K N idx : ℕ)
    (hK : 2 ≤ K) (hcols : ∀ i < K, cols i = .str (nm i)) (hfield : ∀ i j, Wanted symmetric K i j → fieldName (pairName nm i j) = true)
    (hdist : ∀ i j i' j', Wanted symmetric K i j → Wanted symmetric K i' j' → pairName nm i j = pairName nm i' j' → i = i' ∧ j = j')
    (hprobe : ∃ v, m (commonRows mat N 0 1) = .ok v)
    (hok : ∀ i j, Wanted symmetric K i j → commonRows mat N i j ≠ [] → ∃ v, m (commonRows mat N i j) = .ok v) :
    ∃ res, wrapAt m symmetric cols mat K N idx = .ok res ∧ (res.map Prod.fst).Nodup ∧
      ∀ x v, (x, v) ∈ res ↔ ∃ i j, Wanted symmetric K i j ∧ x = pairName nm i j ∧ IsValue m mat N idx i j v := by
  obtain ⟨c0, hc0⟩ := hprobe
  set combs := nCombinations (List.range K) 2 .none (!symmetric) with hcombs
  have hcomplete : ∀ i j, completeRows Option.isSome mat N [i, j] = [] ↔ commonRows mat N i j = [] := by
    intro i j
    rw [commonRows_eq, List.map_eq_nil_iff]
  obtain ⟨er, her⟩ := evaluateAll_exists Option.isSome (asMethod m) mat N combs (by
    intro c hc hne
    obtain ⟨i, j, rfl, hw⟩ := mem_pairs K symmetric c hc
    rw [asMethod_restricted]
    exact hok i j hw (fun h => hne ((hcomplete i j).mpr h)))
  obtain ⟨hfst, hent⟩ := evaluateAll_entries _ _ _ _ _ _ her
  have hn : nwiseApply Option.isSome Option.isNone (asMethod m) (asMethod m) mat K N 2 symmetric .none = .ok er := by
    rw [nwise_pairs Option.isSome Option.isNone (asMethod m) (asMethod m) mat K N hK symmetric .none c0 ((probe_eq m mat N).trans hc0)]
    exact her
  set f : List Col → List Char := fun k => ((joinCols k).toOption).getD [] with hf
  have hfc : ∀ c ∈ combs, joinCols (c.map cols) = .ok (f (c.map cols)) := by
    intro c hc
    obtain ⟨i, j, rfl, hw⟩ := mem_pairs K symmetric c hc
    rw [hf]
    simp only
    rw [joinCols_pair cols nm K i j hcols hw.1 hw.2.1]
    rfl
  have hfij : ∀ i j, Wanted symmetric K i j → f ([i, j].map cols) = pairName nm i j := by
    intro i j hw
    rw [hf]
    simp only
    rw [joinCols_pair cols nm K i j hcols hw.1 hw.2.1]
    rfl
  have hmemc : ∀ e ∈ er, e.1 ∈ combs := fun e he => hfst ▸ List.mem_map_of_mem he
  have hnames : fieldNames (er.map (fun e => (e.1.map cols, valueOf idx e.2))) =
      .ok (er.map (fun e => (f (e.1.map cols), valueOf idx e.2))) := by
    rw [fieldNames_ok _ f (by
      intro e he
      obtain ⟨e', he', rfl⟩ := List.mem_map.mp he
      exact hfc _ (hmemc e' he')), List.map_map]
    rfl
  have hkeys : (er.map (fun e => (f (e.1.map cols), valueOf idx e.2))).map Prod.fst = combs.map (fun c => f (c.map cols)) := by
    rw [← hfst, List.map_map, List.map_map]
    rfl
  have hnd : ((er.map (fun e => (f (e.1.map cols), valueOf idx e.2))).map Prod.fst).Nodup := by
    rw [hkeys]
    refine List.Nodup.map_on ?_ (pairs_nodup K symmetric)
    intro c hc c' hc' he
    obtain ⟨i, j, rfl, hw⟩ := mem_pairs K symmetric c hc
    obtain ⟨i', j', rfl, hw'⟩ := mem_pairs K symmetric c' hc'
    rw [hfij i j hw, hfij i' j' hw'] at he
    obtain ⟨rfl, rfl⟩ := hdist i j i' j' hw hw' he
    rfl
  refine ⟨_, ?_, hnd, ?_⟩
  · unfold wrapAt
    rw [hn]
    simp only
    unfold dictToNamedtuple
    rw [hnames]
    simp only
    refine if_pos ⟨?_, hnd⟩
    rw [List.all_eq_true]
    intro e he
    obtain ⟨e', he', rfl⟩ := List.mem_map.mp he
    obtain ⟨i, j, hij, hw⟩ := mem_pairs K symmetric e'.1 (hmemc e' he')
    simp only
    rw [hij, hfij i j hw]
    exact hfield i j hw
  · have hval : ∀ e ∈ er, ∀ i j, e.1 = [i, j] → IsValue m mat N idx i j (valueOf idx e.2) := by
      intro e he i j hij
      rcases hent e he with ⟨h1, h2⟩ | ⟨h1, c, h2, h3⟩
      · left
        rw [hij, hcomplete] at h1
        rw [h2]
        exact ⟨h1, rfl⟩
      · right
        rw [hij, ne_eq, hcomplete] at h1
        rw [hij, asMethod_restricted] at h2
        rw [h3]
        exact ⟨h1, c, h2, rfl⟩
    intro x v
    constructor
    · intro h
      obtain ⟨e, he, hxe⟩ := List.mem_map.mp h
      obtain ⟨i, j, hij, hw⟩ := mem_pairs K symmetric e.1 (hmemc e he)
      obtain ⟨rfl, rfl⟩ := Prod.mk.inj hxe
      refine ⟨i, j, hw, ?_, hval e he i j hij⟩
      rw [hij]
      exact hfij i j hw
    · rintro ⟨i, j, hw, rfl, hv⟩
      have hc : [i, j] ∈ er.map Prod.fst := by
        rw [hfst]
        exact pairs_mem K symmetric i j hw
      obtain ⟨e, he, hij⟩ := List.mem_map.mp hc
      refine List.mem_map.mpr ⟨e, he, ?_⟩
      rw [hij, hfij i j hw]
      congr 1
      rcases hval e he i j hij with ⟨h1, h2⟩ | ⟨h1, vs, h2, h3⟩ <;> rcases hv with ⟨h4, h5⟩ | ⟨h4, vs', h5, h6⟩
      · rw [h2, h5]
      · exact absurd h1 h4
      · exact absurd h4 h1
      · rw [h2] at h5
        rw [h3, h6, Except.ok.inj h5]

/-! ### Order of the columns -/

theorem commonRows_swap (mat : ℕ → ℕ → Option ℝ) (N i j : ℕ) : commonRows mat N j i = swapped (commonRows mat N i j) := by
  unfold commonRows swapped
  rw [List.map_filterMap]
  congr 1
  funext r
  cases mat i r <;> cases mat j r <;> rfl

/-- exchanging the arguments does not change the metric -/
def OrderFree (m : Metric) : Prop := ∀ l, l ≠ [] → m (swapped l) = m l

/-- For a symmetric metric the value of two columns does not depend on their order in the frame. -/
theorem order_free_value (m : Metric) (h : OrderFree m) (mat : ℕ → ℕ → Option ℝ) (N idx i j : ℕ) (v : Option ℝ) :
    IsValue m mat N idx i j v ↔ IsValue m mat N idx j i v := by
  unfold IsValue
  rw [commonRows_swap mat N i j]
  by_cases hl : commonRows mat N i j = []
  · rw [hl]
    rfl
  · rw [h _ hl]
    have : swapped (commonRows mat N i j) ≠ [] := swapped_ne hl
    simp [hl, this]

theorem moments_swapped (l : Pairs) (h : l ≠ []) :
    mseCorr (swapped l) = mseCorr l ∧ mseVar (swapped l) = mseVar l ∧ mseBias (swapped l) = mseBias l ∧
      mseDecomposition (swapped l) = mseDecomposition l := by
  obtain ⟨a1, -, a3, a4, a5, -, -, -, a9, a10, a11⟩ := mse_decomposition_exact l h
  obtain ⟨b1, -, b3, b4, b5, -, -, -, b9, b10, b11⟩ := mse_decomposition_exact (swapped l) (swapped_ne h)
  rw [swapped_fst, swapped_snd, pcov_swapped] at b9
  rw [swapped_fst, swapped_snd] at b10 b11
  have e1 : (mseDecomposition (swapped l)).2.1 = (mseDecomposition l).2.1 := by rw [a9, b9]; ring
  have e2 : (mseDecomposition (swapped l)).2.2.1 = (mseDecomposition l).2.2.1 := by rw [a10, b10]; ring
  have e3 : (mseDecomposition (swapped l)).2.2.2 = (mseDecomposition l).2.2.2 := by rw [a11, b11]; ring
  have e0 : (mseDecomposition (swapped l)).1 = (mseDecomposition l).1 := by rw [a1, b1, e1, e2, e3]
  refine ⟨?_, ?_, ?_, Prod.ext e0 (Prod.ext e1 (Prod.ext e2 e3))⟩
  · rw [← b3, ← a3, e1]
  · rw [← b5, ← a5, e3]
  · rw [← b4, ← a4, e2]

theorem nrmsd_swapped (l : Pairs) (h : l ≠ []) :
    minBoth (swapped l) = minBoth l ∧ maxBoth (swapped l) = maxBoth l ∧ nrmsd (swapped l) 0 = nrmsd l 0 := by
  have h1 : minBoth (swapped l) = minBoth l := by
    cases l with
    | nil => rfl
    | cons p l =>
      unfold minBoth swapped
      simp only [List.map_cons, List.foldl_map, Prod.fst_swap, Prod.snd_swap]
      rw [min_comm p.2 p.1]
      congr 1
      funext m q
      rw [min_comm q.2 q.1]
  have h2 : maxBoth (swapped l) = maxBoth l := by
    cases l with
    | nil => rfl
    | cons p l =>
      unfold maxBoth swapped
      simp only [List.map_cons, List.foldl_map, Prod.fst_swap, Prod.snd_swap]
      rw [max_comm p.2 p.1]
      congr 1
      funext m q
      rw [max_comm q.2 q.1]
  refine ⟨h1, h2, ?_⟩
  unfold nrmsd
  rw [h1, h2, (difference_metrics_symmetric l h).2.2.1]

theorem swapped_eq_nil (l : Pairs) : swapped l = [] ↔ l = [] := by
  unfold swapped
  exact List.map_eq_nil_iff

/-- **C79.** The metrics that are calculated for one order of two columns only do not depend on the order, except `nash_sutcliffe`. -/
theorem symmetric_metrics :
    OrderFree rssM ∧ OrderFree msdM ∧ OrderFree rmsdM ∧ OrderFree nrmsdM ∧ OrderFree ubrmsdM ∧ OrderFree mseCorrM ∧ OrderFree mseVarM ∧
      OrderFree mseBiasM ∧ OrderFree mseDecompositionM := by
  have hR : ∀ l : Pairs, RSS (swapped l) = RSS l := by
    intro l
    rw [RSS_eq, RSS_eq, S_swapped]
    exact Moments.S_congr _ _ _ (fun p _ => by simp; ring)
  refine ⟨fun l h => ?_, fun l h => ?_, fun l h => ?_, fun l h => ?_, fun l h => ?_, fun l h => ?_, fun l h => ?_, fun l h => ?_, fun l h => ?_⟩
  · unfold rssM; rw [hR]
  · unfold msdM; simp only [swapped_eq_nil, (difference_metrics_symmetric l h).2.1]
  · unfold rmsdM; simp only [swapped_eq_nil, (difference_metrics_symmetric l h).2.2.1]
  · obtain ⟨h1, h2, h3⟩ := nrmsd_swapped l h
    unfold nrmsdM; simp only [swapped_eq_nil, h1, h2, h3]
  · unfold ubrmsdM; simp only [ne_eq, swapped_eq_nil, (difference_metrics_symmetric l h).2.2.2.1]
  · unfold mseCorrM; simp only [ne_eq, swapped_eq_nil, (moments_swapped l h).1]
  · unfold mseVarM; simp only [ne_eq, swapped_eq_nil, (moments_swapped l h).2.1]
  · unfold mseBiasM; simp only [ne_eq, swapped_eq_nil, (moments_swapped l h).2.2.1]
  · unfold mseDecompositionM; simp only [swapped_eq_nil, (moments_swapped l h).2.2.2]

example := order_free_value rmsdM symmetric_metrics.2.2.1 (fun i r => some ((i * r : ℕ) : ℝ)) 4 0 1 2

/-- Both orders are given for the bias, with opposite sign. -/
theorem bias_both_orders (mat : ℕ → ℕ → Option ℝ) (N i j : ℕ) (v w : Option ℝ) (hv : IsValue biasM mat N 0 i j v) (hw : IsValue biasM mat N 0 j i w) :
    w = v.map (fun b => -b) := by
  unfold IsValue at hv hw
  rw [commonRows_swap mat N i j, swapped_eq_nil, ne_eq, swapped_eq_nil] at hw
  rcases hv with ⟨h1, rfl⟩ | ⟨h1, vs, h2, rfl⟩
  · rcases hw with ⟨-, rfl⟩ | ⟨h3, -⟩
    · rfl
    · exact absurd h1 h3
  · rcases hw with ⟨h3, -⟩ | ⟨-, ws, h4, rfl⟩
    · exact absurd h3 h1
    · unfold biasM single at h2 h4
      have h5 : swapped (commonRows mat N i j) ≠ [] := swapped_ne h1
      rw [if_pos h1] at h2
      rw [if_pos h5, (difference_metrics_symmetric _ h1).1] at h4
      rw [← Except.ok.inj h2, ← Except.ok.inj h4]
      rfl

/-- the data set "a" with 1, 2, 3 and the data set "b" with 1, 2, 6 -/
def nashFrame : ℕ → ℕ → Option ℝ
  | 0, 0 => some 1
  | 0, 1 => some 2
  | 0, 2 => some 3
  | 1, 0 => some 1
  | 1, 1 => some 2
  | 1, 2 => some 6
  | _, _ => none

/-- **C79 fails for `nash_sutcliffe`**: the value of the same two data sets depends on the order of the columns, and there is no field for
the other order. -/
theorem nash_sutcliffe_depends_on_order :
    IsValue nashM nashFrame 3 0 0 1 (some (-7 / 2)) ∧ IsValue nashM nashFrame 3 0 1 0 (some (5 / 14)) ∧ ¬Wanted true 2 1 0 := by
  have h1 : commonRows nashFrame 3 0 1 = [(1, 1), (2, 2), (3, 6)] := rfl
  have h2 : commonRows nashFrame 3 1 0 = [(1, 1), (2, 2), (6, 3)] := rfl
  refine ⟨.inr ⟨by rw [h1]; simp, _, rfl, ?_⟩, .inr ⟨by rw [h2]; simp, _, rfl, ?_⟩, fun h => ?_⟩
  · rw [h1]
    have hd : ∃ p ∈ ([(1, 1), (2, 2), (3, 6)] : Pairs), ∃ q ∈ ([(1, 1), (2, 2), (3, 6)] : Pairs), p.1 ≠ q.1 := ⟨(1, 1), by simp, (2, 2), by simp, by norm_num⟩
    rw [if_pos hd]
    simp only [List.getElem?_cons_zero, Option.join_some, Option.some.injEq]
    norm_num [nashSutcliffe, npMean]
  · rw [h2]
    have hd : ∃ p ∈ ([(1, 1), (2, 2), (6, 3)] : Pairs), ∃ q ∈ ([(1, 1), (2, 2), (6, 3)] : Pairs), p.1 ≠ q.1 := ⟨(1, 1), by simp, (2, 2), by simp, by norm_num⟩
    rw [if_pos hd]
    simp only [List.getElem?_cons_zero, Option.join_some, Option.some.injEq]
    norm_num [nashSutcliffe, npMean]
  · have := h.2.2
    simp at this

/-! ### Values -/

/-- **C79.** What the metrics of data frames made from one number return for two columns with common rows, in textbook terms: all are numbers, `nrmsd` is NaN exactly if
all values of the two columns in these rows are equal. -/
theorem metrics_df_values (mat : ℕ → ℕ → Option ℝ) (N i j : ℕ) (h : commonRows mat N i j ≠ []) :
    let l := commonRows mat N i j
    let mx := Moments.mean (l.map Prod.fst)
    let my := Moments.mean (l.map Prod.snd)
    let sx := Real.sqrt (Moments.pvar (l.map Prod.fst))
    let sy := Real.sqrt (Moments.pvar (l.map Prod.snd))
    IsValue biasM mat N 0 i j (some (mx - my)) ∧ IsValue rssM mat N 0 i j (some (l.map (fun p => (p.1 - p.2) ^ 2)).sum) ∧
    IsValue msdM mat N 0 i j (some (meanSqDiff l)) ∧ IsValue rmsdM mat N 0 i j (some (Real.sqrt (meanSqDiff l))) ∧
    IsValue ubrmsdM mat N 0 i j (some (Real.sqrt (meanSqDiff l - (mx - my) ^ 2))) ∧
    IsValue mseCorrM mat N 0 i j (some (2 * sx * sy - 2 * Moments.pcov l)) ∧ IsValue mseVarM mat N 0 i j (some ((sx - sy) ^ 2)) ∧
    IsValue mseBiasM mat N 0 i j (some ((mx - my) ^ 2)) ∧
    (∀ lo hi, IsLeast (allValues l) lo → IsGreatest (allValues l) hi →
      IsValue nrmsdM mat N 0 i j (if lo = hi then none else some (Real.sqrt (meanSqDiff l) / (hi - lo)))) := by
  intro l mx my sx sy
  obtain ⟨-, -, a3, a4, a5, -, -, -, a9, a10, a11⟩ := mse_decomposition_exact l h
  obtain ⟨b1, -, b3, b4, b5, b6, -, -, -⟩ := difference_metrics_consistent l h
  have hone : ∀ (m : Metric) (v : ℝ), m l = single True v → IsValue m mat N 0 i j (some v) := by
    intro m v hm
    refine .inr ⟨h, _, hm, ?_⟩
    simp
  have hdef : ∀ v, single (l ≠ []) v = single True v := by
    intro v
    unfold single
    rw [if_pos h, if_pos trivial]
  have hr : rmsd l 0 = Real.sqrt (meanSqDiff l) := by
    rw [← b1, ← b3, Real.sqrt_sq b4]
  have hu0 : 0 ≤ ubrmsd l 0 := by
    unfold ubrmsd
    rw [if_neg (by simp)]
    exact Real.sqrt_nonneg _
  have hu : ubrmsd l 0 = Real.sqrt (meanSqDiff l - (mx - my) ^ 2) := by
    have : meanSqDiff l - (mx - my) ^ 2 = ubrmsd l 0 ^ 2 := by
      rw [← b1, ← b3, b5, b6]
      ring
    rw [this, Real.sqrt_sq hu0]
  refine ⟨hone _ _ ?_, hone _ _ ?_, hone _ _ ?_, hone _ _ ?_, hone _ _ ?_, hone _ _ ?_, hone _ _ ?_, hone _ _ ?_, ?_⟩
  · unfold biasM
    rw [hdef, b6]
  · unfold rssM
    rw [RSS_eq]
    rfl
  · unfold msdM
    rw [if_neg h, b1]
  · unfold rmsdM
    rw [if_neg h, hr]
  · unfold ubrmsdM
    rw [hdef, hu]
  · unfold mseCorrM
    rw [hdef, ← a9, a3]
  · unfold mseVarM
    rw [hdef, ← a11, a5]
  · unfold mseBiasM
    rw [hdef, ← a10, a4]
  · intro lo hi hlo hhi
    have e1 : maxBoth l = hi := hhi.unique ⟨maxBoth_mem l h, by
      rintro v ⟨p, hp, rfl | rfl⟩
      · exact (maxBoth_ge l p hp).1
      · exact (maxBoth_ge l p hp).2⟩ |>.symm
    have e2 : minBoth l = lo := hlo.unique ⟨minBoth_mem l h, by
      rintro v ⟨p, hp, rfl | rfl⟩
      · exact (minBoth_le l p hp).1
      · exact (minBoth_le l p hp).2⟩ |>.symm
    refine .inr ⟨h, _, by unfold nrmsdM; rw [if_neg h]; rfl, ?_⟩
    rw [e1, e2]
    by_cases hne : lo = hi
    · simp [hne]
    · have hv : nrmsd l 0 = Real.sqrt (meanSqDiff l) / (hi - lo) := by
        unfold nrmsd
        rw [e1, e2, hr]
      rw [if_neg hne, if_pos hne]
      exact congrArg some hv.symm

/-- two columns with two common rows -/
example : commonRows (fun i r => if i = 0 ∧ r = 1 then none else some (i + r : ℝ)) 3 0 1 = [(0, 1), (2, 3)] := by
  norm_num [commonRows, List.range, List.range.loop, List.filterMap]

/-! ### Decomposition -/

/-- **C79.** `mse_decomposition(df)`: for two columns with common rows the four values are numbers, the first is the mean squared
difference and the sum of the other three. -/
theorem mse_decomposition_df (mat : ℕ → ℕ → Option ℝ) (N i j : ℕ) (h : commonRows mat N i j ≠ []) :
    ∃ c b v : ℝ, IsValue mseDecompositionM mat N 0 i j (some (c + b + v)) ∧ IsValue mseDecompositionM mat N 1 i j (some c) ∧
      IsValue mseDecompositionM mat N 2 i j (some b) ∧ IsValue mseDecompositionM mat N 3 i j (some v) ∧
      c + b + v = meanSqDiff (commonRows mat N i j) ∧ 0 ≤ c ∧ 0 ≤ b ∧ 0 ≤ v := by
  obtain ⟨a1, a2, -, -, -, a6, a7, a8, -, -, -⟩ := mse_decomposition_exact _ h
  have hm : ∀ k x, [some (mseDecomposition (commonRows mat N i j)).1, some (mseDecomposition (commonRows mat N i j)).2.1,
      some (mseDecomposition (commonRows mat N i j)).2.2.1, some (mseDecomposition (commonRows mat N i j)).2.2.2][k]? = some (some x) →
      IsValue mseDecompositionM mat N k i j (some x) := by
    intro k x hx
    refine .inr ⟨h, _, rfl, ?_⟩
    rw [if_neg h, hx]
    rfl
  refine ⟨_, _, _, hm 0 _ ?_, hm 1 _ rfl, hm 2 _ rfl, hm 3 _ rfl, ?_, a6, a7, a8⟩
  · rw [← a1]
    rfl
  · rw [← a1, a2]

/-! ### One pair of columns spoils the others -/

theorem wrap_probe_error (m : Metric) (symmetric : Bool) (cols : ℕ → Col) (mat : ℕ → ℕ → Option ℝ) (K N idx : ℕ) (hK : 2 ≤ K) (e : Err)
    (h : m (commonRows mat N 0 1) = .error e) : wrapAt m symmetric cols mat K N idx = .error e := by
  have hn : nwiseApply Option.isSome Option.isNone (asMethod m) (asMethod m) mat K N 2 symmetric .none = .error e := by
    unfold nwiseApply
    simp only
    rw [if_neg (by omega)]
    have hr : (List.range 2).map mat = [mat 0, mat 1] := rfl
    rw [hr]
    simp only [arrayDropna, List.map_cons, List.map_nil, compress]
    have hf : ((List.range N).filter (fun r => !((mat 0 r).isNone || (mat 1 r).isNone))) =
        (List.range N).filter (fun r => !(mat 0 r).isNone && !(mat 1 r).isNone) :=
      List.filter_congr (fun r _ => by simp)
    rw [hf, probe_eq, h]
  unfold wrapAt
  rw [hn]

/-- **C79 fails** if the first two columns have no common row: `msd`, `rmsd` and `nrmsd` raise ZeroDivisionError, whatever the other
columns contain. -/
theorem first_columns_disjoint_raises (m : Metric) (hm : m = msdM ∨ m = rmsdM ∨ m = nrmsdM) (symmetric : Bool) (cols : ℕ → Col)
    (mat : ℕ → ℕ → Option ℝ) (K N idx : ℕ) (hK : 2 ≤ K) (h : commonRows mat N 0 1 = []) :
    wrapAt m symmetric cols mat K N idx = .error .metric := by
  refine wrap_probe_error m symmetric cols mat K N idx hK _ ?_
  rw [h]
  rcases hm with rfl | rfl | rfl
  · unfold msdM; rw [if_pos rfl]
  · unfold rmsdM; rw [if_pos rfl]
  · unfold nrmsdM; rw [if_pos rfl]

/-! ### Names -/

/-- Integers as names of columns (the default of pandas) raise TypeError. -/
theorem integer_columns_raise {W : Type} (n : ℕ) (c : Col) (v : W) (l : List (List Col × W)) :
    dictToNamedtuple (([.other n, c], v) :: l) = .error .typeError := rfl

/-- Names that are no identifiers raise ValueError, for instance with a dot. -/
theorem dotted_columns_raise {W : Type} (v : W) :
    dictToNamedtuple [([Col.str "ISMN.sm".toList, .str "ASCAT.sm".toList], v)] = .error .valueError := by
  rfl

/-- Distinct columns whose joined names agree raise ValueError. -/
theorem joined_columns_clash {W : Type} (u v : W) :
    dictToNamedtuple [([Col.str "a".toList, .str "b_and_c".toList], u), ([.str "a_and_b".toList, .str "c".toList], v)] = .error .valueError := by
  rfl

/-! ### The hypotheses can be met -/

def exNames : ℕ → List Char
  | 0 => "ref".toList
  | 1 => "k1".toList
  | _ => "k2".toList

example : (∀ i j, Wanted false 3 i j → fieldName (pairName exNames i j) = true) ∧
    (∀ i j i' j', Wanted false 3 i j → Wanted false 3 i' j' → pairName exNames i j = pairName exNames i' j' → i = i' ∧ j = j') := by
  constructor
  · rintro i j ⟨h1, h2, -⟩
    interval_cases i <;> interval_cases j <;> decide
  · rintro i j i' j' ⟨h1, h2, -⟩ ⟨h3, h4, -⟩
    interval_cases i <;> interval_cases j <;> interval_cases i' <;> interval_cases j' <;> decide

/-- three columns with values in all rows -/
example := wrapped_metric_partial biasM false (fun i => .str (exNames i)) exNames (fun i r => some ((i * r : ℕ) : ℝ)) 3 4 0 (by decide) (fun _ _ => rfl)
  (by
    rintro i j ⟨h1, h2, -⟩
    interval_cases i <;> interval_cases j <;> decide)
  (by
    rintro i j i' j' ⟨h1, h2, -⟩ ⟨h3, h4, -⟩
    interval_cases i <;> interval_cases j <;> interval_cases i' <;> interval_cases j' <;> decide)
  ⟨_, rfl⟩ (fun _ _ _ _ => ⟨_, rfl⟩)
example (v w) (hv : IsValue biasM (fun i r => some ((i * r : ℕ) : ℝ)) 4 0 1 2 v) (hw : IsValue biasM (fun i r => some ((i * r : ℕ) : ℝ)) 4 0 2 1 w) :=
  bias_both_orders (fun i r => some ((i * r : ℕ) : ℝ)) 4 1 2 v w hv hw
example := mse_decomposition_df (fun i r => some ((i * r : ℕ) : ℝ)) 4 1 2 (by simp [commonRows, List.range_succ])
example := first_columns_disjoint_raises rmsdM (.inr (.inl rfl)) true (fun i => .str (exNames i)) (fun i r => if i = 0 ∧ r < 2 ∨ i = 1 ∧ 2 ≤ r then none else some 1) 3 4 0
  (by decide) (by simp [commonRows, List.range_succ])

end Verif.DfMetrics
