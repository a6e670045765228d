import Mathlib.Tactic.NormNum
import Mathlib.Tactic.IntervalCases
import Verif.Tcol.Props
import Verif.DfMetrics.Lemmas

/-! C15, C16, C17, C51: metrics on data frames. -/

namespace Verif.DfMetrics

section
variable {V R : Type}

/-- C51: without `permutations`, `n_combinations(range(K), n, must_include)` lists every increasing selection of `n` elements
that contains the required elements, exactly once. -/
theorem n_combinations_spec (K n : ℕ) (req : List ℕ) :
    (nCombinations (List.range K) n (.list req) false).Nodup ∧
    ∀ c, c ∈ nCombinations (List.range K) n (.list req) false ↔
      c.length = n ∧ c.Pairwise (· < ·) ∧ (∀ x ∈ c, x < K) ∧ ∀ x ∈ req, x ∈ c := by
  refine ⟨(combinations_nodup _ _ List.nodup_range).filter _, fun c => ?_⟩
  simp only [nCombinations, MustInclude.elements, Bool.false_eq_true, if_false, List.mem_filter, mem_combinations,
    sublist_range_iff, List.all_eq_true, decide_eq_true_eq]
  tauto

example : nCombinations (List.range 4) 3 (.list [2]) false = [[0, 1, 2], [0, 2, 3], [1, 2, 3]] := by decide

/-- C51, ordered selections. -/
theorem n_permutations_spec (K n : ℕ) (req : List ℕ) :
    (nCombinations (List.range K) n (.list req) true).Nodup ∧
    ∀ c, c ∈ nCombinations (List.range K) n (.list req) true ↔
      c.length = n ∧ c.Nodup ∧ (∀ x ∈ c, x < K) ∧ ∀ x ∈ req, x ∈ c := by
  refine ⟨(permutations_nodup _ _ List.nodup_range).filter _, fun c => ?_⟩
  simp only [nCombinations, MustInclude.elements, if_true, List.mem_filter, mem_permutations _ _ _ List.nodup_range,
    List.mem_range, List.all_eq_true, decide_eq_true_eq]
  tauto

/-- C51 fails for a single required element 0: it is ignored. -/
theorem n_combinations_zero_ignored (K n : ℕ) (p : Bool) :
    nCombinations (List.range K) n (.single 0) p = nCombinations (List.range K) n .none p := rfl

example : [1, 2] ∈ nCombinations (List.range 3) 2 (.single 0) false ∧
    [1, 2] ∉ nCombinations (List.range 3) 2 (.list [0]) false := by decide

theorem mem_combs_lt (K n : ℕ) (mi : MustInclude) (p : Bool) (c : List ℕ) (h : c ∈ nCombinations (List.range K) n mi p) :
    c.length = n ∧ ∀ x ∈ c, x < K := by
  unfold nCombinations at h
  cases p
  · simp only [Bool.false_eq_true, if_false, List.mem_filter, mem_combinations, sublist_range_iff] at h
    exact ⟨h.1.1, h.1.2.2⟩
  · simp only [if_true, List.mem_filter, mem_permutations _ _ _ List.nodup_range, List.mem_range] at h
    exact ⟨h.1.1, h.1.2.2⟩

/-- C15 for pairs of columns: if the probing call (on the first two columns) does not raise, `nwise_apply` evaluates the metric
for each combination on exactly the rows in which both columns are finite, whatever the other columns contain. -/
theorem nwise_pairs (fin nan : V → Bool) (probe method : List (List V) → Except Err (List R)) (mat : ℕ → ℕ → V)
    (K N : ℕ) (hK : 2 ≤ K) (comm : Bool) (mi : MustInclude) (c0 : List R)
    (hp : probe [((List.range N).filter (fun r => !nan (mat 0 r) && !nan (mat 1 r))).map (mat 0),
      ((List.range N).filter (fun r => !nan (mat 0 r) && !nan (mat 1 r))).map (mat 1)] = .ok c0) :
    nwiseApply fin nan probe method mat K N 2 comm mi =
      evaluateAll fin method mat N (nCombinations (List.range K) 2 mi (!comm)) := by
  unfold nwiseApply
  simp only
  rw [if_neg (by omega)]
  have hr : (List.range 2).map mat = [mat 0, mat 1] := rfl
  rw [hr]
  simp only [arrayDropna, List.map_cons, List.map_nil, compress]
  have hf : ((List.range N).filter (fun r => !(nan (mat 0 r) || nan (mat 1 r)))) =
      (List.range N).filter (fun r => !nan (mat 0 r) && !nan (mat 1 r)) :=
    List.filter_congr (fun r _ => by simp)
  rw [hf, hp]
  simp only
  apply loop_eq fin method mat K N _ _ (fun _ _ _ _ => rfl)
  intro mask hm comb hc
  obtain ⟨h1, h2⟩ := mem_combs_lt _ _ _ _ _ hc
  exact step_two fin mat K N mask hm comb h1 h2

/-- three columns, the third one misses row 0 -/
def nwiseExampleFrame : ℕ → ℕ → Option ℚ
  | 2, 0 => none
  | i, r => some (10 * i + r)

/-- C15, triples: only proved if a row that is incomplete in one column is incomplete in all of them (in particular for frames
without missing values). Missing: frames with individually missing values, where the claim is false, see
`nwise_triples_third_mask_ignored` and `nwise_triples_other_column`. -/
theorem nwise_triples_partial (fin nan : V → Bool) (probe method : List (List V) → Except Err (List R)) (mat : ℕ → ℕ → V)
    (K N : ℕ) (hK : 3 ≤ K) (comm : Bool) (mi : MustInclude) (c0 : List R)
    (hu : ∀ i j r, i < K → j < K → r < N → fin (mat i r) = fin (mat j r))
    (hp : let ok := (List.range N).filter (fun r => !nan (mat 0 r) && !nan (mat 1 r))
      probe [ok.map (mat 0), ok.map (mat 1), ok.map (mat 2)] = .ok c0) :
    nwiseApply fin nan probe method mat K N 3 comm mi =
      evaluateAll fin method mat N (nCombinations (List.range K) 3 mi (!comm)) := by
  unfold nwiseApply
  simp only
  rw [if_neg (by omega)]
  have hr : (List.range 3).map mat = [mat 0, mat 1, mat 2] := rfl
  rw [hr]
  simp only [arrayDropna, List.map_cons, List.map_nil, compress]
  have hf : ((List.range N).filter (fun r => !(nan (mat 0 r) || nan (mat 1 r)))) =
      (List.range N).filter (fun r => !nan (mat 0 r) && !nan (mat 1 r)) :=
    List.filter_congr (fun r _ => by simp)
  rw [hf, hp]
  simp only
  apply loop_eq fin method mat K N _ _ (fun _ _ _ _ => rfl)
  intro mask hm comb hc
  obtain ⟨h1, h2⟩ := mem_combs_lt _ _ _ _ _ hc
  exact step_three fin mat K N hu mask hm comb h1 h2

/-- what `evaluateAll` gives: one entry per combination, in order, each the value on the complete rows -/
theorem evaluateAll_entries (fin : V → Bool) (method : List (List V) → Except Err (List R)) (mat : ℕ → ℕ → V) (N : ℕ)
    (combs : List (List ℕ)) (res : List (List ℕ × Option (List R)))
    (h : evaluateAll fin method mat N combs = .ok res) :
    res.map Prod.fst = combs ∧ ∀ e ∈ res,
      (completeRows fin mat N e.1 = [] ∧ e.2 = none) ∨
      (completeRows fin mat N e.1 ≠ [] ∧ ∃ c, method (restricted fin mat N e.1) = .ok c ∧ e.2 = some c) := by
  obtain ⟨h1, h2⟩ := evaluateAll_spec fin method mat N combs res h
  refine ⟨h1, ?_⟩
  intro e he
  have := h2 e he
  unfold evaluate at this
  split at this
  · rename_i hc
    left
    refine ⟨hc, ?_⟩
    simp at this
    rw [← this]
  · rename_i hc
    right
    refine ⟨hc, ?_⟩
    cases hm : method (restricted fin mat N e.1) with
    | error err => rw [hm] at this; simp at this
    | ok c =>
      rw [hm] at this
      simp at this
      exact ⟨c, rfl, by rw [← this]⟩

/-- C15: a frame with fewer columns than a combination has raises IndexError, whatever the metric. -/
theorem nwise_too_few_columns (fin nan : V → Bool) (probe method : List (List V) → Except Err (List R)) (mat : ℕ → ℕ → V) (K N n : ℕ) (hK : K < n)
    (comm : Bool) (mi : MustInclude) : nwiseApply fin nan probe method mat K N n comm mi = .error .indexError := by
  unfold nwiseApply
  exact if_pos hK

example : nwiseApply Option.isSome Option.isNone (fun _ => .ok [1]) (fun _ => .ok [1]) (fun i r => some (i + r)) 2 10 3 true .none =
    (.error .indexError : Except Err (List (List ℕ × Option (List ℕ)))) :=
  nwise_too_few_columns _ _ _ _ _ 2 10 3 (by decide) _ _

/-- C15: combinations of one column, and of four and more, always raise. -/
theorem nwise_other_sizes_raise (fin nan : V → Bool) (probe method : List (List V) → Except Err (List R))
    (mat : ℕ → ℕ → V) (K N n : ℕ) (hn : n ≤ 1 ∨ 4 ≤ n) (hK : n ≤ K) (comm : Bool) (mi : MustInclude) :
    nwiseApply fin nan probe method mat K N n comm mi = .error .typeError := by
  unfold nwiseApply
  simp only
  rw [if_neg (by omega)]
  have : arrayDropna nan N ((List.range n).map mat) = .error .typeError := by
    have hlen : ((List.range n).map mat).length = n := by simp
    match h : (List.range n).map mat with
    | [] => rfl
    | [_] => rfl
    | [_, _] => rw [h] at hlen; simp at hlen; omega
    | [_, _, _] => rw [h] at hlen; simp at hlen; omega
    | _ :: _ :: _ :: _ :: _ => rfl
  rw [this]

end

example : nwiseApply Option.isSome Option.isNone (fun _ => .ok [1]) (fun _ => .ok [1]) (fun i r => some (i + r)) 5 10 4 true .none =
    (.error .typeError : Except Err (List (List ℕ × Option (List ℕ)))) :=
  nwise_other_sizes_raise _ _ _ _ _ 5 10 4 (by decide) (by decide) _ _

/-! #### Counterexamples for triples -/

/-- the metric that returns the arrays it was called with -/
def echo (args : List (List (Option ℚ))) : Except Err (List (List (Option ℚ))) := .ok args

/-- three columns, the third with a missing value -/
def frameA : ℕ → ℕ → Option ℚ
  | 2, 0 => none
  | i, r => some (10 * i + r)

/-- C15 fails for triples: the metric sees the missing value of the third column. -/
theorem nwise_triples_third_mask_ignored :
    (∃ res, nwiseApply Option.isSome Option.isNone echo echo frameA 3 2 3 true .none = .ok res ∧
      res = [([0, 1, 2], some [[some 0, some 1], [some 10, some 11], [none, some 21]])]) ∧
    restricted Option.isSome frameA 2 [0, 1, 2] = [[some 1], [some 11], [some 21]] := by
  constructor
  · refine ⟨_, rfl, ?_⟩
    decide +kernel
  · decide +kernel

/-- four columns, the second with a missing value -/
def frameB : ℕ → ℕ → Option ℚ
  | 1, 0 => none
  | i, r => some (10 * i + r)

/-- C15 fails for triples: a missing value in column 1 removes a row from the combination (0, 2, 3). -/
theorem nwise_triples_other_column :
    (∃ res, nwiseApply Option.isSome Option.isNone echo echo frameB 4 2 3 true .none = .ok res ∧
      ([0, 2, 3], some [[some 1], [some 21], [some 31]]) ∈ res) ∧
    restricted Option.isSome frameB 2 [0, 2, 3] = [[some 0, some 1], [some 20, some 21], [some 30, some 31]] := by
  constructor
  · refine ⟨_, rfl, ?_⟩
    decide +kernel
  · decide +kernel

/-- `nwise_pairs` on this frame with three columns: its hypothesis holds, and the two combinations see different rows. -/
example : nwiseApply Option.isSome Option.isNone echo echo nwiseExampleFrame 3 2 2 true .none =
    evaluateAll Option.isSome echo nwiseExampleFrame 2 [[0, 1], [0, 2], [1, 2]] ∧
    restricted Option.isSome nwiseExampleFrame 2 [0, 1] = [[some 0, some 1], [some 10, some 11]] ∧
    restricted Option.isSome nwiseExampleFrame 2 [1, 2] = [[some 11], [some 21]] :=
  ⟨nwise_pairs _ _ echo echo nwiseExampleFrame 3 2 (by decide) true .none _ rfl, by decide +kernel, by decide +kernel⟩

/-- `nwise_triples_partial` on a frame without missing values -/
example : nwiseApply Option.isSome Option.isNone echo echo (fun i r => some ((10 * i + r : ℕ) : ℚ)) 4 2 3 true (.list [1]) =
    evaluateAll Option.isSome echo (fun i r => some ((10 * i + r : ℕ) : ℚ)) 2 [[0, 1, 2], [0, 1, 3], [1, 2, 3]] :=
  nwise_triples_partial _ _ echo echo _ 4 2 (by decide) true (.list [1]) _ (by simp) rfl

/-! #### Matrices -/

section
variable {W : Type}

theorem foldl_max_ge (l : List ℕ) (a : ℕ) : a ≤ l.foldl max a ∧ ∀ x ∈ l, x ≤ l.foldl max a := by
  induction l generalizing a with
  | nil => simp
  | cons b l ih =>
    obtain ⟨h1, h2⟩ := ih (max a b)
    refine ⟨le_trans (le_max_left _ _) h1, ?_⟩
    intro x hx
    rcases List.mem_cons.mp hx with rfl | hx
    · exact le_trans (le_max_right _ _) h1
    · exact h2 x hx

theorem foldl_max_le (l : List ℕ) (a b : ℕ) (ha : a ≤ b) (h : ∀ x ∈ l, x ≤ b) : l.foldl max a ≤ b := by
  induction l generalizing a with
  | nil => simpa
  | cons c l ih => exact ih _ (max_le ha (h c (by simp))) (fun x hx => h x (List.mem_cons_of_mem _ hx))

/-- C16, order-dependent metrics: entry `(i, j)` of the matrix is the value of the combination `(i, j)`; entries without a
combination (the diagonal) are NaN. -/
theorem to_df_full (result : List ((ℕ × ℕ) × W)) (hne : result ≠ []) (hn : (result.map Prod.fst).Nodup) :
    ∃ K m, toDf false result = .ok (K, m) ∧ (∀ e ∈ result, e.1.1 < K ∧ e.1.2 < K ∧ m e.1.1 e.1.2 = some e.2) ∧
      ∀ i j, (∀ e ∈ result, e.1 ≠ (i, j)) → m i j = none := by
  match result, hne with
  | a :: l, _ =>
    refine ⟨_, _, rfl, ?_, ?_⟩
    · intro e he
      have hm := (foldl_max_ge (((a :: l).map (fun e => max e.1.1 e.1.2))) 0).2 (max e.1.1 e.1.2)
        (List.mem_map.mpr ⟨e, he, rfl⟩)
      refine ⟨by omega, by omega, ?_⟩
      simp only [Bool.false_eq_true, if_false, fillMatrix]
      have := find_reverse_of_mem (a :: l) hn e he
      rw [this]; rfl
    · intro i j h
      simp only [Bool.false_eq_true, if_false, fillMatrix]
      rw [find_reverse_none _ _ h]; rfl

/-- The dictionary of a symmetric metric for `K` columns: the values `v i j` for `i < j`. -/
def upperDict (K : ℕ) (v : ℕ → ℕ → W) : List ((ℕ × ℕ) × W) := (triu K).map (fun p => (p, v p.1 p.2))

theorem mem_triu (K i j : ℕ) : (i, j) ∈ triu K ↔ i < j ∧ j < K := by
  unfold triu
  simp only [List.mem_flatMap, List.mem_map, List.mem_filter, List.mem_range, decide_eq_true_eq, Prod.mk.injEq]
  constructor
  · rintro ⟨a, ha, b, ⟨hb, hab⟩, rfl, rfl⟩; exact ⟨hab, hb⟩
  · rintro ⟨h1, h2⟩; exact ⟨i, by omega, j, ⟨h2, h1⟩, rfl, rfl⟩

theorem triu_nodup (K : ℕ) : (triu K).Nodup := by
  unfold triu
  rw [List.nodup_flatMap]
  refine ⟨fun i _ => (List.nodup_range.filter _).map (fun _ _ e => by simpa using e), ?_⟩
  refine List.nodup_range.imp ?_
  intro a b hab c hc hd
  obtain ⟨x, _, rfl⟩ := List.mem_map.mp hc
  obtain ⟨y, _, e⟩ := List.mem_map.mp hd
  simp at e; exact hab e.1.symm

theorem toDf_upper (K : ℕ) (hK : 2 ≤ K) (v : ℕ → ℕ → W) :
    toDf true (upperDict K v) = .ok (K, copyLower K (fillMatrix (upperDict K v))) ∧
    (∀ i j, i < j → j < K → fillMatrix (upperDict K v) i j = some (v i j)) := by
  have hmem : ((0, K - 1), v 0 (K - 1)) ∈ upperDict K v :=
    List.mem_map.mpr ⟨(0, K - 1), (mem_triu _ _ _).mpr ⟨by omega, by omega⟩, rfl⟩
  constructor
  · have hk : ((upperDict K v).map (fun e => max e.1.1 e.1.2)).foldl max 0 + 1 = K := by
      have h1 := (foldl_max_ge ((upperDict K v).map (fun e => max e.1.1 e.1.2)) 0).2 (max 0 (K - 1))
        (List.mem_map.mpr ⟨_, hmem, rfl⟩)
      have h2 := foldl_max_le ((upperDict K v).map (fun e => max e.1.1 e.1.2)) 0 (K - 1) (by omega) (by
        intro x hx
        obtain ⟨e, he, rfl⟩ := List.mem_map.mp hx
        obtain ⟨⟨a, b⟩, hp, rfl⟩ := List.mem_map.mp he
        have := (mem_triu _ _ _).mp hp
        simp only
        omega)
      omega
    cases hd : upperDict K v with
    | nil => rw [hd] at hmem; simp at hmem
    | cons a l =>
      unfold toDf
      simp only
      rw [← hd, hk]
      simp
  · intro i j h1 h2
    unfold fillMatrix
    have hn : ((upperDict K v).map Prod.fst).Nodup := by
      unfold upperDict; rw [List.map_map]
      have : (Prod.fst ∘ fun p : ℕ × ℕ => (p, v p.1 p.2)) = id := rfl
      rw [this, List.map_id]; exact triu_nodup K
    have := find_reverse_of_mem (upperDict K v) hn ((i, j), v i j)
      (List.mem_map.mpr ⟨(i, j), (mem_triu _ _ _).mpr ⟨h1, h2⟩, rfl⟩)
    simp only at this
    rw [this]; rfl

/-- C16, partial: with two or three columns the matrix of a symmetric metric is right in both triangles; with any number of
columns the upper triangle is right. Missing: the lower triangle for four and more columns, where the claim is false
(`to_df_lower_triangle_wrong`). -/
theorem to_df_symmetric_partial (K : ℕ) (hK : 2 ≤ K) (v : ℕ → ℕ → W) :
    ∃ m, toDf true (upperDict K v) = .ok (K, m) ∧
      (∀ i j, i < j → j < K → m i j = some (v i j)) ∧
      (K ≤ 3 → ∀ i j, i < j → j < K → m j i = some (v i j)) := by
  obtain ⟨h1, h2⟩ := toDf_upper K hK v
  refine ⟨_, h1, ?_, ?_⟩
  · intro i j hij hj
    rw [copyLower_upper _ _ _ _ hij.le, h2 i j hij hj]
  · intro h3 i j hij hj
    have key : ((j, i), (i, j)) ∈ (tril K).zip (triu K) := by
      interval_cases K
      · have : i = 0 := by omega
        have : j = 1 := by omega
        subst_vars; decide
      · have : i = 0 ∧ j = 1 ∨ i = 0 ∧ j = 2 ∨ i = 1 ∧ j = 2 := by omega
        rcases this with ⟨rfl, rfl⟩ | ⟨rfl, rfl⟩ | ⟨rfl, rfl⟩ <;> decide
    rw [copyLower_of_mem _ _ _ _ _ _ key, h2 i j hij hj]

example : ∃ m, toDf true (upperDict 3 (fun i j => (10 * i + j : ℕ))) = .ok (3, m) ∧ m 2 1 = some 12 :=
  let ⟨m, h, _, h'⟩ := to_df_symmetric_partial 3 (by decide) (fun i j => (10 * i + j : ℕ))
  ⟨m, h, h' (by decide) 1 2 (by decide) (by decide)⟩

/-- `to_df_full` on the dictionary of two columns -/
example : ∃ m, toDf false [((0, 1), (5 : ℚ)), ((1, 0), -5)] = .ok (2, m) ∧ m 0 1 = some 5 ∧ m 1 0 = some (-5) ∧ m 0 0 = none :=
  ⟨_, rfl, by decide +kernel, by decide +kernel, by decide +kernel⟩

theorem filter_lt_range (K i : ℕ) (h : i ≤ K) : (List.range K).filter (fun j => decide (j < i)) = List.range i := by
  induction K with
  | zero => simp at h; subst h; simp
  | succ K ih =>
    rw [List.range_succ, List.filter_append]
    rcases Nat.lt_or_ge i (K + 1) with hlt | hge
    · rw [ih (by omega)]
      have : ¬ K < i := by omega
      simp [this]
    · have : i = K + 1 := by omega
      subst this
      rw [List.range_succ]
      congr 1
      · rw [List.filter_eq_self]; intro a ha; have := List.mem_range.mp ha; simp; omega
      · simp

/-- C16 fails for four and more columns: the entry (2, 1) is the value of the columns 0 and 3. -/
theorem to_df_lower_triangle_wrong (K : ℕ) (hK : 4 ≤ K) (v : ℕ → ℕ → W) :
    ∃ m, toDf true (upperDict K v) = .ok (K, m) ∧ m 2 1 = some (v 0 3) ∧ m 1 2 = some (v 1 2) := by
  obtain ⟨h1, h2⟩ := toDf_upper K (by omega) v
  refine ⟨_, h1, ?_, ?_⟩
  · have key : ((2, 1), (0, 3)) ∈ (tril K).zip (triu K) := by
      obtain ⟨k, rfl⟩ : ∃ k, K = k + 4 := ⟨K - 4, by omega⟩
      have e1 : ∃ t, tril (k + 4) = (1, 0) :: (2, 0) :: (2, 1) :: t := by
        have hr : List.range (k + 4) = [0, 1, 2] ++ (List.range (k + 1)).map (· + 3) := by
          rw [show k + 4 = 3 + (k + 1) by omega, List.range_add]
          simp [List.range_succ, Nat.add_comm]
        refine ⟨((List.range (k + 1)).map (· + 3)).flatMap
          (fun i => ((List.range (k + 4)).filter (fun j => j < i)).map (fun j => (i, j))), ?_⟩
        unfold tril
        conv_lhs => rw [hr]
        rw [List.flatMap_append]
        rw [← hr]
        have a0 := filter_lt_range (k + 4) 0 (by omega)
        have a1 := filter_lt_range (k + 4) 1 (by omega)
        have a2 := filter_lt_range (k + 4) 2 (by omega)
        simp only [List.flatMap_cons, List.flatMap_nil, a0, a1, a2]
        simp [List.range_succ]
      have e2 : ∃ t, triu (k + 4) = (0, 1) :: (0, 2) :: (0, 3) :: t := by
        have hr : List.range (k + 4) = 0 :: 1 :: 2 :: 3 :: (List.range k).map (· + 4) := by
          rw [show k + 4 = 4 + k by omega, List.range_add]
          simp [List.range_succ, Nat.add_comm]
        unfold triu
        conv in (List.flatMap _ _) => rw [hr]
        simp only [List.flatMap_cons, List.filter_cons]
        simp
      obtain ⟨t1, e1⟩ := e1
      obtain ⟨t2, e2⟩ := e2
      rw [e1, e2]
      simp
    rw [copyLower_of_mem _ _ _ _ _ _ key, h2 0 3 (by omega) (by omega)]
  · rw [copyLower_upper _ _ _ _ (by omega), h2 1 2 (by omega) (by omega)]

end

/-! #### `pairwise_apply` -/

section
variable {V R : Type}

theorem completeRows_pair_comm (fin : V → Bool) (mat : ℕ → ℕ → V) (N a b : ℕ) :
    completeRows fin mat N [a, b] = completeRows fin mat N [b, a] := by
  unfold completeRows
  apply List.filter_congr
  intro r _
  simp [Bool.and_comm]

theorem pairStep_value (finR : Option R → Bool) (method : List V → List V → R) (mat : ℕ → ℕ → V) (fin : V → Bool)
    (N : ℕ) (comm : Bool) (res : ℕ → ℕ → Option R) (i j : ℕ) (hij : i ≠ j) (hskip : (comm && finR (res i j)) = false) :
    pairStep finR method mat fin N comm res (i, j) =
      if completeRows fin mat N [i, j] = [] then res
      else fun a b => if (a = i ∧ b = j) ∨ (comm = true ∧ a = j ∧ b = i)
        then some (method ((completeRows fin mat N [i, j]).map (mat i)) ((completeRows fin mat N [i, j]).map (mat j)))
        else res a b := by
  have hf : (List.range N).filter (fun r => fin (mat i r) && fin (mat j r)) = completeRows fin mat N [i, j] := by
    unfold completeRows
    apply List.filter_congr
    intro r _
    simp
  unfold pairStep
  simp only
  rw [if_neg hij, hskip]
  simp only [Bool.false_eq_true, if_false]
  have hany : (List.range N).any (fun r => fin (mat i r) && fin (mat j r)) = true ↔ completeRows fin mat N [i, j] ≠ [] := by
    rw [← hf, List.any_eq_true, Ne, List.filter_eq_nil_iff]
    push Not
    rfl
  by_cases hc : completeRows fin mat N [i, j] = []
  · have : ¬ (List.range N).any (fun r => fin (mat i r) && fin (mat j r)) = true := fun h => hany.mp h hc
    rw [if_neg this, if_pos hc]
  · rw [if_pos (hany.mpr hc), if_neg hc]
    have hv : (if (List.range N).all (fun r => fin (mat i r) && fin (mat j r)) = true then
        method ((List.range N).map (mat i)) ((List.range N).map (mat j))
        else method (compress N (fun r => fin (mat i r) && fin (mat j r)) (mat i))
          (compress N (fun r => fin (mat i r) && fin (mat j r)) (mat j))) =
        method ((completeRows fin mat N [i, j]).map (mat i)) ((completeRows fin mat N [i, j]).map (mat j)) := by
      split
      · rename_i hall
        have : completeRows fin mat N [i, j] = List.range N := by
          rw [← hf, List.filter_eq_self]; exact List.all_eq_true.mp hall
        rw [this]
      · unfold compress; rw [hf]
    rw [hv]
    funext a b
    by_cases h1 : a = i ∧ b = j
    · simp [h1]
    · rw [if_neg h1]
      by_cases h2 : comm = true ∧ a = j ∧ b = i
      · rw [if_pos h2, if_pos (Or.inr h2)]
      · rw [if_neg h2, if_neg (by tauto)]

/-- C15/C16 for `pairwise_apply`: for every number of columns, entry `(a, b)` is the metric of the columns `a` and `b` on their
common complete rows (NaN on the diagonal and without common rows); with `comm=True` this holds for symmetric metrics. -/
theorem pairwise_apply_correct (finR : Option R → Bool) (hfin : finR none = false) (method : List V → List V → R)
    (mat : ℕ → ℕ → V) (fin : V → Bool) (K N : ℕ) (comm : Bool)
    (hsym : comm = true → ∀ x y, method x y = method y x) (a b : ℕ) (ha : a < K) (hb : b < K) :
    pairwiseApply finR method mat fin K N comm a b = pairValue fin method mat N a b := by
  have hvsym : comm = true → ∀ a b, pairValue fin method mat N a b = pairValue fin method mat N b a := by
    intro hc a b
    unfold pairValue
    rw [completeRows_pair_comm fin mat N a b, hsym hc]
    simp only [eq_comm]
  have key : ∀ (L : List (ℕ × ℕ)) (res : ℕ → ℕ → Option R),
      (∀ a b, res a b = none ∨ res a b = pairValue fin method mat N a b) →
      (∀ a b, L.foldl (pairStep finR method mat fin N comm) res a b = none ∨
        L.foldl (pairStep finR method mat fin N comm) res a b = pairValue fin method mat N a b) ∧
      (∀ a b, ((a, b) ∈ L ∨ res a b = pairValue fin method mat N a b) →
        L.foldl (pairStep finR method mat fin N comm) res a b = pairValue fin method mat N a b) := by
    intro L
    induction L with
    | nil => intro res h; exact ⟨h, fun a b h' => h'.resolve_left (by simp)⟩
    | cons p L ih =>
      obtain ⟨i, j⟩ := p
      intro res h
      rw [List.foldl_cons]
      have hstep : (∀ a b, pairStep finR method mat fin N comm res (i, j) a b = none ∨
          pairStep finR method mat fin N comm res (i, j) a b = pairValue fin method mat N a b) ∧
          (∀ a b, ((a, b) = (i, j) ∨ res a b = pairValue fin method mat N a b) →
            pairStep finR method mat fin N comm res (i, j) a b = pairValue fin method mat N a b) := by
        by_cases hij : i = j
        · subst hij
          have e : pairStep finR method mat fin N comm res (i, i) = res := by unfold pairStep; simp
          rw [e]
          refine ⟨h, ?_⟩
          rintro a b (hab | hab)
          · simp only [Prod.mk.injEq] at hab
            have : pairValue fin method mat N a b = none := by rw [hab.1, hab.2]; unfold pairValue; simp
            rcases h a b with h1 | h1 <;> rw [h1]
            rw [this]
          · exact hab
        · by_cases hskip : (comm && finR (res i j)) = true
          · have e : pairStep finR method mat fin N comm res (i, j) = res := by
              unfold pairStep; simp only; rw [if_neg hij, if_pos hskip]
            rw [e]
            refine ⟨h, ?_⟩
            rintro a b (hab | hab)
            · simp only [Prod.mk.injEq] at hab
              obtain ⟨rfl, rfl⟩ := hab
              rcases h a b with h1 | h1
              · rw [h1, hfin] at hskip; simp at hskip
              · exact h1
            · exact hab
          · have hv := pairStep_value finR method mat fin N comm res i j hij (by simpa using hskip)
            rw [hv]
            by_cases hc : completeRows fin mat N [i, j] = []
            · rw [if_pos hc]
              refine ⟨h, ?_⟩
              rintro a b (hab | hab)
              · simp only [Prod.mk.injEq] at hab
                obtain ⟨rfl, rfl⟩ := hab
                have : pairValue fin method mat N a b = none := by unfold pairValue; rw [if_pos (Or.inr hc)]
                rcases h a b with h1 | h1 <;> rw [h1]
                rw [this]
              · exact hab
            · rw [if_neg hc]
              have e : some (method ((completeRows fin mat N [i, j]).map (mat i))
                  ((completeRows fin mat N [i, j]).map (mat j))) = pairValue fin method mat N i j := by
                unfold pairValue; rw [if_neg (by tauto)]
              have hall : ∀ a b, ((a = i ∧ b = j) ∨ (comm = true ∧ a = j ∧ b = i)) →
                  some (method ((completeRows fin mat N [i, j]).map (mat i))
                    ((completeRows fin mat N [i, j]).map (mat j))) = pairValue fin method mat N a b := by
                rintro a b (⟨rfl, rfl⟩ | ⟨hcm, rfl, rfl⟩)
                · exact e
                · rw [e, hvsym hcm]
              constructor
              · intro a b
                split
                · rename_i hh; exact Or.inr (hall a b hh)
                · exact h a b
              · intro a b hab
                split
                · rename_i hh; exact hall a b hh
                · rename_i hh
                  rcases hab with hab | hab
                  · simp only [Prod.mk.injEq] at hab; exact absurd (Or.inl hab) hh
                  · exact hab
      obtain ⟨i1, i2⟩ := ih _ hstep.1
      refine ⟨i1, ?_⟩
      intro a b hab
      apply i2
      rcases hab with hab | hab
      · rcases List.mem_cons.mp hab with hab | hab
        · exact Or.inr (hstep.2 a b (Or.inl hab))
        · exact Or.inl hab
      · exact Or.inr (hstep.2 a b (Or.inr hab))
  unfold pairwiseApply
  apply (key _ _ (fun _ _ => Or.inl rfl)).2
  left
  simp only [List.mem_flatMap, List.mem_map, List.mem_range, Prod.mk.injEq]
  exact ⟨a, ha, b, hb, rfl, rfl⟩

end

/-- `pairwise_apply_correct`: a symmetric metric on three columns (sum of all values) -/
example : pairwiseApply (fun o => o.isSome) (fun x y => x.length + y.length) nwiseExampleFrame Option.isSome 3 2 true 2 1 =
    some 2 := by
  rw [pairwise_apply_correct _ rfl _ _ _ 3 2 true (fun _ x y => Nat.add_comm _ _) 2 1 (by decide) (by decide)]
  decide +kernel

/-! #### Triple collocation -/

theorem tcolMethod_restricted (ref : ℕ) (mat : ℕ → ℕ → Option ℝ) (N a b c : ℕ) :
    tcolMethod ref (restricted Option.isSome mat N [a, b, c]) =
      if h : ref < 3 then .ok [some (Verif.Tcol.tcolMetrics (triple mat N a b c) ⟨ref, h⟩)] else .error .indexError := by
  unfold tcolMethod restricted triple
  simp only [List.map_cons, List.map_nil]
  by_cases h : ref < 3
  · rw [dif_pos h, dif_pos h, if_pos]
    · congr 4
      induction completeRows Option.isSome mat N [a, b, c] with
      | nil => rfl
      | cons r l ih => simp only [List.map_cons, List.zip_cons_cons]; rw [ih]
    · rw [List.all_eq_true]
      intro v hv
      have hrow : ∀ r ∈ completeRows Option.isSome mat N [a, b, c], (mat a r).isSome ∧ (mat b r).isSome ∧ (mat c r).isSome := by
        intro r hr
        have := (List.mem_filter.mp hr).2
        simpa using this
      simp only [List.mem_append, List.mem_map] at hv
      rcases hv with (⟨r, hr, rfl⟩ | ⟨r, hr, rfl⟩) | ⟨r, hr, rfl⟩
      · exact (hrow r hr).1
      · exact (hrow r hr).2.1
      · exact (hrow r hr).2.2
  · rw [dif_neg h, dif_neg h]

theorem nameTriples_ok (l : List (List ℕ × List TcolOut)) :
    nameTriples (l.map (fun e => (e.1, some e.2))) = .ok l := by
  induction l with
  | nil => rfl
  | cons e l ih => simp only [List.map_cons, nameTriples, ih]

theorem evaluateAll_ok {V R : Type} (fin : V → Bool) (method : List (List V) → Except Err (List R)) (mat : ℕ → ℕ → V) (N : ℕ)
    (combs : List (List ℕ)) (f : List ℕ → List R) (h1 : ∀ c ∈ combs, completeRows fin mat N c ≠ [])
    (h2 : ∀ c ∈ combs, method (restricted fin mat N c) = .ok (f c)) :
    evaluateAll fin method mat N combs = .ok ((combs.map (fun c => (c, f c))).map (fun e => (e.1, some e.2))) := by
  induction combs with
  | nil => rfl
  | cons c cs ih =>
    unfold evaluateAll
    rw [ih (fun c hc => h1 c (List.mem_cons_of_mem _ hc)) (fun c hc => h2 c (List.mem_cons_of_mem _ hc))]
    unfold evaluate
    rw [if_neg (h1 c (by simp)), h2 c (by simp)]
    rfl

theorem mem_tripleCombs (K : ℕ) (mi : MustInclude) (c : List ℕ) :
    c ∈ nCombinations (List.range K) 3 mi (!true) ↔ IsTriple K c ∧ ∀ x ∈ mi.elements, x ∈ c := by
  unfold nCombinations IsTriple
  simp only [Bool.not_true, Bool.false_eq_true, if_false, List.mem_filter, mem_combinations, sublist_range_iff,
    List.all_eq_true, decide_eq_true_eq]

/-- the metric of a triple given as list -/
noncomputable def tripleValue (mat : ℕ → ℕ → Option ℝ) (N : ℕ) (ref : Fin 3) (c : List ℕ) : List TcolOut :=
  [some (Verif.Tcol.tcolMetrics (triple mat N (c.getD 0 0) (c.getD 1 0) (c.getD 2 0)) ref)]

theorem isTriple_eq (K : ℕ) (c : List ℕ) (h : IsTriple K c) : ∃ i j k, c = [i, j, k] ∧ i < j ∧ j < k ∧ k < K := by
  obtain ⟨h1, h2, h3⟩ := h
  match c, h1 with
  | [i, j, k], _ =>
    simp only [List.pairwise_cons] at h2
    exact ⟨i, j, k, rfl, h2.1 j (by simp), h2.2.1 k (by simp), h3 k (by simp)⟩

theorem completeRows_uniform (mat : ℕ → ℕ → Option ℝ) (K N : ℕ)
    (hu : ∀ i j r, i < K → j < K → r < N → (mat i r).isSome = (mat j r).isSome)
    (r0 : ℕ) (hr0 : r0 < N) (h0 : (mat 0 r0).isSome) (c : List ℕ) (hc : ∀ x ∈ c, x < K) :
    completeRows Option.isSome mat N c ≠ [] := by
  apply List.ne_nil_of_mem (a := r0)
  refine List.mem_filter.mpr ⟨List.mem_range.mpr hr0, ?_⟩
  rw [List.all_eq_true]
  intro i hi
  have hi' := hc i hi
  rw [hu i 0 r0 hi' (by omega) hr0, h0]

/-- Evaluation of `tcol_metrics` on frames in which a row is missing in all columns or in none, and at least one row is not
missing. -/
theorem tcol_df_eval (mat : ℕ → ℕ → Option ℝ) (K N : ℕ) (hK : 3 ≤ K) (mi : MustInclude) (ref : ℕ) (href : ref < 3)
    (hu : ∀ i j r, i < K → j < K → r < N → (mat i r).isSome = (mat j r).isSome)
    (r0 : ℕ) (hr0 : r0 < N) (h0 : (mat 0 r0).isSome) :
    nwiseApply Option.isSome Option.isNone (tcolMethod 0) (tcolMethod ref) mat K N 3 true mi =
      .ok (((nCombinations (List.range K) 3 mi (!true)).map (fun c => (c, tripleValue mat N ⟨ref, href⟩ c))).map
        (fun e => (e.1, some e.2))) := by
  have hprobe : ∃ c0, tcolMethod 0 [((List.range N).filter (fun r => !(mat 0 r).isNone && !(mat 1 r).isNone)).map (mat 0),
      ((List.range N).filter (fun r => !(mat 0 r).isNone && !(mat 1 r).isNone)).map (mat 1),
      ((List.range N).filter (fun r => !(mat 0 r).isNone && !(mat 1 r).isNone)).map (mat 2)] = .ok c0 := by
    unfold tcolMethod
    simp only
    rw [dif_pos (by omega)]
    split
    · exact ⟨_, rfl⟩
    · exact ⟨_, rfl⟩
  obtain ⟨c0, hp⟩ := hprobe
  rw [nwise_triples_partial Option.isSome Option.isNone (tcolMethod 0) (tcolMethod ref) mat K N hK true mi c0 hu hp]
  apply evaluateAll_ok
  · intro c hc
    exact completeRows_uniform mat K N hu r0 hr0 h0 c ((mem_tripleCombs K mi c).mp hc).1.2.2
  · intro c hc
    obtain ⟨i, j, k, rfl, _⟩ := isTriple_eq K c ((mem_tripleCombs K mi c).mp hc).1
    rw [tcolMethod_restricted, dif_pos href]
    rfl

/-- C17, partial: with `ref_ind=None` or `ref_ind=0`, the result contains each triple of columns (for `ref_ind=0`: each triple
with column 0) exactly once, and its values are the triple collocation metrics of these columns on their complete rows with the
triple's first column as reference; for `ref_ind=0` this is column 0. Restricted to frames in which a row is missing in all
columns or in none. Missing: frames with individually missing values (false, see `nwise_triples_third_mask_ignored`) and other
reference columns (false, see `tcol_df_wrong_reference`). -/
theorem tcol_df_partial (mat : ℕ → ℕ → Option ℝ) (K N : ℕ) (hK : 3 ≤ K) (ref : Option ℕ) (href : ref = none ∨ ref = some 0)
    (hu : ∀ i j r, i < K → j < K → r < N → (mat i r).isSome = (mat j r).isSome)
    (r0 : ℕ) (hr0 : r0 < N) (h0 : (mat 0 r0).isSome) :
    ∃ res, tcolMetricsDf mat K N ref = .ok res ∧ (res.map Prod.fst).Nodup ∧
      (∀ c, c ∈ res.map Prod.fst ↔ IsTriple K c ∧ (ref = some 0 → 0 ∈ c)) ∧
      ∀ e ∈ res, ∃ i j k, e.1 = [i, j, k] ∧ (ref = some 0 → i = 0) ∧
        e.2 = [some (Verif.Tcol.tcolMetrics (triple mat N i j k) 0)] := by
  obtain ⟨mi, hmi, hmi2⟩ : ∃ mi : MustInclude, tcolMetricsDf mat K N ref =
      (match nwiseApply Option.isSome Option.isNone (tcolMethod 0) (tcolMethod 0) mat K N 3 true mi with
        | .error e => .error e
        | .ok res => nameTriples res) ∧ (∀ c : List ℕ, (∀ x ∈ mi.elements, x ∈ c) ↔ (ref = some 0 → 0 ∈ c)) := by
    rcases href with rfl | rfl
    · exact ⟨.none, rfl, by simp [MustInclude.elements]⟩
    · exact ⟨.list [0], rfl, by simp [MustInclude.elements]⟩
  rw [hmi, tcol_df_eval mat K N hK mi 0 (by omega) hu r0 hr0 h0]
  refine ⟨_, nameTriples_ok _, ?_, ?_, ?_⟩
  · rw [List.map_map]
    have : (Prod.fst ∘ fun c => (c, tripleValue mat N ⟨0, by omega⟩ c)) = id := rfl
    rw [this, List.map_id]
    unfold nCombinations
    exact (combinations_nodup _ _ List.nodup_range).filter _
  · intro c
    rw [List.map_map]
    have : (Prod.fst ∘ fun c => (c, tripleValue mat N ⟨0, by omega⟩ c)) = id := rfl
    rw [this, List.map_id, mem_tripleCombs, hmi2]
  · intro e he
    obtain ⟨c, hc, rfl⟩ := List.mem_map.mp he
    obtain ⟨ht, hin⟩ := (mem_tripleCombs K mi c).mp hc
    obtain ⟨i, j, k, rfl, hij, hjk, _⟩ := isTriple_eq K c ht
    refine ⟨i, j, k, rfl, ?_, rfl⟩
    intro hr
    have h0 := (hmi2 _).mp hin hr
    simp at h0
    omega

/-- `tcol_df_partial` applies to a frame of four columns with one row missing everywhere. -/
example : ∃ res, tcolMetricsDf (fun i r => if r = 1 then none else some ((i * r * r : ℕ) : ℝ)) 4 5 (some 0) = .ok res ∧
    [0, 2, 3] ∈ res.map Prod.fst ∧ [1, 2, 3] ∉ res.map Prod.fst := by
  obtain ⟨res, h1, _, h3, _⟩ := tcol_df_partial (fun i r => if r = 1 then none else some ((i * r * r : ℕ) : ℝ)) 4 5
    (by decide) (some 0) (Or.inr rfl) (fun i j r _ _ _ => by by_cases h : r = 1 <;> simp [h]) 0 (by decide) (by simp)
  exact ⟨res, h1, (h3 _).mpr ⟨⟨rfl, by decide, by decide⟩, by decide⟩, fun h => by simpa using ((h3 _).mp h).2⟩

/-- C17 fails for `ref_ind=1`: in the triple (1, 2, 3) column 2, not the requested column 1, is the reference; holds for every
frame of four or more columns without missing values. -/
theorem tcol_df_wrong_reference (mat : ℕ → ℕ → Option ℝ) (K N : ℕ) (hK : 4 ≤ K) (hN : 0 < N)
    (hm : ∀ i r, (mat i r).isSome) :
    ∃ res, tcolMetricsDf mat K N (some 1) = .ok res ∧
      ([1, 2, 3], [some (Verif.Tcol.tcolMetrics (triple mat N 1 2 3) 1)]) ∈ res := by
  unfold tcolMetricsDf
  simp only [Option.getD_some]
  rw [tcol_df_eval mat K N (by omega) (.list [1]) 1 (by omega) (fun i j r _ _ _ => by rw [hm, hm]) 0 hN (hm 0 0)]
  refine ⟨_, nameTriples_ok _, ?_⟩
  refine List.mem_map.mpr ⟨[1, 2, 3], (mem_tripleCombs K (.list [1]) _).mpr ⟨⟨rfl, by decide, ?_⟩, by simp [MustInclude.elements]⟩, rfl⟩
  intro x hx
  simp at hx
  omega

/-- columns x, x, 2x, x with x = (0, 1) -/
def frameC : ℕ → ℕ → Option ℝ
  | 2, r => some (2 * r)
  | _, r => some r

/-- C17 fails, concretely: the scaling coefficient of the requested reference column 1 is 2 and not 1. -/
theorem tcol_df_wrong_reference_beta :
    (Verif.Tcol.tcolMetrics (triple frameC 2 1 2 3) 1).beta 0 = 2 ∧
    (Verif.Tcol.tcolMetrics (triple frameC 2 1 2 3) 0).beta 0 = 1 := by
  have ht : triple frameC 2 1 2 3 = [![0, 0, 0], ![1, 2, 1]] := by
    unfold triple completeRows
    simp [List.range_succ, frameC]
  have ho : Verif.Tcol.otherInd 1 0 = 2 := by decide
  rw [ht]
  constructor
  · simp [Verif.Tcol.tcolMetrics, Verif.Tcol.tcolMetricsFromCov, ho, Verif.Tcol.npCov, Verif.Tcol.avg]
    norm_num
  · simp [Verif.Tcol.tcolMetrics, Verif.Tcol.tcolMetricsFromCov]

/-- C17 fails for `ref_ind ≥ 3`: always an IndexError. -/
theorem tcol_df_large_reference (mat : ℕ → ℕ → Option ℝ) (K N ref : ℕ) (href : 3 ≤ ref) (hK : ref < K) (hN : 0 < N)
    (hm : ∀ i r, (mat i r).isSome) : tcolMetricsDf mat K N (some ref) = .error .indexError := by
  unfold tcolMetricsDf
  simp only [Option.getD_some]
  have hu : ∀ i j r, i < K → j < K → r < N → (mat i r).isSome = (mat j r).isSome := fun i j r _ _ _ => by rw [hm, hm]
  have hprobe : ∃ c0, tcolMethod 0 [((List.range N).filter (fun r => !(mat 0 r).isNone && !(mat 1 r).isNone)).map (mat 0),
      ((List.range N).filter (fun r => !(mat 0 r).isNone && !(mat 1 r).isNone)).map (mat 1),
      ((List.range N).filter (fun r => !(mat 0 r).isNone && !(mat 1 r).isNone)).map (mat 2)] = .ok c0 := by
    unfold tcolMethod
    simp only
    rw [dif_pos (by omega)]
    split
    · exact ⟨_, rfl⟩
    · exact ⟨_, rfl⟩
  obtain ⟨c0, hp⟩ := hprobe
  rw [nwise_triples_partial Option.isSome Option.isNone (tcolMethod 0) (tcolMethod ref) mat K N (by omega) true (.list [ref]) c0
    hu hp]
  have hev : ∀ c ∈ nCombinations (List.range K) 3 (.list [ref]) (!true),
      evaluate Option.isSome (tcolMethod ref) mat N c = .error .indexError := by
    intro c hc
    have ht := ((mem_tripleCombs K _ c).mp hc).1
    obtain ⟨i, j, k, rfl, _⟩ := isTriple_eq K c ht
    unfold evaluate
    rw [if_neg (completeRows_uniform mat K N hu 0 hN (hm 0 0) _ ht.2.2), tcolMethod_restricted, dif_neg (by omega)]
  have hmem : [0, 1, ref] ∈ nCombinations (List.range K) 3 (.list [ref]) (!true) := by
    refine (mem_tripleCombs K (.list [ref]) _).mpr ⟨⟨rfl, ?_, ?_⟩, by simp [MustInclude.elements]⟩
    · simp; omega
    · simp; omega
  rw [evaluateAll_error Option.isSome (tcolMethod ref) mat N _ _ hmem
    (fun c hc e he => by rw [hev c hc] at he; simpa using he.symm) _ (hev _ hmem)]

example : tcolMetricsDf (fun i r => some ((i * r * r : ℕ) : ℝ)) 4 5 (some 3) = .error .indexError :=
  tcol_df_large_reference _ 4 5 3 (by decide) (by decide) (by decide) (fun _ _ => rfl)

/-- C17 fails for `tcol_snr`: it always uses column 0, whatever `ref_ind` is. -/
theorem tcol_snr_ignores_reference (mat : ℕ → ℕ → Option ℝ) (K N : ℕ) (ref : Option ℕ) :
    tcolSnrDf mat K N ref = tcolMetricsDf mat K N (some 0) := rfl

/-- `tcol_metrics` raises if there is a triple without complete rows. -/
theorem tcol_df_no_rows (mat : ℕ → ℕ → Option ℝ) (K N : ℕ) (hK : 3 ≤ K) (hm : ∀ i r, mat i r = none) :
    tcolMetricsDf mat K N (some 0) = .error .typeError := by
  unfold tcolMetricsDf
  simp only [Option.getD_some]
  have hu : ∀ i j r, i < K → j < K → r < N → (mat i r).isSome = (mat j r).isSome := fun i j r _ _ _ => by rw [hm, hm]
  have hprobe : ∃ c0, tcolMethod 0 [((List.range N).filter (fun r => !(mat 0 r).isNone && !(mat 1 r).isNone)).map (mat 0),
      ((List.range N).filter (fun r => !(mat 0 r).isNone && !(mat 1 r).isNone)).map (mat 1),
      ((List.range N).filter (fun r => !(mat 0 r).isNone && !(mat 1 r).isNone)).map (mat 2)] = .ok c0 := by
    unfold tcolMethod
    simp only
    rw [dif_pos (by omega)]
    split
    · exact ⟨_, rfl⟩
    · exact ⟨_, rfl⟩
  obtain ⟨c0, hp⟩ := hprobe
  rw [nwise_triples_partial Option.isSome Option.isNone (tcolMethod 0) (tcolMethod 0) mat K N hK true (.list [0]) c0 hu hp]
  have hmem : [0, 1, 2] ∈ nCombinations (List.range K) 3 (.list [0]) (!true) := by
    refine (mem_tripleCombs K (.list [0]) _).mpr ⟨⟨rfl, by decide, ?_⟩, by simp [MustInclude.elements]⟩
    intro x hx
    simp at hx
    omega
  have hev : ∀ combs : List (List ℕ), (∀ c ∈ combs, c ≠ []) →
      evaluateAll Option.isSome (tcolMethod 0) mat N combs = .ok (combs.map (fun c => (c, none))) := by
    intro combs hne
    induction combs with
    | nil => rfl
    | cons c cs ih =>
      unfold evaluateAll evaluate
      rw [if_pos, ih (fun c hc => hne c (List.mem_cons_of_mem _ hc))]
      · rfl
      · unfold completeRows
        rw [List.filter_eq_nil_iff]
        intro r _
        cases c with
        | nil => exact absurd rfl (hne [] (by simp))
        | cons i c => simp [hm]
  rw [hev]
  · simp only
    cases hl : nCombinations (List.range K) 3 (.list [0]) (!true) with
    | nil => rw [hl] at hmem; simp at hmem
    | cons a l => simp [nameTriples]
  · rintro c hc rfl
    have := ((mem_tripleCombs K _ _).mp hc).1.1
    simp at this

example : tcolMetricsDf (fun _ _ => none) 3 5 (some 0) = .error .typeError := tcol_df_no_rows _ 3 5 (by decide) (fun _ _ => rfl)

end Verif.DfMetrics
