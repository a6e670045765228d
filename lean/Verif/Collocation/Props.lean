import Verif.Collocation.Lemmas

/-! Properties C02 - C05 (and C01 through the public function). -/

set_option linter.unusedSectionVars false

namespace Verif.Collocation

variable {K : Type} [Field K] [LinearOrder K] [IsStrictOrderedRing K]

/-- **C02/C04.** Whenever `temporal_collocation(..., method="nearest")` returns (no flag, no `dropna`), the
result has one row per distinct reference time, in order; each row shows the cells of the
nearest observation in the window (all NaN iff there is none); if requested, `index_other` is
the time stamp of exactly that observation and `distance_other` its offset from the reference
time. -/
theorem nearest_collocation (o : Opts) (ref : List K) (other : Frame K K) (window : K)
    (hw : 0 ≤ window) (hm : o.mean = false) (hf : o.flag = none) (hd : o.dropna = false)
    (out : List (OutRow K K)) (h : temporalCollocation o ref other window = .ok out) :
    IsDistinctOf (out.map OutRow.time) ref ∧
    ∀ r ∈ out, ∃ m, IsNearest other.rows window r.time m ∧
      r.cells = shown other.width m ∧
      r.index = (if o.returnIndex || o.returnDistance then m.map Row.time else none) ∧
      r.distance = (if o.returnDistance then m.map (fun x => x.time - r.time) else none) := by
  unfold temporalCollocation at h
  simp only [hf, checkFlag, hm, hd, Bool.not_false, Bool.or_true, if_true,
    Bool.false_eq_true, if_false, bind, Except.bind, pure, Except.pure] at h
  rw [nearestBranch_plain o window other.width _ _ hw (dedupe_nodup other.rows)] at h
  cases hr : reindexNearest (dedupe other.rows) window (dedupeTimes ref) with
  | error e => rw [hr] at h; simp at h
  | ok c =>
    rw [hr] at h
    simp only [Except.ok.injEq] at h
    subst h
    constructor
    · rw [List.map_map]
      have : (OutRow.time ∘ fun t => outOf o other.width t (nearestRow (dedupe other.rows) window t)) = id := rfl
      rw [this, List.map_id]
      exact dedupeTimes_spec ref
    · intro r hr'
      obtain ⟨t, _, rfl⟩ := List.mem_map.1 hr'
      exact ⟨nearestRow (dedupe other.rows) window t,
        isNearest_dedupe (nearestRow_isNearest (dedupe other.rows) window t), rfl, rfl, rfl⟩

/-- Non-vacuity of C02/C04: unsorted reference with a duplicate, duplicated observation, a tie
(reference 1 lies midway between 0 and 2, the later one wins) and a reference without match. -/
example : temporalCollocation { returnDistance := true } [9, 1, 5, 1]
    (⟨1, [⟨0, [some 10]⟩, ⟨2, [some 20]⟩, ⟨2, [some 21]⟩, ⟨9, [none]⟩]⟩ : Frame ℚ ℚ) 2 =
    .ok [⟨9, [none], some 9, some 0⟩, ⟨1, [some 20], some 2, some 1⟩, ⟨5, [none], none, none⟩] := by
  decide +kernel

/-- The call succeeds for every frame whose index is sorted in one direction. -/
theorem nearest_total (o : Opts) (ref : List K) (other : Frame K K) (window : K)
    (hm : o.mean = false) (hf : o.flag = none) (hmono : Monotone other.rows) :
    ∃ out, temporalCollocation o ref other window = .ok out := by
  unfold temporalCollocation
  simp only [hf, checkFlag, hm, Bool.not_false, Bool.or_true, if_true, nearestBranch,
    Bool.false_eq_true, if_false, bind, Except.bind, pure, Except.pure]
  have hmono' : isMonotonic ((dedupe other.rows).map Row.time) = true := by
    unfold isMonotonic
    simp only [Bool.or_eq_true, decide_eq_true_eq, List.pairwise_map]
    rcases hmono with h | h
    · exact Or.inl (h.sublist (dedupe_sublist _))
    · exact Or.inr (h.sublist (dedupe_sublist _))
  have : ∃ c, reindexNearest (dedupe other.rows) window (dedupeTimes ref) = .ok c := by
    unfold reindexNearest
    split
    · exact ⟨_, rfl⟩
    · split
      · exact ⟨_, rfl⟩
      · exact ⟨_, rfl⟩
  obtain ⟨c, hc⟩ := this
  rw [hc]
  exact ⟨_, rfl⟩

example : Monotone ([⟨3, [some 1]⟩, ⟨2, []⟩, ⟨2, [none]⟩] : List (Row ℚ ℚ)) :=
  Or.inr (by decide +kernel)

/-- An index that is sorted in neither direction is rejected, unless there is nothing to look up or the
index equals the reference times. -/
theorem nearest_unsorted_rejected (o : Opts) (ref : List K) (other : Frame K K) (window : K)
    (hm : o.mean = false) (hf : o.flag = none) (hmono : ¬ Monotone (dedupe other.rows))
    (hr : ref ≠ []) (hne : (dedupe other.rows).map Row.time ≠ dedupeTimes ref) :
    temporalCollocation o ref other window = .error .notMonotonic := by
  unfold temporalCollocation
  simp only [hf, checkFlag, hm, Bool.not_false, Bool.or_true, if_true, nearestBranch,
    Bool.false_eq_true, if_false, bind, Except.bind, pure, Except.pure]
  have hmono' : ¬ isMonotonic ((dedupe other.rows).map Row.time) = true := by
    unfold isMonotonic
    simp only [Bool.or_eq_true, decide_eq_true_eq, List.pairwise_map]
    exact hmono
  have hr' : (dedupeTimes ref).isEmpty = false := by
    cases ref with
    | nil => exact absurd rfl hr
    | cons a l => rfl
  have : reindexNearest (dedupe other.rows) window (dedupeTimes ref) = .error .notMonotonic := by
    unfold reindexNearest
    rw [if_neg hne, hr']
    simp [hmono']
  rw [this]

example : temporalCollocation {} [1, 4] (⟨1, [⟨2, [some 1]⟩, ⟨5, [some 2]⟩, ⟨3, [none]⟩]⟩ : Frame ℚ ℚ) 2 = .error .notMonotonic :=
  nearest_unsorted_rejected _ _ _ _ rfl rfl (by rintro (h | h) <;> revert h <;> decide +kernel) (by decide) (by decide +kernel)

/-- `dropna=True` removes exactly the rows in which every column is NaN (the optional
`index_other` column counts). -/
theorem collocation_dropna (o : Opts) (ref : List K) (other : Frame K K) (window : K)
    (out : List (OutRow K K))
    (h : temporalCollocation { o with dropna := false } ref other window = .ok out) :
    temporalCollocation { o with dropna := true } ref other window =
      .ok (out.filter (fun r => decide (¬ ((∀ c ∈ r.cells, c = none) ∧ r.index = none ∧ r.distance = none)))) := by
  have key : ∀ r : OutRow K K, (!allNaN r) =
      decide (¬ ((∀ c ∈ r.cells, c = none) ∧ r.index = none ∧ r.distance = none)) := by
    intro r
    rw [Bool.eq_iff_iff]
    simp [allNaN, Option.isSome_iff_ne_none, or_assoc]
  unfold temporalCollocation at h ⊢
  simp only [bind, Except.bind, pure, Except.pure] at h ⊢
  cases hcf : checkFlag o.flag ref.length with
  | error e => rw [hcf] at h; simp at h
  | ok fl =>
    rw [hcf] at h
    simp only at h ⊢
    by_cases hm : o.mean = true
    · rw [if_pos hm] at h ⊢
      have hbr : ∀ d (rows : List (Row K K)) ref fl, meanBranch { o with dropna := d } window other.width rows ref fl =
          meanBranch o window other.width rows ref fl := fun _ _ _ _ => rfl
      rw [hbr] at h ⊢
      cases hb : meanBranch o window other.width
          (if (o.dropduplicates || !o.mean) = true then dedupe other.rows else other.rows)
          (if (o.dropduplicates || !o.mean) = true then dedupeTimes ref else ref) fl with
      | error e => rw [hb] at h; simp at h
      | ok col =>
        rw [hb] at h
        simp only [Bool.false_eq_true, if_false, Except.ok.injEq] at h
        subst h
        simp only [if_true, Except.ok.injEq]
        apply List.filter_congr
        intro r _
        exact key r
    · rw [if_neg hm] at h ⊢
      have hbr : ∀ d (rows : List (Row K K)) ref fl, nearestBranch { o with dropna := d } window other.width rows ref fl =
          nearestBranch o window other.width rows ref fl := fun _ _ _ _ => rfl
      rw [hbr] at h ⊢
      cases hb : nearestBranch o window other.width
          (if (o.dropduplicates || !o.mean) = true then dedupe other.rows else other.rows)
          (if (o.dropduplicates || !o.mean) = true then dedupeTimes ref else ref) fl with
      | error e => rw [hb] at h; simp at h
      | ok col =>
        rw [hb] at h
        simp only [Bool.false_eq_true, if_false, Except.ok.injEq] at h
        subst h
        simp only [if_true, Except.ok.injEq]
        apply List.filter_congr
        intro r _
        exact key r

example := collocation_dropna { dropna := true } [1, 5] (⟨1, [⟨1, [some 1]⟩, ⟨9, [some 2]⟩]⟩ : Frame ℚ ℚ) 1
  [⟨1, [some 1], none, none⟩, ⟨5, [none], none, none⟩] (by decide +kernel)

/-- **C03.** With a flag that marks at least one observation (and an `other` with unique time
stamps), whenever the call returns: the flag has one entry per observation and per reference row, every row
shows the nearest *unflagged* observation, and only with `use_invalid` NaN cells of it are
filled with the cells of the nearest flagged observation. -/
theorem flagged_collocation_partial (o : Opts) (ref : List K) (other : Frame K K) (window : K) (f : List Bool)
    (hw : 0 ≤ window) (hm : o.mean = false) (hf : o.flag = some f) (hany : ∃ b ∈ f, b = true)
    (hd : o.dropna = false) (hn : (other.rows.map Row.time).Nodup)
    (hwf : ∀ r ∈ other.rows, r.cells.length = other.width)
    (out : List (OutRow K K)) (h : temporalCollocation o ref other window = .ok out) :
    f.length = ref.length ∧ f.length = other.rows.length ∧
    IsDistinctOf (out.map OutRow.time) ref ∧
    ∀ r ∈ out, ∃ mv mi, IsNearest (unflagged other.rows f) window r.time mv ∧
      IsNearest (flaggedRows other.rows f) window r.time mi ∧
      (o.useInvalid = false → r.cells = shown other.width mv ∧
        r.index = (if o.returnIndex || o.returnDistance then mv.map Row.time else none)) ∧
      (o.useInvalid = true → r.cells.length = other.width ∧
        ∀ j, (r.cells[j]?).join = match cell mv j with
          | some v => some v
          | none => cell mi j) := by
  unfold temporalCollocation at h
  simp only [hf, checkFlag, hm, hd, Bool.not_false, Bool.or_true, if_true,
    Bool.false_eq_true, if_false, bind, Except.bind, pure, Except.pure] at h
  have hany' : f.any id = true := by
    obtain ⟨b, hb, hb'⟩ := hany
    rw [List.any_eq_true]; exact ⟨b, hb, by simpa using hb'⟩
  by_cases hl : f.length = ref.length
  · simp only [hl, ne_eq, not_true_eq_false, if_false, hany', if_true] at h
    revert h
    cases hb : nearestBranch o window other.width (dedupe other.rows) (dedupeTimes ref) (some f) with
    | error e => intro h; simp at h
    | ok c =>
      intro h
      simp only [Except.ok.injEq] at h
      subst h
      have := nearestBranch_flag o window other.width _ _ f hw (dedupe_nodup other.rows) c hb
      rw [dedupe_of_nodup hn] at this
      obtain ⟨h1, h2⟩ := this
      refine ⟨hl, h1, ?_, ?_⟩
      · rw [h2, List.map_map]
        have : (OutRow.time ∘ fun t => outOfFlag o other.width t (nearestRow (unflagged other.rows f) window t)
            (nearestRow (flaggedRows other.rows f) window t)) = id := rfl
        rw [this, List.map_id]
        exact dedupeTimes_spec ref
      · intro r hr
        rw [h2] at hr
        obtain ⟨t, _, rfl⟩ := List.mem_map.1 hr
        have hshown : ∀ (l : List (Row K K)), l.Sublist other.rows →
            (shown other.width (nearestRow l window t)).length = other.width ∧
            ∀ j, ((shown other.width (nearestRow l window t))[j]?).join = cell (nearestRow l window t) j := by
          intro l hl
          have hq := nearestRow_isNearest l window t
          cases hx : nearestRow l window t with
          | none =>
            refine ⟨by simp [shown], ?_⟩
            intro j
            simp only [shown, cell, List.getElem?_replicate]
            split <;> rfl
          | some x =>
            rw [hx] at hq
            refine ⟨?_, fun j => rfl⟩
            exact hwf x (hl.subset (List.mem_of_find?_eq_some hq.2.1))
        obtain ⟨u1, u2⟩ := hshown _ (unflagged_sublist other.rows f)
        obtain ⟨v1, v2⟩ := hshown _ (flaggedRows_sublist other.rows f)
        refine ⟨nearestRow (unflagged other.rows f) window t, nearestRow (flaggedRows other.rows f) window t,
          nearestRow_isNearest _ _ _, nearestRow_isNearest _ _ _, ?_, ?_⟩
        · intro hu
          simp [outOfFlag, hu]
        · intro hu
          simp only [outOfFlag, hu, if_true]
          refine ⟨by rw [List.length_zipWith, u1, v1]; simp, ?_⟩
          intro j
          rw [← u2 j, ← v2 j, List.getElem?_zipWith]
          rcases Nat.lt_or_ge j other.width with hj | hj
          · rw [List.getElem?_eq_getElem (by rw [u1]; exact hj), List.getElem?_eq_getElem (by rw [v1]; exact hj)]
            simp only [Option.join_some]
            cases (shown other.width (nearestRow (unflagged other.rows f) window t))[j] <;> simp
          · rw [List.getElem?_eq_none (by rw [u1]; exact hj), List.getElem?_eq_none (by rw [v1]; exact hj)]
            rfl
  · simp [hl] at h

example := flagged_collocation_partial { flag := some [false, true, false] } [1, 5, 9] (⟨1, [⟨1, [some 10]⟩, ⟨5, [some 50]⟩, ⟨9, [some 90]⟩]⟩ : Frame ℚ ℚ) 2
  [false, true, false] (by norm_num) rfl rfl ⟨true, by simp, rfl⟩ rfl (by decide +kernel) (by decide +kernel)
  [⟨1, [some 10], none, none⟩, ⟨5, [none], none, none⟩, ⟨9, [some 90], none, none⟩] (by decide +kernel)

/-- Non-vacuity of C03: the flagged observation at time 5 is only used at the reference
time that has no valid neighbour, and only with `use_invalid`. -/
example : temporalCollocation { flag := some [false, true, false], useInvalid := true } [1, 5, 9]
    (⟨1, [⟨1, [some 10]⟩, ⟨5, [some 50]⟩, ⟨9, [some 90]⟩]⟩ : Frame ℚ ℚ) 2 =
      .ok [⟨1, [some 10], none, none⟩, ⟨5, [some 50], none, none⟩, ⟨9, [some 90], none, none⟩] ∧
    temporalCollocation { flag := some [false, true, false] } [1, 5, 9]
    (⟨1, [⟨1, [some 10]⟩, ⟨5, [some 50]⟩, ⟨9, [some 90]⟩]⟩ : Frame ℚ ℚ) 2 =
      .ok [⟨1, [some 10], none, none⟩, ⟨5, [none], none, none⟩, ⟨9, [some 90], none, none⟩] := by
  decide +kernel

/-- Finding: the flag is documented as a column of `other`, but its length is compared with the
reference. A flag column of `other` is rejected whenever `other` and the reference differ in length. -/
theorem flag_column_of_other_rejected (o : Opts) (ref : List K) (other : Frame K K) (window : K)
    (f : List Bool) (hf : o.flag = some f) (hlen : f.length = other.rows.length)
    (hne : other.rows.length ≠ ref.length) :
    temporalCollocation o ref other window = .error .flagLength := by
  unfold temporalCollocation
  simp [hf, checkFlag, hlen, hne, bind, Except.bind]

example := flag_column_of_other_rejected { flag := some [true, false] } [1] (⟨1, [⟨1, [some 1]⟩, ⟨2, [some 2]⟩]⟩ : Frame ℚ ℚ) 2 [true, false] rfl rfl (by decide)

example : temporalCollocation { flag := some [true, false] } [1]
    (⟨1, [⟨1, [some 1]⟩, ⟨2, [some 2]⟩]⟩ : Frame ℚ ℚ) 2 = .error .flagLength := by decide +kernel

/-- **C01 through the public function.** `method="mean"` without flags on a sorted, non-empty frame and sorted reference
times: one row per reference time, and each cell is the mean of the non-NaN values of that
column within `window` of the reference time. -/
theorem mean_collocation (o : Opts) (ref : List K) (other : Frame K K) (window : K)
    (hm : o.mean = true) (hf : o.flag = none) (hd : o.dropna = false) (hdup : o.dropduplicates = false)
    (hne : other.rows ≠ []) (hs : other.rows.Pairwise (fun a b => a.time ≤ b.time))
    (hr : ref.Pairwise (· ≤ ·)) :
    ∃ out, temporalCollocation o ref other window = .ok out ∧ out.map OutRow.time = ref ∧
      ∀ r ∈ out, r.cells = (List.range other.width).map (fun i =>
        Resample.windowMean (other.rows.map (fun x => (x.time, (x.cells[i]?).join))) (2 * window) r.time) := by
  unfold temporalCollocation meanBranch
  simp only [hf, checkFlag, hm, hd, hdup, Bool.not_true, Bool.or_false, if_true,
    Bool.false_eq_true, if_false, bind, Except.bind, pure, Except.pure]
  have hcols : (List.range other.width).mapM (fun i =>
      if (other.rows.map (fun _ => true)).length ≠ other.rows.length then (.error .maskLength : Except Err (List (Option K)))
      else liftErr (Resample.resampleMean (other.rows.map Row.time)
        ((other.rows.zip (other.rows.map (fun _ => true))).filterMap
          (fun x => if x.2 = true then some ((x.1.cells[i]?).join) else none)) ref (2 * window))) =
      .ok ((List.range other.width).map (fun i => ref.map (Resample.windowMean
        (other.rows.map (fun x => (x.time, (x.cells[i]?).join))) (2 * window)))) := by
    apply mapM_except_of_forall
    rw [List.forall₂_map_right_iff, List.forall₂_same]
    intro i _
    rw [if_neg (by simp)]
    have hvals : ((other.rows.zip (other.rows.map (fun _ => true))).filterMap
          (fun x => if x.2 = true then some ((x.1.cells[i]?).join) else none)) =
          other.rows.map (fun x => (x.cells[i]?).join) := by
      generalize other.rows = l
      induction l with
      | nil => rfl
      | cons a l ih =>
        simp only [List.map_cons, List.zip_cons_cons, List.filterMap_cons, if_true]
        rw [ih]
    rw [hvals, Resample.resampleMean_correct_partial _ _ _ _ (by simpa using hne) (by simp)
      (by rw [List.pairwise_map]; exact hs) hr]
    simp only [liftErr]
    congr 3
    rw [List.zip_map', List.map_congr_left]
    intro a _
    rfl
  rw [hcols]
  refine ⟨_, rfl, ?_, ?_⟩
  · unfold rowsOfColumns
    rw [List.map_map]
    exact List.zipIdx_map_fst 0 ref
  · intro r hr'
    unfold rowsOfColumns at hr'
    obtain ⟨⟨t, i⟩, hx, rfl⟩ := List.mem_map.1 hr'
    rw [List.mem_zipIdx_iff_getElem?] at hx
    simp only [List.map_map]
    apply List.map_congr_left
    intro j _
    simp only [Function.comp, List.getElem?_map]
    simp only at hx
    rw [hx]; rfl

/-- Non-vacuity. -/
example : temporalCollocation { mean := true } [1, 5]
    (⟨2, [⟨0, [some 10, none]⟩, ⟨2, [some 20, some 3]⟩]⟩ : Frame ℚ ℚ) 1 =
      .ok [⟨1, [some 15, some 3], none, none⟩, ⟨5, [none, none], none, none⟩] := by decide +kernel

/-- Finding: `method="mean"` with a flag that marks any observation, and without `use_invalid`, can
never succeed: the data are masked but the times are not. -/
theorem mean_flagged_fails (o : Opts) (ref : List K) (other : Frame K K) (window : K) (f : List Bool)
    (hm : o.mean = true) (hf : o.flag = some f) (hany : ∃ b ∈ f, b = true) (hu : o.useInvalid = false)
    (hwidth : 0 < other.width) :
    ∃ e, temporalCollocation o ref other window = .error e := by
  unfold temporalCollocation meanBranch
  have hany' : f.any id = true := by
    obtain ⟨b, hb, hb'⟩ := hany
    rw [List.any_eq_true]; exact ⟨b, hb, by simpa using hb'⟩
  simp only [hf, checkFlag, hm, hu, if_true, Bool.false_eq_true, if_false, bind, Except.bind, pure, Except.pure,
    hany']
  by_cases hl : f.length = ref.length
  · simp only [hl, ne_eq, not_true_eq_false, if_false]
    obtain ⟨n, hn⟩ : ∃ n, other.width = n + 1 := ⟨other.width - 1, by omega⟩
    rw [hn, List.range_succ_eq_map, List.mapM_cons]
    simp only [bind, Except.bind]
    generalize (if (o.dropduplicates || !true) = true then dedupe other.rows else other.rows) = rows
    by_cases hlen : (f.map (!·)).length = rows.length
    · have hlt : ((rows.zip (f.map (!·))).filterMap
          (fun x => if x.2 = true then some ((x.1.cells[0]?).join) else none)).length < rows.length := by
        rw [List.length_map] at hlen
        clear hn hl hany' hf
        induction rows generalizing f with
        | nil => simp at hlen; subst hlen; simp at hany
        | cons r rs ih =>
          cases f with
          | nil => simp at hlen
          | cons b f =>
            simp only [List.map_cons, List.zip_cons_cons, List.filterMap_cons]
            cases b with
            | true =>
              simp only [Bool.not_true, Bool.false_eq_true, if_false, List.length_cons]
              have : ((rs.zip (f.map (!·))).filterMap
                (fun x => if x.2 = true then some ((x.1.cells[0]?).join) else none)).length ≤ (rs.zip (f.map (!·))).length :=
                List.length_filterMap_le _ _
              simp only [List.length_zip, List.length_map] at this
              omega
            | false =>
              simp only [Bool.not_false, if_true, List.length_cons]
              have hany2 : ∃ b ∈ f, b = true := by
                obtain ⟨b, hb, hb'⟩ := hany
                rcases List.mem_cons.1 hb with rfl | hb
                · simp at hb'
                · exact ⟨b, hb, hb'⟩
              have := ih f hany2 (by simpa using hlen)
              omega
      rw [if_neg (by simpa using hlen)]
      rw [Resample.resampleMean_shape _ _ _ _ (by rw [List.length_map]; omega)]
      exact ⟨.shape, rfl⟩
    · rw [if_pos hlen]; exact ⟨.maskLength, rfl⟩
  · simp [hl]

example := mean_flagged_fails { mean := true, flag := some [true, false] } [1, 2] (⟨1, [⟨1, [some 1]⟩, ⟨2, [some 2]⟩]⟩ : Frame ℚ ℚ) 2 [true, false] rfl rfl
  ⟨true, by simp, rfl⟩ rfl (by decide)

example : temporalCollocation { mean := true, flag := some [true, false] } [1, 2]
    (⟨1, [⟨1, [some 1]⟩, ⟨2, [some 2]⟩]⟩ : Frame ℚ ℚ) 2 = .error .shape := by decide +kernel

/-- What data set `f` contributes at reference time `t`. -/
def Contributes (f : Frame K K) (window t : K) (cells : List (Option K)) : Prop :=
  ∃ m, IsNearest f.rows window t m ∧ cells = shown f.width m

/-- **C05.** Whenever `combined_temporal_collocation` (nearest, no flags) returns: the result is a table `full`
with unique times, filtered by `combined_dropna`. `full` has rows at reference times only; each row holds
the reference's own cells (if requested) followed, data set by data set, by what the nearest match of that
data set contributes at that time. Without `dropna` every distinct reference time has a row, in order;
with `dropna` a reference time is missing only if no data set contributes a value there. -/
theorem combined_collocation (o : Opts) (comb : Combined) (addRef : Bool) (reference : Frame K K)
    (others : List (Frame K K)) (window : K) (hw : 0 ≤ window)
    (hm : o.mean = false) (hf : o.flag = none)
    (hwf : ∀ f ∈ others, ∀ r ∈ f.rows, r.cells.length = f.width)
    (hdup : addRef = false ∨ o.dropduplicates = true ∨ (reference.rows.map Row.time).Nodup)
    (out : List (Row K K)) (h : combinedCollocation o comb addRef reference others window = .ok out) :
    ∃ full : List (Row K K),
      out = full.filter (fun r => match comb with
        | .no => true
        | .any => decide (∀ c ∈ r.cells, c ≠ none)
        | .all => decide (∃ c ∈ r.cells, c ≠ none)) ∧
      (full.map Row.time).Nodup ∧
      (∀ t, t ∈ full.map Row.time ↔ t ∈ reference.rows.map Row.time ∧
        (addRef = true ∨ (o.dropna = false) ∨
          ∃ f ∈ others, ∃ cells, Contributes f window t cells ∧ ∃ c ∈ cells, c ≠ none)) ∧
      (o.dropna = false → IsDistinctOf (full.map Row.time) (reference.rows.map Row.time)) ∧
      (∀ r ∈ full, ∃ parts : List (List (Option K)),
        List.Forall₂ (fun f cells => Contributes f window r.time cells) others parts ∧
        r.cells = (if addRef then
          ((reference.rows.find? (fun x => decide (x.time = r.time))).map Row.cells).getD [] else []) ++
          parts.flatten) := by
  unfold combinedCollocation at h
  simp only [bind, Except.bind, pure, Except.pure] at h
  set ref := reference.rows.map Row.time with href
  cases hmap : others.mapM (collocateOne o ref window) with
  | error e => rw [hmap] at h; simp at h
  | ok dfs =>
    have hfa := mapM_except_ok hmap
    rw [hmap] at h
    simp only at h
    -- closed form of the frames
    have hdfs : dfs = others.map (fun f => Frame.mk f.width
        (((dedupeTimes ref).map (fun t => Row.mk t (shown f.width (nearestRow (dedupe f.rows) window t)))).filter
          (fun r => !o.dropna || r.cells.any Option.isSome))) := by
      clear hmap h hwf
      induction hfa with
      | nil => rfl
      | cons h1 h2 ih =>
        rename_i f d l l'
        simp only [List.map_cons]
        rw [ih]
        congr 1
        unfold collocateOne at h1
        cases hc : temporalCollocation { o with returnIndex := false, returnDistance := false } ref f window with
        | error e => rw [hc] at h1; simp at h1
        | ok c =>
          rw [hc] at h1
          simp only [Except.ok.injEq] at h1
          rw [← h1, collocation_closed hw hm hf hc]
    -- the reference frame
    set refRows := (if o.dropduplicates = true then dedupe reference.rows else reference.rows) with hrr
    set frames := (if addRef = true then Frame.mk reference.width refRows :: dfs else dfs) with hframes
    have hrefn : addRef = true → (refRows.map Row.time).Nodup := by
      intro ha
      rw [hrr]
      rcases hdup with hd | hd | hd
      · rw [ha] at hd; exact absurd hd (by simp)
      · rw [if_pos hd]; exact dedupe_nodup _
      · split
        · exact dedupe_nodup _
        · exact hd
    have hrefmem : ∀ t, t ∈ refRows.map Row.time ↔ t ∈ ref := by
      intro t
      rw [hrr]
      split
      · rw [dedupe_times, ← mem_dedupeTimes]
      · rfl
    have hnod : ∀ f ∈ frames, (f.rows.map Row.time).Nodup := by
      intro f hfm
      have hd : ∀ f ∈ dfs, (f.rows.map Row.time).Nodup := by
        intro f hfm
        rw [hdfs] at hfm
        obtain ⟨g, _, rfl⟩ := List.mem_map.1 hfm
        exact times_collocation g window _ _ (nodup_dedupeTimes ref)
      rw [hframes] at hfm
      split at hfm
      · rename_i ha
        rcases List.mem_cons.1 hfm with rfl | hfm
        · exact hrefn ha
        · exact hd f hfm
      · exact hd f hfm
    have hne : frames ≠ [] := by
      intro h0
      rw [h0] at h
      simp [concatColumns] at h
    obtain ⟨full, hcat, c1, c2, c3, c4⟩ := concat_spec hne hnod
    rw [hcat] at h
    simp only [Except.ok.injEq] at h
    have hany : ∀ f : Frame K K, ∀ t, (shown f.width (nearestRow (dedupe f.rows) window t)).any Option.isSome = true →
        ∃ cells, Contributes f window t cells ∧ ∃ c ∈ cells, c ≠ none := by
      intro f t ha
      rw [List.any_eq_true] at ha
      obtain ⟨c, hc, hc'⟩ := ha
      exact ⟨_, ⟨_, isNearest_dedupe (nearestRow_isNearest _ _ _), rfl⟩, c, hc, Option.isSome_iff_ne_none.1 hc'⟩
    have hany' : ∀ f : Frame K K, ∀ t cells, Contributes f window t cells →
        cells = shown f.width (nearestRow (dedupe f.rows) window t) := by
      rintro f t cells ⟨m, hm1, rfl⟩
      rw [isNearest_unique hm1 (isNearest_dedupe (nearestRow_isNearest (dedupe f.rows) window t))]
    have hmemdfs : ∀ t, (∃ f ∈ dfs, t ∈ f.rows.map Row.time) ↔ t ∈ ref ∧ ∃ f ∈ others,
        (o.dropna = false ∨ ∃ cells, Contributes f window t cells ∧ ∃ c ∈ cells, c ≠ none) := by
      intro t
      rw [hdfs]
      constructor
      · rintro ⟨f, hfm, ht⟩
        obtain ⟨g, hg, rfl⟩ := List.mem_map.1 hfm
        obtain ⟨r, hr, rfl⟩ := List.mem_map.1 ht
        obtain ⟨hr1, hr2⟩ := List.mem_filter.1 hr
        obtain ⟨u, hu, rfl⟩ := List.mem_map.1 hr1
        refine ⟨(mem_dedupeTimes _ _).2 hu, g, hg, ?_⟩
        rw [Bool.or_eq_true] at hr2
        rcases hr2 with hr2 | hr2
        · left; simpa using hr2
        · right; exact hany g _ hr2
      · rintro ⟨ht, f, hfm, hcase⟩
        refine ⟨_, List.mem_map_of_mem hfm, ?_⟩
        refine List.mem_map.2 ⟨⟨t, shown f.width (nearestRow (dedupe f.rows) window t)⟩, ?_, rfl⟩
        refine List.mem_filter.2 ⟨List.mem_map.2 ⟨t, (mem_dedupeTimes _ _).1 ht, rfl⟩, ?_⟩
        rw [Bool.or_eq_true]
        rcases hcase with hcase | ⟨cells, hc, c, hc1, hc2⟩
        · left; simp [hcase]
        · right
          rw [hany' f t cells hc] at hc1
          rw [List.any_eq_true]
          exact ⟨c, hc1, Option.isSome_iff_ne_none.2 hc2⟩
    have hmem : ∀ t, t ∈ full.map Row.time ↔ t ∈ ref ∧
        (addRef = true ∨ (o.dropna = false) ∨
          ∃ f ∈ others, ∃ cells, Contributes f window t cells ∧ ∃ c ∈ cells, c ≠ none) := by
      intro t
      rw [c2 t, hframes]
      cases ha : addRef with
      | true =>
        simp only [if_true, true_or, and_true]
        constructor
        · rintro ⟨f, hfm, ht⟩
          rcases List.mem_cons.1 hfm with rfl | hfm
          · exact (hrefmem t).1 ht
          · exact ((hmemdfs t).1 ⟨f, hfm, ht⟩).1
        · intro ht
          exact ⟨_, List.mem_cons_self, (hrefmem t).2 ht⟩
      | false =>
        simp only [Bool.false_eq_true, if_false, false_or]
        rw [hmemdfs t]
        constructor
        · rintro ⟨ht, f, hfm, hcase⟩
          refine ⟨ht, ?_⟩
          rcases hcase with hcase | hcase
          · exact Or.inl hcase
          · exact Or.inr ⟨f, hfm, hcase⟩
        · rintro ⟨ht, hcase⟩
          refine ⟨ht, ?_⟩
          rcases hcase with hcase | ⟨f, hfm, hcase⟩
          · cases hoth : others with
            | nil =>
              exfalso; apply hne
              rw [hframes, ha, hdfs, hoth]; rfl
            | cons f l => exact ⟨f, by simp, Or.inl hcase⟩
          · exact ⟨f, hfm, Or.inr hcase⟩
    refine ⟨full, ?_, c1, hmem, ?_, ?_⟩
    · rw [← h]
      cases comb with
      | no => simp [combinedDropna]
      | any =>
        simp only [combinedDropna]
        apply List.filter_congr
        intro r _
        rw [Bool.eq_iff_iff]
        simp [List.all_eq_true, Option.isSome_iff_ne_none]
      | all =>
        simp only [combinedDropna]
        apply List.filter_congr
        intro r _
        rw [Bool.eq_iff_iff]
        simp [List.any_eq_true, Option.isSome_iff_ne_none]
    · intro hd
      have hfull : full.map Row.time = dedupeTimes ref ∨ full.map Row.time = refRows.map Row.time := by
        have hdf : ∀ f ∈ dfs, f.rows.map Row.time = dedupeTimes ref := by
          intro f hfm
          rw [hdfs] at hfm
          obtain ⟨g, _, rfl⟩ := List.mem_map.1 hfm
          simp only [hd, Bool.not_false, Bool.true_or]
          rw [List.filter_eq_self.2 (by simp), List.map_map]
          exact List.map_id _
        left
        apply c4
        intro f hfm
        rw [hframes] at hfm
        split at hfm
        · rename_i ha
          rcases List.mem_cons.1 hfm with rfl | hfm
          · have hrn := hrefn ha
            simp only
            rw [hrr] at hrn ⊢
            split
            · exact dedupe_times _
            · rename_i hnd
              rw [if_neg hnd] at hrn
              exact (dedupeTimes_of_nodup hrn).symm
          · exact hdf f hfm
        · exact hdf f hfm
      rcases hfull with he | he
      · rw [he]; exact dedupeTimes_spec ref
      · rw [he]
        refine ⟨he ▸ c1, ?_, fun x => (hrefmem x).symm⟩
        rw [hrr]
        split
        · exact (dedupe_sublist _).map _
        · exact List.Sublist.refl _
    · intro r hr
      refine ⟨others.map (fun f => shown f.width (nearestRow (dedupe f.rows) window r.time)), ?_, ?_⟩
      · rw [List.forall₂_map_right_iff, List.forall₂_same]
        intro f _
        exact ⟨_, isNearest_dedupe (nearestRow_isNearest _ _ _), rfl⟩
      · rw [c3 r hr]
        have hrt : r.time ∈ ref := ((hmem r.time).1 (List.mem_map_of_mem hr)).1
        have hd : dfs.flatMap (fun f => cellsAt f.width f.rows r.time) =
            (others.map (fun f => shown f.width (nearestRow (dedupe f.rows) window r.time))).flatten := by
          rw [hdfs, List.flatMap_map, List.flatten_eq_flatMap, List.flatMap_map]
          apply List.flatMap_congr
          intro f hfm
          simp only [id]
          exact cellsAt_collocation (hwf f hfm) window o.dropna _ ((mem_dedupeTimes _ _).1 hrt)
        rw [hframes]
        cases ha : addRef with
        | false => simpa using hd
        | true =>
          simp only [if_true, List.flatMap_cons]
          rw [hd]
          congr 1
          have hfindeq : refRows.find? (fun x => decide (x.time = r.time)) =
              reference.rows.find? (fun x => decide (x.time = r.time)) := by
            rw [hrr]
            split
            · exact find_dedupe _ _
            · rfl
          unfold cellsAt
          rw [hfindeq]
          have hsome : (reference.rows.find? (fun x => decide (x.time = r.time))).isSome := by
            rw [List.find?_isSome]
            obtain ⟨x, hx, he⟩ := List.mem_map.1 hrt
            exact ⟨x, hx, by simpa using he⟩
          obtain ⟨x, hx⟩ := Option.isSome_iff_exists.1 hsome
          rw [hx]; rfl

/-- Non-vacuity of C05: two frames with different coverage, reference data added, incomplete rows dropped. -/
example : combinedCollocation { dropna := true, dropduplicates := true } .any true
    ⟨1, [⟨1, [some 1]⟩, ⟨1, [some 7]⟩, ⟨2, [some 2]⟩, ⟨3, [some 3]⟩]⟩
    [⟨1, [⟨1, [some 10]⟩, ⟨3, [some 30]⟩]⟩, ⟨1, [⟨2, [some 5]⟩, ⟨3, [some 6]⟩]⟩] (0 : ℚ) =
    .ok [⟨3, [some 3, some 30, some 6]⟩] := by decide +kernel

end Verif.Collocation
