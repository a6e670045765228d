import Verif.Common.ListAux
import Verif.DataManager.Lemmas

/-! Properties C27 and C28. -/

set_option linter.unusedSectionVars false

namespace Verif.DataManager

open DfMetrics (combinations mem_combinations combinations_nodup)

variable {α : Type} [LinearOrder α]

/-! ### C27: result names -/

/-- **C27.** The result names are exactly the admissible keys, each once, if the dictionary has distinct data sets and each data set
distinct columns. -/
theorem result_names_correct (ds : List (α × List α)) (hn : (ds.map Prod.fst).Nodup) (hc : ∀ e ∈ ds, e.2.Nodup) (ref : α)
    (href : ref ∈ ds.map Prod.fst) (n : ℕ) (h1 : 1 ≤ n) :
    ∃ names, getResultNames ds ref n = .ok names ∧ names.Nodup ∧ ∀ L, L ∈ names ↔ Admissible ds ref n L := by
  obtain ⟨⟨ref, cols⟩, hmem, rfl⟩ := List.mem_map.mp href
  simp only at *
  have hl := (lookup_eq_some hn).mpr hmem
  refine ⟨_, getResultNames_eq ds _ cols hl n (by omega), ?_, ?_⟩
  · have hbase : ∀ L ∈ (cols.flatMap (fun c => (combinations (n - 1) (otherColumns ds ref)).map (col ref c :: ·))),
        ∃ c S, c ∈ cols ∧ S.Sublist (otherColumns ds ref) ∧ S.length = n - 1 ∧ L = col ref c :: S := by
      intro L hL
      obtain ⟨c, hcm, hL⟩ := List.mem_flatMap.mp hL
      obtain ⟨S, hS, rfl⟩ := List.mem_map.mp hL
      have := (mem_combinations _ _ _).mp hS
      exact ⟨c, S, hcm, this.2, this.1, rfl⟩
    have hoc := otherColumns_nodup hn hc
    have hbn : (cols.flatMap (fun c => (combinations (n - 1) (otherColumns ds ref)).map (col ref c :: ·))).Nodup := by
      rw [List.nodup_flatMap]
      constructor
      · intro c _
        exact (combinations_nodup _ _ (hoc _)).map (fun a b h => (List.cons.inj h).2)
      · refine (List.nodup_iff_pairwise_ne.mp (hc _ hmem)).imp ?_
        intro a b hab L hL hL'
        obtain ⟨S, -, rfl⟩ := List.mem_map.mp hL
        obtain ⟨S', -, h⟩ := List.mem_map.mp hL'
        exact hab (col_inj (List.cons.inj h).1).2.symm
    refine List.Nodup.map_on ?_ (hbn.filter _)
    intro L hL L' hL' heq
    obtain ⟨c, S, hcm, hS, hSl, rfl⟩ := hbase L (List.mem_of_mem_filter hL)
    obtain ⟨c', S', hcm', hS', hSl', rfl⟩ := hbase L' (List.mem_of_mem_filter hL')
    have hperm : (col ref c :: S).Perm (col ref c' :: S') :=
      (List.perm_insertionSort (· ≤ ·) _).symm.trans (heq ▸ List.perm_insertionSort (· ≤ ·) _)
    have hcc : c = c' := by
      have : col ref c ∈ col ref c' :: S' := hperm.mem_iff.mp (by simp)
      rcases List.mem_cons.mp this with h | h
      · exact (col_inj h).2
      · exact absurd rfl ((mem_otherColumns hn).mp (hS'.subset h)).1
    subst hcc
    have hp2 : S.Perm S' := (List.perm_cons _).mp hperm
    rw [perm_sublists_eq hS hS' (hoc _) hp2]
  · intro L
    rw [List.mem_map]
    constructor
    · rintro ⟨L', hL', rfl⟩
      have hnd : (L'.map (fun p => (ofLex p).1)).Nodup := by simpa using (List.mem_filter.mp hL').2
      obtain ⟨c, hcm, hL2⟩ := List.mem_flatMap.mp (List.mem_of_mem_filter hL')
      obtain ⟨S, hS, rfl⟩ := List.mem_map.mp hL2
      have hS2 := (mem_combinations _ _ _).mp hS
      have hp := List.perm_insertionSort (· ≤ ·) (col ref c :: S)
      refine ⟨List.pairwise_insertionSort _ _, ?_, ?_, ?_, ?_⟩
      · rw [hp.length_eq, List.length_cons]; omega
      · exact (hp.map _).nodup_iff.mpr hnd
      · intro p hpm
        rcases List.mem_cons.mp (hp.mem_iff.mp hpm) with rfl | h
        · exact ⟨cols, hmem, hcm⟩
        · exact ((mem_otherColumns hn).mp (hS2.2.subset h)).2
      · rw [(hp.map _).mem_iff]
        exact List.mem_map.mpr ⟨_, List.mem_cons_self, rfl⟩
    · rintro ⟨hs, hlen, hnd, hcol, hrm⟩
      obtain ⟨p, hpm, hpr⟩ := List.mem_map.mp hrm
      obtain ⟨cols', hc1, hc2⟩ := hcol p hpm
      have hcc : cols' = cols := by
        rw [hpr] at hc1
        have := (lookup_eq_some hn).mpr hc1
        rw [hl] at this; exact (Option.some.inj this).symm
      subst hcc
      have hLn : L.Nodup := List.Nodup.of_map _ hnd
      -- the other columns, in the order of the enumeration
      have hS2 : ∀ x, x ∈ L.erase p ↔ x ∈ otherColumns ds ref ∧ x ∈ L.erase p := by
        intro x
        constructor
        · intro hx
          refine ⟨(mem_otherColumns hn).mpr ⟨?_, hcol x (List.mem_of_mem_erase hx)⟩, hx⟩
          intro hc
          have hxL := List.mem_of_mem_erase hx
          have := List.inj_on_of_nodup_map hnd hxL hpm (hc.trans hpr.symm)
          rw [this] at hx
          exact (hLn.mem_erase_iff.mp hx).1 rfl
        · exact fun h => h.2
      have hperm : ((otherColumns ds ref).filter (fun x => decide (x ∈ L.erase p))).Perm (L.erase p) := by
        rw [List.perm_ext_iff_of_nodup ((otherColumns_nodup hn hc _).filter _) (hLn.erase _)]
        intro x
        rw [List.mem_filter, decide_eq_true_eq]
        exact (hS2 x).symm
      have hcp : col ref (ofLex p).2 = p := by
        rw [← hpr]; rfl
      have hpL : (p :: (otherColumns ds ref).filter (fun x => decide (x ∈ L.erase p))).Perm L :=
        (hperm.cons p).trans (List.perm_cons_erase hpm).symm
      refine ⟨p :: (otherColumns ds ref).filter (fun x => decide (x ∈ L.erase p)), ?_, ?_⟩
      · rw [List.mem_filter]
        constructor
        · rw [List.mem_flatMap]
          refine ⟨(ofLex p).2, hc2, List.mem_map.mpr ⟨(otherColumns ds ref).filter (fun x => decide (x ∈ L.erase p)), (mem_combinations _ _ _).mpr ⟨?_, List.filter_sublist⟩, ?_⟩⟩
          · rw [hperm.length_eq, List.length_erase_of_mem hpm]; omega
          · rw [hcp]
        · rw [decide_eq_true_eq]
          exact (hpL.map _).nodup_iff.mpr hnd
      · refine List.Perm.eq_of_pairwise (fun a b _ _ h h' => le_antisymm h h') (List.pairwise_insertionSort _ _) hs ?_
        exact (List.perm_insertionSort _ _).trans hpL

/-- **C27, errors.** An unknown reference raises KeyError. -/
theorem result_names_unknown (ds : List (α × List α)) (ref : α) (href : ref ∉ ds.map Prod.fst) (n : ℕ) :
    getResultNames ds ref n = .error .keyError := by
  unfold getResultNames
  rw [lookup_eq_none.mpr href]

example : getResultNames [(1, [10, 11]), (2, [20])] 3 2 = .error .keyError := result_names_unknown _ _ (by decide) _

/-- Data sets 1 (two columns), 2 and 3; the reference is data set 2. -/
example : ([(1, [10, 11]), (2, [20]), (3, [30])] : List (ℕ × List ℕ)).map Prod.fst |>.Nodup := by decide
example : (getResultNames [(1, [10, 11]), (2, [20]), (3, [30])] 2 2).toOption =
    some [[col 1 10, col 2 20], [col 1 11, col 2 20], [col 2 20, col 3 30]] := by decide +kernel
example : (getResultNames [(1, [10, 11]), (2, [20]), (3, [30])] 2 3).toOption =
    some [[col 1 10, col 2 20, col 3 30], [col 1 11, col 2 20, col 3 30]] := by decide +kernel

/-- **C27.** The combinations for all references: every sorted key with `n` distinct data sets and their columns, each once, in
increasing order. -/
theorem result_combinations_correct (ds : List (α × List α)) (hn : (ds.map Prod.fst).Nodup) (hc : ∀ e ∈ ds, e.2.Nodup) (n : ℕ)
    (h1 : 1 ≤ n) :
    ∃ names, getResultCombinations ds n = .ok names ∧ names.Pairwise (· < ·) ∧
      ∀ L, L ∈ names ↔ ∃ ref, Admissible ds ref n L := by
  obtain ⟨g, hg⟩ : ∃ g : α → List (List (Col α)), ∀ k ∈ ds.map Prod.fst,
      getResultNames ds k n = .ok (g k) ∧ ∀ L, L ∈ g k ↔ Admissible ds k n L := by
    refine ⟨fun k => (getResultNames ds k n).toOption.getD [], ?_⟩
    intro k hk
    obtain ⟨names, h, -, h3⟩ := result_names_correct ds hn hc k hk n h1
    simp only [h]
    exact ⟨rfl, h3⟩
  have hmap : (ds.map Prod.fst).mapM (fun k => getResultNames ds k n) = .ok ((ds.map Prod.fst).map g) :=
    mapM_except_map g _ (fun k hk => (hg k hk).1)
  unfold getResultCombinations
  rw [hmap]
  simp only [bind, Except.bind]
  refine ⟨_, rfl, ?_, ?_⟩
  · have hs := List.pairwise_insertionSort (· ≤ ·) (((ds.map Prod.fst).map g).flatten.dedup)
    have hnd : ((((ds.map Prod.fst).map g).flatten.dedup).insertionSort (· ≤ ·)).Nodup :=
      (List.perm_insertionSort _ _).nodup_iff.mpr (List.nodup_dedup _)
    exact (hs.and (List.nodup_iff_pairwise_ne.mp hnd)).imp (fun h => lt_of_le_of_ne h.1 h.2)
  · intro L
    rw [List.mem_insertionSort, List.mem_dedup, List.mem_flatten]
    constructor
    · rintro ⟨l, hl, hL⟩
      obtain ⟨k, hk, rfl⟩ := List.mem_map.mp hl
      exact ⟨k, ((hg k hk).2 L).mp hL⟩
    · rintro ⟨ref, hA⟩
      have hk : ref ∈ ds.map Prod.fst := by
        obtain ⟨p, hp, hpr⟩ := List.mem_map.mp hA.2.2.2.2
        obtain ⟨cols, hcm, -⟩ := hA.2.2.2.1 p hp
        exact List.mem_map.mpr ⟨_, hcm, hpr⟩
      exact ⟨g ref, List.mem_map.mpr ⟨ref, hk, rfl⟩, ((hg ref hk).2 L).mpr hA⟩

example : (getResultCombinations [(3, [30]), (1, [10]), (2, [20])] 2).toOption =
    some [[col 1 10, col 2 20], [col 1 10, col 3 30], [col 2 20, col 3 30]] := by decide +kernel

/-- **C27.** Only the set of columns matters for the set of results: if a column is listed twice, the key appears twice. -/
theorem result_names_repeated_column : (getResultNames [(1, [10, 10]), (2, [20])] 1 2).toOption =
    some [[col 1 10, col 2 20], [col 1 10, col 2 20]] := by decide +kernel

/-! ### C28: reading -/

/-- **C28.** `read_ds` gives data exactly if the reader returned a frame with rows inside the period, and then these rows; no data for
an IOError, a missing file, an empty frame and something else than a frame. -/
theorem read_ds_some_iff {T V : Type} [LinearOrder T] (period : Option (T × T)) (o : Outcome T V) (out : List (T × V)) :
    readDs period o = .ok (some out) ↔
      ∃ rows, o = .frame rows ∧ out ≠ [] ∧ out.Sublist rows ∧
        out = rows.filter (fun r => period.all (fun ab => decide (ab.1 ≤ r.1) && decide (r.1 ≤ ab.2))) := by
  cases o with
  | ioError => simp [readDs]
  | runtimeError m =>
    cases m with
    | none => simp [readDs]
    | some m =>
      unfold readDs
      constructor
      · intro h; simp only at h; split at h <;> simp at h
      · rintro ⟨rows, h, -⟩; simp at h
  | otherError => simp [readDs]
  | noneValue => simp [readDs]
  | notFrame n => simp [readDs]
  | frame rows =>
    unfold readDs
    simp only [Outcome.frame.injEq, exists_eq_left']
    by_cases hr : rows = []
    · subst hr; simp
    rw [if_neg hr]
    have key : ∀ q : List (T × V), q.Sublist rows →
        ((if q = [] then (.ok none : Except Err (Option (List (T × V)))) else .ok (some q)) = .ok (some out) ↔
          out ≠ [] ∧ out.Sublist rows ∧ out = q) := by
      intro q hsub
      by_cases hqn : q = []
      · rw [if_pos hqn]
        constructor
        · intro h; simp at h
        · rintro ⟨h, -, h2⟩; exact absurd (h2.trans hqn) h
      · rw [if_neg hqn]
        constructor
        · intro h
          have := Option.some.inj (Except.ok.inj h)
          subst this
          exact ⟨hqn, hsub, rfl⟩
        · rintro ⟨-, -, rfl⟩; rfl
    cases period with
    | none =>
      have : rows.filter (fun r => (none : Option (T × T)).all (fun ab => decide (ab.1 ≤ r.1) && decide (r.1 ≤ ab.2))) = rows := by
        rw [List.filter_eq_self]
        intro _ _; rfl
      rw [this]
      exact key rows (List.Sublist.refl _)
    | some ab => exact key _ List.filter_sublist

/-- **C28.** `read_ds` reports "no data" (and does not raise) exactly for an IOError, a missing file, something else than a frame and
a frame without rows inside the period. -/
theorem read_ds_none_iff {T V : Type} [LinearOrder T] (period : Option (T × T)) (o : Outcome T V) :
    readDs period o = .ok none ↔
      o = .ioError ∨ o = .runtimeError (some "No such file or directory") ∨ (∃ k, o = .notFrame k) ∨
        ∃ rows, o = .frame rows ∧ ∀ r ∈ rows, ∃ a b, period = some (a, b) ∧ ¬(a ≤ r.1 ∧ r.1 ≤ b) := by
  cases o with
  | ioError => simp [readDs]
  | runtimeError m =>
    cases m with
    | none => simp [readDs]
    | some m =>
      by_cases hm : m = "No such file or directory" <;> simp [readDs, hm]
  | otherError => simp [readDs]
  | noneValue => simp [readDs]
  | notFrame n => simp [readDs]
  | frame rows =>
    unfold readDs
    by_cases hr : rows = []
    · subst hr; simp
    cases period with
    | none =>
      simp only [hr, if_false]
      constructor
      · intro h; simp at h
      · rintro (h | h | ⟨_, h⟩ | ⟨rows', h, h2⟩)
        · simp at h
        · simp at h
        · simp at h
        · obtain rfl := Outcome.frame.inj h
          obtain ⟨r, hrm⟩ := List.exists_mem_of_ne_nil _ hr
          obtain ⟨a, b, h3, -⟩ := h2 r hrm
          simp at h3
    | some ab =>
      obtain ⟨a, b⟩ := ab
      simp only [hr, if_false]
      constructor
      · intro h
        refine .inr (.inr (.inr ⟨rows, rfl, ?_⟩))
        intro r hrm
        refine ⟨a, b, rfl, ?_⟩
        intro hin
        split at h
        · rename_i hnil
          have := List.filter_eq_nil_iff.mp hnil r hrm
          simp [hin.1, hin.2] at this
        · simp at h
      · rintro (h | h | ⟨_, h⟩ | ⟨rows', h, h2⟩)
        · simp at h
        · simp at h
        · simp at h
        · obtain rfl := Outcome.frame.inj h
          rw [if_pos]
          rw [List.filter_eq_nil_iff]
          intro r hrm
          obtain ⟨a', b', h3, h4⟩ := h2 r hrm
          obtain ⟨rfl, rfl⟩ := Prod.mk.inj (Option.some.inj h3)
          simp only [Bool.and_eq_true, decide_eq_true_eq]
          exact h4

/-- **C28, errors.** Failures of the reader that are passed on: a RuntimeError that is not about a missing file, any other exception,
and a reader that returns `None` (TypeError). -/
theorem read_ds_raises {T V : Type} [LinearOrder T] (period : Option (T × T)) :
    readDs period (.noneValue : Outcome T V) = .error .typeError ∧ readDs period (.otherError : Outcome T V) = .error .other ∧
    readDs period (.runtimeError none : Outcome T V) = .error .indexError ∧
    ∀ m, m ≠ "No such file or directory" → readDs period (.runtimeError (some m) : Outcome T V) = .error .runtimeError := by
  refine ⟨rfl, rfl, rfl, ?_⟩
  intro m hm
  simp [readDs, hm]

example : (readDs (some (2, 4)) (.frame [(1, "a"), (2, "b"), (4, "c"), (5, "d")])).toOption = some (some [(2, "b"), (4, "c")]) := by
  decide +kernel

variable {P F : Type}

theorem fetch_some_iff (M : Manager α P F) (hup : M.upscaled = none) (gpi : ℕ) (p : P) (o : α × Source P)
    (hlut : ∀ l, o.2.lut = some l → ∀ g ∈ l, -1 ≤ g) (f : F) :
    fetch M gpi p o = .ok (some f) ↔ ∃ g, BelongsTo o.2 gpi p g ∧ M.read o.1 g = .ok (some f) := by
  unfold fetch BelongsTo
  cases hc : o.2.compatible with
  | true => simp
  | false =>
    simp only [Bool.false_eq_true, if_false, hup, false_and, true_and, false_or]
    cases hl : o.2.lut with
    | some l =>
      simp only [Option.some.injEq, reduceCtorEq, false_and, or_false, exists_eq_left']
      cases hg : l[gpi]? with
      | none => simp
      | some g =>
        have hge := hlut l hl g (List.mem_of_getElem? hg)
        simp only [Option.some.injEq]
        by_cases h1 : g = -1
        · rw [if_pos h1]
          constructor
          · intro h; simp at h
          · rintro ⟨g', h, -⟩; omega
        · rw [if_neg h1]
          constructor
          · intro h; exact ⟨g.toNat, by omega, h⟩
          · rintro ⟨g', h, h2⟩
            have : g.toNat = g' := by omega
            rw [this]; exact h2
    | none =>
      simp only [reduceCtorEq, false_and, exists_false, false_or, true_and]
      rcases hnp : o.2.nearest p with e | ⟨g, d⟩
      · simp
      cases d with
      | none => simp
      | some d =>
        constructor
        · intro h; exact ⟨g, ⟨d, rfl⟩, h⟩
        · rintro ⟨g', ⟨d', h⟩, h2⟩
          rw [(Prod.mk.inj (Except.ok.inj h)).1]; exact h2

theorem getOtherData_mem (M : Manager α P F) (gpi : ℕ) (p : P) (os : List (α × Source P)) (out : List (α × F))
    (h : getOtherData M gpi p os = .ok out) :
    (∀ n f, (n, f) ∈ out ↔ ∃ s, (n, s) ∈ os ∧ fetch M gpi p (n, s) = .ok (some f)) ∧
    (out.map Prod.fst).Sublist (os.map Prod.fst) := by
  induction os generalizing out with
  | nil =>
    simp only [getOtherData, Except.ok.injEq] at h
    subst h; simp
  | cons o os ih =>
    unfold getOtherData at h
    simp only [bind, Except.bind] at h
    split at h
    · simp at h
    rename_i f hf
    split at h
    · simp at h
    rename_i rest hrest
    obtain ⟨ih1, ih2⟩ := ih rest hrest
    simp only [Except.ok.injEq] at h
    subst h
    obtain ⟨on, os'⟩ := o
    cases f with
    | none =>
      refine ⟨?_, ih2.cons _⟩
      intro n f'
      simp only
      rw [ih1]
      constructor
      · rintro ⟨s, h1, h2⟩; exact ⟨s, List.mem_cons_of_mem _ h1, h2⟩
      · rintro ⟨s, h1, h2⟩
        rcases List.mem_cons.mp h1 with h1 | h1
        · rw [h1, hf] at h2; simp at h2
        · exact ⟨s, h1, h2⟩
    | some x =>
      refine ⟨?_, by simpa using ih2⟩
      intro n f'
      simp only [List.mem_cons]
      rw [ih1]
      constructor
      · rintro (h1 | ⟨s, h1, h2⟩)
        · obtain ⟨rfl, rfl⟩ := Prod.mk.inj h1
          exact ⟨os', .inl rfl, hf⟩
        · exact ⟨s, .inr h1, h2⟩
      · rintro ⟨s, h1 | h1, h2⟩
        · obtain ⟨rfl, rfl⟩ := Prod.mk.inj h1
          rw [hf] at h2
          left
          rw [Option.some.inj (Except.ok.inj h2)]
        · exact .inr ⟨s, h1, h2⟩

/-- **C28.** What `get_data` returns for a location (without upscaling): nothing if the reference or all others have no data; otherwise
the reference at the point itself and every other data set that has data at the grid point belonging to it, under its own name and
only once. -/
theorem get_data_correct (M : Manager α P F) (hup : M.upscaled = none) (hn : (M.others.map Prod.fst).Nodup)
    (href : M.ref ∉ M.others.map Prod.fst) (hlut : ∀ o ∈ M.others, ∀ l, o.2.lut = some l → ∀ g ∈ l, -1 ≤ g) (gpi : ℕ) (p : P)
    (out : List (α × F)) (h : getData M gpi p = .ok out) :
    (out.map Prod.fst).Nodup ∧
    (out = [] ↔ M.read M.ref gpi = .ok none ∨
      ∀ o ∈ M.others, ∀ g f, BelongsTo o.2 gpi p g → M.read o.1 g ≠ .ok (some f)) ∧
    (out ≠ [] → ∀ n f, (n, f) ∈ out ↔ (n = M.ref ∧ M.read M.ref gpi = .ok (some f)) ∨
      ∃ s, (n, s) ∈ M.others ∧ ∃ g, BelongsTo s gpi p g ∧ M.read n g = .ok (some f)) := by
  unfold getData at h
  simp only [bind, Except.bind] at h
  split at h
  · simp at h
  rename_i r hr
  cases r with
  | none =>
    simp only [Except.ok.injEq] at h
    subst h
    exact ⟨by simp, by simp [hr], by simp⟩
  | some x =>
    simp only at h
    split at h
    · simp at h
    rename_i os hos
    obtain ⟨h1, h2⟩ := getOtherData_mem M gpi p M.others os hos
    have hiff : os = [] ↔ ∀ o ∈ M.others, ∀ g f, BelongsTo o.2 gpi p g → M.read o.1 g ≠ .ok (some f) := by
      constructor
      · intro ho o hm g f hb hrd
        have : (o.1, f) ∈ os := (h1 o.1 f).mpr ⟨o.2, hm, (fetch_some_iff M hup gpi p o (hlut o hm) f).mpr ⟨g, hb, hrd⟩⟩
        rw [ho] at this; simp at this
      · intro ho
        rw [List.eq_nil_iff_forall_not_mem]
        rintro ⟨n, f⟩ hm
        obtain ⟨s, hs, hf⟩ := (h1 n f).mp hm
        obtain ⟨g, hb, hrd⟩ := (fetch_some_iff M hup gpi p (n, s) (hlut _ hs) f).mp hf
        exact ho _ hs g f hb hrd
    by_cases ho : os = []
    · rw [if_pos ho] at h
      simp only [Except.ok.injEq] at h
      subst h
      exact ⟨by simp, by simp only [true_iff]; exact .inr (hiff.mp ho), by simp⟩
    · rw [if_neg ho] at h
      simp only [Except.ok.injEq] at h
      subst h
      refine ⟨?_, ?_, ?_⟩
      · rw [List.map_append, List.nodup_append]
        refine ⟨hn.sublist h2, by simp, ?_⟩
        intro a ha b hb hab
        simp only [List.map_cons, List.map_nil, List.mem_singleton] at hb
        rw [hab, hb] at ha
        exact href (h2.subset ha)
      · constructor
        · intro hc; simp at hc
        · rintro (hc | hc)
          · rw [hr] at hc; simp at hc
          · exact absurd (hiff.mpr hc) ho
      · intro _ n f
        rw [List.mem_append, h1]
        simp only [List.mem_singleton, Prod.mk.injEq, hr, Except.ok.injEq, Option.some.injEq]
        constructor
        · rintro (⟨s, hs, hf⟩ | ⟨rfl, rfl⟩)
          · exact .inr ⟨s, hs, (fetch_some_iff M hup gpi p (n, s) (hlut _ hs) f).mp hf⟩
          · exact .inl ⟨rfl, rfl⟩
        · rintro (⟨rfl, rfl⟩ | ⟨s, hs, hf⟩)
          · exact .inr ⟨rfl, rfl⟩
          · exact .inl ⟨s, hs, (fetch_some_iff M hup gpi p (n, s) (hlut _ hs) f).mpr hf⟩

theorem getOtherData_ok (M : Manager α P F) (gpi : ℕ) (p : P) (os : List (α × Source P)) :
    (∃ out, getOtherData M gpi p os = .ok out) ↔ ∀ o ∈ os, ∃ f, fetch M gpi p o = .ok f := by
  induction os with
  | nil => simp [getOtherData]
  | cons o os ih =>
    unfold getOtherData
    simp only [bind, Except.bind, List.mem_cons, forall_eq_or_imp]
    rw [← ih]
    cases h1 : fetch M gpi p o with
    | error e => simp
    | ok f =>
      cases h2 : getOtherData M gpi p os with
      | error e => simp
      | ok r => simp

/-- **C28, errors.** `get_data` raises exactly if reading the reference raises, or the reference has data and finding or reading one of
the others raises. -/
theorem get_data_ok_iff (M : Manager α P F) (gpi : ℕ) (p : P) :
    (∃ out, getData M gpi p = .ok out) ↔ M.read M.ref gpi = .ok none ∨
      ((∃ x, M.read M.ref gpi = .ok (some x)) ∧ ∀ o ∈ M.others, ∃ f, fetch M gpi p o = .ok f) := by
  rw [← getOtherData_ok]
  unfold getData
  simp only [bind, Except.bind]
  cases h1 : M.read M.ref gpi with
  | error e => simp
  | ok r =>
    cases r with
    | none => simp
    | some x =>
      cases h2 : getOtherData M gpi p M.others with
      | error e => simp
      | ok os =>
        by_cases h : os = [] <;> simp [h]

/-- a look-up table, a missing entry, a nearest neighbour out of reach, compatible grids -/
example : (getData (⟨0, [(1, ⟨false, some [5, -1, 7], fun _ => .ok (0, none)⟩), (2, ⟨false, none, fun _ => .ok (0, none)⟩),
      (3, ⟨true, none, fun _ => .ok (0, none)⟩), (4, ⟨false, none, fun _ => .ok (9, some 1)⟩)],
      fun n g => .ok (some (n, g)), none⟩ : Manager ℕ Unit (ℕ × ℕ)) 2 ()).toOption =
    some [(1, (1, 7)), (3, (3, 2)), (4, (4, 9)), (0, (0, 2))] := by decide +kernel

/-- **C28, errors.** A reference point beyond the look-up table raises IndexError (if its data set is reached). -/
theorem get_data_lut_too_short (M : Manager α P F) (hup : M.upscaled = none) (gpi : ℕ) (p : P) (o : α × Source P)
    (hc : o.2.compatible = false) (l : List Int) (hl : o.2.lut = some l) (hlen : l.length ≤ gpi) :
    fetch M gpi p o = .error .indexError := by
  unfold fetch
  rw [hc, hup, hl]
  simp only [Bool.false_eq_true, if_false]
  rw [List.getElem?_eq_none hlen]

example : fetch (⟨0, [], fun n g => .ok (some (n, g)), none⟩ : Manager ℕ Unit (ℕ × ℕ)) 2 () (1, ⟨false, some [5, 6], fun _ => .ok (0, none)⟩) =
    .error .indexError := get_data_lut_too_short _ rfl _ _ _ rfl [5, 6] rfl (by decide)

/-- **C28.** With upscaling, a data set on a compatible grid is still read at the point itself; the others are upscaled. -/
theorem fetch_upscaled (M : Manager α P F) (up : α → ℕ → Except Err (Option F)) (hup : M.upscaled = some up) (gpi : ℕ) (p : P)
    (o : α × Source P) : fetch M gpi p o = if o.2.compatible then M.read o.1 gpi else up o.1 gpi := by
  unfold fetch
  rw [hup]

example : fetch (⟨0, [], fun n g => .ok (some (n, g)), some (fun _ _ => .ok (some (7, 7)))⟩ : Manager ℕ Unit (ℕ × ℕ)) 2 ()
    (1, ⟨false, some [5, 6], fun _ => .ok (0, none)⟩) = .ok (some (7, 7)) := fetch_upscaled (⟨0, [], fun n g => .ok (some (n, g)), some (fun _ _ => .ok (some (7, 7)))⟩ : Manager ℕ Unit (ℕ × ℕ)) _ rfl 2 ()
  (1, ⟨false, some [5, 6], fun _ => .ok (0, none)⟩)

end Verif.DataManager
