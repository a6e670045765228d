import Verif.Collocation.Relations

/-!
C99, first part: combined collocation of frames whose values are transformed frame by frame, on another clock.
-/

set_option linter.unusedSectionVars false

namespace Verif.Collocation

variable {K : Type} [Field K] [LinearOrder K] [IsStrictOrderedRing K]

/-! ### Specification -/

/-- a row on another clock, the values of every column transformed by the function of that column -/
def recolumn (a b : K) (G : List (K → K)) (r : Row K K) : Row K K :=
  ⟨clock a b r.time, List.zipWith (fun g v => Option.map g v) G r.cells⟩

/-- one function per column: that of its frame -/
def columnFuns (frames : List (Frame K K × (K → K))) : List (K → K) := frames.flatMap (fun f => List.replicate f.1.width f.2)

/-- every row has a cell for every column -/
def Frame.Wf (f : Frame K K) : Prop := ∀ r ∈ f.rows, r.cells.length = f.width

/-! ### Proofs -/

theorem zipWith_replicate_map (g : K → K) (cells : List (Option K)) :
    List.zipWith (fun g v => Option.map g v) (List.replicate cells.length g) cells = cells.map (Option.map g) := by
  induction cells with
  | nil => rfl
  | cons c l ih => rw [List.length_cons, List.replicate_succ, List.zipWith_cons_cons, ih, List.map_cons]

theorem zipWith_columnFuns (frames : List (Frame K K × (K → K))) (cells : Frame K K → List (Option K))
    (h : ∀ f ∈ frames, (cells f.1).length = f.1.width) :
    List.zipWith (fun g v => Option.map g v) (columnFuns frames) (frames.flatMap (fun f => cells f.1)) =
      frames.flatMap (fun f => (cells f.1).map (Option.map f.2)) := by
  induction frames with
  | nil => rfl
  | cons f fs ih =>
    unfold columnFuns at ih ⊢
    rw [List.flatMap_cons, List.flatMap_cons, List.flatMap_cons, List.zipWith_append (by simp [h f List.mem_cons_self]),
      ih (fun x hx => h x (List.mem_cons_of_mem _ hx)), ← h f List.mem_cons_self, zipWith_replicate_map]

theorem columnFuns_length (frames : List (Frame K K × (K → K))) : (columnFuns frames).length = (frames.map (fun f => f.1.width)).sum := by
  unfold columnFuns
  simp [List.length_flatMap]

theorem cellsNth_length {f : Frame K K} (h : f.Wf) (i : ℕ) : (cellsNth f.width f.rows i).length = f.width := by
  unfold cellsNth
  cases hr : f.rows[i]? with
  | none => simp
  | some r => exact h r (List.mem_of_getElem? hr)

theorem cellsAt_length {f : Frame K K} (h : f.Wf) (t : K) : (cellsAt f.width f.rows t).length = f.width := by
  unfold cellsAt
  cases hr : f.rows.find? (fun r => decide (r.time = t)) with
  | none => simp
  | some r => exact h r (List.mem_of_find?_eq_some hr)

/-- the rows of a concatenation have the cells of all frames -/
theorem concatColumns_length {frames : List (Frame K K)} (h : ∀ f ∈ frames, f.Wf) {rows : List (Row K K)} (hr : concatColumns frames = .ok rows) :
    ∀ r ∈ rows, r.cells.length = (frames.map Frame.width).sum := by
  have key : ∀ c : Frame K K → List (Option K), (∀ f ∈ frames, (c f).length = f.width) →
      (frames.flatMap c).length = (frames.map Frame.width).sum := by
    intro c hc
    rw [List.length_flatMap]
    congr 1
    exact List.map_congr_left hc
  unfold concatColumns at hr
  simp only at hr
  split at hr
  · cases hr
  split at hr
  · obtain rfl := Except.ok.inj hr
    intro r hr
    obtain ⟨x, -, rfl⟩ := List.mem_map.mp hr
    exact key _ (fun f hf => cellsNth_length (h f hf) _)
  split at hr
  · obtain rfl := Except.ok.inj hr
    intro r hr
    obtain ⟨x, -, rfl⟩ := List.mem_map.mp hr
    exact key _ (fun f hf => cellsAt_length (h f hf) _)
  · cases hr

section
variable {a : K} (ha : 0 < a) (b : K)

include ha in
theorem concatColumns_units (frames : List (Frame K K × (K → K))) (hwf : ∀ f ∈ frames, f.1.Wf) :
    concatColumns (frames.map (fun f => reclockFrame a b f.2 f.1)) =
      (concatColumns (frames.map Prod.fst)).map (List.map (recolumn a b (columnFuns frames))) := by
  have hinj : Function.Injective (clock a b) := fun x y h => (clock_inj ha b x y).mp h
  have hidx : (frames.map (fun f => reclockFrame a b f.2 f.1)).map (fun f => f.rows.map Row.time) =
      ((frames.map Prod.fst).map (fun f => f.rows.map Row.time)).map (List.map (clock a b)) := by
    rw [List.map_map, List.map_map, List.map_map]
    apply List.map_congr_left
    intro f _
    exact times_reclock b f.2 f.1.rows
  have hnth : ∀ i, (frames.map (fun f => reclockFrame a b f.2 f.1)).flatMap (fun f => cellsNth f.width f.rows i) =
      List.zipWith (fun g v => Option.map g v) (columnFuns frames) ((frames.map Prod.fst).flatMap (fun f => cellsNth f.width f.rows i)) := by
    intro i
    rw [List.flatMap_map, List.flatMap_map,
      zipWith_columnFuns frames (fun f => cellsNth f.width f.rows i) (fun f hf => cellsNth_length (hwf f hf) i)]
    congr 1
    funext f
    exact cellsNth_reclock b f.2 _ _ _
  have hat : ∀ t, (frames.map (fun f => reclockFrame a b f.2 f.1)).flatMap (fun f => cellsAt f.width f.rows (clock a b t)) =
      List.zipWith (fun g v => Option.map g v) (columnFuns frames) ((frames.map Prod.fst).flatMap (fun f => cellsAt f.width f.rows t)) := by
    intro t
    rw [List.flatMap_map, List.flatMap_map,
      zipWith_columnFuns frames (fun f => cellsAt f.width f.rows t) (fun f hf => cellsAt_length (hwf f hf) t)]
    congr 1
    funext f
    exact cellsAt_reclock ha b f.2 _ _ _
  have hun : unionTimes (frames.map (fun f => reclockFrame a b f.2 f.1)) = (unionTimes (frames.map Prod.fst)).map (clock a b) := by
    unfold unionTimes
    rw [← dedupeTimes_clock ha, List.flatMap_map, List.map_flatMap, List.flatMap_map]
    congr 2
    funext f
    exact times_reclock b f.2 f.1.rows
  unfold concatColumns
  simp only
  rw [hidx, hun]
  generalize (frames.map Prod.fst).map (fun f => f.rows.map Row.time) = idx
  cases idx with
  | nil => rfl
  | cons i is =>
    simp only [List.map_cons]
    have e1 : (is.map (List.map (clock a b))).all (fun j => decide (j = i.map (clock a b))) = is.all (fun j => decide (j = i)) := by
      rw [List.all_map]
      congr 1
      funext j
      simp only [Function.comp]
      exact decide_eq_decide.mpr ⟨fun h => hinj.list_map h, fun h => by rw [h]⟩
    have e2 : (i.map (clock a b) :: is.map (List.map (clock a b))).all (fun j => decide j.Nodup) = (i :: is).all (fun j => decide j.Nodup) := by
      rw [← List.map_cons, List.all_map]
      congr 1
      funext j
      simp only [Function.comp]
      exact decide_eq_decide.mpr (List.nodup_map_iff hinj)
    rw [e1, e2]
    by_cases h1 : is.all (fun j => decide (j = i)) = true
    · rw [if_pos h1, if_pos h1]
      simp only [Except.map]
      rw [List.zipIdx_map, List.map_map, List.map_map]
      congr 1
      apply List.map_congr_left
      intro x _
      simp only [Function.comp, Prod.map, id, hnth, recolumn]
    · rw [if_neg h1, if_neg h1]
      by_cases h2 : (i :: is).all (fun j => decide j.Nodup) = true
      · rw [if_pos h2, if_pos h2]
        simp only [Except.map, List.map_map]
        congr 1
        apply List.map_congr_left
        intro t _
        simp only [Function.comp, hat, recolumn]
      · rw [if_neg h2, if_neg h2]; rfl

theorem zipWith_all (p : Option K → Bool) (hp : ∀ (g : K → K) v, p (v.map g) = p v) (G : List (K → K)) (cells : List (Option K))
    (h : cells.length = G.length) : (List.zipWith (fun g v => Option.map g v) G cells).all p = cells.all p := by
  induction cells generalizing G with
  | nil => cases G <;> rfl
  | cons c l ih =>
    match G, h with
    | g :: G, h =>
      rw [List.zipWith_cons_cons, List.all_cons, List.all_cons, hp, ih G (by simpa using h)]

theorem zipWith_any (p : Option K → Bool) (hp : ∀ (g : K → K) v, p (v.map g) = p v) (G : List (K → K)) (cells : List (Option K))
    (h : cells.length = G.length) : (List.zipWith (fun g v => Option.map g v) G cells).any p = cells.any p := by
  induction cells generalizing G with
  | nil => cases G <;> rfl
  | cons c l ih =>
    match G, h with
    | g :: G, h =>
      rw [List.zipWith_cons_cons, List.any_cons, List.any_cons, hp, ih G (by simpa using h)]

theorem combinedDropna_units (cb : Combined) (G : List (K → K)) (rows : List (Row K K)) (h : ∀ r ∈ rows, r.cells.length = G.length) :
    combinedDropna cb (rows.map (recolumn a b G)) = (combinedDropna cb rows).map (recolumn a b G) := by
  have e : ∀ (g : K → K) (x : Option K), (x.map g).isSome = x.isSome := fun g x => by cases x <;> rfl
  cases cb with
  | no => rfl
  | any =>
    simp only [combinedDropna, List.filter_map]
    congr 1
    apply List.filter_congr
    intro r hr
    exact zipWith_all Option.isSome e G r.cells (h r hr)
  | all =>
    simp only [combinedDropna, List.filter_map]
    congr 1
    apply List.filter_congr
    intro r hr
    exact zipWith_any Option.isSome e G r.cells (h r hr)

include ha in
theorem collocateOne_units (o : Opts) (g : K → K) (hg : Admissible o g) (ref : List K) (window : K) (f : Frame K K) :
    collocateOne o (ref.map (clock a b)) (a * window) (reclockFrame a b g f) = (collocateOne o ref window f).map (reclockFrame a b g) := by
  unfold collocateOne
  rw [collocation_clock ha b g { o with returnIndex := false, returnDistance := false } hg ref f window]
  cases temporalCollocation { o with returnIndex := false, returnDistance := false } ref f window with
  | error e => rfl
  | ok c =>
    simp only [Except.map, reclockFrame, List.map_map]
    rfl

/-- a collocated frame is as wide as the frame -/
theorem collocateOne_wf (o : Opts) (hm : o.mean = false) (hf : o.flag = none) (ref : List K) {window : K} (hw : 0 ≤ window) {f f' : Frame K K}
    (hwf : f.Wf) (h : collocateOne o ref window f = .ok f') : f'.width = f.width ∧ f'.Wf := by
  unfold collocateOne at h
  cases hc : temporalCollocation { o with returnIndex := false, returnDistance := false } ref f window with
  | error e => rw [hc] at h; cases h
  | ok c =>
    rw [hc] at h
    obtain rfl := Except.ok.inj h
    refine ⟨rfl, ?_⟩
    intro r hr
    simp only at hr
    rw [collocation_closed hw hm hf hc] at hr
    obtain ⟨hr, -⟩ := List.mem_filter.mp hr
    obtain ⟨t, -, rfl⟩ := List.mem_map.mp hr
    exact shown_length hwf window t

include ha in
/-- The frames of a combined collocation, each with a function for its values. -/
theorem mapM_collocateOne_units (o : Opts) (hm : o.mean = false) (hf : o.flag = none) (ref : List K) {window : K} (hw : 0 ≤ window)
    (others : List (Frame K K × (K → K))) (hwf : ∀ f ∈ others, f.1.Wf) :
    (∃ e, (others.map Prod.fst).mapM (collocateOne o ref window) = .error e ∧
      (others.map (fun f => reclockFrame a b f.2 f.1)).mapM (collocateOne o (ref.map (clock a b)) (a * window)) = .error e) ∨
    ∃ dfs : List (Frame K K × (K → K)), (others.map Prod.fst).mapM (collocateOne o ref window) = .ok (dfs.map Prod.fst) ∧
      (others.map (fun f => reclockFrame a b f.2 f.1)).mapM (collocateOne o (ref.map (clock a b)) (a * window)) =
        .ok (dfs.map (fun f => reclockFrame a b f.2 f.1)) ∧ columnFuns dfs = columnFuns others ∧ ∀ f ∈ dfs, f.1.Wf := by
  induction others with
  | nil => exact .inr ⟨[], rfl, rfl, rfl, by simp⟩
  | cons f fs ih =>
    simp only [List.map_cons, List.mapM_cons, bind, Except.bind, pure, Except.pure]
    rw [collocateOne_units ha b o f.2 (fun h => by rw [hm] at h; cases h)]
    cases hc : collocateOne o ref window f.1 with
    | error e => exact .inl ⟨e, rfl, rfl⟩
    | ok f' =>
      simp only [Except.map]
      obtain ⟨w1, w2⟩ := collocateOne_wf o hm hf ref hw (hwf f List.mem_cons_self) hc
      rcases ih (fun x hx => hwf x (List.mem_cons_of_mem _ hx)) with ⟨e, h1, h2⟩ | ⟨dfs, h1, h2, h3, h4⟩
      · rw [h1, h2]
        exact .inl ⟨e, rfl, rfl⟩
      · rw [h1, h2]
        refine .inr ⟨(f', f.2) :: dfs, rfl, rfl, ?_, ?_⟩
        · unfold columnFuns at h3 ⊢
          rw [List.flatMap_cons, List.flatMap_cons, h3, w1]
        · intro x hx
          rcases List.mem_cons.mp hx with rfl | hx
          · exact w2
          · exact h4 x hx

theorem dedupe_wf {f : Frame K K} (h : f.Wf) : Frame.Wf ⟨f.width, dedupe f.rows⟩ := fun r hr => h r ((dedupe_sublist _).subset hr)

include ha in
/-- `combined_temporal_collocation` as the temporal matchers call it: on another clock and with values in other units for every frame, the result is
the same, every column in the units of its frame. -/
theorem combined_units (comb : Combined) (reference : Frame K K × (K → K)) (hr : reference.1.Wf) (others : List (Frame K K × (K → K)))
    (hwf : ∀ f ∈ others, f.1.Wf) {window : K} (hw : 0 ≤ window) :
    combinedCollocation { dropna := true, dropduplicates := true } comb true (reclockFrame a b reference.2 reference.1)
        (others.map (fun f => reclockFrame a b f.2 f.1)) (a * window) =
      (combinedCollocation { dropna := true, dropduplicates := true } comb true reference.1 (others.map Prod.fst) window).map
        (List.map (recolumn a b (columnFuns (reference :: others)))) := by
  unfold combinedCollocation
  simp only [bind, Except.bind, pure, Except.pure]
  rw [show (reclockFrame a b reference.2 reference.1).rows.map Row.time = (reference.1.rows.map Row.time).map (clock a b) from
    times_reclock b reference.2 reference.1.rows]
  rcases mapM_collocateOne_units ha b { dropna := true, dropduplicates := true } rfl rfl (reference.1.rows.map Row.time) hw others hwf with
    ⟨e, h1, h2⟩ | ⟨dfs, h1, h2, h3, h4⟩
  · rw [h1, h2]; rfl
  · rw [h1, h2]
    simp only [if_true]
    have e : (Frame.mk (reclockFrame a b reference.2 reference.1).width (dedupe (reclockFrame a b reference.2 reference.1).rows) ::
        dfs.map (fun f => reclockFrame a b f.2 f.1)) =
        ((Frame.mk reference.1.width (dedupe reference.1.rows), reference.2) :: dfs).map (fun f => reclockFrame a b f.2 f.1) := by
      rw [List.map_cons]
      congr 1
      simp only [reclockFrame]
      congr 1
      exact dedupe_reclock ha b _ _
    have hwf' : ∀ f ∈ ((Frame.mk reference.1.width (dedupe reference.1.rows), reference.2) :: dfs), f.1.Wf := by
      intro f hf
      rcases List.mem_cons.mp hf with rfl | hf
      · exact dedupe_wf hr
      · exact h4 f hf
    rw [e, concatColumns_units ha b _ hwf']
    have hc : columnFuns ((Frame.mk reference.1.width (dedupe reference.1.rows), reference.2) :: dfs) = columnFuns (reference :: others) := by
      unfold columnFuns at h3 ⊢
      rw [List.flatMap_cons, List.flatMap_cons, h3]
    have hl := fun rows => concatColumns_length (rows := rows)
      (frames := ((Frame.mk reference.1.width (dedupe reference.1.rows), reference.2) :: dfs).map Prod.fst)
      (fun f hf => by obtain ⟨x, hx, rfl⟩ := List.mem_map.mp hf; exact hwf' x hx)
    rw [hc]
    cases hq : concatColumns (((Frame.mk reference.1.width (dedupe reference.1.rows), reference.2) :: dfs).map Prod.fst) with
    | error e =>
      rw [List.map_cons] at hq
      simp only [hq, Except.map]
    | ok rows =>
      have hl := hl rows hq
      rw [List.map_cons] at hq
      simp only [hq, Except.map]
      rw [combinedDropna_units]
      intro r hr
      rw [hl r hr, ← hc, columnFuns_length, List.map_map]
      rfl

end

end Verif.Collocation
