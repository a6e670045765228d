import Verif.Upscaling.Units
import Mathlib.Data.List.Perm.Basic

/-!
C100, second part: the order of the points in the look-up table.
-/

set_option linter.unusedSectionVars false

namespace Verif.Upscaling

open Verif.Collocation (Row Frame combinedCollocation collocateOne dedupe dedupeTimes nearestRow shown concatColumns combinedDropna)

variable {N K : Type} [DecidableEq N] [Field K] [LinearOrder K] [IsStrictOrderedRing K]

/-! ### Specification -/

/-- whichever of the points with the most values is taken, it has the same times -/
def LongestAgree (target : N) (tss : List (PF N K)) : Prop :=
  ∀ f ∈ tss, ∀ g ∈ tss, (∀ h ∈ tss, values target h ≤ values target f) → (∀ h ∈ tss, values target h ≤ values target g) →
    f.rows.map Prod.fst = g.rows.map Prod.fst

/-! ### Matched frames as list of series -/

/-- `m` has the times `ts` and, column by column, the series `L` -/
def Grid (m : Matched K) (ts : List K) (L : List (K → Option K)) : Prop :=
  m.cols.length = L.length ∧ m.rows = ts.map (fun t => ⟨t, L.map (fun v => v t)⟩)

theorem at_map (L : List (K → Option K)) (t : K) (i : ℕ) (hi : i < L.length) : at' (L.map (fun v => v t)) i = L[i] t := by
  unfold at'
  rw [List.getElem?_map, List.getElem?_eq_getElem hi]
  rfl

theorem filter_range {α β : Type} (L : List α) (p : α → Bool) (keep : ℕ → Bool) (h : ∀ i (hi : i < L.length), keep i = p L[i]) (F : α → β) (G : ℕ → β)
    (hg : ∀ i (hi : i < L.length), G i = F L[i]) : ((List.range L.length).filter keep).map G = (L.filter p).map F := by
  induction L using List.reverseRecOn with
  | nil => rfl
  | append_singleton L x ih =>
    rw [List.length_append, List.length_singleton, List.range_succ, List.filter_append, List.filter_append, List.map_append, List.map_append]
    have e : ∀ i (hi : i < L.length), (L ++ [x])[i]'(by simp; omega) = L[i] := fun i hi => List.getElem_append_left hi
    rw [ih (fun i hi => by rw [h i (by simp; omega), e i hi]) (fun i hi => by rw [hg i (by simp; omega), e i hi])]
    congr 1
    have hx : (L ++ [x])[L.length]'(by simp) = x := by simp
    have hk := h L.length (by simp)
    have hG := hg L.length (by simp)
    rw [hx] at hk hG
    simp only [List.filter_cons, List.filter_nil, hk]
    cases p x <;> simp [hG]

theorem select_grid {m : Matched K} {ts : List K} {L : List (K → Option K)} (hm : Grid m ts L) (keep : ℕ → Bool) (p : (K → Option K) → Bool)
    (h : ∀ i (hi : i < L.length), keep i = p L[i]) : Grid (selectCols keep m) ts (L.filter p) := by
  obtain ⟨h1, h2⟩ := hm
  unfold selectCols Grid
  constructor
  · simp only [List.length_map, h1]
    have := congrArg List.length (filter_range L p keep h (fun _ => ()) (fun _ => ()) (fun _ _ => rfl))
    simpa using this
  · simp only [h1, h2, List.map_map]
    apply List.map_congr_left
    intro t _
    simp only [Function.comp, Row.mk.injEq, true_and]
    exact filter_range L p keep h (fun v => v t) _ (fun i hi => at_map L t i hi)

theorem dropEmpty_grid {m : Matched K} {ts : List K} {L : List (K → Option K)} (hm : Grid m ts L) :
    Grid (dropEmptyCols m) ts (L.filter (fun v => ts.any (fun t => (v t).isSome))) := by
  unfold dropEmptyCols
  apply select_grid hm
  intro i hi
  rw [hm.2, List.any_map]
  congr 1
  funext t
  simp only [Function.comp, at_map L t i hi]

theorem upscale_grid {m : Matched K} {ts : List K} {L : List (K → Option K)} (hm : Grid m ts L) (method : String) :
    upscale method m = if method = "average" then .ok (ts.map (fun t => (t, rowMean (L.map (fun v => v t))))) else .error .keyError := by
  unfold upscale
  rw [hm.2, List.map_map]
  rfl

theorem rowMean_perm {l l' : List (Option K)} (h : l.Perm l') : rowMean l = rowMean l' := by
  have h1 : (l.filterMap id).Perm (l'.filterMap id) := h.filterMap id
  unfold rowMean
  have hl := h1.length_eq
  have hs := h1.sum_eq
  cases h2 : l.filterMap id with
  | nil =>
    rw [h2] at hl
    cases h3 : l'.filterMap id with
    | nil => rfl
    | cons v vs => rw [h3] at hl; simp at hl
  | cons v vs =>
    rw [h2] at hl hs
    cases h3 : l'.filterMap id with
    | nil => rw [h3] at hl; simp at hl
    | cons w ws =>
      rw [h3] at hl hs
      simp only [hs, hl]

/-- what the stability filter does with one series -/
def stable (regr : List (Option K) → List (Option K) → Except Err (Option K × Option K)) (rMin seeMax : K) (est : List (Option K)) (ts : List K)
    (v : K → Option K) : Bool :=
  match regr est (ts.map v) with
  | .error _ => true
  | .ok s => !(ltN s.1 rMin || gtN s.2 seeMax)

theorem mapM_cases {α β ε : Type} (f : α → Except ε β) (e : ε) (he : ∀ x e', f x = .error e' → e' = e) (l : List α) :
    ((∃ x ∈ l, f x = .error e) ∧ l.mapM f = .error e) ∨ (∃ r, l.mapM f = .ok r ∧ List.Forall₂ (fun x y => f x = .ok y) l r) := by
  induction l with
  | nil => exact .inr ⟨[], rfl, .nil⟩
  | cons x xs ih =>
    simp only [List.mapM_cons, bind, Except.bind, pure, Except.pure]
    cases hx : f x with
    | error e' =>
      left
      obtain rfl := he x e' hx
      exact ⟨⟨x, by simp, hx⟩, rfl⟩
    | ok y =>
      simp only
      rcases ih with ⟨⟨z, hz, hz'⟩, h⟩ | ⟨r, h, hr⟩
      · left
        rw [h]
        exact ⟨⟨z, by simp [hz], hz'⟩, rfl⟩
      · right
        rw [h]
        exact ⟨y :: r, rfl, .cons hx hr⟩

theorem stability_grid {m : Matched K} {ts : List K} {L : List (K → Option K)} (hm : Grid m ts L)
    (regr : List (Option K) → List (Option K) → Except Err (Option K × Option K)) (hreg : ∀ x y e, regr x y = .error e → e = .regression)
    (rMin seeMax : K) (minN : ℕ) :
    (L.length < minN ∧ tstabilityFilter regr rMin seeMax minN m = .ok m) ∨
    (¬ L.length < minN ∧ (∃ v ∈ L, regr (ts.map (fun t => rowMean (L.map (fun v => v t)))) (ts.map v) = .error .regression) ∧
      tstabilityFilter regr rMin seeMax minN m = .error .regression) ∨
    (¬ L.length < minN ∧ (∀ v ∈ L, ∃ s, regr (ts.map (fun t => rowMean (L.map (fun v => v t)))) (ts.map v) = .ok s) ∧
      ∃ m', tstabilityFilter regr rMin seeMax minN m = .ok m' ∧
        Grid m' ts (L.filter (stable regr rMin seeMax (ts.map (fun t => rowMean (L.map (fun v => v t)))) ts))) := by
  unfold tstabilityFilter
  rw [hm.1]
  by_cases hn : L.length < minN
  · left; exact ⟨hn, if_pos hn⟩
  · right
    rw [if_neg hn]
    have he : m.rows.map (fun r => rowMean r.cells) = ts.map (fun t => rowMean (L.map (fun v => v t))) := by
      rw [hm.2, List.map_map]; rfl
    have hi : ∀ i (h : i < L.length), m.rows.map (fun r => at' r.cells i) = ts.map L[i] := by
      intro i h
      rw [hm.2, List.map_map]
      apply List.map_congr_left
      intro t _
      exact at_map L t i h
    rw [he]
    set est := ts.map (fun t => rowMean (L.map (fun v => v t))) with hest
    simp only [bind, Except.bind]
    rcases mapM_cases (fun i => regr est (m.rows.map (fun r => at' r.cells i))) .regression (fun i e h => hreg _ _ e h) (List.range L.length) with
      ⟨⟨i, hi1, hi2⟩, h⟩ | ⟨st, h, hst⟩
    · left
      rw [List.mem_range] at hi1
      rw [hi i hi1] at hi2
      refine ⟨hn, ⟨L[i], List.getElem_mem hi1, hi2⟩, ?_⟩
      rw [h]
    · right
      rw [h]
      have hlen : st.length = L.length := by rw [← hst.length_eq, List.length_range]
      have hs : ∀ i (h : i < L.length), regr est (ts.map L[i]) = .ok (st[i]'(by omega)) := by
        intro i h
        have := List.Forall₂.get hst (by simpa using h) (by omega : i < st.length)
        simp only [List.get_eq_getElem, List.getElem_range, hi i h] at this
        exact this
      refine ⟨hn, ?_, _, rfl, ?_⟩
      · intro v hv
        obtain ⟨i, h, rfl⟩ := List.getElem_of_mem hv
        exact ⟨_, hs i h⟩
      · apply select_grid hm
        intro i h
        simp only [stable, hs i h, List.getElem?_eq_getElem (by omega : i < st.length)]

/-! ### The matched frame -/

/-- the value of the nearest observation in the window -/
def valueAt (w : K) (f : Frame K K) (t : K) : Option K := at' (shown f.width (nearestRow (dedupe f.rows) w t)) 0

/-- one column -/
def OneCol (f : Frame K K) : Prop := f.width = 1 ∧ ∀ r ∈ f.rows, r.cells.length = 1

theorem shown_one {f : Frame K K} (hf : OneCol f) (w t : K) : shown f.width (nearestRow (dedupe f.rows) w t) = [valueAt w f t] := by
  have hl := Collocation.shown_length (f := f) (fun r hr => by rw [hf.1]; exact hf.2 r hr) w t
  unfold valueAt
  rw [hf.1] at hl ⊢
  obtain ⟨x, hx⟩ := List.length_eq_one_iff.mp hl
  rw [hx]
  rfl

theorem collocateOne_error (ref : List K) {w : K} (hw : 0 ≤ w) (f : Frame K K) (e : Collocation.Err) (h : collocateOne {} ref w f = .error e) :
    e = .notMonotonic := by
  unfold collocateOne Collocation.temporalCollocation at h
  simp only [Collocation.checkFlag, Bool.not_false, Bool.or_true, if_true, Bool.false_eq_true, if_false, bind, Except.bind, pure, Except.pure] at h
  rw [Collocation.nearestBranch_plain _ w f.width _ _ hw (Collocation.dedupe_nodup f.rows)] at h
  cases hr : Collocation.reindexNearest (dedupe f.rows) w (dedupeTimes ref) with
  | error e' =>
    rw [hr] at h
    simp only [Except.error.injEq] at h
    rw [← h]
    unfold Collocation.reindexNearest at hr
    split at hr
    · simp at hr
    · split at hr
      · simp at hr
      · split at hr
        · simp at hr
        · exact (Except.error.inj hr).symm
  | ok c => rw [hr] at h; simp at h

theorem collocateOne_ok {ref : List K} {w : K} (hw : 0 ≤ w) {f : Frame K K} (hf : OneCol f) {c : Frame K K} (h : collocateOne {} ref w f = .ok c) :
    c = ⟨1, (dedupeTimes ref).map (fun t => ⟨t, [valueAt w f t]⟩)⟩ := by
  unfold collocateOne at h
  cases hc : Collocation.temporalCollocation { ({} : Collocation.Opts) with returnIndex := false, returnDistance := false } ref f w with
  | error e => rw [hc] at h; simp at h
  | ok l =>
    rw [hc] at h
    simp only [Except.ok.injEq] at h
    rw [← h, Collocation.collocation_closed (o := {}) hw rfl rfl hc, List.filter_eq_self.mpr (by simp)]
    rw [hf.1]
    simp only [Frame.mk.injEq, true_and]
    apply List.map_congr_left
    intro t _
    have := shown_one hf w t
    rw [hf.1] at this
    rw [this]

/-- the times of the matched frame -/
def matchTimes (w : K) (drop : Bool) (ref : List K) (l : List (Frame K K)) : List K :=
  (dedupeTimes ref).filter (fun t => !drop || l.all (fun f => (valueAt w f t).isSome))

theorem temporalMatch_grid {w : K} (hw : 0 ≤ w) (drop : Bool) (f : Frame K K) (fs : List (Frame K K)) (hl : ∀ x ∈ f :: fs, OneCol x) :
    ((∃ x ∈ f :: fs, collocateOne {} ((pickRef f (f :: fs)).rows.map Row.time) w x = .error .notMonotonic) ∧
      temporalMatch w drop (f :: fs) = .error (.collocation .notMonotonic)) ∨
    ((∀ x ∈ f :: fs, ∃ c, collocateOne {} ((pickRef f (f :: fs)).rows.map Row.time) w x = .ok c) ∧
      ∃ m, temporalMatch w drop (f :: fs) = .ok (dropEmptyCols m) ∧
        Grid m (matchTimes w drop ((pickRef f (f :: fs)).rows.map Row.time) (f :: fs)) ((f :: fs).map (valueAt w))) := by
  unfold temporalMatch combinedCollocation
  simp only [bind, Except.bind, pure, Except.pure, Bool.false_eq_true, if_false]
  set ref := (pickRef f (f :: fs)).rows.map Row.time
  rcases mapM_cases (collocateOne {} ref w) .notMonotonic (fun x e h => collocateOne_error ref hw x e h) (f :: fs) with ⟨hx, h⟩ | ⟨dfs, h, hd⟩
  · left
    exact ⟨hx, by rw [h]⟩
  · right
    constructor
    · intro x hx
      obtain ⟨i, hi, rfl⟩ := List.getElem_of_mem hx
      exact ⟨_, List.Forall₂.get hd hi (by rw [← hd.length_eq]; exact hi)⟩
    rw [h]
    have hdfs : dfs = (f :: fs).map (fun x => ⟨1, (dedupeTimes ref).map (fun t => ⟨t, [valueAt w x t]⟩)⟩) := by
      have key : ∀ (l l' : List (Frame K K)), List.Forall₂ (fun x y => collocateOne {} ref w x = .ok y) l l' → (∀ x ∈ l, OneCol x) →
          l' = l.map (fun x => ⟨1, (dedupeTimes ref).map (fun t => ⟨t, [valueAt w x t]⟩)⟩) := by
        intro l l' hll
        induction hll with
        | nil => intro _; rfl
        | cons h1 h2 ih =>
          intro hc
          rw [List.map_cons, ← ih (fun x hx => hc x (List.mem_cons_of_mem _ hx)), ← collocateOne_ok hw (hc _ List.mem_cons_self) h1]
      exact key _ _ hd hl
    have htimes : ∀ d ∈ dfs, d.rows.map Row.time = dedupeTimes ref := by
      intro d hd'
      rw [hdfs] at hd'
      obtain ⟨x, _, rfl⟩ := List.mem_map.mp hd'
      simp only [List.map_map]
      exact List.map_id _
    obtain ⟨full, c0, c1, c2, c3, c4⟩ := Collocation.concat_spec (frames := dfs) (by rw [hdfs]; simp)
      (fun d hd' => by rw [htimes d hd']; exact Collocation.nodup_dedupeTimes ref)
    simp only [c0]
    have hfull : full = (dedupeTimes ref).map (fun t => ⟨t, (f :: fs).map (fun x => valueAt w x t)⟩) := by
      have h4 := c4 _ htimes
      rw [← h4, List.map_map]
      conv_lhs => rw [← List.map_id full]
      apply List.map_congr_left
      intro r hr
      have ht : r.time ∈ dedupeTimes ref := by rw [← h4]; exact List.mem_map_of_mem hr
      have h3 := c3 r hr
      rw [hdfs, List.flatMap_map] at h3
      have hcell : ∀ x : Frame K K, Collocation.cellsAt 1 ((dedupeTimes ref).map (fun t => (⟨t, [valueAt w x t]⟩ : Row K K))) r.time = [valueAt w x r.time] := by
        intro x
        obtain ⟨i, hi, hi'⟩ := List.getElem_of_mem ht
        have hn : (((dedupeTimes ref).map (fun t => (⟨t, [valueAt w x t]⟩ : Row K K))).map Row.time).Nodup := by
          rw [List.map_map]
          have : (Row.time ∘ fun t => (⟨t, [valueAt w x t]⟩ : Row K K)) = id := rfl
          rw [this, List.map_id]; exact Collocation.nodup_dedupeTimes ref
        have hg : ((dedupeTimes ref).map (fun t => (⟨t, [valueAt w x t]⟩ : Row K K)))[i]? = some ⟨r.time, [valueAt w x r.time]⟩ := by
          rw [List.getElem?_map, List.getElem?_eq_getElem hi, hi']
          rfl
        exact Collocation.cellsAt_getElem hn hg
      simp only [hcell] at h3
      obtain ⟨rt, rc⟩ := r
      simp only [id, Function.comp, Row.mk.injEq, true_and]
      simp only at h3
      rw [h3]
      clear h3
      generalize f :: fs = l
      induction l with
      | nil => rfl
      | cons x xs ih => simp [ih]
    refine ⟨_, rfl, ?_⟩
    constructor
    · simp
    · simp only [matchTimes]
      have key : combinedDropna (if drop then .any else .no) full =
          full.filter (fun r => !drop || r.cells.all Option.isSome) := by
        cases drop
        · simp [combinedDropna]
        · simp [combinedDropna]
      rw [key, hfull, List.filter_map]
      have e : ((fun r : Row K K => !drop || r.cells.all Option.isSome) ∘ fun t => (⟨t, (f :: fs).map (fun x => valueAt w x t)⟩ : Row K K)) =
          (fun t => !drop || (f :: fs).all (fun x => (valueAt w x t).isSome)) := by
        funext t
        simp only [Function.comp, List.all_map]
        rfl
      rw [e]
      apply List.map_congr_left
      intro t _
      simp only [Row.mk.injEq, true_and, List.map_map]
      rfl

/-! ### The order of the points -/

theorem matchTimes_perm {l l' : List (Frame K K)} (h : l.Perm l') (w : K) (drop : Bool) (ref : List K) : matchTimes w drop ref l = matchTimes w drop ref l' := by
  unfold matchTimes
  congr 1
  funext t
  rw [h.all_eq]

theorem est_perm {L L' : List (K → Option K)} (h : L.Perm L') (ts : List K) :
    ts.map (fun t => rowMean (L.map (fun v => v t))) = ts.map (fun t => rowMean (L'.map (fun v => v t))) := by
  apply List.map_congr_left
  intro t _
  exact rowMean_perm (h.map _)

/-- filter and average of two frames with the same series in another order -/
theorem finish_perm {m m' : Matched K} {ts : List K} {L L' : List (K → Option K)} (hm : Grid m ts L) (hm' : Grid m' ts L') (hp : L.Perm L')
    (regr : List (Option K) → List (Option K) → Except Err (Option K × Option K)) (hreg : ∀ x y e, regr x y = .error e → e = .regression) (A : Args K) :
    (if A.stability then tstabilityFilter regr A.rMin A.seeMax A.minN m else .ok m).bind (upscale A.method) =
      (if A.stability then tstabilityFilter regr A.rMin A.seeMax A.minN m' else .ok m').bind (upscale A.method) := by
  have up : ∀ {n n' : Matched K} {M M' : List (K → Option K)}, Grid n ts M → Grid n' ts M' → M.Perm M' → upscale A.method n = upscale A.method n' := by
    intro n n' M M' hn hn' hM
    rw [upscale_grid hn, upscale_grid hn']
    split
    · congr 1
      apply List.map_congr_left
      intro t _
      rw [rowMean_perm (hM.map (fun v => v t))]
    · rfl
  by_cases hs : A.stability = true
  · rw [if_pos hs, if_pos hs]
    have hest := est_perm hp ts
    rcases stability_grid hm regr hreg A.rMin A.seeMax A.minN with ⟨h1, h2⟩ | ⟨h1, ⟨v, hv, hv'⟩, h2⟩ | ⟨h1, h3, n, h2, h4⟩ <;>
      rcases stability_grid hm' regr hreg A.rMin A.seeMax A.minN with ⟨k1, k2⟩ | ⟨k1, ⟨u, hu, hu'⟩, k2⟩ | ⟨k1, k3, n', k2, k4⟩
    · rw [h2, k2]; exact up hm hm' hp
    · exact absurd (hp.length_eq ▸ h1) k1
    · exact absurd (hp.length_eq ▸ h1) k1
    · exact absurd (hp.length_eq ▸ k1) h1
    · rw [h2, k2]
    · obtain ⟨s, hs'⟩ := k3 v (hp.mem_iff.mp hv)
      rw [← hest, hv'] at hs'
      simp at hs'
    · exact absurd (hp.length_eq ▸ k1) h1
    · obtain ⟨s, hs'⟩ := h3 u (hp.mem_iff.mpr hu)
      rw [hest, hu'] at hs'
      simp at hs'
    · rw [h2, k2]
      refine up h4 k4 ?_
      rw [← hest]
      exact hp.filter _
  · rw [if_neg hs, if_neg hs]
    exact up hm hm' hp

theorem pickRef_self (f : Frame K K) (fs : List (Frame K K)) :
    pickRef f (f :: fs) ∈ f :: fs ∧ ∀ x ∈ f :: fs, count x ≤ count (pickRef f (f :: fs)) := by
  obtain ⟨h1, _, h3⟩ := pickRef_spec f (f :: fs)
  refine ⟨?_, h3⟩
  rcases h1 with h | h
  · rw [h]; exact List.mem_cons_self
  · exact h

/-- matching, filter and average of the same series in another order -/
theorem frames_order {w : K} (hw : 0 ≤ w) (drop : Bool) {l l' : List (Frame K K)} (hp : l.Perm l') (hne : l ≠ []) (hl : ∀ x ∈ l, OneCol x)
    (hlong : ∀ x ∈ l, ∀ y ∈ l, (∀ z ∈ l, count z ≤ count x) → (∀ z ∈ l, count z ≤ count y) → x.rows.map Row.time = y.rows.map Row.time)
    (regr : List (Option K) → List (Option K) → Except Err (Option K × Option K)) (hreg : ∀ x y e, regr x y = .error e → e = .regression) (A : Args K) :
    (temporalMatch w drop l).bind (fun m => (if A.stability then tstabilityFilter regr A.rMin A.seeMax A.minN m else .ok m).bind (upscale A.method)) =
      (temporalMatch w drop l').bind (fun m => (if A.stability then tstabilityFilter regr A.rMin A.seeMax A.minN m else .ok m).bind (upscale A.method)) := by
  match l, l' with
  | [], _ => exact absurd rfl hne
  | _ :: _, [] => exact absurd hp.length_eq (by simp)
  | f :: fs, f' :: fs' =>
    have hl' : ∀ x ∈ f' :: fs', OneCol x := fun x hx => hl x (hp.mem_iff.mpr hx)
    obtain ⟨m1, m2⟩ := pickRef_self f fs
    obtain ⟨n1, n2⟩ := pickRef_self f' fs'
    have href : (pickRef f' (f' :: fs')).rows.map Row.time = (pickRef f (f :: fs)).rows.map Row.time :=
      hlong _ (hp.mem_iff.mpr n1) _ m1 (fun z hz => n2 z (hp.mem_iff.mp hz)) m2
    have g1 := temporalMatch_grid hw drop f fs hl
    have g2 := temporalMatch_grid hw drop f' fs' hl'
    rw [href] at g2
    generalize (pickRef f (f :: fs)).rows.map Row.time = ref at g1 g2
    rcases g1 with ⟨⟨x, hx, hx'⟩, h1⟩ | ⟨h0, m, h1, hm⟩ <;> rcases g2 with ⟨⟨y, hy, hy'⟩, k1⟩ | ⟨k0, m', k1, hm'⟩
    · rw [h1, k1]
    · obtain ⟨c, hc⟩ := k0 x (hp.mem_iff.mp hx)
      rw [hx'] at hc; simp at hc
    · obtain ⟨c, hc⟩ := h0 y (hp.mem_iff.mpr hy)
      rw [hy'] at hc; simp at hc
    · rw [h1, k1]
      rw [← matchTimes_perm hp] at hm'
      exact finish_perm (dropEmpty_grid hm) (dropEmpty_grid hm') ((hp.map _).filter _) regr hreg A

/-- the points with data, as frames of one column -/
theorem toMatch_all (target : N) (tss : List (PF N K)) (hcol : ∀ f ∈ tss, target ∈ f.cols) :
    tss.mapM (toMatch target) = .ok (tss.map (fun f => (⟨1, observations target f⟩ : Frame K K))) := by
  induction tss with
  | nil => rfl
  | cons f fs ih =>
    simp only [List.mapM_cons, bind, Except.bind, pure, Except.pure]
    rw [ih (fun g hg => hcol g (List.mem_cons_of_mem _ hg))]
    unfold toMatch
    rw [if_pos (hcol f List.mem_cons_self)]
    rfl

/-- **C100.** The order of the points in the look-up table is irrelevant (all of them can be read and have the variable, and if several have the most
values they have the same times): the same series, value by value, or the same exception. -/
theorem upscaled_order_partial (regr : List (Option K) → List (Option K) → Except Err (Option K × Option K))
    (hreg : ∀ x y e, regr x y = .error e → e = .regression) (A : Args K) (hw : 0 ≤ A.hours) (target : N) (lut lut' : List (ℕ × List ℕ))
    (read : ℕ → Except Err (Option (PF N K))) (gpi : ℕ) (points points' : List ℕ) (hlut : lut.lookup gpi = some points)
    (hlut' : lut'.lookup gpi = some points') (hp : points.Perm points') (all : ℕ → Option (PF N K)) (hread : ∀ p ∈ points, read p = .ok (all p))
    (hcol : ∀ p ∈ points, ∀ f, all p = some f → target ∈ f.cols) (hlong : LongestAgree target (points.filterMap all)) :
    getUpscaledTs regr A target lut read gpi = getUpscaledTs regr A target lut' read gpi := by
  have hm : ∀ ps : List ℕ, (∀ p ∈ ps, read p = .ok (all p)) → ps.mapM read = .ok (ps.map all) := by
    intro ps
    induction ps with
    | nil => intro _; rfl
    | cons p ps ih =>
      intro h
      simp only [List.mapM_cons, bind, Except.bind, pure, Except.pure]
      rw [h p List.mem_cons_self, ih (fun q hq => h q (List.mem_cons_of_mem _ hq))]
      rfl
  have hfm : ∀ ps : List ℕ, (ps.map all).filterMap id = ps.filterMap all := by
    intro ps
    rw [List.filterMap_map]
    rfl
  unfold getUpscaledTs
  rw [hlut, hlut']
  simp only [bind, Except.bind]
  rw [hm points hread, hm points' (fun p h => hread p (hp.mem_iff.mpr h))]
  simp only [hfm]
  have hperm : (points.filterMap all).Perm (points'.filterMap all) := hp.filterMap all
  have hc : ∀ f ∈ points.filterMap all, target ∈ f.cols := by
    intro f hf
    obtain ⟨p, h1, h2⟩ := List.mem_filterMap.mp hf
    exact hcol p h1 f h2
  generalize points.filterMap all = tss at hperm hc hlong ⊢
  generalize points'.filterMap all = tss' at hperm ⊢
  match tss, tss', hperm, hc, hlong with
  | [], tss', hperm, _, _ =>
    rw [List.nil_perm] at hperm
    subst hperm
    rfl
  | [f], tss', hperm, _, _ =>
    rw [List.singleton_perm] at hperm
    subst hperm
    rfl
  | f :: g :: fs, [], hperm, _, _ => exact absurd hperm.length_eq (by simp)
  | f :: g :: fs, [_], hperm, _, _ => exact absurd hperm.length_eq (by simp)
  | f :: g :: fs, f' :: g' :: fs', hperm, hc, hlong =>
    simp only
    rw [toMatch_all target _ hc, toMatch_all target _ (fun x hx => hc x (hperm.mem_iff.mpr hx))]
    simp only
    have hfo := frames_order hw A.dropMissing (hperm.map (fun f => (⟨1, observations target f⟩ : Frame K K))) (by simp)
      (by
        intro x hx
        obtain ⟨y, _, rfl⟩ := List.mem_map.mp hx
        refine ⟨rfl, ?_⟩
        intro r hr
        obtain ⟨z, _, rfl⟩ := List.mem_map.mp hr
        rfl)
      (by
        intro x hx y hy h1 h2
        obtain ⟨x', hx', rfl⟩ := List.mem_map.mp hx
        obtain ⟨y', hy', rfl⟩ := List.mem_map.mp hy
        have e : ∀ z : PF N K, (observations target z).map Row.time = z.rows.map Prod.fst := by
          intro z
          unfold observations
          rw [List.map_map]
          rfl
        rw [e, e]
        apply hlong x' hx' y' hy'
        · intro z hz
          have := h1 _ (List.mem_map_of_mem hz)
          rwa [count_toMatch, count_toMatch] at this
        · intro z hz
          have := h2 _ (List.mem_map_of_mem hz)
          rwa [count_toMatch, count_toMatch] at this)
      regr hreg A
    generalize (f :: g :: fs).map (fun f => (⟨1, observations target f⟩ : Frame K K)) = l at hfo ⊢
    generalize (f' :: g' :: fs').map (fun f => (⟨1, observations target f⟩ : Frame K K)) = l' at hfo ⊢
    have step : ∀ l : List (Frame K K),
        (temporalMatch A.hours A.dropMissing l).bind (fun m =>
          if A.stability = true then (tstabilityFilter regr A.rMin A.seeMax A.minN m).bind (fun m' =>
            (upscale A.method m').bind (fun s => (.ok (some (Up.series s)) : Except Err (Option (Up N K)))))
          else (upscale A.method m).bind (fun s => .ok (some (Up.series s)))) =
        ((temporalMatch A.hours A.dropMissing l).bind (fun m =>
          (if A.stability then tstabilityFilter regr A.rMin A.seeMax A.minN m else .ok m).bind (upscale A.method))).map (fun s => some (Up.series s)) := by
      intro l
      cases temporalMatch A.hours A.dropMissing l with
      | error e => rfl
      | ok m =>
        simp only [Except.bind]
        by_cases hs : A.stability = true
        · rw [if_pos hs, if_pos hs]
          cases tstabilityFilter regr A.rMin A.seeMax A.minN m with
          | error e => rfl
          | ok m' => 
            simp only
            cases upscale A.method m' <;> rfl
        · rw [if_neg hs, if_neg hs]
          simp only
          cases upscale A.method m <;> rfl
    have e1 := step l
    have e2 := step l'
    rw [hfo, ← e2] at e1
    exact e1

/-- **C100, negative part.** Two points with the same number of values at different times: the times of the result, and its values, are those of the
point that happens to come first in the look-up table. -/
theorem order_matters : ∃ (read : ℕ → Except Err (Option (PF String ℚ))),
    seriesOf (getUpscaledTs (fun _ _ => .error .regression) exArgs "sm" [(7, [1, 2])] read 7) ≠
      seriesOf (getUpscaledTs (fun _ _ => .error .regression) exArgs "sm" [(7, [2, 1])] read 7) :=
  ⟨fun p => if p = 1 then .ok (some ⟨["sm"], [(0, fun _ => some 10), (100, fun _ => some 20)]⟩)
    else .ok (some ⟨["sm"], [(3, fun _ => some 30), (50, fun _ => some 40)]⟩), by decide +kernel⟩

/-- the hypotheses are met by the points of `exRead`: the second has more values than the first, the third has no data -/
example : getUpscaledTs (fun _ _ => .error .regression) exArgs "sm" [(7, [1, 2, 3])] exRead 7 =
    getUpscaledTs (fun _ _ => .error .regression) exArgs "sm" [(7, [3, 2, 1])] exRead 7 := by
  refine upscaled_order_partial _ (fun x y e h => (Except.error.inj h).symm) _ (by decide +kernel) _ _ _ _ _ [1, 2, 3] [3, 2, 1] (by decide) (by decide) (by decide)
    (fun p => if p = 1 then some ⟨["sm"], [(1, fun _ => some 10), (5, fun _ => some 20)]⟩
      else if p = 2 then some ⟨["sm"], [(2, fun _ => some 30), (4, fun _ => some 40), (20, fun _ => some 50)]⟩ else none) ?_ ?_ ?_
  · intro p hp
    simp only [List.mem_cons, List.not_mem_nil, or_false] at hp
    rcases hp with rfl | rfl | rfl <;> rfl
  · intro p hp f hf
    simp only [List.mem_cons, List.not_mem_nil, or_false] at hp
    rcases hp with rfl | rfl | rfl <;> simp at hf <;> subst hf <;> simp
  · intro f hf g hg h1 h2
    simp only [List.filterMap_cons, List.filterMap_nil, OfNat.one_ne_ofNat, if_true, if_false, OfNat.ofNat_ne_one, reduceCtorEq, Nat.reduceEqDiff,
      List.mem_cons, List.not_mem_nil, or_false] at hf hg h1 h2
    rcases hf with rfl | rfl
    · have := h1 _ (.inr rfl)
      simp [values] at this
    · rcases hg with rfl | rfl
      · have := h2 _ (.inr rfl)
        simp [values] at this
      · rfl

end Verif.Upscaling
