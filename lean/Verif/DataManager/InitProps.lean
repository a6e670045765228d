import Verif.DataManager.Init

/-! Theorems about the constructor of `DataManager`, C69 and C70. -/

set_option linter.unusedSectionVars false

namespace Verif.DataManager

variable {α : Type} [LinearOrder α] {R G P A KW Mth T V D : Type} [LinearOrder T]

theorem lookup_map_snd {β γ : Type} (f : β → γ) (l : List (α × β)) (n : α) :
    (l.map (fun e => (e.1, f e.2))).lookup n = (l.lookup n).map f := by
  induction l with
  | nil => rfl
  | cons e l ih =>
    obtain ⟨k, v⟩ := e
    simp only [List.map_cons, List.lookup_cons]
    cases n == k <;> simp [ih]

theorem lookup_const {β : Type} (l : List α) (m : β) (n : α) (h : n ∈ l) : (l.map (fun k => (k, m))).lookup n = some m := by
  induction l with
  | nil => simp at h
  | cons a l ih =>
    simp only [List.map_cons, List.lookup_cons]
    by_cases hn : n = a
    · simp [hn]
    · have : (n == a) = false := by simpa using hn
      rw [this]
      exact ih (by simpa [hn] using h)

theorem methodFor_iff (m : Methods α Mth) (names : List α) (n : α) (h : n ∈ names) (mth : Mth) :
    m.get names n = some mth ↔ MethodFor m n mth := by
  unfold Methods.get MethodFor
  cases m with
  | all m0 => simp [lookup_const _ _ _ h]
  | dict d => simp

/-- the sources when the constructor succeeds -/
theorem sources_ok (E : Ext R G P A KW Mth T V D) (rg : Option G) (ups : Bool) (l : List (α × Full R A KW D))
    (ss : List (α × Source P)) (h : sources E rg ups l = .ok ss) :
    List.Forall₂ (fun e s => s.1 = e.1 ∧ s.2.compatible = e.2.compatible ∧ s.2.nearest = nearestOf E e.2 ∧
      (ups = false → lutOf E rg e.2 = .ok s.2.lut)) l ss := by
  induction l generalizing ss with
  | nil =>
    simp only [sources, Except.ok.injEq] at h
    subst h; exact .nil
  | cons e l ih =>
    obtain ⟨n, f⟩ := e
    unfold sources at h
    simp only [bind, Except.bind] at h
    split at h
    · simp at h
    rename_i lut hlut
    split at h
    · simp at h
    rename_i rest hrest
    simp only [Except.ok.injEq] at h
    subst h
    refine .cons ⟨rfl, rfl, rfl, ?_⟩ (ih _ hrest)
    rintro rfl
    exact hlut

theorem forall2_mem {β γ : Type} {p : β → γ → Prop} {l : List β} {l' : List γ} (h : List.Forall₂ p l l') :
    (∀ a ∈ l, ∃ b ∈ l', p a b) ∧ ∀ b ∈ l', ∃ a ∈ l, p a b := by
  induction h with
  | nil => simp
  | cons h _ ih =>
    obtain ⟨i1, i2⟩ := ih
    constructor
    · intro a ha
      rcases List.mem_cons.mp ha with rfl | ha
      · exact ⟨_, by simp, h⟩
      · obtain ⟨b, hb, hp⟩ := i1 a ha
        exact ⟨b, by simp [hb], hp⟩
    · intro b hb
      rcases List.mem_cons.mp hb with rfl | hb
      · exact ⟨_, by simp, h⟩
      · obtain ⟨a, ha, hp⟩ := i2 b hb
        exact ⟨a, by simp [ha], hp⟩

theorem forall2_fst {β γ : Type} {p : α × β → α × γ → Prop} (hp : ∀ a b, p a b → b.1 = a.1) {l : List (α × β)} {l' : List (α × γ)}
    (h : List.Forall₂ p l l') : l'.map Prod.fst = l.map Prod.fst := by
  induction h with
  | nil => rfl
  | cons h _ ih => simp [hp _ _ h, ih]

theorem getD_cases {D : Type} {β : Type} (x : Option D) (d0 : D) (f : D → β) (y : β) :
    f (x.getD d0) = y ↔ (x = none ∧ f d0 = y) ∨ ∃ d, x = some d ∧ f d = y := by
  cases x <;> simp

/-- the grid point of a source of the manager is the one of the specification -/
theorem belongs_iff (E : Ext R G P A KW Mth T V D) (refCls : R) (e : Entry R A KW D) (s : Source P)
    (h1 : s.compatible = (addDefaults E e).compatible) (h2 : s.nearest = nearestOf E (addDefaults E e))
    (h3 : lutOf E (E.grid refCls) (addDefaults E e) = .ok s.lut) (gpi : ℕ) (p : P) (g : ℕ) :
    BelongsTo s gpi p g ↔ Located E refCls e gpi p g := by
  unfold BelongsTo Located
  rw [h1, h2]
  have hc : (addDefaults E e).compatible = true ↔ e.compatible = some true := by
    unfold addDefaults
    cases e.compatible <;> simp
  have hc' : (addDefaults E e).compatible = false ↔ e.compatible ≠ some true := by
    rw [← not_iff_not, Bool.not_eq_false, hc, not_not]
  have hu : (addDefaults E e).useLut = true ↔ e.useLut = some true := by
    unfold addDefaults
    cases e.useLut <;> simp
  rw [hc, hc']
  refine or_congr Iff.rfl ?_
  by_cases hcomp : e.compatible = some true
  · simp [hcomp]
  simp only [ne_eq, hcomp, not_false_eq_true, true_and]
  unfold lutOf at h3
  by_cases hl : e.useLut = some true
  · rw [if_pos (hu.mpr hl)] at h3
    simp only [hl, not_true_eq_false, false_and, or_false, true_and]
    have hcls : (addDefaults E e).cls = e.cls := rfl
    rw [hcls] at h3
    cases hr : E.grid refCls with
    | none => rw [hr] at h3; simp at h3
    | some rg =>
      cases ho : E.grid e.cls with
      | none => rw [hr, ho] at h3; simp at h3
      | some og =>
        rw [hr, ho] at h3
        simp only [Except.ok.injEq] at h3
        rw [← h3]
        have hmd : (addDefaults E e).maxDist = e.maxDist.getD E.inf := rfl
        rw [hmd]
        cases e.maxDist <;> simp
  · have hlf : (addDefaults E e).useLut = false := by
      rw [← Bool.not_eq_true, hu]; exact hl
    rw [hlf] at h3
    simp only [Bool.false_eq_true, if_false, Except.ok.injEq] at h3
    simp only [← h3, reduceCtorEq, false_and, exists_false, false_or, true_and, hl, not_false_eq_true]
    unfold nearestOf
    have hcls : (addDefaults E e).cls = e.cls := rfl
    have hmd : (addDefaults E e).maxDist = e.maxDist.getD E.inf := rfl
    rw [hcls, hmd]
    cases E.grid e.cls with
    | none => simp
    | some og => cases e.maxDist <;> simp

theorem reads_iff (E : Ext R G P A KW Mth T V D) (ds : List (α × Entry R A KW D)) (hn : (ds.map Prod.fst).Nodup)
    (period : Option (T × T)) (m : Methods α Mth) (n : α) (e : Entry R A KW D) (he : (n, e) ∈ ds) (g : ℕ) (out : List (T × V)) :
    readOf E period m (ds.map (fun e => (e.1, addDefaults E e.2))) n g = .ok (some out) ↔ Reads E period m n e g out := by
  unfold readOf
  rw [lookup_map_snd, (lookup_eq_some hn).mpr he]
  simp only [Option.map_some]
  have hfst : (ds.map (fun e => (e.1, addDefaults E e.2))).map Prod.fst = ds.map Prod.fst := by simp
  have hmem : n ∈ ds.map Prod.fst := List.mem_map.mpr ⟨_, he, rfl⟩
  rw [hfst]
  unfold Reads
  have ha : (addDefaults E e).args = (match e.args with | some a => a | none => E.noArgs) := by
    unfold addDefaults; cases e.args <;> rfl
  have hk : (addDefaults E e).kwargs = (match e.kwargs with | some a => a | none => E.noKwargs) := by
    unfold addDefaults; cases e.kwargs <;> rfl
  cases hm : m.get (ds.map Prod.fst) n with
  | none =>
    simp only [reduceCtorEq, false_iff]
    rintro ⟨mth, rows, h1, -⟩
    rw [← methodFor_iff m _ n hmem, hm] at h1
    simp at h1
  | some mth =>
    have hm' := (methodFor_iff m _ n hmem mth).mp hm
    simp only
    rw [read_ds_some_iff, ha, hk]
    constructor
    · rintro ⟨rows, h1, h2, -, h3⟩
      exact ⟨mth, rows, hm', h1, h2, h3⟩
    · rintro ⟨mth', rows, h1, h2, h3, h4⟩
      rw [← methodFor_iff m _ n hmem, hm] at h1
      obtain rfl := Option.some.inj h1
      refine ⟨rows, h2, h3, ?_, h4⟩
      rw [h4]
      exact List.filter_sublist

/-- the parts of a successful construction -/
theorem mkManager_ok (E : Ext R G P A KW Mth T V D) (ds : List (α × Entry R A KW D)) (ref : α) (period : Option (T × T))
    (m : Methods α Mth) (ups : Option (α → ℕ → Except Err (Option (List (T × V))))) (ds' : List (α × Entry R A KW D))
    (M : Manager α P (List (T × V))) (h : mkManager E ds ref period m ups = .ok (ds', M)) :
    ∃ r ss, ds.lookup ref = some r ∧
      sources E (E.grid r.cls) ups.isSome ((ds.map (fun e => (e.1, addDefaults E e.2))).filter (fun e => decide (e.1 ≠ ref))) = .ok ss ∧
      ds' = ds.map (fun e => (e.1, (addDefaults E e.2).toEntry)) ∧
      M = ⟨ref, ss, readOf E period m (ds.map (fun e => (e.1, addDefaults E e.2))), ups⟩ := by
  unfold mkManager at h
  simp only at h
  rw [lookup_map_snd] at h
  cases hr : ds.lookup ref with
  | none => rw [hr] at h; simp at h
  | some r =>
    rw [hr] at h
    simp only [Option.map_some] at h
    split at h
    · simp at h
    rename_i ss hss
    simp only [Except.ok.injEq, Prod.mk.injEq] at h
    exact ⟨r, ss, rfl, hss, by rw [← h.1]; simp, h.2.symm⟩

/-- **C69.** What a data manager returns for a grid point, in terms of the user's dictionary alone: the rows read from every data set
at the grid point that its own options (or their documented defaults) determine, by its own method and arguments, inside the period.
Nothing is returned if the reference or all other data sets are without data. -/
theorem data_manager_correct_partial (E : Ext R G P A KW Mth T V D) (ds : List (α × Entry R A KW D)) (hn : (ds.map Prod.fst).Nodup) (ref : α)
    (period : Option (T × T)) (m : Methods α Mth) (ds' : List (α × Entry R A KW D)) (M : Manager α P (List (T × V)))
    (h : mkManager E ds ref period m none = .ok (ds', M)) (hlut : ∀ g g' d, ∀ x ∈ E.calcLut g g' d, -1 ≤ x) (refE : Entry R A KW D)
    (hre : (ref, refE) ∈ ds) (gpi : ℕ) (p : P) (out : List (α × List (T × V))) (ho : getData M gpi p = .ok out) :
    (out.map Prod.fst).Nodup ∧
    (out = [] ↔ (∀ f, ¬Reads E period m ref refE gpi f) ∨
      ∀ n e, (n, e) ∈ ds → n ≠ ref → ∀ g f, Located E refE.cls e gpi p g → ¬Reads E period m n e g f) ∧
    (out ≠ [] → ∀ n f, (n, f) ∈ out ↔ ∃ e g, (n, e) ∈ ds ∧ (n = ref ∧ g = gpi ∨ n ≠ ref ∧ Located E refE.cls e gpi p g) ∧
      Reads E period m n e g f) := by
  obtain ⟨r, ss, hr, hss, -, rfl⟩ := mkManager_ok E ds ref period m none ds' M h
  obtain rfl : r = refE := by
    have := (lookup_eq_some hn).mpr hre
    rw [hr] at this
    exact Option.some.inj this
  have hF := sources_ok E _ _ _ _ hss
  have hfst := forall2_fst (fun a b h => h.1) hF
  have hfl : ((ds.map (fun e => (e.1, addDefaults E e.2))).filter (fun e => decide (e.1 ≠ ref))).map Prod.fst =
      (ds.map Prod.fst).filter (fun k => decide (k ≠ ref)) := by
    rw [List.filter_map, List.filter_map, List.map_map]
    rfl
  obtain ⟨m1, m2⟩ := forall2_mem hF
  have hmem : ∀ n f, (n, f) ∈ (ds.map (fun e => (e.1, addDefaults E e.2))).filter (fun e => decide (e.1 ≠ ref)) ↔
      ∃ e, (n, e) ∈ ds ∧ n ≠ ref ∧ f = addDefaults E e := by
    intro n f
    rw [List.mem_filter, List.mem_map]
    constructor
    · rintro ⟨⟨⟨k, e⟩, h1, h2⟩, h3⟩
      obtain ⟨rfl, rfl⟩ := Prod.mk.inj h2
      exact ⟨e, h1, by simpa using h3, rfl⟩
    · rintro ⟨e, h1, h2, rfl⟩
      exact ⟨⟨_, h1, rfl⟩, by simpa using h2⟩
  -- the sources of the manager in terms of the dictionary
  have hsrc : ∀ n s, (n, s) ∈ ss → ∃ e, (n, e) ∈ ds ∧ n ≠ ref ∧ ∀ g, BelongsTo s gpi p g ↔ Located E r.cls e gpi p g := by
    intro n s hs
    obtain ⟨⟨n', f⟩, hf, q1, q2, q3, q4⟩ := m2 _ hs
    simp only at q1 q2 q3 q4
    subst q1
    obtain ⟨e, he, hne, rfl⟩ := (hmem _ _).mp hf
    exact ⟨e, he, hne, belongs_iff E r.cls e s q2 q3 (q4 rfl) gpi p⟩
  have hsrc' : ∀ n e, (n, e) ∈ ds → n ≠ ref → ∃ s, (n, s) ∈ ss ∧ ∀ g, BelongsTo s gpi p g ↔ Located E r.cls e gpi p g := by
    intro n e he hne
    obtain ⟨⟨n', s⟩, hs, q1, q2, q3, q4⟩ := m1 _ ((hmem _ _).mpr ⟨e, he, hne, rfl⟩)
    simp only at q1 q2 q3 q4
    subst q1
    exact ⟨s, hs, belongs_iff E r.cls e s q2 q3 (q4 rfl) gpi p⟩
  have huniq : ∀ n e e', (n, e) ∈ ds → (n, e') ∈ ds → e = e' := by
    intro n e e' h1 h2
    have a := (lookup_eq_some hn).mpr h1
    have b := (lookup_eq_some hn).mpr h2
    rw [a] at b
    exact Option.some.inj b
  obtain ⟨c1, c2, c3⟩ := get_data_correct _ rfl (by
      show (ss.map Prod.fst).Nodup
      rw [hfst, hfl]
      exact hn.filter _) (by
      show ref ∉ ss.map Prod.fst
      rw [hfst, hfl, List.mem_filter]
      simp) (by
      rintro ⟨n, s⟩ hs l hl x hx
      obtain ⟨⟨n', f⟩, hf, q1, q2, q3, q4⟩ := m2 _ hs
      have := q4 rfl
      rw [hl] at this
      unfold lutOf at this
      split at this
      · split at this
        · simp only [Except.ok.injEq, Option.some.injEq] at this
          rw [← this] at hx
          exact hlut _ _ _ x hx
        · simp at this
      · simp at this) gpi p out ho
  refine ⟨c1, ?_, ?_⟩
  · rw [c2]
    simp only
    have hrd : ∀ f, readOf E period m (ds.map (fun e => (e.1, addDefaults E e.2))) ref gpi = .ok (some f) ↔
        Reads E period m ref r gpi f := fun f => reads_iff E ds hn period m ref r hre gpi f
    refine or_congr ?_ ?_
    · constructor
      · intro hnone f hf
        rw [← hrd, hnone] at hf
        simp at hf
      · intro hf
        -- reading the reference did not raise
        have hok := (get_data_ok_iff _ gpi p).mp ⟨out, ho⟩
        rcases hok with h' | ⟨⟨x, hx⟩, -⟩
        · exact h'
        · exact absurd ((hrd x).mp hx) (hf x)
    · constructor
      · intro hall n e he hne g f hl hread
        obtain ⟨s, hs, hb⟩ := hsrc' n e he hne
        exact hall (n, s) hs g f ((hb g).mpr hl) ((reads_iff E ds hn period m n e he g f).mpr hread)
      · rintro hall ⟨n, s⟩ hs g f hb hread
        obtain ⟨e, he, hne, hbe⟩ := hsrc n s hs
        exact hall n e he hne g f ((hbe g).mp hb) ((reads_iff E ds hn period m n e he g f).mp hread)
  · intro hne n f
    rw [c3 hne]
    simp only
    constructor
    · rintro (⟨rfl, hread⟩ | ⟨s, hs, g, hb, hread⟩)
      · exact ⟨r, gpi, hre, .inl ⟨rfl, rfl⟩, (reads_iff E ds hn period m _ r hre gpi f).mp hread⟩
      · obtain ⟨e, he, hnr, hbe⟩ := hsrc n s hs
        exact ⟨e, g, he, .inr ⟨hnr, (hbe g).mp hb⟩, (reads_iff E ds hn period m n e he g f).mp hread⟩
    · rintro ⟨e, g, he, (⟨rfl, rfl⟩ | ⟨hnr, hl⟩), hread⟩
      · exact .inl ⟨rfl, (reads_iff E ds hn period m _ e he _ f).mpr hread⟩
      · obtain ⟨s, hs, hb⟩ := hsrc' n e he hnr
        exact .inr ⟨s, hs, g, (hb g).mpr hl, (reads_iff E ds hn period m n e he g f).mpr hread⟩

/-- **C69.** The same for `get_other_data`, which reads all data sets but the reference. -/
theorem other_data_correct (E : Ext R G P A KW Mth T V D) (ds : List (α × Entry R A KW D)) (hn : (ds.map Prod.fst).Nodup) (ref : α)
    (period : Option (T × T)) (m : Methods α Mth) (ds' : List (α × Entry R A KW D)) (M : Manager α P (List (T × V)))
    (h : mkManager E ds ref period m none = .ok (ds', M)) (hlut : ∀ g g' d, ∀ x ∈ E.calcLut g g' d, -1 ≤ x) (refE : Entry R A KW D)
    (hre : (ref, refE) ∈ ds) (gpi : ℕ) (p : P) (out : List (α × List (T × V))) (ho : getOtherData M gpi p M.others = .ok out) (n : α)
    (f : List (T × V)) :
    (n, f) ∈ out ↔ ∃ e g, (n, e) ∈ ds ∧ n ≠ ref ∧ Located E refE.cls e gpi p g ∧ Reads E period m n e g f := by
  obtain ⟨r, ss, hr, hss, -, rfl⟩ := mkManager_ok E ds ref period m none ds' M h
  obtain rfl : r = refE := by
    have := (lookup_eq_some hn).mpr hre
    rw [hr] at this
    exact Option.some.inj this
  obtain ⟨m1, m2⟩ := forall2_mem (sources_ok E _ _ _ _ hss)
  have hmem : ∀ n f, (n, f) ∈ (ds.map (fun e => (e.1, addDefaults E e.2))).filter (fun e => decide (e.1 ≠ ref)) ↔
      ∃ e, (n, e) ∈ ds ∧ n ≠ ref ∧ f = addDefaults E e := by
    intro n f
    rw [List.mem_filter, List.mem_map]
    constructor
    · rintro ⟨⟨⟨k, e⟩, h1, h2⟩, h3⟩
      obtain ⟨rfl, rfl⟩ := Prod.mk.inj h2
      exact ⟨e, h1, by simpa using h3, rfl⟩
    · rintro ⟨e, h1, h2, rfl⟩
      exact ⟨⟨_, h1, rfl⟩, by simpa using h2⟩
  rw [(getOtherData_mem _ gpi p _ out ho).1]
  have hl : ∀ (s : Source P) (f : Full R A KW D), lutOf E (E.grid r.cls) f = .ok s.lut → ∀ l, s.lut = some l → ∀ x ∈ l, -1 ≤ x := by
    intro s f this l hl x hx
    rw [hl] at this
    unfold lutOf at this
    split at this
    · split at this
      · simp only [Except.ok.injEq, Option.some.injEq] at this
        rw [← this] at hx
        exact hlut _ _ _ x hx
      · simp at this
    · simp at this
  constructor
  · rintro ⟨s, hs, hf⟩
    obtain ⟨⟨n', f'⟩, hf', q1, q2, q3, q4⟩ := m2 _ hs
    simp only at q1 q2 q3 q4
    subst q1
    obtain ⟨e, he, hne, rfl⟩ := (hmem _ _).mp hf'
    obtain ⟨g, hb, hrd⟩ := (fetch_some_iff _ rfl gpi p _ (hl s _ (q4 rfl)) f).mp hf
    exact ⟨e, g, he, hne, (belongs_iff E r.cls e s q2 q3 (q4 rfl) gpi p g).mp hb, (reads_iff E ds hn period m n e he g f).mp hrd⟩
  · rintro ⟨e, g, he, hne, hloc, hrd⟩
    obtain ⟨⟨n', s⟩, hs, q1, q2, q3, q4⟩ := m1 _ ((hmem _ _).mpr ⟨e, he, hne, rfl⟩)
    simp only at q1 q2 q3 q4
    subst q1
    refine ⟨s, hs, (fetch_some_iff _ rfl gpi p _ (hl s _ (q4 rfl)) f).mpr ⟨g, ?_, ?_⟩⟩
    · exact (belongs_iff E r.cls e s q2 q3 (q4 rfl) gpi p g).mpr hloc
    · exact (reads_iff E ds hn period m _ e he g f).mpr hrd

theorem sources_error (E : Ext R G P A KW Mth T V D) (rg : Option G) (ups : Bool) (l : List (α × Full R A KW D)) :
    (∃ ss : List (α × Source P), sources E rg ups l = .ok ss) ∧ (ups = true ∨ ∀ e ∈ l, e.2.useLut = true → rg ≠ none ∧ E.grid e.2.cls ≠ none) ∨
    (sources E rg ups l : Except Err (List (α × Source P))) = .error .attributeError ∧ ups = false ∧
      ∃ e ∈ l, e.2.useLut = true ∧ (rg = none ∨ E.grid e.2.cls = none) := by
  induction l with
  | nil => left; exact ⟨⟨[], rfl⟩, .inr (by simp)⟩
  | cons e l ih =>
    obtain ⟨n, f⟩ := e
    unfold sources
    simp only [bind, Except.bind]
    cases ups with
    | true =>
      simp only [lutFor, if_true]
      rcases ih with ⟨⟨ss, hs⟩, -⟩ | ⟨-, h, -⟩
      · left; rw [hs]; exact ⟨⟨_, rfl⟩, .inl trivial⟩
      · simp at h
    | false =>
      simp only [lutFor, Bool.false_eq_true, if_false]
      have hcase : (∃ lut, lutOf E rg f = .ok lut) ∧ (f.useLut = true → rg ≠ none ∧ E.grid f.cls ≠ none) ∨
          lutOf E rg f = .error .attributeError ∧ f.useLut = true ∧ (rg = none ∨ E.grid f.cls = none) := by
        unfold lutOf
        cases f.useLut <;> cases rg <;> cases E.grid f.cls <;> simp
      rcases hcase with ⟨⟨lut, hl⟩, hg⟩ | ⟨hl, hu, hg⟩
      · rw [hl]
        simp only
        rcases ih with ⟨⟨ss, hs⟩, h⟩ | ⟨hs, -, e, he, h⟩
        · left
          rw [hs]
          refine ⟨⟨_, rfl⟩, .inr ?_⟩
          have h := h.resolve_left (by simp)
          intro e he
          rcases List.mem_cons.mp he with rfl | he
          · exact hg
          · exact h e he
        · right
          rw [hs]
          exact ⟨rfl, trivial, e, by simp [he], h⟩
      · right
        rw [hl]
        exact ⟨rfl, trivial, (n, f), by simp, hu, hg⟩

/-- **C69, errors.** The constructor raises KeyError for an unknown reference, AttributeError if some other data set asks for a look-up
table while its reader or that of the reference has no grid (and there is no upscaling), and otherwise succeeds. -/
theorem data_manager_init_cases (E : Ext R G P A KW Mth T V D) (ds : List (α × Entry R A KW D)) (hn : (ds.map Prod.fst).Nodup)
    (ref : α) (period : Option (T × T)) (m : Methods α Mth) (ups : Option (α → ℕ → Except Err (Option (List (T × V))))) :
    (ref ∉ ds.map Prod.fst → (mkManager E ds ref period m ups : Except Err (_ × Manager α P _)) = .error .keyError) ∧
    ∀ r, (ref, r) ∈ ds →
      ((∃ n e, (n, e) ∈ ds ∧ n ≠ ref ∧ e.useLut = some true ∧ (E.grid r.cls = none ∨ E.grid e.cls = none)) ∧ ups = none ↔
        (mkManager E ds ref period m ups : Except Err (_ × Manager α P _)) = .error .attributeError) ∧
      (¬((∃ n e, (n, e) ∈ ds ∧ n ≠ ref ∧ e.useLut = some true ∧ (E.grid r.cls = none ∨ E.grid e.cls = none)) ∧ ups = none) →
        ∃ res : _ × Manager α P _, mkManager E ds ref period m ups = .ok res) := by
  constructor
  · intro h
    unfold mkManager
    simp only
    rw [lookup_map_snd, lookup_eq_none.mpr h]
    rfl
  · intro r hr
    have hE : (∃ n e, (n, e) ∈ ds ∧ n ≠ ref ∧ e.useLut = some true ∧ (E.grid r.cls = none ∨ E.grid e.cls = none)) ↔
        ∃ e ∈ (ds.map (fun e => (e.1, addDefaults E e.2))).filter (fun e => decide (e.1 ≠ ref)),
          e.2.useLut = true ∧ (E.grid (addDefaults E r).cls = none ∨ E.grid e.2.cls = none) := by
      have hu : ∀ e : Entry R A KW D, (addDefaults E e).useLut = true ↔ e.useLut = some true := by
        intro e
        unfold addDefaults
        cases e.useLut <;> simp
      constructor
      · rintro ⟨n, e, h1, h2, h3, h4⟩
        exact ⟨(n, addDefaults E e), List.mem_filter.mpr ⟨List.mem_map.mpr ⟨_, h1, rfl⟩, by simpa using h2⟩, (hu e).mpr h3, h4⟩
      · rintro ⟨e', h1, h2, h3⟩
        obtain ⟨h1, h4⟩ := List.mem_filter.mp h1
        obtain ⟨⟨n, e⟩, h5, rfl⟩ := List.mem_map.mp h1
        exact ⟨n, e, h5, by simpa using h4, (hu e).mp h2, h3⟩
    rw [hE]
    unfold mkManager
    simp only
    rw [lookup_map_snd, (lookup_eq_some hn).mpr hr]
    simp only [Option.map_some]
    rcases sources_error (α := α) (P := P) E (E.grid (addDefaults E r).cls) ups.isSome
      ((ds.map (fun e => (e.1, addDefaults E e.2))).filter (fun e => decide (e.1 ≠ ref))) with ⟨⟨ss, hs⟩, h⟩ | ⟨hs, hu, h⟩
    · rw [hs]
      simp only [reduceCtorEq, iff_false]
      refine ⟨?_, fun _ => ⟨_, rfl⟩⟩
      rintro ⟨⟨e, he, h1, h2⟩, rfl⟩
      obtain ⟨a, b⟩ := (h.resolve_left (by simp)) e he h1
      rcases h2 with h2 | h2
      · exact a h2
      · exact b h2
    · rw [hs]
      have hu' : ups = none := by simpa using hu
      simp only [iff_true]
      exact ⟨⟨h, hu'⟩, fun hno => absurd ⟨h, hu'⟩ hno⟩

theorem addDefaults_toEntry (E : Ext R G P A KW Mth T V D) (e : Entry R A KW D) :
    addDefaults E (addDefaults E e).toEntry = addDefaults E e := rfl

/-- **C70.** Building a data manager leaves the caller's dictionary in a state from which every later data manager (with any reference,
period or reading methods) is the one that the original dictionary would have given. -/
theorem data_manager_rebuild (E : Ext R G P A KW Mth T V D) (ds : List (α × Entry R A KW D)) (ref : α)
    (period : Option (T × T)) (m : Methods α Mth) (ups : Option (α → ℕ → Except Err (Option (List (T × V)))))
    (ds' : List (α × Entry R A KW D)) (M : Manager α P (List (T × V))) (h : mkManager E ds ref period m ups = .ok (ds', M))
    (ref2 : α) (period2 : Option (T × T)) (m2 : Methods α Mth) (ups2 : Option (α → ℕ → Except Err (Option (List (T × V))))) :
    (mkManager E ds' ref2 period2 m2 ups2 : Except Err (_ × Manager α P _)) = mkManager E ds ref2 period2 m2 ups2 := by
  obtain ⟨r, ss, -, -, rfl, -⟩ := mkManager_ok E ds ref period m ups ds' M h
  have : (ds.map (fun e => (e.1, (addDefaults E e.2).toEntry))).map (fun e => (e.1, addDefaults E e.2)) =
      ds.map (fun e => (e.1, addDefaults E e.2)) := by
    rw [List.map_map]
    rfl
  unfold mkManager
  rw [this]

/-- **C70.** The caller's dictionary keeps its data sets, their order and every option that was given. -/
theorem data_manager_keeps_options (E : Ext R G P A KW Mth T V D) (ds : List (α × Entry R A KW D)) (ref : α)
    (period : Option (T × T)) (m : Methods α Mth) (ups : Option (α → ℕ → Except Err (Option (List (T × V)))))
    (ds' : List (α × Entry R A KW D)) (M : Manager α P (List (T × V))) (h : mkManager E ds ref period m ups = .ok (ds', M)) :
    List.Forall₂ (fun a b : α × Entry R A KW D => b.1 = a.1 ∧ b.2.cls = a.2.cls ∧ (∀ x, a.2.useLut = some x → b.2.useLut = some x) ∧
      (∀ x, a.2.args = some x → b.2.args = some x) ∧ (∀ x, a.2.kwargs = some x → b.2.kwargs = some x) ∧
      (∀ x, a.2.compatible = some x → b.2.compatible = some x) ∧ (∀ x, a.2.maxDist = some x → b.2.maxDist = some x)) ds ds' := by
  obtain ⟨r, ss, -, -, rfl, -⟩ := mkManager_ok E ds ref period m ups ds' M h
  rw [List.forall₂_map_right_iff, List.forall₂_same]
  intro e _
  refine ⟨rfl, rfl, ?_, ?_, ?_, ?_, ?_⟩ <;> (intro x hx; simp [addDefaults, Full.toEntry, hx])

/-- A small world: readers are numbers with grids `10 + r` except reader 9, which has none; method 7 of reader `r` at `g` returns two rows. -/
def demo : Ext ℕ ℕ ℕ (List ℕ) (List ℕ) ℕ ℕ (ℕ × ℕ × List ℕ) (Option ℕ) :=
  { grid := fun r => if r = 9 then none else some (10 + r)
    call := fun r m g a _ => .frame [(1, (r + m, g, a)), (5, (r + m, g, a))]
    calcLut := fun _ _ _ => [5, -1, 7]
    nearest := fun g p d => (g + p, match d with | none => some 3 | some b => if b < 3 then none else some 3)
    inf := none
    noArgs := []
    noKwargs := [] }

/-- a look-up table, a nearest neighbour, one beyond its `max_dist` and a compatible grid with arguments; period 2 to 6 -/
def demoDs : List (ℕ × Entry ℕ (List ℕ) (List ℕ) (Option ℕ)) :=
  [(0, { cls := 0 }), (1, { cls := 1, useLut := some true }), (2, { cls := 2, maxDist := some (some 4) }),
   (3, { cls := 3, maxDist := some (some 2) }), (4, { cls := 9, compatible := some true, args := some [8] })]

set_option synthInstance.maxSize 1000 in
example : ((mkManager demo demoDs 0 (some (2, 6)) (.all 7) none).toOption.bind (fun r => (getData r.2 2 100).toOption)) =
    some [(1, [(5, (8, 7, []))]), (2, [(5, (9, 112, []))]), (4, [(5, (16, 2, [8]))]), (0, [(5, (7, 2, []))])] := by decide +kernel

/-- **C69, documented use that fails.** The documentation asks of a reader only the method `read`, and says that without a look-up table
the data set is read by lon, lat. A reader without grid (number 9) nevertheless makes `get_data` raise AttributeError. -/
theorem data_manager_reader_without_grid : ∃ M : Manager ℕ ℕ (List (ℕ × (ℕ × ℕ × List ℕ))),
    (∃ ds', mkManager demo [(0, { cls := 0 }), (1, { cls := 9 })] 0 none (.all 7) none = .ok (ds', M)) ∧
    getData M 2 100 = .error .attributeError :=
  ⟨_, ⟨_, rfl⟩, rfl⟩

/-- **C70.** The caller's dictionary does change. -/
theorem data_manager_changes_argument :
    (mkManager demo [(0, { cls := 0 }), (1, { cls := 1 })] 0 none (.all 7) none : Except Err (_ × Manager ℕ ℕ _)).toOption.map Prod.fst =
      some [(0, ⟨0, some false, some [], some [], some false, some none⟩), (1, ⟨1, some false, some [], some [], some false, some none⟩)] ∧
    (mkManager demo [(0, { cls := 0 }), (1, { cls := 1 })] 0 none (.all 7) none : Except Err (_ × Manager ℕ ℕ _)).toOption.map Prod.fst ≠
      some [(0, { cls := 0 }), (1, { cls := 1 })] := by decide +kernel

/-- the theorems applied to the example -/
example (r) (h : mkManager demo demoDs 0 (some (2, 6)) (.all 7) none = .ok r) (out) (ho : getData r.2 2 100 = .ok out) :=
  data_manager_correct_partial demo demoDs (by decide) 0 (some (2, 6)) (.all 7) r.1 r.2 h (by simp [demo]) { cls := 0 } (by decide) 2 100 out ho
example := data_manager_init_cases demo demoDs (by decide) 0 (some (2, 6)) (.all 7) none
example (r) (h : mkManager demo demoDs 0 (some (2, 6)) (.all 7) none = .ok r) :=
  data_manager_rebuild demo demoDs 0 (some (2, 6)) (.all 7) none r.1 r.2 h 1 none (.all 8) none
example (r) (h : mkManager demo demoDs 0 (some (2, 6)) (.all 7) none = .ok r) :=
  data_manager_keeps_options demo demoDs 0 (some (2, 6)) (.all 7) none r.1 r.2 h

end Verif.DataManager
