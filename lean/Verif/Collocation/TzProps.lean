import Verif.Collocation.Tz
import Verif.Collocation.Props
import Mathlib.Tactic.NormNum

/-!
# C89: theorems on time zones

By reduction to the functions without time zones, applied to instants.
-/

set_option linter.unusedSectionVars false
set_option synthInstance.maxSize 1000

namespace Verif.Collocation.Tz

section
variable {Z K : Type} [DecidableEq Z] [Field K] [LinearOrder K] [IsStrictOrderedRing K]

/-! ### Specification -/

/-- the instant meant by a time of an index: itself if the index has a time zone, else the instant of the local time in the zone `z` -/
def MeantTime (E : Zones Z K) (z : Z) (tz : Option Z) (t t' : K) : Prop :=
  match tz with
  | some _ => t' = t
  | none => E.localize z t = some t'

/-- the frame with the instants that are meant -/
def Meant (E : Zones Z K) (z : Z) (f : TFrame Z K) (g : Frame K K) : Prop :=
  g.width = f.frame.width ∧ List.Forall₂ (fun r r' : Row K K => r'.cells = r.cells ∧ MeantTime E z f.tz r.time r'.time) f.frame.rows g.rows

/-! ### Lemmas -/

theorem localizeTimes_ok (E : Zones Z K) (z : Z) (ts ts' : List K) :
    localizeTimes E z ts = .ok ts' ↔ List.Forall₂ (fun t t' => E.localize z t = some t') ts ts' := by
  unfold localizeTimes
  constructor
  · intro h
    refine (mapM_except_ok h).imp ?_
    intro t t' ht
    cases hE : E.localize z t with
    | none => rw [hE] at ht; simp at ht
    | some i => rw [hE] at ht; simp only [Except.ok.injEq] at ht; rw [ht]
  · intro h
    induction h with
    | nil => rfl
    | cons h1 _ ih =>
      rw [List.mapM_cons, ih, h1]
      rfl

theorem localizeRows_ok (E : Zones Z K) (z : Z) (rows rows' : List (Row K K)) :
    localizeRows E z rows = .ok rows' ↔
      List.Forall₂ (fun r r' : Row K K => r'.cells = r.cells ∧ E.localize z r.time = some r'.time) rows rows' := by
  unfold localizeRows
  constructor
  · intro h
    refine (mapM_except_ok h).imp ?_
    intro r r' hr
    cases hE : E.localize z r.time with
    | none => rw [hE] at hr; simp at hr
    | some i => rw [hE] at hr; simp only [Except.ok.injEq] at hr; subst hr; exact ⟨rfl, rfl⟩
  · intro h
    induction h with
    | nil => rfl
    | @cons r r' l l' h1 _ ih =>
      rw [List.mapM_cons, ih, h1.2]
      obtain ⟨t', c'⟩ := r'
      obtain ⟨t, c⟩ := r
      simp only at h1
      rw [h1.1]
      rfl

theorem forall₂_self {α : Type} (R : α → α → Prop) (h : ∀ a, R a a) (l : List α) : List.Forall₂ R l l := by
  induction l with
  | nil => exact .nil
  | cons a l ih => exact .cons (h a) ih

theorem meant_self (E : Zones Z K) (z z' : Z) (f : Frame K K) : Meant E z ⟨some z', f⟩ f :=
  ⟨rfl, forall₂_self _ (fun _ => ⟨rfl, rfl⟩) _⟩

/-- what `prepare` returns when at least one index has a time zone -/
theorem prepare_spec (E : Zones Z K) (refTz : Option Z) (ref : List K) (other : TFrame Z K) (h : refTz ≠ none ∨ other.tz ≠ none)
    (p : Option Z × List K × List (Row K K)) (hp : prepare E refTz ref other.tz other.frame.rows = .ok p) :
    ∃ z, p.1 = some z ∧ (refTz = some z ∨ refTz = none ∧ other.tz = some z) ∧
      List.Forall₂ (MeantTime E z refTz) ref p.2.1 ∧ Meant E z other ⟨other.frame.width, p.2.2⟩ := by
  obtain ⟨otz, f⟩ := other
  unfold prepare at hp
  cases refTz with
  | none =>
    cases otz with
    | none => simp at h
    | some z =>
      simp only [Except.bind] at hp
      cases hl : localizeTimes E z ref with
      | error e => rw [hl] at hp; simp at hp
      | ok r =>
        rw [hl] at hp
        simp only [Except.ok.injEq] at hp
        subst hp
        exact ⟨z, rfl, Or.inr ⟨rfl, rfl⟩, (localizeTimes_ok E z ref r).mp hl, meant_self E z z f⟩
  | some z =>
    cases otz with
    | none =>
      simp only [Except.bind] at hp
      cases hl : localizeRows E z f.rows with
      | error e => rw [hl] at hp; simp at hp
      | ok r =>
        rw [hl] at hp
        simp only [Except.ok.injEq] at hp
        subst hp
        exact ⟨z, rfl, Or.inl rfl, forall₂_self (MeantTime E z (some z)) (fun _ => rfl) ref, rfl, (localizeRows_ok E z f.rows r).mp hl⟩
    | some z' =>
      simp only [Except.ok.injEq] at hp
      subst hp
      exact ⟨z, rfl, Or.inl rfl, forall₂_self (MeantTime E z (some z)) (fun _ => rfl) ref, meant_self E z z' f⟩

theorem prepare_length (E : Zones Z K) (refTz : Option Z) (ref : List K) (otz : Option Z) (rows : List (Row K K))
    (p : Option Z × List K × List (Row K K)) (hp : prepare E refTz ref otz rows = .ok p) : p.2.1.length = ref.length := by
  unfold prepare at hp
  cases refTz with
  | none =>
    cases otz with
    | none => simp only [Except.ok.injEq] at hp; subst hp; rfl
    | some z =>
      simp only [Except.bind] at hp
      cases hl : localizeTimes E z ref with
      | error e => rw [hl] at hp; simp at hp
      | ok r =>
        rw [hl] at hp
        simp only [Except.ok.injEq] at hp
        subst hp
        exact ((localizeTimes_ok E z ref r).mp hl).length_eq.symm
  | some z =>
    cases otz with
    | none =>
      simp only [Except.bind] at hp
      cases hl : localizeRows E z rows with
      | error e => rw [hl] at hp; simp at hp
      | ok r =>
        rw [hl] at hp
        simp only [Except.ok.injEq] at hp
        subst hp
        rfl
    | some z' => simp only [Except.ok.injEq] at hp; subst hp; rfl

/-- after the preparation, nearest collocation is that of the function without time zones -/
theorem tz_eq (E : Zones Z K) (o : Opts) (hm : o.mean = false) (refTz : Option Z) (ref : List K) (other : TFrame Z K) (window : K)
    (p : Option Z × List K × List (Row K K)) (hp : prepare E refTz ref other.tz other.frame.rows = .ok p) :
    tzCollocation E o refTz ref other window =
      (lift (temporalCollocation o p.2.1 ⟨other.frame.width, p.2.2⟩ window)).bind (fun out => .ok (p.1, out)) := by
  unfold tzCollocation temporalCollocation collocate
  rw [hp, prepare_length E refTz ref other.tz other.frame.rows p hp]
  cases checkFlag o.flag ref.length with
  | error e => rfl
  | ok fl =>
    simp only [hm, Bool.not_false, Bool.or_true, if_true, Bool.false_eq_true, if_false]
    rfl

/-- `tzCollocation` that returns has prepared the indices -/
theorem tz_prepared (E : Zones Z K) (o : Opts) (refTz : Option Z) (ref : List K) (other : TFrame Z K) (window : K) (tz : Option Z)
    (out : List (OutRow K K)) (h : tzCollocation E o refTz ref other window = .ok (tz, out)) :
    ∃ p, prepare E refTz ref other.tz other.frame.rows = .ok p := by
  unfold tzCollocation at h
  cases hc : lift (checkFlag o.flag ref.length) with
  | error e => rw [hc] at h; simp [Except.bind] at h
  | ok fl =>
    rw [hc] at h
    cases hp : prepare E refTz ref other.tz other.frame.rows with
    | error e => rw [hp] at h; simp [Except.bind] at h
    | ok p => exact ⟨p, rfl⟩

theorem lift_bind_ok {α β : Type} (x : Except Err α) (f : α → β) (y : β) :
    (lift x).bind (fun a => (.ok (f a) : Except TzErr β)) = .ok y ↔ ∃ a, x = .ok a ∧ f a = y := by
  cases x with
  | error e => simp [lift, Except.bind]
  | ok a => simp [lift, Except.bind]

/-! ### One frame -/

/-- Without time zones nothing changes. -/
theorem tz_naive (E : Zones Z K) (o : Opts) (hm : o.mean = false) (ref : List K) (f : Frame K K) (window : K) :
    tzCollocation E o none ref ⟨none, f⟩ window = (lift (temporalCollocation o ref f window)).bind (fun out => .ok (none, out)) :=
  tz_eq E o hm none ref ⟨none, f⟩ window (none, ref, f.rows) rfl

/-- **C89.** Nearest collocation when the reference, the other frame or both have a time zone: the result is in the zone of the reference (of
the other frame if the reference has none); an index without time zone is read as local time of that zone; the match of every reference
instant is the observation that is nearest in elapsed time, and the reported distance is the elapsed time. -/
theorem tz_nearest (E : Zones Z K) (o : Opts) (refTz : Option Z) (ref : List K) (other : TFrame Z K) (window : K)
    (hw : 0 ≤ window) (hm : o.mean = false) (hf : o.flag = none) (hd : o.dropna = false) (htz : refTz ≠ none ∨ other.tz ≠ none)
    (tz : Option Z) (out : List (OutRow K K)) (h : tzCollocation E o refTz ref other window = .ok (tz, out)) :
    ∃ z ref' g, tz = some z ∧ (refTz = some z ∨ refTz = none ∧ other.tz = some z) ∧
      List.Forall₂ (MeantTime E z refTz) ref ref' ∧ Meant E z other g ∧
      IsDistinctOf (out.map OutRow.time) ref' ∧
      ∀ r ∈ out, ∃ m, IsNearest g.rows window r.time m ∧
        r.cells = shown other.frame.width m ∧
        r.index = (if o.returnIndex || o.returnDistance then m.map Row.time else none) ∧
        r.distance = (if o.returnDistance then m.map (fun x => x.time - r.time) else none) := by
  obtain ⟨p, hp⟩ := tz_prepared E o refTz ref other window tz out h
  rw [tz_eq E o hm refTz ref other window p hp] at h
  obtain ⟨a, ha, hpa⟩ := (lift_bind_ok _ _ _).mp h
  obtain ⟨z, h1, h2, h3, h4⟩ := prepare_spec E refTz ref other htz p hp
  simp only [Prod.mk.injEq] at hpa
  obtain ⟨rfl, rfl⟩ := hpa
  have := nearest_collocation o p.2.1 ⟨other.frame.width, p.2.2⟩ window hw hm hf hd a ha
  exact ⟨z, p.2.1, ⟨other.frame.width, p.2.2⟩, h1, h2, h3, h4, this.1, this.2⟩

/-- **C89.** The zones in which instants are written down do not matter for nearest collocation: converting the reference or the other frame to
any other zones changes nothing but the zone of the result. -/
theorem tz_convert (E : Zones Z K) (o : Opts) (hm : o.mean = false) (z₁ z₂ z₃ z₄ : Z) (ref : List K) (f : Frame K K) (window : K) :
    (tzCollocation E o (some z₁) ref ⟨some z₂, f⟩ window).map Prod.snd = (tzCollocation E o (some z₃) ref ⟨some z₄, f⟩ window).map Prod.snd := by
  rw [tz_eq E o hm _ ref ⟨some z₂, f⟩ window (some z₁, ref, f.rows) rfl, tz_eq E o hm _ ref ⟨some z₄, f⟩ window (some z₃, ref, f.rows) rfl]
  cases temporalCollocation o ref ⟨f.width, f.rows⟩ window <;> rfl

theorem localizeTimes_error (E : Zones Z K) (z : Z) (ts : List K) :
    (∃ e, localizeTimes E z ts = .error e) ↔ ∃ t ∈ ts, E.localize z t = none := by
  unfold localizeTimes
  induction ts with
  | nil => simp [pure, Except.pure]
  | cons t ts ih =>
    rw [List.mapM_cons]
    cases ht : E.localize z t with
    | none => simp [bind, Except.bind, ht]
    | some i =>
      simp only [bind, Except.bind, List.mem_cons, exists_eq_or_imp, ht]
      rw [← ih]
      cases ts.mapM (fun t => match E.localize z t with
        | none => (.error .localize : Except TzErr K)
        | some i => .ok i) <;> simp [pure, Except.pure]

/-- **C89, errors.** With a reference without time zone, the call raises if a local time of the reference does not exist or is ambiguous in the
zone of the other frame. -/
theorem tz_localize_raises (E : Zones Z K) (o : Opts) (z : Z) (ref : List K) (f : Frame K K) (window : K)
    (h : ∃ t ∈ ref, E.localize z t = none) : ∃ e, tzCollocation E o none ref ⟨some z, f⟩ window = .error e := by
  unfold tzCollocation
  cases lift (checkFlag o.flag ref.length) with
  | error e => exact ⟨e, rfl⟩
  | ok fl =>
    obtain ⟨e, he⟩ := (localizeTimes_error E z ref).mpr h
    refine ⟨e, ?_⟩
    simp only [Except.bind, prepare, he]

/-! ### Several frames -/

/-- the table described by C05 (`combined_collocation`) -/
def Joined (o : Opts) (comb : Combined) (addRef : Bool) (reference : Frame K K) (others : List (Frame K K)) (window : K) (out : List (Row K K)) :
    Prop :=
  ∃ full : List (Row K K),
    out = full.filter (fun r => match comb with
      | .no => true
      | .any => decide (∀ c ∈ r.cells, c ≠ none)
      | .all => decide (∃ c ∈ r.cells, c ≠ none)) ∧
    (full.map Row.time).Nodup ∧
    (∀ t, t ∈ full.map Row.time ↔ t ∈ reference.rows.map Row.time ∧
      (addRef = true ∨ (o.dropna = false) ∨
        ∃ f ∈ others, ∃ cells, Contributes f window t cells ∧ ∃ c ∈ cells, c ≠ none)) ∧
    (o.dropna = false → IsDistinctOf (full.map Row.time) (reference.rows.map Row.time)) ∧
    (∀ r ∈ full, ∃ parts : List (List (Option K)),
      List.Forall₂ (fun f cells => Contributes f window r.time cells) others parts ∧
      r.cells = (if addRef then
        ((reference.rows.find? (fun x => decide (x.time = r.time))).map Row.cells).getD [] else []) ++
        parts.flatten)

theorem unify_same (E : Zones Z K) (tz : Option Z) (dfs : List (TFrame Z K)) (h : ∀ d ∈ dfs, d.tz = tz) : unify E dfs = .ok dfs := by
  unfold unify
  cases dfs with
  | nil => simp [commonTz, pure, Except.pure]
  | cons d ds =>
    have : commonTz E ((d :: ds).map TFrame.tz) = none := by
      unfold commonTz
      have hr : (d :: ds).map TFrame.tz = List.replicate (ds.length + 1) tz := by
        rw [List.eq_replicate_iff]
        refine ⟨by simp, ?_⟩
        intro b hb
        obtain ⟨d', hd', rfl⟩ := List.mem_map.mp hb
        exact h d' hd'
      rw [hr, List.replicate_dedup (by omega)]
      simp
    rw [this]

/-- **C89.** Frames with at least two different time zones are brought to UTC: those with a time zone keep their instants, the times of those
without are read as UTC. -/
theorem mixed_zones_utc (E : Zones Z K) (dfs out : List (TFrame Z K)) (d₁ d₂ : TFrame Z K) (z₁ z₂ : Z) (h₁ : d₁ ∈ dfs) (h₂ : d₂ ∈ dfs)
    (t₁ : d₁.tz = some z₁) (t₂ : d₂.tz = some z₂) (hne : z₁ ≠ z₂) (h : unify E dfs = .ok out) :
    List.Forall₂ (fun d o => o.tz = some E.utc ∧ (d.tz ≠ none → o.frame = d.frame) ∧
      (d.tz = none → o.frame.width = d.frame.width ∧
        List.Forall₂ (fun x y => E.localize E.utc x.time = some y.time ∧ y.cells = x.cells) d.frame.rows o.frame.rows)) dfs out := by
  have hmem : ∀ d ∈ dfs, ∀ z, d.tz = some z → z ∈ ((dfs.map TFrame.tz).filterMap id).dedup := by
    intro d hd z hz
    rw [List.mem_dedup, List.mem_filterMap]
    exact ⟨some z, List.mem_map.mpr ⟨d, hd, hz⟩, rfl⟩
  have hm1 := hmem d₁ h₁ z₁ t₁
  have hm2 := hmem d₂ h₂ z₂ t₂
  have hc : commonTz E (dfs.map TFrame.tz) = some E.utc := by
    unfold commonTz
    rw [if_neg]
    · split
      · rename_i z hz
        rw [hz, List.mem_singleton] at hm1 hm2
        exact absurd (hm1.trans hm2.symm) hne
      · rfl
    · intro hl
      obtain ⟨a, ha⟩ := List.length_eq_one_iff.mp hl
      have g1 : some z₁ ∈ (dfs.map TFrame.tz).dedup := List.mem_dedup.mpr (List.mem_map.mpr ⟨d₁, h₁, t₁⟩)
      have g2 : some z₂ ∈ (dfs.map TFrame.tz).dedup := List.mem_dedup.mpr (List.mem_map.mpr ⟨d₂, h₂, t₂⟩)
      rw [ha, List.mem_singleton] at g1 g2
      exact hne (Option.some.inj (g1.trans g2.symm))
  unfold unify at h
  rw [hc] at h
  simp only at h
  clear h₁ h₂ hmem hm1 hm2 hc
  induction dfs generalizing out with
  | nil =>
    simp only [List.mapM_nil, pure, Except.pure, Except.ok.injEq] at h
    rw [← h]
    exact .nil
  | cons d dfs ih =>
    rw [List.mapM_cons] at h
    simp only [bind, Except.bind, pure, Except.pure] at h
    cases hb : bring E E.utc d with
    | error e => rw [hb] at h; simp at h
    | ok o =>
      rw [hb] at h
      simp only at h
      cases hr : dfs.mapM (bring E E.utc) with
      | error e => rw [hr] at h; simp at h
      | ok os =>
        rw [hr] at h
        simp only [Except.ok.injEq] at h
        rw [← h]
        refine .cons ?_ (ih os hr)
        unfold bring at hb
        cases ht : d.tz with
        | some z =>
          rw [ht] at hb
          simp only [Except.ok.injEq] at hb
          rw [← hb]
          exact ⟨rfl, fun _ => rfl, fun hc => by simp at hc⟩
        | none =>
          rw [ht] at hb
          simp only at hb
          cases hl : localizeRows E E.utc d.frame.rows with
          | error e => rw [hl] at hb; simp [Except.bind] at hb
          | ok rows =>
            rw [hl] at hb
            simp only [Except.bind, Except.ok.injEq] at hb
            rw [← hb]
            refine ⟨rfl, fun hc => absurd rfl hc, fun _ => ⟨rfl, ?_⟩⟩
            exact ((localizeRows_ok E E.utc d.frame.rows rows).mp hl).imp (fun _ _ hh => ⟨hh.2, hh.1⟩)

/-- one frame against a reference with time zone -/
theorem one_aware (E : Zones Z K) (o : Opts) (hm : o.mean = false) (z : Z) (ref : List K) (window : K) (f d : TFrame Z K)
    (h : one E o (some z) ref window f = .ok d) :
    d.tz = some z ∧ ∃ g, Meant E z f g ∧ collocateOne o ref window g = .ok d.frame := by
  unfold one at h
  cases hc : tzCollocation E { o with returnIndex := false, returnDistance := false } (some z) ref f window with
  | error e => rw [hc] at h; simp [Except.bind] at h
  | ok r =>
    rw [hc] at h
    simp only [Except.bind, Except.ok.injEq] at h
    subst h
    obtain ⟨p, hp⟩ := tz_prepared E _ _ _ _ _ _ _ (show _ = Except.ok (r.1, r.2) from hc)
    rw [tz_eq E { o with returnIndex := false, returnDistance := false } hm (some z) ref f window p hp] at hc
    obtain ⟨a, ha, hpa⟩ := (lift_bind_ok _ _ _).mp hc
    subst hpa
    obtain ⟨z', h1, h2, h3, h4⟩ := prepare_spec E (some z) ref f (Or.inl (by simp)) p hp
    have hz : z' = z := by
      rcases h2 with h2 | h2
      · exact (Option.some.inj h2).symm
      · simp at h2
    subst hz
    have href : p.2.1 = ref := by
      clear ha hc hp
      have : ∀ l l' : List K, List.Forall₂ (MeantTime E z' (some z')) l l' → l' = l := by
        intro l l' hl
        induction hl with
        | nil => rfl
        | cons h _ ih => rw [ih, h]
      exact this _ _ h3
    refine ⟨h1, _, h4, ?_⟩
    unfold collocateOne
    rw [← href, ha]

/-- **C89.** `combined_temporal_collocation` (nearest) with a reference that has a time zone: whatever the zones of the other frames, with frames
without time zone read as local times of the reference's zone, the result joins what belongs to the same reference instant. -/
theorem tz_combined_aware (E : Zones Z K) (o : Opts) (comb : Combined) (addRef : Bool) (z : Z) (reference : Frame K K)
    (others : List (TFrame Z K)) (window : K) (hw : 0 ≤ window) (hm : o.mean = false) (hf : o.flag = none)
    (hwf : ∀ f ∈ others, ∀ r ∈ f.frame.rows, r.cells.length = f.frame.width)
    (hdup : addRef = false ∨ o.dropduplicates = true ∨ (reference.rows.map Row.time).Nodup)
    (out : List (Row K K)) (h : combined E o comb addRef ⟨some z, reference⟩ others window = .ok out) :
    ∃ gs, List.Forall₂ (Meant E z) others gs ∧ Joined o comb addRef reference gs window out := by
  unfold combined at h
  simp only at h
  cases hmap : others.mapM (one E o (some z) (reference.rows.map Row.time) window) with
  | error e => rw [hmap] at h; simp [Except.bind] at h
  | ok dfs =>
    rw [hmap] at h
    simp only [Except.bind] at h
    have hfa := mapM_except_ok hmap
    have hall : ∀ d ∈ dfs, d.tz = some z := by
      clear hmap h hwf
      induction hfa with
      | nil => simp
      | cons h1 _ ih =>
        intro d hd
        rcases List.mem_cons.mp hd with rfl | hd
        · exact (one_aware E o hm z _ window _ _ h1).1
        · exact ih d hd
    have hgs : ∃ gs, List.Forall₂ (Meant E z) others gs ∧
        gs.mapM (collocateOne o (reference.rows.map Row.time) window) = .ok (dfs.map TFrame.frame) := by
      clear hmap h hwf hall
      induction hfa with
      | nil => exact ⟨[], .nil, rfl⟩
      | cons h1 _ ih =>
        obtain ⟨gs, i1, i2⟩ := ih
        obtain ⟨-, g, g1, g2⟩ := one_aware E o hm z _ window _ _ h1
        refine ⟨g :: gs, .cons g1 i1, ?_⟩
        rw [List.mapM_cons, g2, i2]
        rfl
    obtain ⟨gs, g1, g2⟩ := hgs
    refine ⟨gs, g1, ?_⟩
    rw [unify_same E (some z)] at h
    · simp only at h
      refine combined_collocation o comb addRef reference gs window hw hm hf ?_ hdup out ?_
      · clear hmap h hfa hall g2
        induction g1 with
        | nil => simp
        | @cons f g l l' h1 _ ih =>
          intro f' hf' r hr
          rcases List.mem_cons.mp hf' with rfl | hf'
          · have hlen := hwf f (List.mem_cons_self ..)
            rw [h1.1]
            have h2 := h1.2
            clear ih hwf hf' h1
            generalize f.frame.rows = rows at h2 hlen
            generalize f'.rows = rows' at h2 hr
            induction h2 with
            | nil => simp at hr
            | cons hh _ ih =>
              rcases List.mem_cons.mp hr with rfl | hr
              · rw [hh.1]; exact hlen _ (List.mem_cons_self ..)
              · exact ih (fun r hr => hlen r (List.mem_cons_of_mem _ hr)) hr
          · exact ih (fun f hf => hwf f (List.mem_cons_of_mem _ hf)) f' hf' r hr
      · unfold combinedCollocation
        simp only [g2, bind, Except.bind, pure, Except.pure]
        unfold withRef at h
        cases addRef with
        | false =>
          simp only [Bool.false_eq_true, if_false] at h ⊢
          cases hcat : concatColumns (dfs.map TFrame.frame) with
          | error e => rw [hcat] at h; simp [lift] at h
          | ok m => rw [hcat] at h; simpa [lift] using h
        | true =>
          simp only [if_true, List.map_cons] at h ⊢
          cases hcat : concatColumns (({ width := reference.width, rows := if o.dropduplicates = true then dedupe reference.rows else reference.rows } : Frame K K) ::
              dfs.map TFrame.frame) with
          | error e => rw [hcat] at h; simp [lift] at h
          | ok m => rw [hcat] at h; simpa [lift] using h
    · intro d hd
      unfold withRef at hd
      split at hd
      · rcases List.mem_cons.mp hd with rfl | hd
        · rfl
        · exact hall d hd
      · exact hall d hd

/-- local times come back: the instant of a local time has this local time -/
def Consistent (E : Zones Z K) : Prop := ∀ z w t, E.localize z w = some t → E.wall z t = w

/-- one frame with time zone against a reference without -/
theorem one_naive (E : Zones Z K) (o : Opts) (hm : o.mean = false) (z : Z) (ref : List K) (window : K) (f : Frame K K) (d : TFrame Z K)
    (h : one E o none ref window ⟨some z, f⟩ = .ok d) :
    d.tz = some z ∧ ∃ ref', localizeTimes E z ref = .ok ref' ∧ collocateOne o ref' window f = .ok d.frame := by
  unfold one at h
  cases hc : tzCollocation E { o with returnIndex := false, returnDistance := false } none ref ⟨some z, f⟩ window with
  | error e => rw [hc] at h; simp [Except.bind] at h
  | ok r =>
    rw [hc] at h
    simp only [Except.bind, Except.ok.injEq] at h
    subst h
    obtain ⟨p, hp⟩ := tz_prepared E _ _ _ _ _ _ _ (show _ = Except.ok (r.1, r.2) from hc)
    rw [tz_eq E { o with returnIndex := false, returnDistance := false } hm none ref ⟨some z, f⟩ window p hp] at hc
    obtain ⟨a, ha, hpa⟩ := (lift_bind_ok _ _ _).mp hc
    subst hpa
    simp only [prepare, Except.bind] at hp
    cases hl : localizeTimes E z ref with
    | error e => rw [hl] at hp; simp at hp
    | ok r =>
      rw [hl] at hp
      simp only [Except.ok.injEq] at hp
      subst hp
      refine ⟨rfl, r, rfl, ?_⟩
      unfold collocateOne
      rw [ha]

/-- removing repeated times before or after localising -/
theorem dedupe_localize (E : Zones Z K) (hE : Consistent E) (z : Z) (rows rows' : List (Row K K))
    (h : List.Forall₂ (fun r r' : Row K K => r'.cells = r.cells ∧ E.localize z r.time = some r'.time) rows rows') :
    List.Forall₂ (fun r r' : Row K K => r'.cells = r.cells ∧ E.localize z r.time = some r'.time) (dedupe rows) (dedupe rows') := by
  induction h with
  | nil => exact .nil
  | @cons r r' l l' h1 _ ih =>
    unfold dedupe
    refine .cons h1 ?_
    generalize dedupe l = m at ih
    generalize dedupe l' = m' at ih
    induction ih with
    | nil => exact .nil
    | @cons x x' n n' hx _ ih2 =>
      have hiff : x.time ≠ r.time ↔ x'.time ≠ r'.time := by
        constructor
        · intro hne he
          apply hne
          rw [← hE z _ _ hx.2, ← hE z _ _ h1.2, he]
        · intro hne he
          apply hne
          have := hx.2
          rw [he, h1.2] at this
          exact (Option.some.inj this).symm
      rw [List.filter_cons, List.filter_cons]
      by_cases hc : x.time ≠ r.time
      · rw [if_pos (by simpa using hc), if_pos (by simpa using hiff.mp hc)]
        exact .cons hx ih2
      · rw [if_neg (by simpa using hc), if_neg (by simpa using fun h => hc (hiff.mpr h))]
        exact ih2

theorem localize_times_rows (E : Zones Z K) (z : Z) (rows : List (Row K K)) (ts : List K)
    (h : localizeTimes E z (rows.map Row.time) = .ok ts) : ∃ rows', localizeRows E z rows = .ok rows' ∧ rows'.map Row.time = ts := by
  have h' := (localizeTimes_ok E z _ _).mp h
  clear h
  have : ∃ rows', List.Forall₂ (fun r r' : Row K K => r'.cells = r.cells ∧ E.localize z r.time = some r'.time) rows rows' ∧
      rows'.map Row.time = ts := by
    induction rows generalizing ts with
    | nil => cases h'; exact ⟨[], .nil, rfl⟩
    | cons r rows ih =>
      cases h' with
      | @cons _ t _ ts' h1 h2 =>
        obtain ⟨rs, i1, i2⟩ := ih ts' h2
        exact ⟨⟨t, r.cells⟩ :: rs, .cons ⟨rfl, h1⟩ i1, by simp [i2]⟩
  obtain ⟨rows', h1, h2⟩ := this
  exact ⟨rows', (localizeRows_ok E z _ _).mpr h1, h2⟩

/-- **C89.** A reference without time zone, all other frames in one zone: the reference is read as local time of that zone. -/
theorem tz_combined_naive_partial (E : Zones Z K) (hE : Consistent E) (o : Opts) (comb : Combined) (addRef : Bool) (z : Z) (reference : Frame K K)
    (others : List (Frame K K)) (hne : others ≠ []) (window : K) (hw : 0 ≤ window) (hm : o.mean = false) (hf : o.flag = none)
    (hwf : ∀ f ∈ others, ∀ r ∈ f.rows, r.cells.length = f.width)
    (hdup : addRef = false ∨ o.dropduplicates = true ∨ (reference.rows.map Row.time).Nodup)
    (out : List (Row K K)) (h : combined E o comb addRef ⟨none, reference⟩ (others.map (TFrame.mk (some z))) window = .ok out) :
    ∃ g, Meant E z ⟨none, reference⟩ g ∧ Joined o comb addRef g others window out := by
  unfold combined at h
  simp only at h
  cases hmap : (others.map (TFrame.mk (some z))).mapM (one E o none (reference.rows.map Row.time) window) with
  | error e => rw [hmap] at h; simp [Except.bind] at h
  | ok dfs =>
    rw [hmap] at h
    simp only [Except.bind] at h
    have hfa := mapM_except_ok hmap
    obtain ⟨f0, fs, rfl⟩ := List.exists_cons_of_ne_nil hne
    -- the instants of the reference
    have hloc : ∃ ts, localizeTimes E z (reference.rows.map Row.time) = .ok ts := by
      rw [List.map_cons] at hfa
      cases hfa with
      | cons h1 _ =>
        obtain ⟨-, ts, h2, -⟩ := one_naive E o hm z _ window _ _ h1
        exact ⟨ts, h2⟩
    obtain ⟨ts, hts⟩ := hloc
    obtain ⟨rows', hrows, htimes⟩ := localize_times_rows E z reference.rows ts hts
    have hmr := (localizeRows_ok E z _ _).mp hrows
    have hdd : List.Forall₂ (fun f d => d.tz = some z ∧ collocateOne o ts window f = .ok d.frame) (f0 :: fs) dfs := by
      rw [List.forall₂_map_left_iff] at hfa
      refine hfa.imp ?_
      intro f d hd
      obtain ⟨d1, ts', d2, d3⟩ := one_naive E o hm z _ window _ _ hd
      rw [hts] at d2
      obtain rfl := Except.ok.inj d2
      exact ⟨d1, d3⟩
    have hall : ∀ d ∈ dfs, d.tz = some z := by
      intro d hd
      obtain ⟨i, hi, rfl⟩ := List.mem_iff_getElem.mp hd
      have := (List.forall₂_iff_get.mp hdd).2 i (by rw [hdd.length_eq]; exact hi) hi
      exact this.1
    have hcol : (f0 :: fs).mapM (collocateOne o ts window) = .ok (dfs.map TFrame.frame) := by
      apply mapM_except_of_forall
      rw [List.forall₂_map_right_iff]
      exact hdd.imp (fun _ _ hh => hh.2)
    have hdne : dfs ≠ [] := by
      intro h0
      have := hdd.length_eq
      rw [h0] at this
      simp at this
    refine ⟨⟨reference.width, rows'⟩, ⟨rfl, hmr⟩, ?_⟩
    refine combined_collocation o comb addRef ⟨reference.width, rows'⟩ (f0 :: fs) window hw hm hf hwf ?_ out ?_
    · rcases hdup with hd | hd | hd
      · exact Or.inl hd
      · exact Or.inr (Or.inl hd)
      · refine Or.inr (Or.inr ?_)
        show (rows'.map Row.time).Nodup
        have hinj : rows'.map (fun r => E.wall z r.time) = reference.rows.map Row.time := by
          have : ∀ rs rs' : List (Row K K), List.Forall₂ (fun r r' : Row K K => r'.cells = r.cells ∧ E.localize z r.time = some r'.time) rs rs' →
              rs'.map (fun r => E.wall z r.time) = rs.map Row.time := by
            intro rs rs' hh
            induction hh with
            | nil => rfl
            | cons hh _ ih => rw [List.map_cons, List.map_cons, ih, hE z _ _ hh.2]
          exact this _ _ hmr
        rw [← hinj] at hd
        have : (rows'.map Row.time).map (E.wall z) = rows'.map (fun r => E.wall z r.time) := by rw [List.map_map]; rfl
        rw [← this] at hd
        exact hd.of_map _
    · unfold combinedCollocation
      simp only [htimes, hcol, bind, Except.bind, pure, Except.pure]
      cases addRef with
      | false =>
        rw [show withRef o false ⟨none, reference⟩ dfs = dfs from rfl, unify_same E (some z) dfs hall] at h
        simp only [Bool.false_eq_true, if_false] at h ⊢
        cases hcat : concatColumns (dfs.map TFrame.frame) with
        | error e => rw [hcat] at h; simp [lift] at h
        | ok m => rw [hcat] at h; simpa [lift] using h
      | true =>
        have hct : commonTz E ((withRef o true ⟨none, reference⟩ dfs).map TFrame.tz) = some z := by
          obtain ⟨d0, ds, rfl⟩ := List.exists_cons_of_ne_nil hdne
          have hr : (d0 :: ds).map TFrame.tz = List.replicate (ds.length + 1) (some z) := by
            rw [List.eq_replicate_iff]
            refine ⟨by simp, ?_⟩
            intro b hb
            obtain ⟨d', hd', rfl⟩ := List.mem_map.mp hb
            exact hall d' hd'
          show commonTz E (none :: (d0 :: ds).map TFrame.tz) = some z
          rw [hr]
          unfold commonTz
          have h1 : (none :: List.replicate (ds.length + 1) (some z)).dedup = [none, some z] := by
            rw [List.dedup_cons_of_notMem (by simp [List.mem_replicate]), List.replicate_dedup (by omega)]
          have h2 : ((none :: List.replicate (ds.length + 1) (some z)).filterMap id).dedup = [z] := by
            have : (none :: List.replicate (ds.length + 1) (some z)).filterMap id = List.replicate (ds.length + 1) z := by
              rw [List.filterMap_cons]
              simp
            rw [this, List.replicate_dedup (by omega)]
          rw [h1, h2]
          simp
        have hun : unify E (withRef o true ⟨none, reference⟩ dfs) =
            .ok (⟨some z, ⟨reference.width, if o.dropduplicates then dedupe rows' else rows'⟩⟩ :: dfs) := by
          unfold unify
          rw [hct]
          simp only
          apply mapM_except_of_forall
          refine .cons ?_ ?_
          · have : localizeRows E z (if o.dropduplicates then dedupe reference.rows else reference.rows) =
                .ok (if o.dropduplicates then dedupe rows' else rows') := by
              rw [localizeRows_ok]
              split
              · exact dedupe_localize E hE z _ _ hmr
              · exact hmr
            simp only [bring, this, Except.bind]
          · rw [List.forall₂_same]
            intro d hd
            have := hall d hd
            obtain ⟨dt, df⟩ := d
            simp only at this
            subst this
            rfl
        rw [hun] at h
        simp only [if_true, List.map_cons] at h ⊢
        cases hcat : concatColumns (({ width := reference.width, rows := if o.dropduplicates = true then dedupe rows' else rows' } : Frame K K) ::
            dfs.map TFrame.frame) with
        | error e => rw [hcat] at h; simp [lift] at h
        | ok m => rw [hcat] at h; simpa [lift] using h

/-! ### The caller's reference frame -/

/-- **C89.** The reference frame is left alone unless its data are added, duplicates are kept and it has no time zone. -/
theorem reference_unchanged_partial (E : Zones Z K) (o : Opts) (hm : o.mean = false) (addRef : Bool) (reference : TFrame Z K) (others : List (TFrame Z K))
    (window : K) (h : addRef = false ∨ o.dropduplicates = true ∨ reference.tz ≠ none) :
    referenceAfter E o addRef reference others window = reference := by
  unfold referenceAfter
  cases hmap : others.mapM (one E o reference.tz (reference.frame.rows.map Row.time) window) with
  | error e => rfl
  | ok dfs =>
    simp only
    by_cases hc : (addRef && !o.dropduplicates) = true
    · rw [if_pos hc]
      simp only [Bool.and_eq_true, Bool.not_eq_true'] at hc
      have htz : reference.tz ≠ none := by
        rcases h with h | h | h
        · rw [hc.1] at h; simp at h
        · rw [hc.2] at h; simp at h
        · exact h
      obtain ⟨z, hz⟩ := Option.ne_none_iff_exists'.mp htz
      rw [hz] at hmap
      have hfa := mapM_except_ok hmap
      have hall : ∀ d ∈ withRef o addRef reference dfs, d.tz = some z := by
        intro d hd
        unfold withRef at hd
        rw [if_pos hc.1] at hd
        rcases List.mem_cons.mp hd with rfl | hd
        · exact hz
        · obtain ⟨i, hi, rfl⟩ := List.mem_iff_getElem.mp hd
          have := (List.forall₂_iff_get.mp hfa).2 i (by rw [hfa.length_eq]; exact hi) hi
          exact (one_aware E o hm z _ window _ _ this).1
      have : commonTz E ((withRef o addRef reference dfs).map TFrame.tz) = none := by
        have hne : (withRef o addRef reference dfs).length = dfs.length + 1 := by unfold withRef; rw [if_pos hc.1]; simp
        unfold commonTz
        have hr : (withRef o addRef reference dfs).map TFrame.tz = List.replicate (dfs.length + 1) (some z) := by
          rw [List.eq_replicate_iff]
          refine ⟨by simp [hne], ?_⟩
          intro b hb
          obtain ⟨d', hd', rfl⟩ := List.mem_map.mp hb
          exact hall d' hd'
        rw [hr, List.replicate_dedup (by omega)]
        simp
      rw [this]
    · rw [if_neg hc]

/-- **C89, negation.** Otherwise the caller's frame gets the time zone of the other frames. -/
theorem reference_changed (E : Zones Z K) (o : Opts) (hm : o.mean = false) (hdup : o.dropduplicates = false) (z : Z)
    (reference : Frame K K) (others : List (Frame K K)) (hne : others ≠ []) (window : K) (comb : Combined)
    (out : List (Row K K)) (h : combined E o comb true ⟨none, reference⟩ (others.map (TFrame.mk (some z))) window = .ok out) :
    (referenceAfter E o true ⟨none, reference⟩ (others.map (TFrame.mk (some z))) window).tz = some z := by
  unfold combined at h
  unfold referenceAfter
  simp only at h ⊢
  cases hmap : (others.map (TFrame.mk (some z))).mapM (one E o none (reference.rows.map Row.time) window) with
  | error e => rw [hmap] at h; simp [Except.bind] at h
  | ok dfs =>
    have hfa := mapM_except_ok hmap
    rw [List.forall₂_map_left_iff] at hfa
    have hall : ∀ d ∈ dfs, d.tz = some z := by
      intro d hd
      obtain ⟨i, hi, rfl⟩ := List.mem_iff_getElem.mp hd
      have := (List.forall₂_iff_get.mp hfa).2 i (by rw [hfa.length_eq]; exact hi) hi
      exact (one_naive E o hm z _ window _ _ this).1
    obtain ⟨f0, fs, rfl⟩ := List.exists_cons_of_ne_nil hne
    have hloc : ∃ ts, localizeTimes E z (reference.rows.map Row.time) = .ok ts := by
      cases hfa with
      | cons h1 _ =>
        obtain ⟨-, ts, h2, -⟩ := one_naive E o hm z _ window _ _ h1
        exact ⟨ts, h2⟩
    obtain ⟨ts, hts⟩ := hloc
    obtain ⟨rows', hrows, -⟩ := localize_times_rows E z reference.rows ts hts
    have hct : commonTz E ((withRef o true ⟨none, reference⟩ dfs).map TFrame.tz) = some z := by
      cases dfs with
      | nil => cases hfa
      | cons d0 ds =>
        have hr : (d0 :: ds).map TFrame.tz = List.replicate (ds.length + 1) (some z) := by
          rw [List.eq_replicate_iff]
          refine ⟨by simp, ?_⟩
          intro b hb
          obtain ⟨d', hd', rfl⟩ := List.mem_map.mp hb
          exact hall d' hd'
        show commonTz E (none :: (d0 :: ds).map TFrame.tz) = some z
        rw [hr]
        unfold commonTz
        have h1 : (none :: List.replicate (ds.length + 1) (some z)).dedup = [none, some z] := by
          rw [List.dedup_cons_of_notMem (by simp [List.mem_replicate]), List.replicate_dedup (by omega)]
        have h2 : ((none :: List.replicate (ds.length + 1) (some z)).filterMap id).dedup = [z] := by
          have : (none :: List.replicate (ds.length + 1) (some z)).filterMap id = List.replicate (ds.length + 1) z := by
            rw [List.filterMap_cons]
            simp
          rw [this, List.replicate_dedup (by omega)]
        rw [h1, h2]
        simp
    rw [hdup]
    simp only [hct, bring, hrows, Except.bind]
    rfl

/-! ### `method="mean"` -/

/-- **C89.** In a zone whose local time always differs from universal time by the same amount, `method="mean"` averages what lies within the window
in elapsed time (the data as in C01). -/
theorem tz_mean_fixed_partial (E : Zones Z K) (o : Opts) (z z' : Z) (c : K) (hc : ∀ t, E.wall z t = t + c) (ref : List K) (other : Frame K K)
    (window : K) (hm : o.mean = true) (hf : o.flag = none) (hd : o.dropna = false) (hdup : o.dropduplicates = false)
    (hne : other.rows ≠ []) (hs : other.rows.Pairwise (fun a b => a.time ≤ b.time)) (hr : ref.Pairwise (· ≤ ·)) :
    ∃ out, tzCollocation E o (some z) ref ⟨some z', other⟩ window = .ok (some z, out) ∧ out.map OutRow.time = ref ∧
      ∀ r ∈ out, r.cells = (List.range other.width).map (fun i =>
        Resample.windowMean (other.rows.map (fun x => (x.time, (x.cells[i]?).join))) (2 * window) r.time) := by
  set rows' : List (Row K K) := other.rows.map (fun r => { r with time := julian E (some z) r.time }) with hrows'
  obtain ⟨out, h1, h2, h3⟩ := mean_collocation o (ref.map (julian E (some z))) ⟨other.width, rows'⟩ window hm hf hd hdup
    (by rw [hrows']; simpa using hne)
    (by rw [hrows']; simp only [List.pairwise_map, julian, hc]; exact hs.imp (fun h => by linarith))
    (by simp only [List.pairwise_map, julian, hc]; exact hr.imp (fun h => by linarith))
  have hmb : meanBranch o window other.width rows' (ref.map (julian E (some z))) none = .ok out := by
    unfold temporalCollocation at h1
    simp only [hf, checkFlag, hm, hd, hdup, Bool.not_true, Bool.or_false, if_true, Bool.false_eq_true, if_false, bind, Except.bind, pure,
      Except.pure] at h1
    cases hb : meanBranch o window other.width rows' (ref.map (julian E (some z))) none with
    | error e => rw [hb] at h1; simp at h1
    | ok x => rw [hb] at h1; exact h1
  have hlen : out.length = ref.length := by
    have := congrArg List.length h2
    simpa using this
  refine ⟨List.zipWith (fun t r => { r with time := t }) ref out, ?_, ?_, ?_⟩
  · unfold tzCollocation
    simp only [hf, checkFlag, lift, Except.bind, prepare, collocate, hm, hd, hdup, Bool.not_true, Bool.or_false, if_true, Bool.false_eq_true,
      if_false, bind, pure, Except.pure, meanTz]
    rw [← hrows', hmb]
  · apply List.ext_getElem
    · simp [hlen]
    · intro i hi hi'
      simp
  · intro r hr
    obtain ⟨i, hi, rfl⟩ := List.mem_iff_getElem.mp hr
    simp only [List.length_zipWith, hlen, min_self] at hi
    rw [List.getElem_zipWith]
    have hio : i < out.length := by rw [hlen]; exact hi
    have ht : out[i].time = ref[i] + c := by
      have := List.getElem_map (f := OutRow.time) (l := out) (i := i) (h := by simpa using hio)
      rw [← this]
      simp only [h2, List.getElem_map, julian, hc]
    simp only
    rw [h3 _ (List.getElem_mem hio)]
    apply List.map_congr_left
    intro j _
    rw [ht, hrows', List.map_map]
    have hv : ∀ l : List (Row K K), Resample.windowValues (l.map ((fun x : Row K K => (x.time, (x.cells[j]?).join)) ∘
        fun r => { r with time := julian E (some z) r.time })) (2 * window) (ref[i] + c) =
        Resample.windowValues (l.map (fun x => (x.time, (x.cells[j]?).join))) (2 * window) ref[i] := by
      intro l
      unfold Resample.windowValues
      rw [List.filter_map, List.filter_map, List.filterMap_map, List.filterMap_map]
      congr 1
      apply List.filter_congr
      intro x _
      simp only [Function.comp, julian, hc]
      rw [show x.time + c - (ref[i] + c) = x.time - ref[i] by ring]
    unfold Resample.windowMean
    rw [hv]

end

/-! ### Examples and negations -/

/-- zones by their offset in hours, UTC is 0 -/
def offsets : Zones ℚ ℚ where
  wall z t := t + z
  localize z w := some (w - z)
  utc := 0

theorem offsets_consistent : Consistent offsets := by
  intro z w t h
  simp only [offsets, Option.some.injEq] at h ⊢
  rw [← h]
  ring

/-- A reference in UTC+1, observations in UTC and observations without time zone: local time 12 in UTC+1 is 11 o'clock UTC. -/
example : combined offsets {} .any true ⟨some 1, ⟨1, [⟨11, [some 5]⟩]⟩⟩
    [⟨some 0, ⟨1, [⟨11, [some 1]⟩, ⟨12, [some 2]⟩]⟩⟩, ⟨none, ⟨1, [⟨12, [some 3]⟩]⟩⟩] 0 = .ok [⟨11, [some 5, some 1, some 3]⟩] := by
  decide +kernel

/-- A reference without time zone and observations in UTC+1. -/
example : combined offsets {} .any true ⟨none, ⟨1, [⟨12, [some 5]⟩]⟩⟩ [⟨some 1, ⟨1, [⟨11, [some 1]⟩, ⟨12, [some 2]⟩]⟩⟩] 0 =
    .ok [⟨11, [some 5, some 1]⟩] := by decide +kernel

/-- The reported distance between a reference in UTC+1 and an observation in UTC is the elapsed time. -/
example : tzCollocation offsets { returnDistance := true } (some 1) [11] ⟨some 0, ⟨1, [⟨23 / 2, [some 1]⟩]⟩⟩ 1 =
    .ok (some 1, [⟨11, [some 1], some (23 / 2), some (1 / 2)⟩]) := by decide +kernel

/-- **C89, negation.** A reference without time zone together with frames in different zones: the single reference time (12 o'clock) is read as 12
o'clock in each of the zones, so that it becomes two rows and the values of the frames are never joined. -/
theorem naive_reference_split :
    combined offsets {} .no true ⟨none, ⟨1, [⟨12, [some 5]⟩]⟩⟩
      [⟨some 0, ⟨1, [⟨12, [some 1]⟩]⟩⟩, ⟨some 1, ⟨1, [⟨11, [some 2]⟩]⟩⟩] 0 =
      .ok [⟨12, [some 5, some 1, none]⟩, ⟨11, [none, none, some 2]⟩] ∧
    combined offsets {} .any true ⟨none, ⟨1, [⟨12, [some 5]⟩]⟩⟩
      [⟨some 0, ⟨1, [⟨12, [some 1]⟩]⟩⟩, ⟨some 1, ⟨1, [⟨11, [some 2]⟩]⟩⟩] 0 = .ok [] := by
  decide +kernel

/-- **C89, negation.** The documentation says that UTC is assumed for a reference without time zone. The zone of the other frame is: an
observation at 12 o'clock UTC, given in UTC+1, is not found for the reference time 12 o'clock. -/
theorem naive_reference_not_utc :
    combined offsets {} .no false ⟨none, ⟨1, [⟨12, [some 5]⟩]⟩⟩ [⟨some 1, ⟨1, [⟨12, [some 1]⟩]⟩⟩] 0 = .ok [⟨11, [none]⟩] ∧
    combined offsets {} .no false ⟨some 0, ⟨1, [⟨12, [some 5]⟩]⟩⟩ [⟨some 1, ⟨1, [⟨12, [some 1]⟩]⟩⟩] 0 = .ok [⟨12, [some 1]⟩] := by
  decide +kernel

/-- **C89, negation.** The caller's reference frame after a call that adds its data. -/
theorem reference_changed_example :
    referenceAfter offsets {} true ⟨none, ⟨1, [⟨12, [some 5]⟩]⟩⟩ [⟨some 1, ⟨1, [⟨11, [some 1]⟩]⟩⟩] 0 = ⟨some 1, ⟨1, [⟨11, [some 5]⟩]⟩⟩ := by
  decide +kernel

/-- a zone where clocks are set back from 12 to 11 at 10 o'clock universal time -/
def summer : Zones Unit ℚ where
  wall _ t := if t < 10 then t + 2 else t + 1
  localize _ w := if w < 11 then some (w - 2) else if w < 12 then none else some (w - 1)
  utc := ()

/-- ambiguous local times raise -/
example : tzCollocation summer {} none [23 / 2] ⟨some (), ⟨1, [⟨9, [some 1]⟩]⟩⟩ 1 = .error .localize := by decide +kernel

/-- **C89, negation.** `method="mean"` uses local times: with a window of half an hour, an observation one hour later is part of the mean when
clocks are set back in between. -/
theorem mean_across_clock_change :
    tzCollocation summer { mean := true } (some ()) [9] ⟨some (), ⟨1, [⟨9, [some 1]⟩, ⟨10, [some 3]⟩]⟩⟩ (1 / 2) = .ok (some (), [⟨9, [some 2], none, none⟩]) ∧
    Resample.windowMean [((9 : ℚ), some 1), (10, some 3)] (2 * (1 / 2)) 9 = some 1 := by
  decide +kernel

/-! The theorems applied to the clocks above. -/
/-- the reference of the example in UTC+1 -/
def exRef : Frame ℚ ℚ := ⟨1, [⟨11, [some 5]⟩]⟩
example := tz_naive offsets {} rfl [11, 12] ⟨1, [⟨23 / 2, [some 1]⟩]⟩ 1
example (tz out) (h : tzCollocation offsets { returnDistance := true } (some 1) [11] ⟨some 0, ⟨1, [⟨23 / 2, [some 1]⟩]⟩⟩ 1 = .ok (tz, out)) :=
  tz_nearest offsets { returnDistance := true } (some 1) [11] ⟨some 0, ⟨1, [⟨23 / 2, [some 1]⟩]⟩⟩ 1 (by norm_num) rfl rfl rfl (.inl (by simp)) tz out h
example := tz_convert offsets {} rfl 1 0 2 3 [11, 12] ⟨1, [⟨23 / 2, [some 1]⟩]⟩ 1
example := tz_localize_raises summer {} () [23 / 2] ⟨1, [⟨9, [some 1]⟩]⟩ 1 ⟨23 / 2, by simp, by decide +kernel⟩
example := tz_combined_aware offsets {} .any true 1 exRef [⟨some 0, ⟨1, [⟨11, [some 1]⟩, ⟨12, [some 2]⟩]⟩⟩, ⟨none, ⟨1, [⟨12, [some 3]⟩]⟩⟩] 0 le_rfl rfl rfl
  (by decide) (.inr (.inr (by decide +kernel))) [⟨11, [some 5, some 1, some 3]⟩] (by decide +kernel)
example := tz_combined_naive_partial offsets offsets_consistent {} .any true 1 ⟨1, [⟨12, [some 5]⟩]⟩ [⟨1, [⟨11, [some 1]⟩, ⟨12, [some 2]⟩]⟩] (by simp) 0 le_rfl rfl rfl
  (by decide) (.inr (.inr (by decide +kernel))) [⟨11, [some 5, some 1]⟩] (by decide +kernel)
example := reference_unchanged_partial offsets {} rfl true ⟨some 1, exRef⟩ [⟨some 0, ⟨1, [⟨11, [some 1]⟩]⟩⟩] 0 (.inr (.inr (by simp)))
example := reference_changed offsets {} rfl rfl 1 ⟨1, [⟨12, [some 5]⟩]⟩ [⟨1, [⟨11, [some 1]⟩, ⟨12, [some 2]⟩]⟩] (by simp) 0 .any [⟨11, [some 5, some 1]⟩] (by decide +kernel)
example := tz_mean_fixed_partial offsets { mean := true } 1 0 1 (fun _ => rfl) [11, 12] ⟨1, [⟨11, [some 1]⟩, ⟨23 / 2, [some 2]⟩]⟩ 1 rfl rfl rfl rfl (by simp)
  (by simp; norm_num) (by simp; norm_num)
example (out) (h : unify offsets [⟨some 1, exRef⟩, ⟨some 2, exRef⟩, ⟨none, exRef⟩] = .ok out) :=
  mixed_zones_utc offsets [⟨some 1, exRef⟩, ⟨some 2, exRef⟩, ⟨none, exRef⟩] out ⟨some 1, exRef⟩ ⟨some 2, exRef⟩ 1 2 (by simp) (by simp) rfl rfl (by norm_num) h
example : (unify offsets [⟨some 1, exRef⟩, ⟨some 2, exRef⟩, ⟨none, exRef⟩]).toOption.isSome = true := by decide +kernel

end Verif.Collocation.Tz
