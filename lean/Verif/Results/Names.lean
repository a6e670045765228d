import Verif.Results.Props
import Mathlib.Tactic.IntervalCases
import Mathlib.Data.List.Infix

/-! C33: what goes wrong; C34 file names. -/

set_option linter.unusedSectionVars false
set_option synthInstance.maxSize 1000

namespace Verif.Results

/-! ### C33: example and findings -/

/-- a history of three records -/
def exHistory : List (Rec ℕ) :=
  [⟨10, 50, [(.plain "n", [3]), (.tup ["summer", "r"], [7])], none⟩,
   ⟨11, 51, [(.plain "n", [4]), (.plain "roll", [1, 2])], some [100, 101]⟩,
   ⟨12, 52, [(.plain "roll", [5]), (.tup ["summer", "r"], [8])], some [102]⟩]

theorem splits3 {A : Type} {a b c : A} {pre post : List A} {r : A} (h : [a, b, c] = pre ++ r :: post) :
    (pre = [] ∧ r = a) ∨ (pre = [a] ∧ r = b) ∨ (pre = [a, b] ∧ r = c) := by
  rcases pre with _ | ⟨p1, pre⟩
  · simp only [List.nil_append, List.cons.injEq] at h
    exact .inl ⟨rfl, h.1.symm⟩
  rcases pre with _ | ⟨p2, pre⟩
  · simp only [List.cons_append, List.nil_append, List.cons.injEq] at h
    exact .inr (.inl ⟨by rw [h.1], h.2.1.symm⟩)
  rcases pre with _ | ⟨p3, pre⟩
  · simp only [List.cons_append, List.nil_append, List.cons.injEq] at h
    exact .inr (.inr ⟨by rw [h.1, h.2.1], h.2.2.1.symm⟩)
  · simp at h

instance {V : Type} (r : Rec V) (x : String) : Decidable (Uses r x) := inferInstanceAs (Decidable (∃ d ∈ r.data, varName d.1 = x))

/-- the hypothesis of C33 holds: three calls, with and without time series, a metric missing in the second and third -/
theorem exHistory_aligned : Aligned [.plain "roll"] exHistory where
  good := by
    intro r hr
    have h1 : ∀ r ∈ exHistory, (r.data.map (fun d => varName d.1)).Nodup := by decide +kernel
    have h2 : ∀ r ∈ exHistory, ∀ d ∈ r.data, varName d.1 ∉ reserved := by decide +kernel
    have h3 : ∀ r ∈ exHistory, ∀ d ∈ r.data, d.1 ∉ [Name.plain "roll"] → d.2.length = 1 := by decide +kernel
    have h4 : ∀ r ∈ exHistory, ∀ d ∈ r.data, d.1 ∈ [Name.plain "roll"] → r.times.isSome ∧ d.2.length = (r.times.getD []).length := by
      decide +kernel
    refine ⟨h1 r hr, h2 r hr, h3 r hr, ?_⟩
    intro d hd ht
    obtain ⟨h5, h6⟩ := h4 r hr d hd ht
    obtain ⟨t, ht'⟩ := Option.isSome_iff_exists.mp h5
    exact ⟨t, ht', by rw [h6, ht']; rfl⟩
  kind := by decide +kernel
  metrics := by
    intro pre r post h
    rcases splits3 h with ⟨rfl, rfl⟩ | ⟨rfl, rfl⟩ | ⟨rfl, rfl⟩
    · exact fun _ _ _ => .inl rfl
    · decide +kernel
    · decide +kernel
  series := by
    intro pre r post h
    rcases splits3 h with ⟨rfl, rfl⟩ | ⟨rfl, rfl⟩ | ⟨rfl, rfl⟩
    · decide +kernel
    · decide +kernel
    · decide +kernel

example : ((exHistory.foldlM (addResult [.plain "roll"]) (newFile ℕ)).toOption.map (fun f => (readLoc f 1, readTs f 2))) =
    some ([("lon", some 11), ("lat", some 51), ("n", some 4), ("summer__r", none)], ([some 102], [("roll", [some 5])])) := by
  decide +kernel

/-- **C33, negation.** A metric that is first given in the second call is stored at the first location. -/
theorem late_metric_misaligned :
    (([⟨10, 50, [(.plain "n", [3])], none⟩, ⟨11, 51, [(.plain "n", [4]), (.plain "r", [9])], none⟩] : List (Rec ℕ)).foldlM
      (addResult []) (newFile ℕ)).toOption.map (fun f => (readLoc f 0, readLoc f 1)) =
    some ([("lon", some 10), ("lat", some 50), ("n", some 3), ("r", some 9)],
      [("lon", some 11), ("lat", some 51), ("n", some 4), ("r", none)]) := by decide +kernel

/-- **C33, negation.** A time series that is first given when there are time steps already is stored at the first rows. -/
theorem late_series_misaligned :
    (([⟨10, 50, [(.plain "a", [1, 2])], some [100, 101]⟩, ⟨11, 51, [(.plain "a", [3]), (.plain "b", [9])], some [102]⟩] : List (Rec ℕ)).foldlM
      (addResult [.plain "a", .plain "b"]) (newFile ℕ)).toOption.map (fun f => (readTs f 0, readTs f 1)) =
    some (([some 100, some 101], [("a", [some 1, some 2]), ("b", [some 9, none])]),
      ([some 102], [("a", [some 3]), ("b", [none])])) := by decide +kernel

/-- **C33, negation.** Two different metrics with tuple names whose joined names are equal: the second overwrites the first. -/
theorem joined_names_collide :
    (([⟨10, 50, [(.tup ["a", "b__c"], [1]), (.tup ["a__b", "c"], [2])], none⟩] : List (Rec ℕ)).foldlM
      (addResult []) (newFile ℕ)).toOption.map (fun f => readLoc f 0) =
    some [("lon", some 10), ("lat", some 50), ("a__b__c", some 2)] := by decide +kernel

/-- **C33.** Data of wrong shape or time series without times are rejected before anything is written. -/
theorem addResult_rejects {V : Type} (ts : List Name) (f : File V) (r : Rec V) :
    ((∃ d ∈ r.data, d.1 ∈ ts) → r.times = none → addResult ts f r = .error .valueError) ∧
    ((∃ d ∈ r.data, d.1 ∉ ts ∧ d.2.length ≠ 1) → addResult ts f r = .error .valueError) := by
  constructor
  · rintro ⟨d, hd, ht⟩ hn
    have hne : tsOf ts r ≠ [] := by
      refine List.ne_nil_of_mem (a := d) ?_
      unfold tsOf
      rw [List.mem_filter]
      exact ⟨hd, by simpa using ht⟩
    obtain ⟨e, es, he⟩ := List.exists_cons_of_ne_nil hne
    unfold addResult
    rw [hn, he]
  · rintro ⟨d, hd, ht, hl⟩
    have hm : addMetrics f [r.lon] [r.lat] (metricsOf ts r) = .error .valueError := by
      unfold addMetrics
      simp only [List.length_cons, List.length_nil, Nat.zero_add, true_and]
      rw [if_neg]
      rw [List.all_eq_true]
      intro h
      have := h d (by unfold metricsOf; rw [List.mem_filter]; exact ⟨hd, by simpa using ht⟩)
      exact hl (by simpa using this)
    unfold addResult
    cases h1 : r.times with
    | none =>
      cases h2 : tsOf ts r with
      | nil => simp only [bind, Except.bind, hm]
      | cons e es => rfl
    | some t =>
      cases h2 : tsOf ts r with
      | nil => simp only [bind, Except.bind, hm]
      | cons e es => simp only [bind, Except.bind, hm]

example : addResult [.plain "roll"] (newFile ℕ) ⟨10, 50, [(.plain "roll", [1, 2])], none⟩ = .error .valueError :=
  (addResult_rejects _ _ _).1 ⟨(.plain "roll", [1, 2]), by simp, by simp⟩ rfl
example : addResult [.plain "roll"] (newFile ℕ) ⟨10, 50, [(.plain "n", [1, 2])], none⟩ = .error .valueError :=
  (addResult_rejects _ _ _).2 ⟨(.plain "n", [1, 2]), by simp, by simp, by decide⟩

/-! ### C34: file names -/

theorem pathJoin_length_le (root name : List Char) : (pathJoin root name).length ≤ root.length + 1 + name.length := by
  unfold pathJoin
  split
  · omega
  · split
    · rw [List.length_append]; omega
    · rw [List.length_append, List.length_cons]; omega

/-- **C34.** The path is at most 255 characters long if the directory leaves room for the fallback name (at most 241 characters).
Partial: for longer directories see `path_too_long`. -/
theorem build_filename_length_partial (root : List Char) (key : List Elem) (h : root.length ≤ 241) :
    (buildFilename root key).length ≤ 255 := by
  unfold buildFilename
  split
  · split
    · have := pathJoin_length_le root "validation.nc".toList
      have h2 : ("validation.nc".toList).length = 13 := by decide
      omega
    · omega
  · omega

example := build_filename_length_partial "/data/out".toList [.pair (List.replicate 200 'A') "sm".toList, .pair (List.replicate 200 'B') "sm".toList] (by decide +kernel)

/-- **C34, negation.** For a longer directory the path exceeds 255 characters. -/
theorem path_too_long (root : List Char) (key : List Elem) (h : 255 < root.length) (hk : ∀ e ∈ key, e.full.head? ≠ some '/' ∧ e.full ≠ [] ∧ e.short.head? ≠ some '/' ∧ e.short ≠ []) :
    255 < (buildFilename root key).length := by
  have hj : ∀ name, name.head? ≠ some '/' → root.length ≤ (pathJoin root name).length := by
    intro name hn
    unfold pathJoin
    rw [if_neg hn]
    split <;> simp
  have hf : ∀ g : Elem → List Char, (∀ e ∈ key, (g e).head? ≠ some '/' ∧ g e ≠ []) → (fileName (key.map g)).head? ≠ some '/' := by
    intro g hg
    unfold fileName
    cases key with
    | nil => simp [joinWith]
    | cons e es =>
      obtain ⟨h1, h2⟩ := hg e List.mem_cons_self
      obtain ⟨c, cs, hc⟩ := List.exists_cons_of_ne_nil h2
      cases es with
      | nil =>
        simp only [List.map_cons, List.map_nil, joinWith, hc, List.cons_append, List.head?_cons]
        rw [hc] at h1
        simpa using h1
      | cons e' es =>
        simp only [List.map_cons, joinWith, hc, List.cons_append, List.head?_cons]
        rw [hc] at h1
        simpa using h1
  unfold buildFilename
  split
  · split
    · have := hj "validation.nc".toList (by decide)
      omega
    · rename_i h2
      have := hj _ (hf Elem.short (fun e he => ⟨(hk e he).2.2.1, (hk e he).2.2.2⟩))
      omega
  · rename_i h2
    have := hj _ (hf Elem.full (fun e he => ⟨(hk e he).1, (hk e he).2.1⟩))
    omega

/-- Specification: a name that cannot be confused with a separator `_with_`: followed by `_` it does not contain it. -/
def Plain (x : List Char) : Prop := ¬"_with_".toList <:+: x ++ ['_']

instance (x : List Char) : Decidable (Plain x) := inferInstanceAs (Decidable (¬_))

theorem sep_border (u w t t' : List Char) (hu : u ≠ []) (hw : w ≠ []) (h1 : "_with_".toList = u ++ w) (h2 : w ++ t = "_with_".toList ++ t') :
    u = "_with".toList ∧ w = ['_'] := by
  have hlen : u.length + w.length = 6 := by
    have := congrArg List.length h1
    rw [List.length_append] at this
    simpa using this.symm
  have hu0 : 0 < u.length := List.length_pos_iff.mpr hu
  have hw0 : 0 < w.length := List.length_pos_iff.mpr hw
  have hu' : u = "_with_".toList.take u.length := by rw [h1, List.take_left']; rfl
  have hw' : w = "_with_".toList.drop u.length := by rw [h1, List.drop_left']; rfl
  have hpre : w = "_with_".toList.take w.length := by
    have h3 := congrArg (List.take w.length) h2
    rw [List.take_left' rfl, List.take_append_of_le_length (by
      have : "_with_".toList.length = 6 := by decide
      omega)] at h3
    exact h3
  have hul : u.length ≤ 5 := by omega
  have hwl : w.length = 6 - u.length := by omega
  rw [hwl] at hpre
  generalize u.length = n at *
  interval_cases n
  all_goals first
    | (exfalso; rw [hw'] at hpre; revert hpre; decide)
    | exact ⟨hu', hw'⟩

/-- splitting at the first separator -/
theorem first_sep (x x' t t' : List Char) (hx : Plain x) (hx' : Plain x')
    (h : x ++ "_with_".toList ++ t = x' ++ "_with_".toList ++ t') : x = x' ∧ t = t' := by
  have key : ∀ (x x' t t' : List Char), Plain x' → x.length < x'.length → x ++ "_with_".toList ++ t = x' ++ "_with_".toList ++ t' → False := by
    intro x x' t t' hx' hlt h
    rw [List.append_assoc, List.append_assoc] at h
    obtain ⟨u, hu⟩ : ∃ u, x' = x ++ u := by
      have hp : x <+: x' := by
        have h1 : x <+: x' ++ ("_with_".toList ++ t') := ⟨_, h⟩
        exact List.prefix_of_prefix_length_le h1 ⟨_, rfl⟩ (by omega)
      obtain ⟨u, hu⟩ := hp
      exact ⟨u, hu.symm⟩
    subst hu
    rw [List.append_assoc] at h
    have h2 := List.append_cancel_left h
    have hune : u ≠ [] := by
      intro hc; rw [hc] at hlt; simp at hlt
    by_cases hl : 6 ≤ u.length
    · have hp : "_with_".toList <+: u := by
        have h3 : "_with_".toList <+: u ++ ("_with_".toList ++ t') := ⟨_, h2⟩
        exact List.prefix_of_prefix_length_le h3 ⟨_, rfl⟩ (by
          have : "_with_".toList.length = 6 := by decide
          omega)
      obtain ⟨v, hv⟩ := hp
      exact hx' ⟨x, v ++ ['_'], by rw [← hv]; simp⟩
    · have hp : u <+: "_with_".toList := by
        have h3 : u <+: "_with_".toList ++ t := ⟨_, h2.symm⟩
        exact List.prefix_of_prefix_length_le h3 ⟨_, rfl⟩ (by
          have : "_with_".toList.length = 6 := by decide
          omega)
      obtain ⟨w, hw⟩ := hp
      have hwne : w ≠ [] := by
        intro hc
        rw [hc, List.append_nil] at hw
        have := congrArg List.length hw
        have h6 : "_with_".toList.length = 6 := by decide
        omega
      have h3 : w ++ t = "_with_".toList ++ t' := by
        rw [← hw, List.append_assoc] at h2
        have := List.append_cancel_left h2
        rw [hw] at this
        exact this
      obtain ⟨h4, -⟩ := sep_border u w t t' hune hwne hw.symm h3
      refine hx' ⟨x, [], ?_⟩
      rw [h4]
      simp
  have hlen : x.length = x'.length := by
    rcases Nat.lt_trichotomy x.length x'.length with h1 | h1 | h1
    · exact absurd h (fun h => key x x' t t' hx' h1 h)
    · exact h1
    · exact absurd h.symm (fun h => key x' x t' t hx h1 h)
  rw [List.append_assoc, List.append_assoc] at h
  obtain ⟨h1, h2⟩ := List.append_inj h hlen
  exact ⟨h1, List.append_cancel_left h2⟩

theorem join_injective (l l' : List (List Char)) (h : ∀ x ∈ l, Plain x) (h' : ∀ x ∈ l', Plain x) (hne : ∀ x ∈ l, x ≠ []) (hne' : ∀ x ∈ l', x ≠ [])
    (he : joinWith "_with_".toList l = joinWith "_with_".toList l') : l = l' := by
  have hnosep : ∀ (x : List Char) (y : List Char) (t : List Char), Plain x → x ≠ y ++ "_with_".toList ++ t := by
    intro x y t hx hc
    exact hx ⟨y, t ++ ['_'], by rw [hc]; simp⟩
  induction l generalizing l' with
  | nil =>
    cases l' with
    | nil => rfl
    | cons y l' =>
      cases l' with
      | nil => exact absurd he.symm (hne' y List.mem_cons_self)
      | cons z l' =>
        simp only [joinWith] at he
        have := congrArg List.length he
        simp at this
  | cons x l ih =>
    cases l with
    | nil =>
      cases l' with
      | nil => exact absurd he (hne x List.mem_cons_self)
      | cons y l' =>
        cases l' with
        | nil => rw [show x = y from he]
        | cons z l' => exact absurd he (hnosep x y _ (h x List.mem_cons_self))
    | cons x2 l =>
      cases l' with
      | nil =>
        simp only [joinWith] at he
        have := congrArg List.length he
        simp at this
      | cons y l' =>
        cases l' with
        | nil => exact absurd he.symm (hnosep y x _ (h' y List.mem_cons_self))
        | cons z l' =>
          obtain ⟨h1, h2⟩ := first_sep x y _ _ (h x List.mem_cons_self) (h' y List.mem_cons_self) he
          rw [h1, ih (z :: l') (fun a ha => h a (List.mem_cons_of_mem _ ha)) (fun a ha => h' a (List.mem_cons_of_mem _ ha))
            (fun a ha => hne a (List.mem_cons_of_mem _ ha)) (fun a ha => hne' a (List.mem_cons_of_mem _ ha)) h2]

theorem dot_injective (d c d' c' : List Char) (hd : '.' ∉ d) (hd' : '.' ∉ d') (h : d ++ ['.'] ++ c = d' ++ ['.'] ++ c') : d = d' ∧ c = c' := by
  induction d generalizing d' with
  | nil =>
    cases d' with
    | nil => exact ⟨rfl, by simpa using h⟩
    | cons a d' =>
      simp only [List.nil_append, List.cons_append, List.cons.injEq] at h
      exact absurd (h.1 ▸ List.mem_cons_self) hd'
  | cons a d ih =>
    cases d' with
    | nil =>
      simp only [List.nil_append, List.cons_append, List.cons.injEq] at h
      exact absurd (h.1 ▸ List.mem_cons_self) hd
    | cons b d' =>
      simp only [List.cons_append, List.cons.injEq] at h
      obtain ⟨h1, h2⟩ := ih d' (fun hc => hd (List.mem_cons_of_mem _ hc)) (fun hc => hd' (List.mem_cons_of_mem _ hc)) h.2
      exact ⟨by rw [h.1, h1], h2⟩

theorem pathJoin_injective (root a b : List Char) (ha : a.head? ≠ some '/') (hb : b.head? ≠ some '/') (h : pathJoin root a = pathJoin root b) :
    a = b := by
  unfold pathJoin at h
  rw [if_neg ha, if_neg hb] at h
  split at h
  · exact List.append_cancel_left h
  · exact (List.cons.inj (List.append_cancel_left h)).2

/-- Specification: a (data set, column) pair that names unambiguously: no dot and no slash at the beginning of the data set name, no
possible separator. -/
structure CleanPair (p : List Char × List Char) : Prop where
  noDot : '.' ∉ p.1
  noSlash : p.1.head? ≠ some '/'
  plain : Plain (p.1 ++ ['.'] ++ p.2)

theorem full_map (key : List (List Char × List Char)) :
    (key.map (fun p => Elem.pair p.1 p.2)).map Elem.full = key.map (fun p => p.1 ++ ['.'] ++ p.2) := by
  rw [List.map_map]
  apply List.map_congr_left
  intro p _
  rfl

theorem fileName_injective (l l' : List (List Char)) (h : fileName l = fileName l') :
    joinWith "_with_".toList l = joinWith "_with_".toList l' := by
  unfold fileName at h
  simp only [joinWith] at h
  exact List.append_cancel_right (List.append_cancel_right h)

/-- **C34.** Different keys made of clean (data set, column) pairs get different paths as long as the full names fit.
Partial: shortened names collide (`short_names_collide`, `fallback_collides`), so do names with dots or separators
(`separator_collides`, `dot_collides`). -/
theorem build_filename_injective_partial (root : List Char) (key key' : List (List Char × List Char)) (h : ∀ p ∈ key, CleanPair p)
    (h' : ∀ p ∈ key', CleanPair p)
    (hfit : (pathJoin root (fileName (key.map (fun p => p.1 ++ ['.'] ++ p.2)))).length ≤ 255)
    (hfit' : (pathJoin root (fileName (key'.map (fun p => p.1 ++ ['.'] ++ p.2)))).length ≤ 255)
    (he : buildFilename root (key.map (fun p => .pair p.1 p.2)) = buildFilename root (key'.map (fun p => .pair p.1 p.2))) : key = key' := by
  have hb : ∀ k : List (List Char × List Char), (pathJoin root (fileName (k.map (fun p => p.1 ++ ['.'] ++ p.2)))).length ≤ 255 →
      buildFilename root (k.map (fun p => .pair p.1 p.2)) = pathJoin root (fileName (k.map (fun p => p.1 ++ ['.'] ++ p.2))) := by
    intro k hk
    unfold buildFilename
    rw [full_map, if_neg (by omega)]
  rw [hb key hfit, hb key' hfit'] at he
  have hslash : ∀ k : List (List Char × List Char), (∀ p ∈ k, CleanPair p) →
      (fileName (k.map (fun p => p.1 ++ ['.'] ++ p.2))).head? ≠ some '/' := by
    intro k hk
    unfold fileName
    cases k with
    | nil => simp [joinWith]
    | cons p k =>
      have h1 := (hk p List.mem_cons_self).noSlash
      have h2 : ∀ rest, (p.1 ++ ['.'] ++ p.2 ++ rest).head? ≠ some '/' := by
        intro rest
        cases hp : p.1 with
        | nil => simp
        | cons c cs =>
          rw [hp] at h1
          simpa using h1
      cases k with
      | nil =>
        simp only [List.map_cons, List.map_nil, joinWith]
        have := h2 (['.'] ++ "nc".toList)
        rw [List.append_assoc (_ ++ _)]
        exact this
      | cons q k =>
        simp only [List.map_cons, joinWith]
        rw [List.append_assoc, List.append_assoc (p.1 ++ ['.'] ++ p.2), List.append_assoc (p.1 ++ ['.'] ++ p.2)]
        exact h2 _
  have h1 := fileName_injective _ _ (pathJoin_injective root _ _ (hslash key h) (hslash key' h') he)
  have h2 := join_injective _ _
    (by intro x hx; obtain ⟨p, hp, rfl⟩ := List.mem_map.mp hx; exact (h p hp).plain)
    (by intro x hx; obtain ⟨p, hp, rfl⟩ := List.mem_map.mp hx; exact (h' p hp).plain)
    (by intro x hx; obtain ⟨p, hp, rfl⟩ := List.mem_map.mp hx; simp)
    (by intro x hx; obtain ⟨p, hp, rfl⟩ := List.mem_map.mp hx; simp) h1
  clear he hfit hfit' h1 hb hslash
  induction key generalizing key' with
  | nil =>
    cases key' with
    | nil => rfl
    | cons q k => simp at h2
  | cons p key ih =>
    cases key' with
    | nil => simp at h2
    | cons q key' =>
      simp only [List.map_cons, List.cons.injEq] at h2
      obtain ⟨h3, h4⟩ := dot_injective p.1 p.2 q.1 q.2 (h p List.mem_cons_self).noDot (h' q List.mem_cons_self).noDot h2.1
      have h5 := ih key' (fun a ha => h a (List.mem_cons_of_mem _ ha)) (fun a ha => h' a (List.mem_cons_of_mem _ ha)) h2.2
      rw [h5, show p = q from Prod.ext h3 h4]

example : buildFilename "/data/out".toList [.pair "ISMN".toList "sm".toList, .pair "ASCAT".toList "sm".toList] ≠
    buildFilename "/data/out".toList [.pair "ISMN".toList "sm".toList, .pair "C3S_with".toList "sm".toList] := fun h =>
  absurd (build_filename_injective_partial "/data/out".toList [("ISMN".toList, "sm".toList), ("ASCAT".toList, "sm".toList)]
    [("ISMN".toList, "sm".toList), ("C3S_with".toList, "sm".toList)]
    (by
      intro p hp
      rw [List.mem_cons, List.mem_singleton] at hp
      rcases hp with rfl | rfl <;> exact ⟨by decide, by decide, by decide +kernel⟩)
    (by
      intro p hp
      rw [List.mem_cons, List.mem_singleton] at hp
      rcases hp with rfl | rfl <;> exact ⟨by decide, by decide, by decide +kernel⟩)
    (by decide +kernel) (by decide +kernel) h) (by decide +kernel)

example : CleanPair ("ISMN".toList, "soil_moisture".toList) := ⟨by decide, by decide, by decide +kernel⟩
example : CleanPair ("C3S_with".toList, "sm".toList) := ⟨by decide, by decide, by decide +kernel⟩
example : (pathJoin "/data/out".toList (fileName ["ISMN.soil_moisture".toList, "ASCAT.sm".toList])).length ≤ 255 := by decide +kernel

/-- **C34, negation.** The column dropped when the name is too long: different columns, same file. -/
theorem short_names_collide :
    let root := List.replicate 230 'r'
    let k1 := [Elem.pair "A".toList "soil_moisture_1".toList, Elem.pair "B".toList "soil_moisture".toList]
    let k2 := [Elem.pair "A".toList "soil_moisture_2".toList, Elem.pair "B".toList "soil_moisture".toList]
    k1.map Elem.full ≠ k2.map Elem.full ∧ buildFilename root k1 = buildFilename root k2 := by
  constructor
  · decide +kernel
  · decide +kernel

/-- **C34, negation.** Keys given as plain names are shortened to their first letters: in a directory that leaves no room for the full names and room
for the letters, every two keys of plain names with the same first letters share a file, named by the letters. -/
theorem initials_collide (root : List Char) (letters : List Char) (rest rest' : List (List Char)) (hl : rest.length = letters.length)
    (hl' : rest'.length = letters.length)
    (h : 255 < (pathJoin root (fileName (List.zipWith List.cons letters rest))).length)
    (h' : 255 < (pathJoin root (fileName (List.zipWith List.cons letters rest'))).length)
    (hs : (pathJoin root (fileName (letters.map (fun c => [c])))).length ≤ 255) :
    buildFilename root ((List.zipWith List.cons letters rest).map .name) = pathJoin root (fileName (letters.map (fun c => [c]))) ∧
    buildFilename root ((List.zipWith List.cons letters rest').map .name) = pathJoin root (fileName (letters.map (fun c => [c]))) := by
  have hfull : ∀ l : List (List Char), (l.map Elem.name).map Elem.full = l := by
    intro l
    rw [List.map_map]
    exact List.map_id _
  have hshort : ∀ r : List (List Char), r.length = letters.length →
      ((List.zipWith List.cons letters r).map Elem.name).map Elem.short = letters.map (fun c => [c]) := by
    intro r hr
    clear h h' hs hl hl'
    induction letters generalizing r with
    | nil => rfl
    | cons c letters ih =>
      cases r with
      | nil => simp at hr
      | cons x r =>
        have := ih r (by simpa using hr)
        simp only [List.zipWith_cons_cons, List.map_cons, this]
        rfl
  have hb : ∀ r : List (List Char), r.length = letters.length → 255 < (pathJoin root (fileName (List.zipWith List.cons letters r))).length →
      buildFilename root ((List.zipWith List.cons letters r).map .name) = pathJoin root (fileName (letters.map (fun c => [c]))) := by
    intro r hr hlen
    unfold buildFilename
    rw [hfull, hshort r hr, if_pos hlen, if_neg (by omega)]
  exact ⟨hb rest hl h, hb rest' hl' h'⟩

example : buildFilename (List.replicate 235 'r') [.name "ASCAT_H119".toList, .name "ISMN".toList] =
    buildFilename (List.replicate 235 'r') [.name "AMSR2_LPRM".toList, .name "ISMN_v2".toList] :=
  have h := initials_collide (List.replicate 235 'r') "AI".toList ["SCAT_H119".toList, "SMN".toList] ["MSR2_LPRM".toList, "SMN_v2".toList] rfl rfl
    (by decide +kernel) (by decide +kernel) (by decide +kernel)
  h.1.trans h.2.symm

/-- **C34, negation.** All keys whose data set names are too long as well share the file `validation.nc`. -/
theorem fallback_collides (root : List Char) (key key' : List Elem)
    (h : 255 < (pathJoin root (fileName (key.map Elem.full))).length) (h2 : 255 < (pathJoin root (fileName (key.map Elem.short))).length)
    (h' : 255 < (pathJoin root (fileName (key'.map Elem.full))).length) (h2' : 255 < (pathJoin root (fileName (key'.map Elem.short))).length) :
    buildFilename root key = buildFilename root key' := by
  unfold buildFilename
  rw [if_pos h, if_pos h2, if_pos h', if_pos h2']

/-- **C34, negation.** Names that contain (a part of) the separator. -/
theorem separator_collides :
    buildFilename "out".toList [.pair "A".toList "x_with".toList, .pair "B".toList "y".toList] =
      buildFilename "out".toList [.pair "A".toList "x".toList, .pair "with_B".toList "y".toList] := by decide +kernel

/-- **C34, negation.** Names that contain a dot. -/
theorem dot_collides :
    buildFilename "out".toList [.pair "C3S".toList "v1.sm".toList] = buildFilename "out".toList [.pair "C3S.v1".toList "sm".toList] := by
  decide +kernel

end Verif.Results
