import Mathlib.Tactic.Linarith
import Mathlib.Tactic.Ring
import Mathlib.Tactic.FieldSimp
import Mathlib.Tactic.Positivity
import Mathlib.Data.List.GetD
import Verif.Cdf.Model
import Verif.Common.ListAux

/-! Lemmas on piecewise linear functions and percentiles. -/

set_option linter.unusedSectionVars false

namespace Verif.Cdf

variable {K : Type} [Field K] [LinearOrder K] [IsStrictOrderedRing K]

/-- abscissas strictly increasing -/
def IncX (l : List (K × K)) : Prop := l.Pairwise (fun p q => p.1 < q.1)
/-- ordinates increasing -/
def MonoY (l : List (K × K)) : Prop := l.Pairwise (fun p q => p.2 ≤ q.2)
/-- ordinates strictly increasing -/
def IncY (l : List (K × K)) : Prop := l.Pairwise (fun p q => p.2 < q.2)

theorem increasing_iff (l : List (K × K)) : increasing l = true ↔ IncX l := by
  unfold IncX
  induction l with
  | nil => simp [increasing]
  | cons p l ih =>
    cases l with
    | nil => simp [increasing]
    | cons q l =>
      simp only [increasing, Bool.and_eq_true, decide_eq_true_eq, ih]
      rw [List.pairwise_cons (a := p)]
      constructor
      · rintro ⟨h1, h2⟩
        refine ⟨?_, h2⟩
        intro b hb
        rcases List.mem_cons.mp hb with rfl | hb
        · exact h1
        · exact h1.trans ((List.pairwise_cons.mp h2).1 b hb)
      · rintro ⟨h1, h2⟩
        exact ⟨h1 q (by simp), h2⟩

theorem line_left (p q : K × K) : line p q p.1 = p.2 := by simp [line]

theorem line_right (p q : K × K) (h : p.1 < q.1) : line p q q.1 = q.2 := by
  have : q.1 - p.1 ≠ 0 := (sub_pos.mpr h).ne'
  unfold line
  field_simp
  ring

theorem line_mono (p q : K × K) (h : p.1 < q.1) (hy : p.2 ≤ q.2) (x y : K) (hxy : x ≤ y) : line p q x ≤ line p q y := by
  unfold line
  have : 0 ≤ (q.2 - p.2) / (q.1 - p.1) := div_nonneg (sub_nonneg.mpr hy) (sub_pos.mpr h).le
  nlinarith

theorem line_strictMono (p q : K × K) (h : p.1 < q.1) (hy : p.2 < q.2) (x y : K) (hxy : x < y) :
    line p q x < line p q y := by
  unfold line
  have : 0 < (q.2 - p.2) / (q.1 - p.1) := div_pos (sub_pos.mpr hy) (sub_pos.mpr h)
  nlinarith

theorem line_id (p q : K × K) (h : p.1 < q.1) (hp : p.1 = p.2) (hq : q.1 = q.2) (x : K) : line p q x = x := by
  unfold line
  rw [← hp, ← hq, div_self (sub_pos.mpr h).ne']
  ring

/-- the value at the first knot -/
theorem pwl_first (p : K × K) (l : List (K × K)) (h : IncX (p :: l)) : pwl (p :: l) p.1 = p.2 := by
  cases l with
  | nil => rfl
  | cons q l =>
    have hpq : p.1 < q.1 := (List.pairwise_cons.mp h).1 q (by simp)
    simp only [pwl]
    rw [if_pos (by simp [hpq.le]), line_left]

/-- the knots are interpolated -/
theorem pwl_knot (l : List (K × K)) (h : IncX l) (k : K × K) (hk : k ∈ l) : pwl l k.1 = k.2 := by
  induction l with
  | nil => simp at hk
  | cons p l ih =>
    rcases List.mem_cons.mp hk with rfl | hk
    · exact pwl_first _ _ h
    · cases l with
      | nil => simp at hk
      | cons q l =>
        have hpq : p.1 < q.1 := (List.pairwise_cons.mp h).1 q (by simp)
        have hl := (List.pairwise_cons.mp h).2
        simp only [pwl]
        by_cases hc : k.1 ≤ q.1
        · have : k = q := by
            rcases List.mem_cons.mp hk with rfl | hk
            · rfl
            · exact absurd ((List.pairwise_cons.mp hl).1 k hk) (not_lt.mpr hc)
          subst this
          rw [if_pos (by simp), line_right _ _ hpq]
        · have hne : l.isEmpty = false := by
            cases l with
            | nil =>
              rcases List.mem_cons.mp hk with rfl | hk
              · exact absurd le_rfl hc
              · simp at hk
            | cons => rfl
          rw [if_neg (by simp [hne, hc])]
          exact ih hl hk

theorem pwl_mono (l : List (K × K)) (h : IncX l) (hy : MonoY l) (x y : K) (hxy : x ≤ y) : pwl l x ≤ pwl l y := by
  induction l generalizing x y with
  | nil => exact le_rfl
  | cons p l ih =>
    cases l with
    | nil => exact le_rfl
    | cons q l =>
      have hpq : p.1 < q.1 := (List.pairwise_cons.mp h).1 q (by simp)
      have hpq2 : p.2 ≤ q.2 := (List.pairwise_cons.mp hy).1 q (by simp)
      have hl := (List.pairwise_cons.mp h).2
      have hly := (List.pairwise_cons.mp hy).2
      simp only [pwl]
      by_cases he : l.isEmpty = true
      · simp only [he, Bool.true_or, if_true]
        exact line_mono p q hpq hpq2 x y hxy
      · simp only [he, Bool.false_or, decide_eq_true_eq]
        by_cases h1 : y ≤ q.1
        · rw [if_pos h1, if_pos (hxy.trans h1)]
          exact line_mono p q hpq hpq2 x y hxy
        · rw [if_neg h1]
          by_cases h2 : x ≤ q.1
          · rw [if_pos h2]
            calc line p q x ≤ line p q q.1 := line_mono p q hpq hpq2 x q.1 h2
              _ = q.2 := line_right p q hpq
              _ = pwl (q :: l) q.1 := (pwl_first q l hl).symm
              _ ≤ pwl (q :: l) y := ih hl hly _ _ (not_le.mp h1).le
          · rw [if_neg h2]
            exact ih hl hly _ _ hxy

theorem pwl_strictMono (l : List (K × K)) (h : IncX l) (hy : IncY l) (hlen : 2 ≤ l.length) (x y : K) (hxy : x < y) :
    pwl l x < pwl l y := by
  induction l generalizing x y with
  | nil => simp at hlen
  | cons p l ih =>
    cases l with
    | nil => simp at hlen
    | cons q l =>
      have hpq : p.1 < q.1 := (List.pairwise_cons.mp h).1 q (by simp)
      have hpq2 : p.2 < q.2 := (List.pairwise_cons.mp hy).1 q (by simp)
      have hl := (List.pairwise_cons.mp h).2
      have hly := (List.pairwise_cons.mp hy).2
      simp only [pwl]
      cases l with
      | nil =>
        simp only [List.isEmpty_nil, Bool.true_or, if_true]
        exact line_strictMono p q hpq hpq2 x y hxy
      | cons r l =>
        simp only [List.isEmpty_cons, Bool.false_or, decide_eq_true_eq]
        have ih' := ih hl hly (by simp)
        by_cases h1 : y ≤ q.1
        · rw [if_pos h1, if_pos (hxy.le.trans h1)]
          exact line_strictMono p q hpq hpq2 x y hxy
        · rw [if_neg h1]
          by_cases h2 : x ≤ q.1
          · rw [if_pos h2]
            calc line p q x ≤ line p q q.1 := line_mono p q hpq hpq2.le x q.1 h2
              _ = q.2 := line_right p q hpq
              _ = pwl (q :: r :: l) q.1 := (pwl_first q (r :: l) hl).symm
              _ < pwl (q :: r :: l) y := ih' _ _ (not_le.mp h1)
          · rw [if_neg h2]
            exact ih' _ _ hxy

theorem pwl_id (l : List (K × K)) (h : IncX l) (hy : ∀ k ∈ l, k.1 = k.2) (hlen : 2 ≤ l.length) (x : K) : pwl l x = x := by
  induction l with
  | nil => simp at hlen
  | cons p l ih =>
    cases l with
    | nil => simp at hlen
    | cons q l =>
      have hpq : p.1 < q.1 := (List.pairwise_cons.mp h).1 q (by simp)
      simp only [pwl]
      split
      · exact line_id p q hpq (hy p (by simp)) (hy q (by simp)) x
      · rename_i hc
        have : 2 ≤ (q :: l).length := by
          cases l with
          | nil => simp at hc
          | cons => simp
        exact ih (List.pairwise_cons.mp h).2 (fun k hk => hy k (List.mem_cons_of_mem _ hk)) this

theorem head?_mem {α : Type} {l : List α} {a : α} (h : l.head? = some a) : a ∈ l := List.mem_of_head? h

/-- `npInterp` is monotone -/
theorem npInterp_mono (l : List (K × K)) (h : IncX l) (hy : MonoY l) (left right : K)
    (hl : ∀ k ∈ l, left ≤ k.2) (hr : ∀ k ∈ l, k.2 ≤ right) (x y : K) (hxy : x ≤ y) :
    npInterp l left right x ≤ npInterp l left right y := by
  unfold npInterp
  cases ha : l.head? with
  | none => cases l.getLast? <;> exact le_rfl
  | some a =>
    cases hb : l.getLast? with
    | none => exact le_rfl
    | some b =>
      simp only
      have ma := List.mem_of_head? ha
      have mb := List.mem_of_getLast? hb
      have hva : pwl l a.1 = a.2 := pwl_knot l h a ma
      have hvb : pwl l b.1 = b.2 := pwl_knot l h b mb
      have hab : left ≤ right := (hl a ma).trans (hr a ma)
      by_cases h1 : x < a.1
      · rw [if_pos h1]
        split
        · exact le_rfl
        · rename_i h2
          split
          · exact hab
          · calc left ≤ a.2 := hl a ma
              _ = pwl l a.1 := hva.symm
              _ ≤ pwl l y := pwl_mono l h hy _ _ (not_lt.mp h2)
      · rw [if_neg h1, if_neg (not_lt.mpr ((not_lt.mp h1).trans hxy))]
        by_cases h2 : b.1 < x
        · rw [if_pos h2, if_pos (h2.trans_le hxy)]
        · rw [if_neg h2]
          split
          · calc pwl l x ≤ pwl l b.1 := pwl_mono l h hy _ _ (not_lt.mp h2)
              _ = b.2 := hvb
              _ ≤ right := hr b mb
          · exact pwl_mono l h hy _ _ hxy

/-- `npInterp` stays between `left` and `right` -/
theorem npInterp_range (l : List (K × K)) (h : IncX l) (hy : MonoY l) (left right : K) (hne : l ≠ [])
    (hl : ∀ k ∈ l, left ≤ k.2) (hr : ∀ k ∈ l, k.2 ≤ right) (x : K) :
    left ≤ npInterp l left right x ∧ npInterp l left right x ≤ right := by
  obtain ⟨a, ha⟩ : ∃ a, l.head? = some a := by
    cases l with
    | nil => exact absurd rfl hne
    | cons a l => exact ⟨a, rfl⟩
  obtain ⟨b, hb⟩ : ∃ b, l.getLast? = some b := ⟨_, List.getLast?_eq_some_getLast hne⟩
  have ma := List.mem_of_head? ha
  have mb := List.mem_of_getLast? hb
  unfold npInterp
  simp only [ha, hb]
  have hab : left ≤ right := (hl a ma).trans (hr a ma)
  split
  · exact ⟨le_rfl, hab⟩
  · rename_i h1
    split
    · exact ⟨hab, le_rfl⟩
    · rename_i h2
      constructor
      · calc left ≤ a.2 := hl a ma
          _ = pwl l a.1 := (pwl_knot l h a ma).symm
          _ ≤ pwl l x := pwl_mono l h hy _ _ (not_lt.mp h1)
      · calc pwl l x ≤ pwl l b.1 := pwl_mono l h hy _ _ (not_lt.mp h2)
          _ = b.2 := pwl_knot l h b mb
          _ ≤ right := hr b mb

/-! #### Ranks and percentiles -/

theorem ranks_mem (data : List K) (k : K × K) (hk : k ∈ ranks data) : k.2 ∈ data := by
  unfold ranks at hk
  obtain ⟨v, hv, rfl⟩ := List.mem_map.mp hk
  obtain ⟨a, i⟩ := v
  exact (List.mem_zipIdx hv).2.2 ▸ List.getElem_mem _

theorem ranks_pairwise (data : List K) (hs : data.Pairwise (· ≤ ·)) :
    IncX (ranks data) ∧ MonoY (ranks data) := by
  have hp : data.zipIdx.Pairwise (fun u v => u.2 < v.2 ∧ u.1 ≤ v.1) := by
    rw [List.pairwise_iff_getElem]
    intro i j hi hj hij
    simp only [List.getElem_zipIdx, Nat.zero_add]
    exact ⟨hij, (List.pairwise_iff_getElem.mp hs) i j _ _ hij⟩
  unfold ranks IncX MonoY
  constructor
  · rw [List.pairwise_map]
    refine hp.imp_of_mem ?_
    intro u v hu _ huv
    have hpos : 0 < data.length := by
      cases data with
      | nil => simp at hu
      | cons => simp
    have hn : (0 : K) < (data.length : K) := by exact_mod_cast hpos
    have : (u.2 : K) < (v.2 : K) := by exact_mod_cast huv.1
    simp only
    rw [div_lt_div_iff_of_pos_right hn]
    linarith
  · rw [List.pairwise_map]
    exact hp.imp (fun h => h.2)

theorem sorted_head_le (data : List K) (hs : data.Pairwise (· ≤ ·)) (a : K) (ha : data.head? = some a) (v : K) (hv : v ∈ data) :
    a ≤ v := by
  cases data with
  | nil => simp at hv
  | cons b l =>
    simp at ha
    subst ha
    rcases List.mem_cons.mp hv with rfl | hv
    · exact le_rfl
    · exact (List.pairwise_cons.mp hs).1 v hv

theorem sorted_le_last (data : List K) (hs : data.Pairwise (· ≤ ·)) (b : K) (hb : data.getLast? = some b) (v : K) (hv : v ∈ data) :
    v ≤ b := by
  have hne : data ≠ [] := List.ne_nil_of_mem hv
  obtain ⟨i, hi, rfl⟩ := List.mem_iff_getElem.mp hv
  rw [List.getLast?_eq_some_getLast hne] at hb
  simp at hb
  rw [← hb, List.getLast_eq_getElem]
  rcases Nat.lt_or_ge i (data.length - 1) with h | h
  · exact (List.pairwise_iff_getElem.mp hs) i _ hi (by omega) h
  · have : i = data.length - 1 := by omega
    simp [this]

/-- `matlabPercentiles` of sorted data is sorted, stays in the range of the data and has one value per percentile. -/
theorem matlab_sorted (data percentiles out : List K) (hs : data.Pairwise (· ≤ ·)) (hp : percentiles.Pairwise (· < ·))
    (h : matlabPercentiles data percentiles = .ok out) :
    out.Pairwise (· ≤ ·) ∧ out.length = percentiles.length ∧
      (∀ a b, data.head? = some a → data.getLast? = some b → ∀ v ∈ out, a ≤ v ∧ v ≤ b) := by
  unfold matlabPercentiles at h
  cases ha : data.head? with
  | none => rw [ha] at h; cases data.getLast? <;> simp at h
  | some a =>
    cases hb : data.getLast? with
    | none => rw [ha, hb] at h; simp at h
    | some b =>
      rw [ha, hb] at h
      simp only [Except.ok.injEq] at h
      subst h
      obtain ⟨hx, hy⟩ := ranks_pairwise data hs
      have hl : ∀ k ∈ ranks data, a ≤ k.2 := fun k hk => sorted_head_le data hs a ha _ (ranks_mem data k hk)
      have hr : ∀ k ∈ ranks data, k.2 ≤ b := fun k hk => sorted_le_last data hs b hb _ (ranks_mem data k hk)
      have hne : ranks data ≠ [] := by
        cases data with
        | nil => simp at ha
        | cons c l => simp [ranks]
      refine ⟨?_, by simp, ?_⟩
      · rw [List.pairwise_map]
        exact hp.imp (fun h => npInterp_mono _ hx hy a b hl hr _ _ h.le)
      · intro a' b' ha' hb' v hv
        simp at ha' hb'
        subst ha' hb'
        obtain ⟨x, _, rfl⟩ := List.mem_map.mp hv
        exact npInterp_range _ hx hy _ _ hne hl hr x

/-! #### Distinct percentiles -/

theorem npUnique_inc (perc : List K) : (npUnique perc).Pairwise (· < ·) := by
  unfold npUnique
  have h1 : (perc.dedup.insertionSort (· ≤ ·)).Pairwise (· ≤ ·) := List.pairwise_insertionSort _ _
  have h2 : (perc.dedup.insertionSort (· ≤ ·)).Nodup := (List.perm_insertionSort _ _).nodup_iff.mpr (List.nodup_dedup _)
  exact (h1.and h2).imp (fun h => lt_of_le_of_ne h.1 h.2)

theorem mem_npUnique (perc : List K) (v : K) : v ∈ npUnique perc ↔ v ∈ perc := by
  unfold npUnique; rw [List.mem_insertionSort, List.mem_dedup]

theorem npUnique_length_le (perc : List K) : (npUnique perc).length ≤ perc.length := by
  unfold npUnique
  rw [List.length_insertionSort]
  exact (List.dedup_sublist _).length_le

/-- as many distinct values as values: strictly increasing already -/
theorem strict_of_unique_length (perc : List K) (hs : perc.Pairwise (· ≤ ·)) (h : (npUnique perc).length = perc.length) :
    perc.Pairwise (· < ·) := by
  have hd : perc.dedup = perc := (List.dedup_sublist perc).eq_of_length (by
    unfold npUnique at h; rwa [List.length_insertionSort] at h)
  have hn : perc.Nodup := by rw [← hd]; exact List.nodup_dedup _
  exact (hs.and hn).imp (fun h => lt_of_le_of_ne h.1 h.2)

theorem unique_length_of_strict (perc : List K) (hs : perc.Pairwise (· < ·)) : (npUnique perc).length = perc.length := by
  have hn : perc.Nodup := hs.imp (fun h => h.ne)
  unfold npUnique
  rw [List.length_insertionSort, hn.dedup]

theorem idxOf_lt_of_lt (perc : List K) (hs : perc.Pairwise (· ≤ ·)) (v w : K) (hv : v ∈ perc) (hw : w ∈ perc) (h : v < w) :
    perc.idxOf v < perc.idxOf w := by
  have iv : perc.idxOf v < perc.length := List.idxOf_lt_length_iff.mpr hv
  have iw : perc.idxOf w < perc.length := List.idxOf_lt_length_iff.mpr hw
  by_contra hc
  have hle : perc.idxOf w ≤ perc.idxOf v := not_lt.mp hc
  have e1 : perc[perc.idxOf v] = v := List.getElem_idxOf iv
  have e2 : perc[perc.idxOf w] = w := List.getElem_idxOf iw
  rcases hle.eq_or_lt with he | hlt
  · have : w = v := by rw [← e1, ← e2]; simp [he]
    exact absurd this h.ne'
  · have := (List.pairwise_iff_getElem.mp hs) _ _ iw iv hlt
    rw [e1, e2] at this
    exact absurd this (not_le.mpr h)

theorem setLastX_length (p : K) (l : List (K × K)) : (setLastX p l).length = l.length := by
  induction l with
  | nil => rfl
  | cons a l ih =>
    cases l with
    | nil => rfl
    | cons b l => simp only [setLastX, List.length_cons] at ih ⊢; omega

theorem setLastX_snd (p : K) (l : List (K × K)) : (setLastX p l).map Prod.snd = l.map Prod.snd := by
  induction l with
  | nil => rfl
  | cons a l ih =>
    cases l with
    | nil => rfl
    | cons b l => simp only [setLastX, List.map_cons] at ih ⊢; rw [ih]

/-- the last knot after the replacement -/
theorem setLastX_last (p : K) (l : List (K × K)) (hne : l ≠ []) :
    (p, (l.getLast hne).2) ∈ setLastX p l := by
  induction l with
  | nil => exact absurd rfl hne
  | cons a l ih =>
    cases l with
    | nil => simp [setLastX]
    | cons b l =>
      simp only [setLastX]
      rw [List.getLast_cons (by simp)]
      exact List.mem_cons_of_mem _ (ih (by simp))

theorem setLastX_incX (p : K) (l : List (K × K)) (h : IncX l) (hp : ∀ k ∈ l, k.1 ≤ p) :
    IncX (setLastX p l) ∧ ∀ k ∈ setLastX p l, k.1 ≤ p := by
  induction l with
  | nil => exact ⟨h, hp⟩
  | cons a l ih =>
    cases l with
    | nil =>
      refine ⟨List.pairwise_singleton _ _, ?_⟩
      intro k hk
      simp [setLastX] at hk
      subst hk; exact le_rfl
    | cons b l =>
      obtain ⟨h1, h2⟩ := List.pairwise_cons.mp h
      obtain ⟨i1, i2⟩ := ih h2 (fun k hk => hp k (List.mem_cons_of_mem _ hk))
      simp only [setLastX]
      constructor
      · refine List.pairwise_cons.mpr ⟨?_, i1⟩
        intro k hk
        -- abscissas of the changed list are old ones or `p`
        have : ∀ (m : List (K × K)), ∀ k ∈ setLastX p m, k.1 = p ∨ ∃ k' ∈ m, k.1 = k'.1 := by
          intro m
          induction m with
          | nil => simp [setLastX]
          | cons c m ihm =>
            cases m with
            | nil => intro k hk; simp [setLastX] at hk; subst hk; exact Or.inl rfl
            | cons d m =>
              intro k hk
              simp only [setLastX] at hk
              rcases List.mem_cons.mp hk with rfl | hk
              · exact Or.inr ⟨_, by simp, rfl⟩
              · rcases ihm k hk with h | ⟨k', hk', he⟩
                · exact Or.inl h
                · exact Or.inr ⟨k', List.mem_cons_of_mem _ hk', he⟩
        rcases this _ k hk with he | ⟨k', hk', he⟩
        · rw [he]
          exact (h1 b (by simp)).trans_le (hp b (by simp))
        · rw [he]; exact h1 k' hk'
      · intro k hk
        rcases List.mem_cons.mp hk with rfl | hk
        · exact hp _ (by simp)
        · exact i2 k hk

theorem getD_lt (l : List K) (h : l.Pairwise (· < ·)) (i j : ℕ) (hij : i < j) (hj : j < l.length) : l.getD i 0 < l.getD j 0 := by
  rw [List.getD_eq_getElem _ _ (by omega), List.getD_eq_getElem _ _ hj]
  exact (List.pairwise_iff_getElem.mp h) i j (by omega) hj hij

theorem getD_le_last (l : List K) (h : l.Pairwise (· < ·)) (i : ℕ) (hi : i < l.length) : l.getD i 0 ≤ l.getLastD 0 := by
  have hne : l ≠ [] := by rintro rfl; simp at hi
  rw [List.getD_eq_getElem _ _ hi, List.getLastD_eq_getLast?, List.getLast?_eq_some_getLast hne, Option.getD_some,
    List.getLast_eq_getElem]
  rcases Nat.lt_or_ge i (l.length - 1) with h' | h'
  · exact ((List.pairwise_iff_getElem.mp h) i _ hi (by omega) h').le
  · have : i = l.length - 1 := by omega
    simp [this]

/-- the knots used for ties: abscissas and ordinates strictly increasing -/
theorem tie_knots (perc percentiles : List K) (hs : perc.Pairwise (· ≤ ·)) (hp : percentiles.Pairwise (· < ·))
    (hlen : perc.length = percentiles.length) :
    let knots := setLastX (percentiles.getLastD 0) ((npUnique perc).map (fun v => (percentiles.getD (perc.idxOf v) 0, v)))
    IncX knots ∧ IncY knots ∧ knots.length = (npUnique perc).length := by
  intro knots
  have hx : IncX ((npUnique perc).map (fun v => (percentiles.getD (perc.idxOf v) 0, v))) := by
    unfold IncX
    rw [List.pairwise_map]
    refine (npUnique_inc perc).imp_of_mem ?_
    intro v w hv hw hvw
    have hv' := (mem_npUnique perc v).mp hv
    have hw' := (mem_npUnique perc w).mp hw
    exact getD_lt percentiles hp _ _ (idxOf_lt_of_lt perc hs v w hv' hw' hvw)
      (by rw [← hlen]; exact List.idxOf_lt_length_iff.mpr hw')
  refine ⟨(setLastX_incX _ _ hx ?_).1, ?_, ?_⟩
  · intro k hk
    obtain ⟨v, hv, rfl⟩ := List.mem_map.mp hk
    exact getD_le_last percentiles hp _ (by rw [← hlen]; exact List.idxOf_lt_length_iff.mpr ((mem_npUnique perc v).mp hv))
  · have : (knots.map Prod.snd).Pairwise (· < ·) := by
      rw [setLastX_snd, List.map_map]
      have : (Prod.snd ∘ fun v => (percentiles.getD (perc.idxOf v) 0, v)) = id := rfl
      rw [this, List.map_id]
      exact npUnique_inc perc
    rw [List.pairwise_map] at this
    exact this
  · rw [setLastX_length, List.length_map]

end Verif.Cdf
