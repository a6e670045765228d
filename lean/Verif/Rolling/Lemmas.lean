import Verif.Pairwise.Props
import Verif.Rolling.Model
import Verif.Rolling.Spec

namespace Verif.Rolling

open Verif.Moments Verif.Pairwise

/-- `scan` stops at the first index fulfilling the condition. -/
theorem scan_first (cond : ℕ → Prop) [DecidablePred cond] (a k v m : ℕ) (ham : a ≤ m) (hmk : m < a + k) (hm : cond m)
    (hlt : ∀ j, a ≤ j → j < m → ¬ cond j) : scan cond v (List.range' a k) = m := by
  induction k generalizing a v with
  | zero => omega
  | succ k ih =>
    rw [List.range'_succ]
    unfold scan
    by_cases ha : cond a
    · rw [if_pos ha]
      by_contra hne
      exact hlt a le_rfl (by omega) ha
    · rw [if_neg ha]
      have : a ≠ m := by rintro rfl; exact ha hm
      exact ih (a + 1) a (by omega) (by omega) (fun j h1 h2 => hlt j (by omega) h2)

/-- Selecting a contiguous block of `range n`. -/
theorem filter_range_block (p : ℕ → Bool) (n lo hi : ℕ) (h : lo ≤ hi) (hn : hi ≤ n)
    (hp : ∀ j, j < n → (p j = true ↔ lo ≤ j ∧ j < hi)) : (List.range n).filter p = List.range' lo (hi - lo) := by
  have e : List.range n = List.range' 0 lo ++ (List.range' lo (hi - lo) ++ List.range' hi (n - hi)) := by
    rw [List.range_eq_range']
    have h1 := List.range'_append_1 (s := lo) (m := hi - lo) (n := n - hi)
    rw [show lo + (hi - lo) = hi by omega] at h1
    rw [h1]
    have h2 := List.range'_append_1 (s := 0) (m := lo) (n := hi - lo + (n - hi))
    rw [Nat.zero_add] at h2
    rw [h2]
    congr 1
    omega
  rw [e, List.filter_append, List.filter_append]
  have f1 : (List.range' 0 lo).filter p = [] := by
    rw [List.filter_eq_nil_iff]
    intro j hj
    rw [List.mem_range'_1] at hj
    rw [hp j (by omega)]; omega
  have f2 : (List.range' lo (hi - lo)).filter p = List.range' lo (hi - lo) := by
    rw [List.filter_eq_self]
    intro j hj
    rw [List.mem_range'_1] at hj
    rw [hp j (by omega)]; omega
  have f3 : (List.range' hi (n - hi)).filter p = [] := by
    rw [List.filter_eq_nil_iff]
    intro j hj
    rw [List.mem_range'_1] at hj
    rw [hp j (by omega)]; omega
  rw [f1, f2, f3]; simp

/-- The running quantities describe the observations `l`. -/
structure RInv (l : List (ℝ × ℝ)) (s : Moments.State ℝ × ℝ) : Prop where
  mom : Inv l s.1
  msd : (l.length : ℝ) * s.2 = S l (fun p => (p.1 - p.2) ^ 2)

theorem RInv_add (l : List (ℝ × ℝ)) (s : Moments.State ℝ × ℝ) (p : ℝ × ℝ) (h : RInv l s) :
    RInv (l ++ [p]) (add s p) := by
  have h1 := Inv_step l s.1 p h.mom
  refine ⟨h1, ?_⟩
  have hn := h1.nobs
  simp only [List.length_append, List.length_cons, List.length_nil, zero_add, Nat.cast_add, Nat.cast_one] at hn
  have hn0 : ((l.length : ℝ) + 1) ≠ 0 := by positivity
  simp only [add]
  rw [hn]
  simp only [List.length_append, List.length_cons, List.length_nil, zero_add, Nat.cast_add, Nat.cast_one, S_append,
    S_cons, S_nil]
  rw [← h.msd]
  field_simp
  ring

theorem RInv_addAll (l m : List (ℝ × ℝ)) (s : Moments.State ℝ × ℝ) (h : RInv l s) :
    RInv (l ++ m) (m.foldl add s) := by
  induction m generalizing l s with
  | nil => simpa using h
  | cons p m ih =>
    have := ih (l ++ [p]) (add s p) (RInv_add l s p h)
    simpa using this

theorem RInv_remove (l : List (ℝ × ℝ)) (s : Moments.State ℝ × ℝ) (p : ℝ × ℝ) (h : RInv (p :: l) s) (hl : l ≠ []) :
    RInv l (remove s p) := by
  have hn0 : (l.length : ℝ) ≠ 0 := (len_pos l hl).ne'
  obtain ⟨⟨h1, h2, h3, h4, h5, h6⟩, h7⟩ := h
  simp only [List.length_cons, Nat.cast_add, Nat.cast_one, S_cons] at h1 h2 h3 h4 h5 h6 h7
  have hN : s.1.nobs - 1 = (l.length : ℝ) := by rw [h1]; ring
  have hmx : (remove s p).1.mx * (l.length : ℝ) = s.1.mx * ((l.length : ℝ) + 1) - p.1 := by
    simp only [remove, hN]; field_simp; ring
  have hmy : (remove s p).1.my * (l.length : ℝ) = s.1.my * ((l.length : ℝ) + 1) - p.2 := by
    simp only [remove, hN]; field_simp; ring
  have hmsd : (remove s p).2 * (l.length : ℝ) = s.2 * ((l.length : ℝ) + 1) - (p.1 - p.2) ^ 2 := by
    simp only [remove, hN]; field_simp; ring
  have e2x : (remove s p).1.M2x = s.1.M2x - (p.1 - s.1.mx) * (p.1 - (remove s p).1.mx) := rfl
  have e2y : (remove s p).1.M2y = s.1.M2y - (p.2 - s.1.my) * (p.2 - (remove s p).1.my) := rfl
  have eC : (remove s p).1.C = s.1.C - (p.1 - s.1.mx) * (p.2 - (remove s p).1.my) := rfl
  refine ⟨⟨?_, ?_, ?_, ?_, ?_, ?_⟩, ?_⟩
  · exact hN
  · linear_combination h2 + hmx
  · linear_combination h3 + hmy
  · rw [e2x, h4]
    linear_combination ((remove s p).1.mx + s.1.mx) * hmx
  · rw [e2y, h5]
    linear_combination ((remove s p).1.my + s.1.my) * hmy
  · rw [eC, h6]
    linear_combination (remove s p).1.my * hmx + s.1.mx * hmy
  · linear_combination h7 + hmsd

theorem RInv_removeAll (m l : List (ℝ × ℝ)) (s : Moments.State ℝ × ℝ) (h : RInv (m ++ l) s) (hl : l ≠ []) :
    RInv l (m.foldl remove s) := by
  induction m generalizing s with
  | nil => simpa using h
  | cons p m ih =>
    exact ih (remove s p) (RInv_remove (m ++ l) s p h (by simp [hl]))

/-- block of observations -/
def seg (d : ℕ → ℝ × ℝ) (lo hi : ℕ) : List (ℝ × ℝ) := (rangeAB lo hi).map d

theorem seg_append (d : ℕ → ℝ × ℝ) (a b c : ℕ) (h1 : a ≤ b) (h2 : b ≤ c) : seg d a b ++ seg d b c = seg d a c := by
  unfold seg rangeAB
  rw [← List.map_append]
  have := List.range'_append_1 (s := a) (m := b - a) (n := c - b)
  rw [show a + (b - a) = b by omega] at this
  rw [this]
  congr 2
  omega

theorem seg_length (d : ℕ → ℝ × ℝ) (a b : ℕ) : (seg d a b).length = b - a := by
  simp [seg, rangeAB]

/-- Value part of a round, for given old and new bounds. -/
theorem round_values (d : ℕ → ℝ × ℝ) (s : Moments.State ℝ × ℝ) (lo hi lo' hi' : ℕ) (h0 : RInv (seg d lo hi) s)
    (h1 : lo ≤ lo') (h2 : hi ≤ hi') (h3 : lo' < hi') (h4 : lo ≤ hi) :
    RInv (seg d lo' hi') ((seg d lo lo').foldl remove ((seg d hi hi').foldl add s)) := by
  have a1 := RInv_addAll _ (seg d hi hi') _ h0
  rw [seg_append d lo hi hi' h4 h2, ← seg_append d lo lo' hi' h1 h3.le] at a1
  apply RInv_removeAll _ _ _ a1
  intro hc
  have := seg_length d lo' hi'
  rw [hc] at this
  simp at this
  omega

/-- Outputs of a round from the invariant. -/
theorem out_values (betainc : ℝ → ℝ → ℝ → ℝ) (l : List (ℝ × ℝ)) (hl : l ≠ []) (s : Moments.State ℝ × ℝ) (h : RInv l s) :
    pearsonrFromMoments betainc s.1.M2x s.1.M2y s.1.C (l.length : ℤ) =
      (pearson l).map (fun r => (r, pvalue betainc r (l.length : ℝ))) ∧
    Real.sqrt s.2 = Real.sqrt (meanSqDiff l) := by
  have hn := len_pos (K := ℝ) l hl
  obtain ⟨v1, v2, v3⟩ := Inv_var h.mom hl
  constructor
  · rw [v1, v2, v3]
    obtain ⟨c1, _⟩ := pearsonr_from_moments_correct betainc l (l.length : ℝ) hn (l.length : ℤ)
    set q := pearsonrFromMoments betainc ((l.length : ℝ) * pvar (l.map Prod.fst))
      ((l.length : ℝ) * pvar (l.map Prod.snd)) ((l.length : ℝ) * pcov l) (l.length : ℤ) with hq
    rw [← c1]
    cases hqq : q with
    | none => simp
    | some rp =>
      obtain ⟨r, p⟩ := rp
      simp only [Option.map_some, Option.some.injEq, Prod.mk.injEq, true_and]
      -- the p-value is a function of r and n
      rw [hqq] at hq
      unfold pearsonrFromMoments at hq
      split at hq
      · simp at hq
      · simp only at hq
        split at hq
        · rename_i hR
          simp only [Option.some.injEq, Prod.mk.injEq] at hq
          rw [← hq.1] at hR
          unfold pvalue
          rw [if_pos hR, hq.2]
        · rename_i hR
          simp only [Option.some.injEq, Prod.mk.injEq] at hq
          rw [← hq.1] at hR
          obtain ⟨e1, e2⟩ := hq
          rw [← e1] at e2
          unfold pvalue
          rw [if_neg hR, e2]
          simp only [Int.cast_natCast]
  · congr 1
    unfold meanSqDiff
    rw [mean_map, eq_div_iff hn.ne', ← h.msd]; ring

/-- Sorted time stamps -/
def Sorted (ts : ℕ → ℝ) (n : ℕ) : Prop := ∀ a b, a ≤ b → b < n → ts a ≤ ts b

/-- Centred window: bounds after round `i`. -/
def CBounds (ts : ℕ → ℝ) (n : ℕ) (w : ℝ) (i lo hi : ℕ) : Prop :=
  lo ≤ i ∧ i < hi ∧ hi ≤ n ∧ (∀ j, j < n → (|ts j - ts i| ≤ w ↔ lo ≤ j ∧ j < hi))

/-- Trailing window. -/
def TBounds (ts : ℕ → ℝ) (n : ℕ) (w : ℝ) (i lo hi : ℕ) : Prop :=
  lo ≤ i ∧ hi = i + 1 ∧ hi ≤ n ∧ (∀ j, j < n → ((j ≤ i ∧ ts i - w < ts j) ↔ lo ≤ j ∧ j < hi))

open Classical in
theorem scan_lower (ts : ℕ → ℝ) (n i lo : ℕ) (c : ℝ → Prop) (hup : ∀ a b, a ≤ b → c a → c b)
    (hs : Sorted ts n) (hi : i < n) (hlo : lo ≤ i) (hb : ∀ j, j < lo → ¬ c (ts j)) (hc : c (ts i)) :
    ∃ m, scan (fun j => c (ts j)) lo (rangeAB lo n) = m ∧ lo ≤ m ∧ m ≤ i ∧ ∀ j, j < n → (c (ts j) ↔ m ≤ j) := by
  have hex : ∃ m, c (ts m) := ⟨i, hc⟩
  let m := Nat.find hex
  have hm : c (ts m) := Nat.find_spec hex
  have hmin : ∀ j, j < m → ¬ c (ts j) := fun j hj => Nat.find_min hex hj
  have hmi : m ≤ i := Nat.find_min' hex hc
  have hlom : lo ≤ m := by
    by_contra hcon
    exact hb m (by omega) hm
  refine ⟨m, ?_, hlom, hmi, ?_⟩
  · apply scan_first
    · exact hlom
    · omega
    · exact hm
    · intro j _ hj; exact hmin j hj
  · intro j hj
    constructor
    · intro h
      by_contra hcon
      exact hmin j (by omega) h
    · intro h
      exact hup _ _ (hs m j h hj) hm

theorem abs_iff (a b w : ℝ) : |a - b| ≤ w ↔ b - w ≤ a ∧ a ≤ b + w := by
  rw [abs_le]; constructor <;> rintro ⟨h1, h2⟩ <;> constructor <;> linarith

theorem bounds_center (ts : ℕ → ℝ) (n : ℕ) (w : ℝ) (hw : 0 ≤ w) (hs : Sorted ts n) (i lo hi : ℕ) (hin : i < n)
    (hprev : (i = 0 ∧ lo = 0 ∧ hi = 0) ∨ (∃ i', i = i' + 1 ∧ CBounds ts n w i' lo hi)) :
    CBounds ts n w i (bounds ts n w true i lo hi).1 (bounds ts n w true i lo hi).2 ∧
    lo ≤ (bounds ts n w true i lo hi).1 ∧ hi ≤ (bounds ts n w true i lo hi).2 ∧ lo ≤ hi := by
  -- facts about the previous bounds
  have hlo : lo ≤ i ∧ (∀ j, j < lo → ¬ (ts j ≥ ts i - w)) ∧ hi ≤ n ∧ (∀ j, j < hi → ts j ≤ ts i + w) ∧ lo ≤ hi ∧
      (i ≠ 0 → 0 < hi) := by
    rcases hprev with ⟨rfl, rfl, rfl⟩ | ⟨i', rfl, c1, c2, c3, c4⟩
    · refine ⟨le_rfl, fun j hj => absurd hj (by omega), by omega, fun j hj => absurd hj (by omega), le_rfl, fun h => absurd rfl h⟩
    · have hii : ts i' ≤ ts (i' + 1) := hs _ _ (by omega) hin
      refine ⟨by omega, ?_, c3, ?_, by omega, fun _ => by omega⟩
      · intro j hj hcon
        have hjn : j < n := by omega
        have := (c4 j hjn).mp (by
          rw [abs_iff]
          have h1 := hs j i' (by omega) (by omega)
          constructor <;> linarith)
        omega
      · intro j hj
        by_cases hjl : lo ≤ j
        · have := (abs_iff _ _ _).mp ((c4 j (by omega)).mpr ⟨hjl, hj⟩)
          linarith [this.2]
        · have h1 := hs j i' (by omega) (by omega)
          linarith
  obtain ⟨l1, l2, l3, l4, l5, l6⟩ := hlo
  obtain ⟨m, hm1, hm2, hm3, hm4⟩ := scan_lower ts n i lo (fun v => v ≥ ts i - w)
    (fun a b hab h => by simp only [ge_iff_le] at *; linarith) hs hin l1 l2 (by simp only [ge_iff_le]; linarith)
  have e1 : (bounds ts n w true i lo hi).1 = m := by
    unfold bounds; simp only [if_true]; rw [← hm1]
  -- the upper bound
  have hupper : ∃ u, (bounds ts n w true i lo hi).2 = u ∧ hi ≤ u ∧ u ≤ n ∧ i < u ∧
      ∀ j, j < n → (ts j ≤ ts i + w ↔ j < u) := by
    by_cases hlast : ts (n - 1) > ts i + w
    · have hex : ∃ u, ts u > ts i + w := ⟨n - 1, hlast⟩
      classical
      let u := Nat.find hex
      have hu : ts u > ts i + w := Nat.find_spec hex
      have hmin : ∀ j, j < u → ¬ ts j > ts i + w := fun j hj => Nat.find_min hex hj
      have hun : u ≤ n - 1 := Nat.find_min' hex hlast
      have hiu : i < u := by
        by_contra hcon
        have := hs u i (by omega) hin
        linarith
      have hhu : hi ≤ u := by
        by_contra hcon
        have := l4 u (by omega)
        linarith
      refine ⟨u, ?_, hhu, by omega, hiu, ?_⟩
      · unfold bounds
        simp only [if_true]
        rw [if_pos hlast]
        have := scan_first (fun j => ts j > ts i + w) (if i = 0 then 1 else hi - 1)
          (n - (if i = 0 then 1 else hi - 1)) ((if i = 0 then 1 else hi - 1) + 1) u
          (by split <;> omega) (by split <;> omega) hu (fun j _ hj => hmin j hj)
        rw [← this]
        unfold rangeAB
        congr
      · intro j hj
        constructor
        · intro h
          by_contra hcon
          have := hs u j (by omega) hj
          linarith
        · intro h
          exact not_lt.mp (hmin j h)
    · refine ⟨n, ?_, l3, le_rfl, hin, ?_⟩
      · unfold bounds
        simp only [if_true]
        rw [if_neg hlast]
      · intro j hj
        refine ⟨fun _ => hj, fun _ => ?_⟩
        have := hs j (n - 1) (by omega) (by omega)
        rw [not_lt] at hlast
        linarith
  obtain ⟨u, hu1, hu2, hu3, hu4, hu5⟩ := hupper
  rw [e1, hu1]
  refine ⟨⟨hm3, hu4, hu3, ?_⟩, hm2, hu2, l5⟩
  intro j hj
  rw [abs_iff, ← hm4 j hj, ← hu5 j hj]

theorem bounds_trailing (ts : ℕ → ℝ) (n : ℕ) (w : ℝ) (hw : 0 < w) (hs : Sorted ts n) (i lo hi : ℕ) (hin : i < n)
    (hprev : (i = 0 ∧ lo = 0 ∧ hi = 0) ∨ (∃ i', i = i' + 1 ∧ TBounds ts n w i' lo hi)) :
    TBounds ts n w i (bounds ts n w false i lo hi).1 (bounds ts n w false i lo hi).2 ∧
    lo ≤ (bounds ts n w false i lo hi).1 ∧ hi ≤ (bounds ts n w false i lo hi).2 ∧ lo ≤ hi := by
  have hlo : lo ≤ i ∧ (∀ j, j < lo → ¬ (ts j > ts i - w)) ∧ hi ≤ i + 1 ∧ lo ≤ hi := by
    rcases hprev with ⟨rfl, rfl, rfl⟩ | ⟨i', rfl, c1, c2, c3, c4⟩
    · exact ⟨le_rfl, fun j hj => absurd hj (by omega), by omega, le_rfl⟩
    · have hii : ts i' ≤ ts (i' + 1) := hs _ _ (by omega) hin
      refine ⟨by omega, ?_, by omega, by omega⟩
      intro j hj hcon
      have := (c4 j (by omega)).mp ⟨by omega, by linarith⟩
      omega
  obtain ⟨l1, l2, l3, l4⟩ := hlo
  obtain ⟨m, hm1, hm2, hm3, hm4⟩ := scan_lower ts n i lo (fun v => v > ts i - w)
    (fun a b hab h => by simp only [gt_iff_lt] at *; linarith) hs hin l1 l2 (by simp only [gt_iff_lt]; linarith)
  have e1 : (bounds ts n w false i lo hi).1 = m := by
    unfold bounds; simp only [Bool.false_eq_true, if_false]; rw [← hm1]
  have e2 : (bounds ts n w false i lo hi).2 = i + 1 := by
    unfold bounds; simp only [Bool.false_eq_true, if_false]
  rw [e1, e2]
  refine ⟨⟨hm3, rfl, by omega, ?_⟩, hm2, l3, l4⟩
  intro j hj
  have := hm4 j hj
  simp only [gt_iff_lt] at this
  rw [this]; omega

end Verif.Rolling
