import Verif.Rolling.FloatExact
import Mathlib.Tactic.Positivity
import Mathlib.Tactic.NormNum
import Mathlib.Tactic.Linarith

/-! C104: metrics of a window and what was in earlier windows: missing values and rounding. -/

namespace Verif.Rolling.Fl

open Verif.Rolling (scan rangeAB)

variable {K : Type} [Field K] [LinearOrder K]

/-! ## Missing values -/

theorem op_none_left (rnd : K → K) (f : K → K → K) (b : Option K) : op rnd f none b = none := by cases b <;> rfl
theorem op_none_right (rnd : K → K) (f : K → K → K) (a : Option K) : op rnd f a none = none := by cases a <;> rfl
theorem divN_none (rnd : K → K) (n : ℕ) : divN rnd (none : Option K) n = none := by unfold divN; split <;> rfl

/-- the variables that belong to `x` are NaN -/
def BadX (s : Sums K) : Prop := s.mx = none ∧ s.M2x = none ∧ s.C = none ∧ s.msd = none

/-- the variables that belong to `y` are NaN -/
def BadY (s : Sums K) : Prop := s.my = none ∧ s.M2y = none ∧ s.C = none ∧ s.msd = none

theorem BadX_add (rnd : K → K) (s : Sums K) (p : Option K × Option K) (h : BadX s ∨ p.1 = none) : BadX (add rnd s p) := by
  rcases h with ⟨h1, h2, h3, h4⟩ | h
  · refine ⟨?_, ?_, ?_, ?_⟩ <;> simp [add, h1, h2, h3, h4, op_none_left]
  · refine ⟨?_, ?_, ?_, ?_⟩ <;> simp [add, h, sqDiff, op_none_left, op_none_right, divN_none]

theorem BadY_add (rnd : K → K) (s : Sums K) (p : Option K × Option K) (h : BadY s ∨ p.2 = none) : BadY (add rnd s p) := by
  rcases h with ⟨h1, h2, h3, h4⟩ | h
  · refine ⟨?_, ?_, ?_, ?_⟩ <;> simp [add, h1, h2, h3, h4, op_none_left]
  · refine ⟨?_, ?_, ?_, ?_⟩ <;> simp [add, h, sqDiff, op_none_left, op_none_right, divN_none]

theorem BadX_remove (rnd : K → K) (s : Sums K) (p : Option K × Option K) (h : BadX s) : BadX (remove rnd s p) := by
  obtain ⟨h1, h2, h3, h4⟩ := h
  refine ⟨?_, ?_, ?_, ?_⟩ <;> simp [remove, h1, h2, h3, h4, op_none_left]

theorem BadY_remove (rnd : K → K) (s : Sums K) (p : Option K × Option K) (h : BadY s) : BadY (remove rnd s p) := by
  obtain ⟨h1, h2, h3, h4⟩ := h
  refine ⟨?_, ?_, ?_, ?_⟩ <;> simp [remove, h1, h2, h3, h4, op_none_left]

theorem foldl_keeps {α β : Type} (P : α → Prop) (f : α → β → α) (h : ∀ a b, P a → P (f a b)) : ∀ (l : List β) (a : α), P a → P (l.foldl f a)
  | [], _, ha => ha
  | b :: l, a, ha => foldl_keeps P f h l (f a b) (h a b ha)

theorem foldl_reaches {α β : Type} (P : α → Prop) (f : α → β → α) (h : ∀ a b, P a → P (f a b)) (b : β) (hb : ∀ a, P (f a b)) :
    ∀ (l : List β) (a : α), b ∈ l → P (l.foldl f a)
  | c :: l, a, hm => by
    rw [List.foldl_cons]
    by_cases hc : b ∈ l
    · exact foldl_reaches P f h b hb l _ hc
    · rcases List.mem_cons.mp hm with rfl | hm
      · exact foldl_keeps P f h l _ (hb a)
      · exact absurd hm hc

/-- once the missing value is in the sums it stays there -/
theorem round_keeps (P : Sums K → Prop) (rnd : K → K) (ts : ℕ → K) (d : ℕ → Option K × Option K) (n : ℕ) (w : K) (center : Bool) (f : State K) (i k : ℕ)
    (ha : ∀ s p, P s → P (add rnd s p)) (hr : ∀ s p, P s → P (remove rnd s p)) (hk : ∀ s, P (add rnd s (d k))) (h : k < f.hi → P f.sums)
    (hk' : k < (round rnd ts d n w center f i).hi) : P (round rnd ts d n w center f i).sums := by
  unfold round at hk' ⊢
  simp only at hk' ⊢
  refine foldl_keeps P _ hr _ _ ?_
  by_cases hf : k < f.hi
  · exact foldl_keeps P _ ha _ _ (h hf)
  · refine foldl_reaches P _ ha (d k) hk _ _ (List.mem_map.mpr ⟨k, ?_, rfl⟩)
    unfold rangeAB
    rw [List.mem_range'_1]
    omega

theorem scan_le (cond : ℕ → Prop) [DecidablePred cond] (i : ℕ) (hi : cond i) : ∀ (m a v : ℕ), a ≤ i → i < a + m → scan cond v (List.range' a m) ≤ i
  | 0, a, v, h1, h2 => by omega
  | m + 1, a, v, h1, h2 => by
    rw [List.range'_succ]
    unfold scan
    by_cases ha : cond a
    · rw [if_pos ha]; exact h1
    · rw [if_neg ha]
      have : a ≠ i := fun h => ha (h ▸ hi)
      exact scan_le cond i hi m (a + 1) a (by omega) (by omega)

theorem scan_gt (cond : ℕ → Prop) [DecidablePred cond] (i : ℕ) : ∀ (l : List ℕ) (v : ℕ), (∀ j ∈ l, cond j → i < j) → (l = [] ∧ i < v) ∨ (∃ j ∈ l, cond j) →
    i < scan cond v l
  | [], v, _, h => by
    rcases h with h | ⟨j, hj, _⟩
    · exact h.2
    · cases hj
  | a :: l, v, h1, h2 => by
    unfold scan
    by_cases ha : cond a
    · rw [if_pos ha]; exact h1 a List.mem_cons_self ha
    · rw [if_neg ha]
      refine scan_gt cond i l a (fun j hj => h1 j (List.mem_cons_of_mem _ hj)) (Or.inr ?_)
      rcases h2 with h | ⟨j, hj, hc⟩
      · cases h.1
      · rcases List.mem_cons.mp hj with rfl | hj
        · exact absurd hc ha
        · exact ⟨j, hj, hc⟩

/-- every window contains its own time stamp: the window has positive length and the time stamps are sorted -/
structure Windows (rnd : K → K) (ts : ℕ → K) (n : ℕ) (w : K) (center : Bool) : Prop where
  sorted : ∀ a b, a ≤ b → b < n → ts a ≤ ts b
  low : ∀ i < n, rnd (ts i - w) < ts i
  high : ∀ i < n, ts i ≤ rnd (ts i + w)

theorem bounds_own [IsStrictOrderedRing K] (rnd : K → K) (ts : ℕ → K) (n : ℕ) (w : K) (center : Bool) (h : Windows rnd ts n w center) (i lo hi : ℕ) (hin : i < n)
    (hlo : lo ≤ i) : (bounds rnd ts n w center i lo hi).1 ≤ i ∧ i < (bounds rnd ts n w center i lo hi).2 := by
  unfold bounds
  cases center with
  | false =>
    simp only [Bool.false_eq_true, if_false]
    exact ⟨scan_le _ i (h.low i hin) _ _ _ hlo (by omega), by omega⟩
  | true =>
    simp only [if_true]
    refine ⟨scan_le _ i (h.low i hin).le _ _ _ hlo (by omega), ?_⟩
    by_cases hc : ts (n - 1) > rnd (ts i + w)
    · rw [if_pos hc]
      generalize (if i = 0 then 1 else hi - 1) = u
      refine scan_gt _ i _ _ (fun j hj hcj => ?_) ?_
      · by_contra hle
        exact absurd (lt_of_lt_of_le hcj ((h.sorted j i (by omega) hin).trans (h.high i hin))) (lt_irrefl _)
      · unfold rangeAB
        by_cases hu : u < n
        · right
          exact ⟨n - 1, List.mem_range'_1.mpr (by omega), hc⟩
        · left
          exact ⟨by rw [Nat.sub_eq_zero_of_le (by omega)]; rfl, by omega⟩
    · rw [if_neg hc]; exact hin

theorem states_keep [IsStrictOrderedRing K] (P : Sums K → Prop) (rnd : K → K) (ts : ℕ → K) (d : ℕ → Option K × Option K) (n : ℕ) (w : K) (center : Bool)
    (hw : Windows rnd ts n w center) (k : ℕ) (ha : ∀ s p, P s → P (add rnd s p)) (hr : ∀ s p, P s → P (remove rnd s p)) (hk : ∀ s, P (add rnd s (d k))) :
    ∀ (m i : ℕ) (f : State K), i + m = n → f.lower ≤ i → (k < f.hi → P f.sums) → ∀ j, j < m →
      ∃ f', (states rnd ts d n w center f (List.range' i m))[j]? = some f' ∧ f'.lower ≤ i + j ∧ i + j < f'.hi ∧ (k ≤ i + j → P f'.sums)
  | 0, _, _, _, _, _, j, hj => absurd hj (Nat.not_lt_zero j)
  | m + 1, i, f, him, hlo, hf, j, hj => by
    rw [List.range'_succ]
    unfold states
    obtain ⟨b1, b2⟩ := bounds_own rnd ts n w center hw i f.lower f.hi (by omega) hlo
    have b1' : (round rnd ts d n w center f i).lower ≤ i := b1
    have b2' : i < (round rnd ts d n w center f i).hi := b2
    have hkeep : k < (round rnd ts d n w center f i).hi → P (round rnd ts d n w center f i).sums := fun h =>
      round_keeps P rnd ts d n w center f i k ha hr hk hf h
    cases j with
    | zero => exact ⟨_, rfl, b1', b2', fun h => hkeep (by omega)⟩
    | succ j =>
      obtain ⟨f', h1, h2, h3, h4⟩ := states_keep P rnd ts d n w center hw k ha hr hk m (i + 1) _ (by omega) (by omega) hkeep j (by omega)
      exact ⟨f', by simpa using h1, by omega, by omega, fun h => h4 (by omega)⟩

/-- C104, part 2 (negation, for all data, roundings and windows): after a missing value the RMSD of *every* later window is NaN and its correlation is -1
with p-value 0 (or NaN, if the sum of the other column is 0), whether the missing value is in the window or not. -/
theorem nan_forever [IsStrictOrderedRing K] (A : Arith K) (ts : ℕ → K) (d : ℕ → Option K × Option K) (n : ℕ) (w : K) (center : Bool) (minPeriods : ℤ)
    (hm : minPeriods ≤ 1) (hw : Windows A.rnd ts n w center) (k : ℕ) (hk : (d k).1 = none ∨ (d k).2 = none) (i : ℕ) (hki : k ≤ i) (hin : i < n) :
    ∃ o, (rollingPrRmsd A ts d n w center minPeriods)[i]? = some o ∧ o.rmsd = none ∧
      ((o.R = some (-1) ∧ o.p = some 0) ∨ (o.R = none ∧ o.p = none)) ∧
      ((d k).1 = none → (d k).2 = none → o.R = some (-1) ∧ o.p = some 0) := by
  have hout : ∀ f : State K, f.lower ≤ i → i < f.hi → out A minPeriods f =
      ⟨(pearsonr A f.sums.M2x f.sums.M2y f.sums.C ((f.hi : ℤ) - (f.lower : ℤ))).1, (pearsonr A f.sums.M2x f.sums.M2y f.sums.C ((f.hi : ℤ) - (f.lower : ℤ))).2,
        fsqrt A f.sums.msd⟩ := by
    intro f h1 h2
    unfold out
    simp only
    rw [if_neg (by omega)]
  have hneg : |(-1 : K)| = 1 := by rw [abs_neg, abs_one]
  have hget : ∀ f : State K, (states A.rnd ts d n w center ⟨0, 0, zero⟩ (List.range n))[i]? = some f →
      (rollingPrRmsd A ts d n w center minPeriods)[i]? = some (out A minPeriods f) := by
    intro f hf
    unfold rollingPrRmsd
    rw [List.getElem?_map, hf]; rfl
  rw [List.range_eq_range'] at hget
  have one : ∀ f : State K, f.lower ≤ i → i < f.hi → f.sums.C = none → f.sums.msd = none →
      (out A minPeriods f).rmsd = none ∧ (((out A minPeriods f).R = some (-1) ∧ (out A minPeriods f).p = some 0) ∨
        ((out A minPeriods f).R = none ∧ (out A minPeriods f).p = none)) ∧
      (f.sums.M2x = none → f.sums.M2y = none → (out A minPeriods f).R = some (-1) ∧ (out A minPeriods f).p = some 0) := by
    intro f h1 h2 h3 h4
    rw [hout f h1 h2]
    have hco : coeff A f.sums.M2x f.sums.M2y f.sums.C = -1 := by rw [h3]; rfl
    refine ⟨by rw [h4]; rfl, ?_, ?_⟩
    · unfold pearsonr
      by_cases hz : f.sums.M2x = some 0 ∨ f.sums.M2y = some 0
      · right; simp only [if_pos hz]; exact ⟨trivial, trivial⟩
      · left; simp only [if_neg hz, hco, if_pos hneg]; exact ⟨trivial, trivial⟩
    · intro h5 h6
      unfold pearsonr
      have hz : ¬ (f.sums.M2x = some 0 ∨ f.sums.M2y = some 0) := by simp [h5, h6]
      simp only [if_neg hz, hco, if_pos hneg]; exact ⟨trivial, trivial⟩
  have keepX := fun hx : (d k).1 = none => states_keep BadX A.rnd ts d n w center hw k (fun s p h => BadX_add _ s p (Or.inl h)) (fun s p h => BadX_remove _ s p h)
    (fun s => BadX_add _ s _ (Or.inr hx)) n 0 ⟨0, 0, zero⟩ (by omega) (Nat.le_refl _) (fun h => absurd h (Nat.not_lt_zero _)) i hin
  have keepY := fun hy : (d k).2 = none => states_keep BadY A.rnd ts d n w center hw k (fun s p h => BadY_add _ s p (Or.inl h)) (fun s p h => BadY_remove _ s p h)
    (fun s => BadY_add _ s _ (Or.inr hy)) n 0 ⟨0, 0, zero⟩ (by omega) (Nat.le_refl _) (fun h => absurd h (Nat.not_lt_zero _)) i hin
  rcases hk with hx | hy
  · obtain ⟨f, h1, h2, h3, h4⟩ := keepX hx
    rw [Nat.zero_add] at h2 h3 h4
    obtain ⟨q1, q2, q3, q4⟩ := h4 hki
    obtain ⟨o1, o2, o3⟩ := one f h2 h3 q3 q4
    refine ⟨_, hget f h1, o1, o2, fun _ hy => ?_⟩
    obtain ⟨f', h1', h2', h3', h4'⟩ := keepY hy
    rw [h1] at h1'
    cases h1'
    rw [Nat.zero_add] at h4'
    exact o3 q2 (h4' hki).2.1
  · obtain ⟨f, h1, h2, h3, h4⟩ := keepY hy
    rw [Nat.zero_add] at h2 h3 h4
    obtain ⟨q1, q2, q3, q4⟩ := h4 hki
    obtain ⟨o1, o2, o3⟩ := one f h2 h3 q3 q4
    refine ⟨_, hget f h1, o1, o2, fun hx _ => ?_⟩
    obtain ⟨f', h1', h2', h3', h4'⟩ := keepX hx
    rw [h1] at h1'
    cases h1'
    rw [Nat.zero_add] at h4'
    exact o3 (h4' hki).2.1 q2

/-- four observations, the second one is missing; the last window of two days contains the last two, which rise together -/
def exData : ℕ → Option ℚ × Option ℚ
  | 0 => (some 1, some 2)
  | 1 => (none, none)
  | 2 => (some 1, some 2)
  | _ => (some 3, some 5)

/-- the correlation of the last window is reported as -1 with p-value 0 -/
example (A : Arith ℚ) (hA : A.rnd = id) : ∃ o, (rollingPrRmsd A (fun j => j) exData 4 2 false 1)[3]? = some o ∧ o.R = some (-1 : ℚ) ∧ o.p = some 0 ∧ o.rmsd = none := by
  have hw : Windows A.rnd (fun j : ℕ => (j : ℚ)) 4 2 false :=
    ⟨fun a b h _ => by show (a : ℚ) ≤ b; exact_mod_cast h, fun i _ => by rw [hA]; simp, fun i _ => by rw [hA]; simp⟩
  obtain ⟨o, h1, h2, h3, h4⟩ := nan_forever A (fun j : ℕ => (j : ℚ)) exData 4 2 false 1 le_rfl hw 1 (Or.inl rfl) 3 (by omega) (by omega)
  exact ⟨o, h1, (h4 rfl rfl).1, (h4 rfl rfl).2, h2⟩

/-- the same last window without the missing value before: the correlation is 1 (the square root of 9 is the only one that is needed) -/
example : ((rollingPrRmsd (⟨id, fun x => if x = 9 then 3 else 0, fun _ _ _ => 0⟩ : Arith ℚ) (fun j => j)
    (fun j => if j = 1 then (some 0, some 0) else exData j) 4 2 false 2)[3]?).map (·.R) = some (some 1) := by decide +kernel

end Verif.Rolling.Fl
