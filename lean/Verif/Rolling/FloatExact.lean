import Verif.Rolling.Float
import Verif.Rolling.Props

/-! C104, first part: without rounding and without missing values the model of the rolling metrics with the arithmetic of the machine gives the metrics of each window. -/

namespace Verif.Rolling.Fl

open Verif.Moments Verif.Pairwise Verif.Rolling

/-- exact arithmetic -/
noncomputable def exact (betainc : ℝ → ℝ → ℝ → ℝ) : Arith ℝ := ⟨id, Real.sqrt, betainc⟩

/-- data without missing values -/
def full {K : Type} (d : ℕ → K × K) : ℕ → Option K × Option K := fun j => (some (d j).1, some (d j).2)

/-- the variables hold the numbers of the exact computation -/
def Rel (s : Moments.State ℝ × ℝ) (f : Sums ℝ) : Prop :=
  s.1.nobs = (f.nobs : ℝ) ∧ f.mx = some s.1.mx ∧ f.my = some s.1.my ∧ f.M2x = some s.1.M2x ∧ f.M2y = some s.1.M2y ∧ f.C = some s.1.C ∧ f.msd = some s.2

theorem Rel_add (s : Moments.State ℝ × ℝ) (f : Sums ℝ) (p : ℝ × ℝ) (h : Rel s f) :
    Rel (Rolling.add s p) (add id f (some p.1, some p.2)) ∧ (add id f (some p.1, some p.2)).nobs = f.nobs + 1 := by
  obtain ⟨h1, h2, h3, h4, h5, h6, h7⟩ := h
  refine ⟨⟨?_, ?_, ?_, ?_, ?_, ?_, ?_⟩, rfl⟩ <;>
    simp [add, Rolling.add, Moments.step, op, divN, sqDiff, h1, h2, h3, h4, h5, h6, h7, sq]

theorem Rel_remove (s : Moments.State ℝ × ℝ) (f : Sums ℝ) (p : ℝ × ℝ) (h : Rel s f) (hn : 2 ≤ f.nobs) :
    Rel (Rolling.remove s p) (remove id f (some p.1, some p.2)) ∧ (remove id f (some p.1, some p.2)).nobs = f.nobs - 1 := by
  obtain ⟨h1, h2, h3, h4, h5, h6, h7⟩ := h
  have h0 : f.nobs - 1 ≠ 0 := by omega
  have hc : ((f.nobs - 1 : ℕ) : ℝ) = (f.nobs : ℝ) - 1 := by rw [Nat.cast_sub (by omega)]; simp
  refine ⟨⟨?_, ?_, ?_, ?_, ?_, ?_, ?_⟩, rfl⟩ <;>
    simp [remove, Rolling.remove, op, divN, sqDiff, h0, hc, h1, h2, h3, h4, h5, h6, h7, sq]

theorem Rel_addAll (l : List (ℝ × ℝ)) : ∀ (s : Moments.State ℝ × ℝ) (f : Sums ℝ), Rel s f →
    Rel (l.foldl Rolling.add s) ((l.map (fun p => ((some p.1, some p.2) : Option ℝ × Option ℝ))).foldl (add id) f) ∧
    ((l.map (fun p => ((some p.1, some p.2) : Option ℝ × Option ℝ))).foldl (add id) f).nobs = f.nobs + l.length := by
  induction l with
  | nil => intro s f h; exact ⟨h, rfl⟩
  | cons p l ih =>
    intro s f h
    obtain ⟨h1, h2⟩ := Rel_add s f p h
    obtain ⟨i1, i2⟩ := ih _ _ h1
    refine ⟨i1, ?_⟩
    simp only [List.map_cons, List.foldl_cons, List.length_cons] at i2 ⊢
    rw [i2, h2]; omega

theorem Rel_removeAll (l : List (ℝ × ℝ)) : ∀ (s : Moments.State ℝ × ℝ) (f : Sums ℝ), Rel s f → l.length < f.nobs →
    Rel (l.foldl Rolling.remove s) ((l.map (fun p => ((some p.1, some p.2) : Option ℝ × Option ℝ))).foldl (remove id) f) ∧
    ((l.map (fun p => ((some p.1, some p.2) : Option ℝ × Option ℝ))).foldl (remove id) f).nobs = f.nobs - l.length := by
  induction l with
  | nil => intro s f h _; exact ⟨h, rfl⟩
  | cons p l ih =>
    intro s f h hl
    simp only [List.length_cons] at hl
    obtain ⟨h1, h2⟩ := Rel_remove s f p h (by omega)
    obtain ⟨i1, i2⟩ := ih _ _ h1 (by rw [h2]; omega)
    refine ⟨i1, ?_⟩
    simp only [List.map_cons, List.foldl_cons, List.length_cons] at i2 ⊢
    rw [i2, h2]; omega

theorem bounds_exact (ts : ℕ → ℝ) (n : ℕ) (w : ℝ) (center : Bool) (i lower hi : ℕ) :
    bounds id ts n w center i lower hi = Rolling.bounds ts n w center i lower hi := by
  unfold bounds Rolling.bounds
  cases center with
  | true =>
    simp only [if_true, id]
  | false =>
    simp only [Bool.false_eq_true, if_false, id]

theorem states_correct (ts : ℕ → ℝ) (d : ℕ → ℝ × ℝ) (n : ℕ) (w : ℝ) (center : Bool) (B : ℕ → ℕ → ℕ → Prop)
    (hB : ∀ i lo hi, i < n → ((i = 0 ∧ lo = 0 ∧ hi = 0) ∨ (∃ i', i = i' + 1 ∧ B i' lo hi)) →
      B i (Rolling.bounds ts n w center i lo hi).1 (Rolling.bounds ts n w center i lo hi).2 ∧
      lo ≤ (Rolling.bounds ts n w center i lo hi).1 ∧ hi ≤ (Rolling.bounds ts n w center i lo hi).2 ∧ lo ≤ hi ∧
      (Rolling.bounds ts n w center i lo hi).1 < (Rolling.bounds ts n w center i lo hi).2)
    (win : ℕ → List (ℝ × ℝ)) (hwin : ∀ i lo hi, i < n → B i lo hi → win i = seg d lo hi)
    (k i : ℕ) (hk : i + k = n) (f : State ℝ) (s : Moments.State ℝ × ℝ) (hr : Rel s f.sums) (hn : f.sums.nobs = f.hi - f.lower)
    (hp : (i = 0 ∧ f.lower = 0 ∧ f.hi = 0) ∨ (∃ i', i = i' + 1 ∧ B i' f.lower f.hi)) (hv : RInv (seg d f.lower f.hi) s) :
    (states id ts (full d) n w center f (List.range' i k)).length = k ∧
    ∀ j, j < k → ∃ f', (states id ts (full d) n w center f (List.range' i k))[j]? = some f' ∧
      ∃ s', Rel s' f'.sums ∧ RInv (win (i + j)) s' ∧ ((f'.hi : ℤ) - (f'.lower : ℤ)) = ((win (i + j)).length : ℤ) ∧ win (i + j) ≠ [] := by
  induction k generalizing i f s with
  | zero => simp [states]
  | succ k ih =>
    rw [List.range'_succ]
    unfold states
    have hin : i < n := by omega
    obtain ⟨b1, b2, b3, b4, b5⟩ := hB i f.lower f.hi hin hp
    rw [← bounds_exact] at b1 b2 b3 b5
    have hv' := round_values d s _ _ _ _ hv b2 b3 b5 b4
    set lo' := (bounds id ts n w center i f.lower f.hi).1 with hlo'
    set hi' := (bounds id ts n w center i f.lower f.hi).2 with hhi'
    have e1 : ∀ a b, (rangeAB a b).map (full d) = (seg d a b).map (fun p => ((some p.1, some p.2) : Option ℝ × Option ℝ)) := by
      intro a b; unfold seg full; rw [List.map_map]; rfl
    have hrd : round id ts (full d) n w center f i = ⟨lo', hi', ((seg d f.lower lo').map (fun p => ((some p.1, some p.2) : Option ℝ × Option ℝ))).foldl (remove id)
        (((seg d f.hi hi').map (fun p => ((some p.1, some p.2) : Option ℝ × Option ℝ))).foldl (add id) f.sums)⟩ := by
      rw [← e1, ← e1]; rfl
    obtain ⟨a1, a2⟩ := Rel_addAll (seg d f.hi hi') s f.sums hr
    obtain ⟨r1, r2⟩ := Rel_removeAll (seg d f.lower lo') _ _ a1 (by rw [a2, hn, seg_length, seg_length]; omega)
    rw [a2, hn, seg_length, seg_length] at r2
    have har : ∀ a b c e : ℕ, a ≤ b → a ≤ c → b ≤ e → c < e → b - a + (e - b) - (c - a) = e - c := by omega
    obtain ⟨i1, i2⟩ := ih (i + 1) (by omega) (round id ts (full d) n w center f i) _ (by rw [hrd]; exact r1) (by rw [hrd]; exact r2.trans (har _ _ _ _ b4 b2 b3 b5))
      (by rw [hrd]; exact Or.inr ⟨i, rfl, b1⟩) (by rw [hrd]; exact hv')
    refine ⟨by simp [i1], ?_⟩
    intro j hj
    cases j with
    | zero =>
      refine ⟨_, rfl, _, (by rw [hrd]; exact r1), ?_, ?_, ?_⟩
      · rw [Nat.add_zero, hwin i _ _ hin b1]; exact hv'
      · rw [Nat.add_zero, hwin i _ _ hin b1, seg_length, hrd]; simp only; omega
      · rw [Nat.add_zero, hwin i _ _ hin b1]
        intro hc
        have := seg_length d lo' hi'
        rw [hc] at this
        simp at this
        omega
    | succ j =>
      obtain ⟨f', h1, s', h2, h3, h4, h5⟩ := i2 j (by omega)
      refine ⟨f', by simpa using h1, s', h2, ?_, ?_, ?_⟩
      · rw [show i + (j + 1) = i + 1 + j by omega]; exact h3
      · rw [show i + (j + 1) = i + 1 + j by omega]; exact h4
      · rw [show i + (j + 1) = i + 1 + j by omega]; exact h5

theorem clip_eq (v : ℝ) : clip v = max (-1) (min v 1) := by
  unfold clip
  by_cases h : 1 < v
  · rw [if_pos h, min_eq_right h.le]; norm_num
  · rw [if_neg h, min_eq_left (not_lt.mp h)]
    by_cases h2 : v > -1
    · simp only; rw [if_pos h2, max_eq_right h2.le]
    · simp only; rw [if_neg h2, max_eq_left (not_lt.mp h2)]

/-- R and, for at least three observations, the p-value -/
theorem pearsonr_exact (betainc : ℝ → ℝ → ℝ → ℝ) (vx vy c : ℝ) (hx : 0 ≤ vx) (hy : 0 ≤ vy) (n : ℤ) :
    (pearsonr (exact betainc) (some vx) (some vy) (some c) n).1 = (pearsonrFromMoments betainc vx vy c n).map Prod.fst ∧
    (3 ≤ n → (pearsonr (exact betainc) (some vx) (some vy) (some c) n).2 = (pearsonrFromMoments betainc vx vy c n).map Prod.snd) := by
  unfold pearsonr pearsonrFromMoments
  simp only [Option.some.injEq]
  by_cases h0 : vx = 0 ∨ vy = 0
  · rw [if_pos h0, if_pos h0]; exact ⟨rfl, fun _ => rfl⟩
  · rw [if_neg h0, if_neg h0]
    have hx' : 0 < vx := lt_of_le_of_ne hx (fun h => h0 (Or.inl h.symm))
    have hy' : 0 < vy := lt_of_le_of_ne hy (fun h => h0 (Or.inr h.symm))
    have hs : Real.sqrt (vx * vy) ≠ 0 := (Real.sqrt_pos.mpr (mul_pos hx' hy')).ne'
    have hco : coeff (exact betainc) (some vx) (some vy) (some c) = max (-1) (min (c / Real.sqrt (vx * vy)) 1) := by
      simp only [coeff, exact, op, fsqrt, id, Option.bind_some, if_neg (not_lt.mpr (mul_pos hx' hy').le), if_neg hs, clip_eq]
    rw [hco]
    set r := max (-1) (min (c / Real.sqrt (vx * vy)) 1) with hr
    by_cases h1 : |r| = 1
    · rw [if_pos h1, if_pos h1]; exact ⟨rfl, fun _ => rfl⟩
    · rw [if_neg h1, if_neg h1]
      refine ⟨rfl, fun hn => ?_⟩
      have hr1 : -1 ≤ r := le_max_left _ _
      have hr2 : r ≤ 1 := max_le (by norm_num) (min_le_right _ _)
      have hr3 : r < 1 := lt_of_le_of_ne hr2 (fun h => h1 (by rw [h]; simp))
      have hr4 : -1 < r := lt_of_le_of_ne hr1 (fun h => h1 (by rw [← h]; simp))
      have hden : 0 < (1 - r) * (1 + r) := mul_pos (by linarith) (by linarith)
      have hdf : (1 : ℝ) ≤ (n : ℝ) - 2 := by
        have : (3 : ℝ) ≤ n := by exact_mod_cast hn
        linarith
      have ht : 0 ≤ r * r * (((n : ℝ) - 2) / ((1 - r) * (1 + r))) := mul_nonneg (mul_self_nonneg r) (div_nonneg (by linarith) hden.le)
      have hden2 : ((n : ℝ) - 2) + r * r * (((n : ℝ) - 2) / ((1 - r) * (1 + r))) ≠ 0 := by linarith
      have hpv : pval (exact betainc) r n = some (betainc (((n : ℝ) - 2) / 2) (1 / 2)
          (if 1 < ((n : ℝ) - 2) / (((n : ℝ) - 2) + r * r * (((n : ℝ) - 2) / ((1 - r) * (1 + r)))) then 1
            else ((n : ℝ) - 2) / (((n : ℝ) - 2) + r * r * (((n : ℝ) - 2) / ((1 - r) * (1 + r)))))) := by
        unfold pval
        have g1 : ¬ (exact betainc).rnd ((exact betainc).rnd (1 - r) * (exact betainc).rnd (1 + r)) = 0 := hden.ne'
        simp only [if_neg g1, op, Option.bind_some]
        have g2 : ¬ (exact betainc).rnd ((n : ℝ) - 2 + (exact betainc).rnd ((exact betainc).rnd (r * r) *
            (exact betainc).rnd (((n : ℝ) - 2) / (exact betainc).rnd ((exact betainc).rnd (1 - r) * (exact betainc).rnd (1 + r))))) = 0 := hden2
        rw [if_neg g2]
        rfl
      simp only [hpv, Option.map_some, Option.some.injEq]
      congr 1
      by_cases hq : 1 < ((n : ℝ) - 2) / (((n : ℝ) - 2) + r * r * (((n : ℝ) - 2) / ((1 - r) * (1 + r))))
      · rw [if_pos hq, min_eq_right hq.le]
      · rw [if_neg hq, min_eq_left (not_lt.mp hq)]

theorem S_nonneg (l : List (ℝ × ℝ)) (g : ℝ × ℝ → ℝ) (h : ∀ p, 0 ≤ g p) : 0 ≤ S l g := by
  unfold S
  refine List.sum_nonneg fun x hx => ?_
  obtain ⟨p, -, rfl⟩ := List.mem_map.mp hx
  exact h p

theorem out_exact (betainc : ℝ → ℝ → ℝ → ℝ) (minPeriods : ℤ) (l : List (ℝ × ℝ)) (hl : l ≠ []) (f : State ℝ) (s : Moments.State ℝ × ℝ)
    (h1 : Rel s f.sums) (h2 : RInv l s) (h3 : ((f.hi : ℤ) - (f.lower : ℤ)) = (l.length : ℤ)) :
    (out (exact betainc) minPeriods f).R = (expectedPr betainc minPeriods l).map Prod.fst ∧
    (3 ≤ l.length → (out (exact betainc) minPeriods f).p = (expectedPr betainc minPeriods l).map Prod.snd) ∧
    (out (exact betainc) minPeriods f).rmsd = expectedRmsd minPeriods l := by
  obtain ⟨_, _, _, r4, r5, r6, r7⟩ := h1
  obtain ⟨o1, o2⟩ := out_values betainc l hl s h2
  have hn := len_pos (K := ℝ) l hl
  have hx : 0 ≤ s.1.M2x := by rw [(Inv_var h2.mom hl).1]; exact mul_nonneg hn.le (pvar_nonneg _)
  have hy : 0 ≤ s.1.M2y := by rw [(Inv_var h2.mom hl).2.1]; exact mul_nonneg hn.le (pvar_nonneg _)
  have hm : 0 ≤ s.2 := by
    have := S_nonneg l (fun p => (p.1 - p.2) ^ 2) (fun p => sq_nonneg _)
    rw [← h2.msd] at this
    exact nonneg_of_mul_nonneg_right this hn
  have hne : ¬ ((l.length : ℤ) = 0) := by
    have : l.length ≠ 0 := by simpa using hl
    exact_mod_cast this
  unfold out expectedPr expectedRmsd
  simp only [h3]
  by_cases hmp : (l.length : ℤ) < minPeriods
  · rw [if_pos (Or.inr hmp), if_pos hmp, if_pos hmp]
    exact ⟨rfl, fun _ => rfl, rfl⟩
  · rw [if_neg (by tauto), if_neg hmp, if_neg hmp, r4, r5, r6, r7, ← o1]
    obtain ⟨p1, p2⟩ := pearsonr_exact betainc s.1.M2x s.1.M2y s.1.C hx hy (l.length : ℤ)
    refine ⟨p1, fun h => p2 (by exact_mod_cast h), ?_⟩
    simp only [fsqrt, Option.bind_some, if_neg (not_lt.mpr hm), exact, o2]

theorem Rel_zero : Rel (Moments.init, 0) (zero : Sums ℝ) := by
  refine ⟨?_, rfl, rfl, rfl, rfl, rfl, rfl⟩
  simp [Moments.init, zero]

/-- C104, part 1, centred windows: with exact arithmetic and without missing values R, its p-value (for at least three observations) and the RMSD are those
of the window. -/
theorem rolling_float_center_partial (betainc : ℝ → ℝ → ℝ → ℝ) (ts : ℕ → ℝ) (d : ℕ → ℝ × ℝ) (n : ℕ) (w : ℝ) (minPeriods : ℤ)
    (hw : 0 ≤ w) (hs : ∀ a b, a ≤ b → b < n → ts a ≤ ts b) (i : ℕ) (hi : i < n) :
    ∃ o, (rollingPrRmsd (exact betainc) ts (full d) n w true minPeriods)[i]? = some o ∧
      o.R = (expectedPr betainc minPeriods (window ts d n w true i)).map Prod.fst ∧
      (3 ≤ (window ts d n w true i).length → o.p = (expectedPr betainc minPeriods (window ts d n w true i)).map Prod.snd) ∧
      o.rmsd = expectedRmsd minPeriods (window ts d n w true i) := by
  unfold rollingPrRmsd
  rw [List.range_eq_range']
  obtain ⟨-, h⟩ := states_correct ts d n w true (CBounds ts n w) (by
      intro i lo hi hin hp
      obtain ⟨h1, h2, h3, h4⟩ := bounds_center ts n w hw hs i lo hi hin hp
      exact ⟨h1, h2, h3, h4, by obtain ⟨q1, q2, _⟩ := h1; omega⟩)
    (window ts d n w true) (by
      intro i lo hi hin hb
      obtain ⟨q1, q2, q3, q4⟩ := hb
      unfold window seg rangeAB
      rw [filter_range_block _ n lo hi (by omega) q3]
      intro j hj
      simpa using q4 j hj) n 0 (by omega) ⟨0, 0, zero⟩ _ Rel_zero rfl (Or.inl ⟨rfl, rfl, rfl⟩) ⟨Inv_init, by simp [seg, rangeAB]⟩
  obtain ⟨f, h1, s, h2, h3, h4, h5⟩ := h i hi
  rw [Nat.zero_add] at h3 h4 h5
  refine ⟨out (exact betainc) minPeriods f, ?_, out_exact betainc minPeriods _ h5 f s h2 h3 h4⟩
  simp only [exact] at h1 ⊢
  rw [List.getElem?_map, h1]; rfl

/-- C104, part 1, trailing windows, for strictly increasing time stamps. -/
theorem rolling_float_trailing_partial (betainc : ℝ → ℝ → ℝ → ℝ) (ts : ℕ → ℝ) (d : ℕ → ℝ × ℝ) (n : ℕ) (w : ℝ) (minPeriods : ℤ)
    (hw : 0 < w) (hs : ∀ a b, a < b → b < n → ts a < ts b) (i : ℕ) (hi : i < n) :
    ∃ o, (rollingPrRmsd (exact betainc) ts (full d) n w false minPeriods)[i]? = some o ∧
      o.R = (expectedPr betainc minPeriods (window ts d n w false i)).map Prod.fst ∧
      (3 ≤ (window ts d n w false i).length → o.p = (expectedPr betainc minPeriods (window ts d n w false i)).map Prod.snd) ∧
      o.rmsd = expectedRmsd minPeriods (window ts d n w false i) := by
  have hs' : Sorted ts n := by
    intro a b hab hb
    rcases Nat.lt_or_eq_of_le hab with h | rfl
    · exact (hs a b h hb).le
    · exact le_rfl
  unfold rollingPrRmsd
  rw [List.range_eq_range']
  obtain ⟨-, h⟩ := states_correct ts d n w false (TBounds ts n w) (by
      intro i lo hi hin hp
      obtain ⟨h1, h2, h3, h4⟩ := bounds_trailing ts n w hw hs' i lo hi hin hp
      exact ⟨h1, h2, h3, h4, by obtain ⟨q1, q2, _⟩ := h1; omega⟩)
    (window ts d n w false) (by
      intro i lo hi hin hb
      obtain ⟨q1, q2, q3, q4⟩ := hb
      unfold window seg rangeAB
      rw [filter_range_block _ n lo hi (by omega) q3]
      intro j hj
      rw [← q4 j hj]
      simp only [Bool.false_eq_true, if_false, decide_eq_true_eq]
      have : ts j ≤ ts i ↔ j ≤ i := by
        constructor
        · intro h
          by_contra hc
          exact absurd (hs i j (by omega) hj) (not_lt.mpr h)
        · intro h; exact hs' j i h hin
      rw [this]; tauto) n 0 (by omega) ⟨0, 0, zero⟩ _ Rel_zero rfl (Or.inl ⟨rfl, rfl, rfl⟩) ⟨Inv_init, by simp [seg, rangeAB]⟩
  obtain ⟨f, h1, s, h2, h3, h4, h5⟩ := h i hi
  rw [Nat.zero_add] at h3 h4 h5
  refine ⟨out (exact betainc) minPeriods f, ?_, out_exact betainc minPeriods _ h5 f s h2 h3 h4⟩
  simp only [exact] at h1 ⊢
  rw [List.getElem?_map, h1]; rfl

/-- daily observations, windows of two days -/
example (betainc : ℝ → ℝ → ℝ → ℝ) (d : ℕ → ℝ × ℝ) : ∃ o, (rollingPrRmsd (exact betainc) (fun j => j) (full d) 5 2 false 2)[3]? = some o ∧
    o.rmsd = expectedRmsd 2 (window (fun j => j) d 5 2 false 3) := by
  obtain ⟨o, h1, _, _, h4⟩ := rolling_float_trailing_partial betainc (fun j => j) d 5 2 2 (by norm_num) (fun a b h _ => by show (a : ℝ) < b; exact_mod_cast h) 3 (by omega)
  exact ⟨o, h1, h4⟩

/-- two observations at the same time, centred window of half a day -/
example (betainc : ℝ → ℝ → ℝ → ℝ) (d : ℕ → ℝ × ℝ) : ∃ o, (rollingPrRmsd (exact betainc) (fun j => if j ≤ 1 then 0 else 1) (full d) 3 (1 / 2) true 1)[0]? = some o ∧
    o.rmsd = expectedRmsd 1 (window (fun j => if j ≤ 1 then 0 else 1) d 3 (1 / 2) true 0) := by
  obtain ⟨o, h1, _, _, h4⟩ := rolling_float_center_partial betainc (fun j => if j ≤ 1 then 0 else 1) d 3 (1 / 2) 1 (by norm_num) (fun a b h _ => by
    by_cases hb : b ≤ 1
    · simp [hb, h.trans hb]
    · by_cases ha : a ≤ 1 <;> simp [ha, hb]) 0 (by omega)
  exact ⟨o, h1, h4⟩

end Verif.Rolling.Fl
