import Verif.Cdf.Percentiles
import Mathlib.Tactic.Positivity

/-! Lemmas on edge scaling and on the percentiles found by `fit`. -/

set_option linter.unusedSectionVars false

namespace Verif.Cdf

variable {K : Type} [Field K] [LinearOrder K] [IsStrictOrderedRing K]

theorem regular_strict (n : ℕ) (hn : 1 ≤ n) : (regularPercentiles n : List K).Pairwise (· < ·) := by
  unfold regularPercentiles
  rw [List.pairwise_map]
  have : (0 : K) < (n : K) := by exact_mod_cast hn
  refine (List.pairwise_lt_range (n := n + 1)).imp ?_
  intro a b hab
  have : (a : K) < (b : K) := by exact_mod_cast hab
  have := div_lt_div_of_pos_right this ‹(0 : K) < (n : K)›
  linarith

theorem regular_length (n : ℕ) : (regularPercentiles n : List K).length = n + 1 := by simp [regularPercentiles]

theorem regular_ends (n : ℕ) (hn : 1 ≤ n) :
    (regularPercentiles n : List K).head? = some 0 ∧ (regularPercentiles n : List K).getLast? = some 100 := by
  have : (n : K) ≠ 0 := by exact_mod_cast (by omega : n ≠ 0)
  constructor
  · simp [regularPercentiles, List.range_succ_eq_map]
  · simp [regularPercentiles, List.range_succ, this]

theorem range_strict (n : ℕ) (hn : 2 ≤ n) :
    ((List.range n).map (fun (i : ℕ) => (i : K) / ((n : K) - 1) * 100)).Pairwise (· < ·) := by
  rw [List.pairwise_map]
  have h1 : (1 : K) < (n : K) := by exact_mod_cast hn
  have h2 : (0 : K) < (n : K) - 1 := by linarith
  refine (List.pairwise_lt_range (n := n)).imp ?_
  intro a b hab
  have : (a : K) < (b : K) := by exact_mod_cast hab
  have := div_lt_div_of_pos_right this h2
  linarith

/-- resampled values stay between bounds of the data -/
theorem resample_bounds (x out : List K) (n : ℕ) (hs : x.Pairwise (· ≤ ·)) (h : resampleEcdf x n = .ok out) (lo hi : K)
    (hb : ∀ v ∈ x, lo ≤ v ∧ v ≤ hi) : ∀ v ∈ out, lo ≤ v ∧ v ≤ hi := by
  unfold resampleEcdf at h
  split at h
  · simp at h
  · obtain ⟨_, _, h3, hne⟩ := percentileValues_sorted true x _ out hs (range_strict n (by omega)) h
    intro v hv
    obtain ⟨a, ha⟩ : ∃ a, x.head? = some a := by
      cases x with
      | nil => exact absurd rfl hne
      | cons a l => exact ⟨a, rfl⟩
    have hl := List.getLast?_eq_some_getLast hne
    obtain ⟨h4, h5⟩ := h3 a _ ha hl v hv
    exact ⟨(hb a (List.mem_of_head? ha)).1.trans h4, h5.trans (hb _ (List.mem_of_getLast? hl)).2⟩

theorem resample_nonpos (x out : List K) (n : ℕ) (hs : x.Pairwise (· ≤ ·)) (h : resampleEcdf x n = .ok out)
    (hb : ∀ v ∈ x, v ≤ 0) : ∀ v ∈ out, v ≤ 0 := by
  intro v hv
  cases x with
  | nil =>
    unfold resampleEcdf at h
    split at h
    · simp at h
    · simp [percentileValues, matlabPercentiles, bind, Except.bind] at h
  | cons a l =>
    exact (resample_bounds (a :: l) out n hs h a 0 (fun w hw => ⟨sorted_head_le _ hs a rfl w hw, hb w hw⟩) v hv).2

theorem resample_nonneg (x out : List K) (n : ℕ) (hs : x.Pairwise (· ≤ ·)) (h : resampleEcdf x n = .ok out)
    (hb : ∀ v ∈ x, 0 ≤ v) : ∀ v ∈ out, 0 ≤ v := by
  intro v hv
  have hne : x ≠ [] := by
    rintro rfl
    unfold resampleEcdf at h
    split at h
    · simp at h
    · simp [percentileValues, matlabPercentiles, bind, Except.bind] at h
  have hl := List.getLast?_eq_some_getLast hne
  exact (resample_bounds x out n hs h 0 _ (fun w hw => ⟨hb w hw, sorted_le_last _ hs _ hl w hw⟩) v hv).1

theorem sum_sq_nonneg (x : List K) : 0 ≤ (x.map (fun v => v * v)).sum :=
  List.sum_nonneg (fun w hw => by obtain ⟨v, _, rfl⟩ := List.mem_map.mp hw; exact mul_self_nonneg v)

theorem zipWith_mul_nonneg (x y : List K) (h : ∀ a ∈ x, ∀ b ∈ y, 0 ≤ a * b) : 0 ≤ (List.zipWith (· * ·) x y).sum := by
  induction x generalizing y with
  | nil => simp
  | cons a x ih =>
    cases y with
    | nil => simp
    | cons b y =>
      simp only [List.zipWith_cons_cons, List.sum_cons]
      exact add_nonneg (h a (by simp) b (by simp))
        (ih y (fun c hc d hd => h c (List.mem_cons_of_mem _ hc) d (List.mem_cons_of_mem _ hd)))

theorem lstsq_nonneg (x y : List K) (a : K) (h : lstsqSlope x y = .ok a) (hxy : ∀ a ∈ x, ∀ b ∈ y, 0 ≤ a * b) : 0 ≤ a := by
  unfold lstsqSlope at h
  split at h
  · simp only [Except.ok.injEq] at h
    subst h
    split
    · exact le_rfl
    · exact div_nonneg (zipWith_mul_nonneg x y hxy) (sum_sq_nonneg x)
  · simp at h

theorem lstsq_self (x : List K) (h : ∃ v ∈ x, v ≠ 0) : lstsqSlope x x = .ok 1 := by
  unfold lstsqSlope
  have hz : List.zipWith (· * ·) x x = x.map (fun v => v * v) := by
    clear h
    induction x with
    | nil => rfl
    | cons a x ih => simp [ih]
  have hne : (x.map (fun v => v * v)).sum ≠ 0 := by
    obtain ⟨v, hv, hv0⟩ := h
    have : v * v ≤ (x.map (fun v => v * v)).sum :=
      List.single_le_sum (fun w hw => by obtain ⟨u, _, rfl⟩ := List.mem_map.mp hw; exact mul_self_nonneg u) _
        (List.mem_map.mpr ⟨v, hv, rfl⟩)
    have h2 : 0 < v * v := mul_self_pos.mpr hv0
    exact (lt_of_lt_of_le h2 this).ne'
  simp [hz, hne]

theorem sorted_shift (x : List K) (hs : x.Pairwise (· ≤ ·)) (p : K → Bool) (c : K) :
    ((x.filter p).map (· - c)).Pairwise (· ≤ ·) := by
  rw [List.pairwise_map]
  exact (hs.filter p).imp (fun h => by linarith)

/-- the slope at the lower edge is not negative -/
theorem lowerSlope_nonneg (x y : List K) (hx : x.Pairwise (· ≤ ·)) (x1 y1 a : K) (h : lowerSlope x y x1 y1 = .ok a) : 0 ≤ a := by
  unfold lowerSlope at h
  simp only [bind, Except.bind] at h
  have nx : ∀ v ∈ (x.filter (fun v => decide (v ≤ x1))).map (· - x1), v ≤ 0 := by
    intro v hv
    obtain ⟨w, hw, rfl⟩ := List.mem_map.mp hv
    have := (List.mem_filter.mp hw).2
    simp at this
    linarith
  have ny : ∀ v ∈ (y.filter (fun v => decide (v ≤ y1))).map (· - y1), v ≤ 0 := by
    intro v hv
    obtain ⟨w, hw, rfl⟩ := List.mem_map.mp hv
    have := (List.mem_filter.mp hw).2
    simp at this
    linarith
  split at h
  · split at h
    · simp at h
    · rename_i xl hxl
      exact lstsq_nonneg _ _ a h (fun u hu w hw =>
        mul_nonneg_of_nonpos_of_nonpos (resample_nonpos _ _ _ (sorted_shift x hx _ _) hxl nx u hu) (ny w hw))
  · exact lstsq_nonneg _ _ a h (fun u hu w hw => mul_nonneg_of_nonpos_of_nonpos (nx u hu) (ny w hw))

/-- the slope at the upper edge is not negative -/
theorem upperSlope_nonneg (x y : List K) (hx : x.Pairwise (· ≤ ·)) (x1 y1 a : K) (h : upperSlope x y x1 y1 = .ok a) : 0 ≤ a := by
  unfold upperSlope at h
  simp only [bind, Except.bind] at h
  have nx : ∀ v ∈ (x.filter (fun v => decide (x1 ≤ v))).map (· - x1), 0 ≤ v := by
    intro v hv
    obtain ⟨w, hw, rfl⟩ := List.mem_map.mp hv
    have := (List.mem_filter.mp hw).2
    simp at this
    linarith
  have ny : ∀ v ∈ (y.filter (fun v => decide (y1 ≤ v))).map (· - y1), 0 ≤ v := by
    intro v hv
    obtain ⟨w, hw, rfl⟩ := List.mem_map.mp hv
    have := (List.mem_filter.mp hw).2
    simp at this
    linarith
  split at h
  · split at h
    · simp at h
    · rename_i xl hxl
      exact lstsq_nonneg _ _ a h (fun u hu w hw =>
        mul_nonneg (resample_nonneg _ _ _ (sorted_shift x hx _ _) hxl nx u hu) (ny w hw))
  · exact lstsq_nonneg _ _ a h (fun u hu w hw => mul_nonneg (nx u hu) (ny w hw))

theorem getD_mono (l : List K) (h : l.Pairwise (· ≤ ·)) (i j : ℕ) (hij : i ≤ j) (hj : j < l.length) :
    l.getD i 0 ≤ l.getD j 0 := by
  rw [List.getD_eq_getElem _ _ (by omega), List.getD_eq_getElem _ _ hj]
  rcases Nat.lt_or_ge i j with h' | h'
  · exact (List.pairwise_iff_getElem.mp h) i j (by omega) hj h'
  · have : i = j := by omega
    simp [this]

/-- edge scaling keeps the order of the reference percentiles (three or more percentiles) -/
theorem edge_sorted (x y xPerc yPerc out : List K) (hx : x.Pairwise (· ≤ ·)) (hxp : xPerc.Pairwise (· ≤ ·))
    (hyp : yPerc.Pairwise (· ≤ ·)) (hlen : xPerc.length = yPerc.length) (h3 : 3 ≤ yPerc.length)
    (h : linearEdgeScaling x y xPerc yPerc = .ok out) : out.Pairwise (· ≤ ·) ∧ out.length = yPerc.length := by
  unfold linearEdgeScaling at h
  simp only [bind, Except.bind] at h
  split at h
  · simp at h
  · rename_i a ha
    split at h
    · simp at h
    · rename_i b hb
      simp only [Except.ok.injEq] at h
      subst h
      have ha0 := lowerSlope_nonneg x y hx _ _ a ha
      have hb0 := upperSlope_nonneg x y hx _ _ b hb
      have hA : yPerc.getD 1 0 + a * (xPerc.getD 0 0 - xPerc.getD 1 0) ≤ yPerc.getD 1 0 := by
        have := getD_mono xPerc hxp 0 1 (by omega) (by omega)
        nlinarith
      set A := yPerc.getD 1 0 + a * (xPerc.getD 0 0 - xPerc.getD 1 0) with hAdef
      have hg : (yPerc.set 0 A).getD (yPerc.length - 2) 0 = yPerc.getD (yPerc.length - 2) 0 := by
        rw [List.getD_eq_getElem _ _ (by simp; omega), List.getD_eq_getElem _ _ (by omega),
          List.getElem_set_ne (by omega)]
      rw [hg]
      set B := yPerc.getD (yPerc.length - 2) 0 +
        b * (xPerc.getD (yPerc.length - 1) 0 - xPerc.getD (yPerc.length - 2) 0) with hBdef
      have hB : yPerc.getD (yPerc.length - 2) 0 ≤ B := by
        have := getD_mono xPerc hxp (yPerc.length - 2) (yPerc.length - 1) (by omega) (by omega)
        nlinarith
      refine ⟨?_, by simp⟩
      rw [List.pairwise_iff_getElem]
      intro i j hi hj hij
      simp only [List.length_set] at hi hj
      have e : ∀ k (hk : k < yPerc.length), yPerc[k] = yPerc.getD k 0 := fun k hk => (List.getD_eq_getElem _ _ hk).symm
      simp only [List.getElem_set]
      have n1 : ¬ yPerc.length - 1 = i := by omega
      have n2 : ¬ 0 = j := by omega
      rw [if_neg n1, if_neg n2, e i hi, e j hj]
      by_cases h0 : 0 = i <;> by_cases hl : yPerc.length - 1 = j
      · rw [if_pos h0, if_pos hl]
        exact hA.trans ((getD_mono yPerc hyp 1 (yPerc.length - 2) (by omega) (by omega)).trans hB)
      · rw [if_pos h0, if_neg hl]
        exact hA.trans (getD_mono yPerc hyp 1 j (by omega) hj)
      · rw [if_neg h0, if_pos hl]
        exact (getD_mono yPerc hyp i (yPerc.length - 2) (by omega) (by omega)).trans hB
      · rw [if_neg h0, if_neg hl]
        exact getD_mono yPerc hyp i j hij.le hj

/-- which percentile levels `fit` uses -/
theorem calc_levels (P : Params K) (n : ℕ) (hP : ∀ l, P.percentiles = some l → l.2.Pairwise (· < ·))
    (hN : P.percentiles = none → 1 ≤ P.nbins) (r : Bool × List K × ℕ) (h : calcPercentiles P n = .ok r) :
    r.2.1.Pairwise (· < ·) ∧ r.2.1.length = r.2.2 + 1 ∧ 1 ≤ r.2.2 ∧
      (P.percentiles = none → r.2.1 = regularPercentiles r.2.2 ∧ r.2.2 ≤ P.nbins ∧ r.1 = true) := by
  unfold calcPercentiles at h
  have hbase : (P.percentiles.getD (true, regularPercentiles P.nbins)).2.Pairwise (· < ·) := by
    cases hp : P.percentiles with
    | none => exact regular_strict _ (hN hp)
    | some l => exact hP l hp
  have hnone : P.percentiles = none → (P.percentiles.getD (true, regularPercentiles P.nbins)).2 = regularPercentiles P.nbins ∧
      (P.percentiles.getD (true, regularPercentiles P.nbins)).1 = true := by
    intro h; rw [h]; exact ⟨rfl, rfl⟩
  generalize hq : P.percentiles.getD (true, regularPercentiles P.nbins) = q at h hbase hnone
  obtain ⟨isArray, ps⟩ := q
  simp only at h hbase hnone
  have hlen : diff ps ≠ [] → 2 ≤ ps.length := by
    match ps with
    | [] => simp [diff]
    | [_] => simp [diff]
    | _ :: _ :: _ => simp
  cases hd : diff ps with
  | nil => rw [hd] at h; simp at h
  | cons d ds =>
    rw [hd] at h
    have h2 := hlen (by rw [hd]; simp)
    have keep : r = (isArray, ps, ps.length - 1) → r.2.1.Pairwise (· < ·) ∧ r.2.1.length = r.2.2 + 1 ∧ 1 ≤ r.2.2 ∧
      (P.percentiles = none → r.2.1 = regularPercentiles r.2.2 ∧ r.2.2 ≤ P.nbins ∧ r.1 = true) := by
      rintro rfl
      refine ⟨hbase, by simp only; omega, by simp only; omega, ?_⟩
      intro hn
      obtain ⟨e, e'⟩ := hnone hn
      have el : ps.length = P.nbins + 1 := by rw [e]; exact regular_length _
      simp only [el, Nat.add_sub_cancel]
      exact ⟨e, le_rfl, e'⟩
    cases hm : P.minobs with
    | none =>
      rw [hm] at h
      simp only [Except.ok.injEq] at h
      exact keep h.symm
    | some m =>
      rw [hm] at h
      simp only at h
      split at h
      · simp only [Except.ok.injEq] at h
        have h1 : 1 ≤ (if n / m = 0 then 1 else if n / m > ps.length - 1 then ps.length - 1 else n / m) := by
          split
          · exact le_rfl
          · rename_i hnz
            split
            · omega
            · exact Nat.one_le_iff_ne_zero.mpr hnz
        have h2' : (if n / m = 0 then 1 else if n / m > ps.length - 1 then ps.length - 1 else n / m) ≤ ps.length - 1 := by
          split
          · omega
          · split <;> omega
        generalize (if n / m = 0 then 1 else if n / m > ps.length - 1 then ps.length - 1 else n / m) = k at h h1 h2'
        subst h
        refine ⟨regular_strict _ h1, regular_length _, h1, ?_⟩
        intro hn
        have el : ps.length = P.nbins + 1 := by rw [(hnone hn).1]; exact regular_length _
        exact ⟨rfl, by simp only; omega, rfl⟩
      · simp only [Except.ok.injEq] at h
        exact keep h.symm

end Verif.Cdf
