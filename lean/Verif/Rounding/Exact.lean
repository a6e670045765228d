import Verif.Rounding.PerfectProps
import Verif.Rounding.FiltersProps
import Verif.Rounding.ScalingProps
import Verif.Pairwise.Model
import Verif.Scaling.Model

/-!
C105, C107, C108: the models with rounding agree with the models of the same functions in exact arithmetic if nothing is rounded, and what the metrics keep
under rounding when the two series are exchanged.
-/

namespace Verif.Rounding

theorem tree_sum_exact (t : Tree ℝ) : t.sum id = t.leaves.sum := by
  induction t with
  | leaf v => simp [Tree.sum, Tree.leaves]
  | node l r hl hr => simp [Tree.sum, Tree.leaves, hl, hr]

theorem npMean_exact (order : List ℝ → Tree ℝ) (ho : ∀ v : List ℝ, v ≠ [] → (order v).leaves.Perm v) (v : List ℝ) (hv : v ≠ []) :
    npMean id order v = Pairwise.npMean v := by
  simp only [npMean, id, Pairwise.npMean]
  rw [show (order v).sum id = v.sum from (tree_sum_exact _).trans (ho v hv).sum_eq]

/-- the state of the loop in exact arithmetic -/
def toState (s : Welford ℝ) : Moments.State ℝ := ⟨(s.nobs : ℝ), s.mx, s.my, s.M2x, s.M2y, s.C⟩

theorem welford_exact (l : List (ℝ × ℝ)) (s : Welford ℝ) : toState (l.foldl (Welford.add id) s) = l.foldl Moments.step (toState s) := by
  induction l generalizing s with
  | nil => rfl
  | cons p l ih =>
    rw [List.foldl_cons, List.foldl_cons, ih]
    congr 1
    simp [toState, Welford.add, Moments.step]

theorem moments_exact (l : List (ℝ × ℝ)) :
    let m := moments id l
    (⟨m.mx, m.my, m.vx, m.vy, m.cov⟩ : Moments.Moments ℝ) = Moments.momentsWelford l := by
  have h := welford_exact l ⟨0, 0, 0, 0, 0, 0⟩
  have e : toState ⟨0, 0, 0, 0, 0, 0⟩ = Moments.init := by simp [toState, Moments.init]
  rw [e] at h
  simp only [Moments.momentsWelford, ← h, moments, toState, id]

theorem two_sums (l : List (ℝ × ℝ)) (a b : ℝ) :
    l.foldl (fun (s : ℝ × ℝ) p => (s.1 + p.1, s.2 + p.2)) (a, b) = (l.foldl (fun s p => s + p.1) a, l.foldl (fun s p => s + p.2) b) := by
  induction l generalizing a b with
  | nil => rfl
  | cons p l ih => rw [List.foldl_cons, List.foldl_cons, List.foldl_cons, ih]

/-- C105, C107: without rounding the metrics with rounding are those of `Pairwise.Model`. -/
theorem metrics_exact (order : List ℝ → Tree ℝ) (ho : ∀ v : List ℝ, v ≠ [] → (order v).leaves.Perm v) (l : List (ℝ × ℝ)) (hl : l ≠ []) :
    bias id l = Pairwise.bias l ∧ RSS id l = Pairwise.RSS l ∧ msd id l = Pairwise.msd l ∧ rmsd id l = Pairwise.rmsd l 0 ∧
    aad id order l = Pairwise.aad l ∧ ubrmsd id Real.sqrt l = Pairwise.ubrmsd l 0 ∧ mseBias id l = Pairwise.mseBias l ∧
    mseDecomposition id Real.sqrt l = Pairwise.mseDecomposition l ∧
    (∀ v, nashSutcliffe id order l = some v → v = Pairwise.nashSutcliffe l) ∧
    (∀ v, indexOfAgreement id order l = some v → v = Pairwise.indexOfAgreement l) := by
  have hR : RSS id l = Pairwise.RSS l := by
    unfold RSS Pairwise.RSS
    congr 1
    funext s p
    simp [pow_two]
  have hm : msd id l = Pairwise.msd l := by
    simp only [msd, Pairwise.msd, hR, id, Pairwise.num]
  have hb : bias id l = Pairwise.bias l := by simp only [bias, Pairwise.bias, Pairwise.num, id]
  have hs : ∀ v : List ℝ, v ≠ [] → (order v).sum id = v.sum := fun v hv => (tree_sum_exact _).trans (ho v hv).sum_eq
  refine ⟨hb, hR, hm, ?_, ?_, ?_, ?_, ?_, ?_, ?_⟩
  · simp only [rmsd, Pairwise.rmsd, hm, id, if_true]
  · have := hs (l.map (fun p => |p.1 - p.2|)) (by simpa using hl)
    simp only [aad, Pairwise.aad, Pairwise.npMean, List.length_map, id] at this ⊢
    rw [this]
  · simp only [ubrmsd, Pairwise.ubrmsd, Pairwise.ubrmsd0, Pairwise.num, two_sums, id, ne_eq, not_true_eq_false, if_false, pow_two]
  · simp only [mseBias, Pairwise.mseBias, hb, id, pow_two]
  · have e := moments_exact l
    simp only [mseDecomposition, Pairwise.mseDecomposition, ← e, mseCorr, Pairwise.mseCorrFromMoments, mseVar, Pairwise.mseVarFromMoments,
      mseBiasFromMoments, Pairwise.mseBiasFromMoments, id, pow_two]
  · intro v hv
    have hmn := npMean_exact order ho (l.map Prod.fst) (by simpa using hl)
    have h1 := hs (l.map (fun p => (p.1 - p.2) * (p.1 - p.2))) (by simpa using hl)
    have h2 := hs (l.map (fun p => (p.1 - Pairwise.npMean (l.map Prod.fst)) * (p.1 - Pairwise.npMean (l.map Prod.fst)))) (by simpa using hl)
    simp only [nashSutcliffe, hmn] at hv
    split at hv
    · cases hv
    · rw [← Option.some.inj hv]
      simp only [Pairwise.nashSutcliffe, pow_two, ← h1, ← h2]
      rfl
  · intro v hv
    have hmn := npMean_exact order ho (l.map Prod.fst) (by simpa using hl)
    have h2 := hs (l.map (fun p => (|p.2 - Pairwise.npMean (l.map Prod.fst)| + |p.1 - Pairwise.npMean (l.map Prod.fst)|) *
      (|p.2 - Pairwise.npMean (l.map Prod.fst)| + |p.1 - Pairwise.npMean (l.map Prod.fst)|))) (by simpa using hl)
    simp only [indexOfAgreement, hmn, hR] at hv
    split at hv
    · cases hv
    · rw [← Option.some.inj hv]
      simp only [Pairwise.indexOfAgreement, pow_two, ← h2]
      rfl

/-- additions of real numbers from the left -/
noncomputable def realFromLeft : List ℝ → Tree ℝ
  | [] => .leaf 0
  | v :: l => l.foldl (fun t w => .node t (.leaf w)) (.leaf v)

theorem realFromLeft_leaves (v : List ℝ) (hv : v ≠ []) : (realFromLeft v).leaves.Perm v := by
  have key : ∀ (l : List ℝ) (t : Tree ℝ), (l.foldl (fun t w => .node t (.leaf w)) t).leaves = t.leaves ++ l := by
    intro l
    induction l with
    | nil => intro t; simp
    | cons w l ih => intro t; rw [List.foldl_cons, ih]; simp [Tree.leaves]
  cases v with
  | nil => exact absurd rfl hv
  | cons v l => rw [realFromLeft, key]; simp [Tree.leaves]

example := metrics_exact realFromLeft realFromLeft_leaves [(1, 2), (3, 5), (4, 4)] (by simp)

/-! ## Filters -/

theorem accumulate_exact {K : Type} [Field K] [LinearOrder K] (nan limit t0 : K) (l : List (K × Option K)) (s : K × ℕ) :
    accumulate id nan limit t0 l s = Filters.accumulate nan limit t0 l s := by
  induction l generalizing s with
  | nil => rfl
  | cons o l ih =>
    unfold accumulate Filters.accumulate
    cases Filters.usable nan o.2 with
    | none => exact ih s
    | some v =>
      simp only [id]
      split
      · exact ih _
      · rfl

/-- C105: without rounding `boxcar_filter` is that of `Filters.Model`. -/
theorem boxcar_exact {K : Type} [Field K] [LinearOrder K] (obs : List (K × Option K)) (window nan : K) (fillna : Bool) (minObs : Int) :
    boxcarFilter id id obs window nan fillna minObs = Filters.boxcarFilter obs window nan fillna minObs := by
  unfold boxcarFilter Filters.boxcarFilter
  simp only [id]
  generalize ([] : List (K × Option K)) = before
  induction obs generalizing before with
  | nil => rfl
  | cons o obs ih =>
    unfold boxcarLoop Filters.boxcarLoop
    rw [← ih, accumulate_exact, accumulate_exact]
    rfl

/-- C105: without rounding `exp_filter` is that of `Filters.Model`. -/
theorem exp_exact (obs : List (ℝ × Option ℝ)) (ctime : ℤ) (nan : ℝ) :
    expFilter id id Real.exp obs ctime nan = Filters.expFilter obs ctime nan := by
  unfold expFilter Filters.expFilter
  have key : ∀ (s : Option (ExpState ℝ)) (s' : Option Filters.ExpState), s' = s.map (fun s => ⟨s.gain, s.lastJd, s.lastFiltered⟩) →
      expLoop id id Real.exp ctime nan s obs = Filters.expLoop ctime nan s' obs := by
    induction obs with
    | nil => intro _ _ _; rfl
    | cons o obs ih =>
      intro s s' hs
      subst hs
      unfold expLoop Filters.expLoop
      have h1 : (Filters.expStep ctime nan (s.map (fun s => ⟨s.gain, s.lastJd, s.lastFiltered⟩)) o).2 = (expStep id id Real.exp ctime nan s o).2 ∧
          (Filters.expStep ctime nan (s.map (fun s => ⟨s.gain, s.lastJd, s.lastFiltered⟩)) o).1 =
            (expStep id id Real.exp ctime nan s o).1.map (fun s => ⟨s.gain, s.lastJd, s.lastFiltered⟩) := by
        unfold Filters.expStep expStep
        cases Filters.usable nan o.2 <;> cases s <;> simp
      show _ :: _ = _ :: _
      rw [h1.1, ← ih _ _ h1.2]
  exact key none none rfl

/-! ## Scaling -/

theorem npMin_exact (l : List ℝ) (hl : l ≠ []) : Scaling.npMin l = some (npMin l) := by cases l <;> first | rfl | exact absurd rfl hl
theorem npMax_exact (l : List ℝ) (hl : l ≠ []) : Scaling.npMax l = some (npMax l) := by cases l <;> first | rfl | exact absurd rfl hl

theorem allSome_map_some (l : List ℝ) : Scaling.allSome (l.map some) = some l := by
  induction l with
  | nil => rfl
  | cons v l ih => simp_all [Scaling.allSome]

/-- C108: without rounding `min_max` and `mean_std` are those of `Scaling.Model`. -/
theorem scaling_exact (src ref : List ℝ) (hs : src ≠ []) (hr : ref ≠ []) :
    (npMin src < npMax src → Scaling.minMax (src.map some) (ref.map some) = .ok ((minMax id src ref).map some)) ∧
    (Scaling.npStd src ≠ 0 → Scaling.meanStd (src.map some) (ref.map some) =
      (meanStd id (Scaling.npMean src) (Scaling.npStd src) (Scaling.npMean ref) (Scaling.npStd ref) src).map some) := by
  constructor
  · intro h
    unfold Scaling.minMax
    rw [if_neg (by simp [hs, hr]), allSome_map_some, allSome_map_some]
    simp only [npMin_exact _ hs, npMax_exact _ hs, npMin_exact _ hr, npMax_exact _ hr]
    rw [if_neg (by linarith)]
    simp [minMax, minMaxValue]
  · intro h
    unfold Scaling.meanStd
    rw [allSome_map_some, allSome_map_some]
    simp only
    rw [if_neg (by simp [h, hr])]
    simp [meanStd]

example := scaling_exact [1, 3, 4] [2, 7] (by simp) (by simp)

/-! ## Exchanged series -/

section
set_option linter.unusedSectionVars false
variable {K : Type} [Field K] [LinearOrder K] [IsStrictOrderedRing K]

theorem welford_swap (rnd : K → K) (l : List (K × K)) (s t : Welford K) (h : t.nobs = s.nobs ∧ t.mx = s.my ∧ t.my = s.mx ∧ t.M2x = s.M2y ∧ t.M2y = s.M2x) :
    let a := l.foldl (Welford.add rnd) s
    let b := (l.map Prod.swap).foldl (Welford.add rnd) t
    b.mx = a.my ∧ b.my = a.mx ∧ b.M2x = a.M2y ∧ b.M2y = a.M2x := by
  induction l generalizing s t with
  | nil => exact h.2
  | cons p l ih =>
    rw [List.map_cons, List.foldl_cons, List.foldl_cons]
    obtain ⟨h1, h2, h3, h4, h5⟩ := h
    refine ih _ _ ⟨?_, ?_, ?_, ?_, ?_⟩ <;> simp only [Welford.add, h1, h2, h3, h4, h5, Prod.fst_swap, Prod.snd_swap]

/-- C107: exchanging the series does not change a bit of the bias and variance components of the MSE and of the ubRMSD. (For the correlation component see
`mse_corr_exchange_wrong`.) -/
theorem exchange_exact (rnd sq : K → K) (hodd : ∀ x, rnd (-x) = -rnd x) (l : List (K × K)) :
    mseBias rnd (l.map Prod.swap) = mseBias rnd l ∧
    (mseDecomposition rnd sq (l.map Prod.swap)).2.2 = (mseDecomposition rnd sq l).2.2 ∧
    ubrmsd rnd sq (l.map Prod.swap) = ubrmsd rnd sq l := by
  have e : ∀ a b : K, rnd (a - b) * rnd (a - b) = rnd (b - a) * rnd (b - a) := fun a b => by
    rw [← neg_sub b a, hodd, neg_mul_neg]
  refine ⟨?_, ?_, ?_⟩
  · rw [mseBias, (swap_exact rnd hodd l).2.2, neg_mul_neg, mseBias]
  · obtain ⟨h1, h2, h3, h4⟩ := welford_swap rnd l ⟨0, 0, 0, 0, 0, 0⟩ ⟨0, 0, 0, 0, 0, 0⟩ ⟨rfl, rfl, rfl, rfl, rfl⟩
    simp only [mseDecomposition, mseBiasFromMoments, mseVar, moments, h1, h2, h3, h4, List.length_map]
    rw [e, e (sq _) (sq _)]
  · unfold ubrmsd
    simp only [List.foldl_map, List.length_map, Prod.fst_swap, Prod.snd_swap]
    congr 4
    funext s p
    rw [e]

/-- C107: with a monotone rounding the components of the MSE are never negative, and the two coefficients are never above 1. -/
theorem never_negative {rnd : K → K} (hm : ∀ x y, x ≤ y → rnd x ≤ rnd y) (h0 : rnd 0 = 0) (h1 : rnd 1 = 1) (sq : K → K) (order : List K → Tree K)
    (ho : ∀ v : List K, v ≠ [] → (order v).leaves.Perm v) (l : List (K × K)) (hl : l ≠ []) :
    0 ≤ mseBias rnd l ∧ 0 ≤ (mseDecomposition rnd sq l).1 ∧ 0 ≤ (mseDecomposition rnd sq l).2.1 ∧ 0 ≤ (mseDecomposition rnd sq l).2.2.1 ∧
    0 ≤ (mseDecomposition rnd sq l).2.2.2 ∧ (∀ v, nashSutcliffe rnd order l = some v → v ≤ 1) ∧ (∀ v, indexOfAgreement rnd order l = some v → v ≤ 1) := by
  have r0 : ∀ x, 0 ≤ x → 0 ≤ rnd x := fun x hx => h0 ▸ hm 0 x hx
  have sq0 : ∀ x : K, 0 ≤ rnd (x * x) := fun x => r0 _ (mul_self_nonneg x)
  have t0 : ∀ t : Tree K, (∀ v ∈ t.leaves, 0 ≤ v) → 0 ≤ t.sum rnd := by
    intro t
    induction t with
    | leaf v => intro h; exact h v (by simp [Tree.leaves])
    | node a b ha hb =>
      intro h
      exact r0 _ (add_nonneg (ha fun v hv => h v (by simp [Tree.leaves, hv])) (hb fun v hv => h v (by simp [Tree.leaves, hv])))
  have hc : 0 ≤ mseCorr rnd sq (moments rnd l) := le_max_right _ _
  have hv : 0 ≤ mseVar rnd sq (moments rnd l) := sq0 _
  have hb : 0 ≤ mseBiasFromMoments rnd (moments rnd l) := sq0 _
  have hsum : ∀ g : K × K → K, 0 ≤ (order (l.map (fun p => rnd (g p * g p)))).sum rnd := by
    intro g
    refine t0 _ fun v hv => ?_
    rw [(ho _ (by simpa using hl)).mem_iff, List.mem_map] at hv
    obtain ⟨p, -, rfl⟩ := hv
    exact sq0 _
  have hR : 0 ≤ RSS rnd l := by
    unfold RSS
    have : ∀ (l : List (K × K)) (a : K), 0 ≤ a → 0 ≤ l.foldl (fun s p => rnd (s + rnd (rnd (p.1 - p.2) * rnd (p.1 - p.2)))) a := by
      intro l
      induction l with
      | nil => intro a ha; exact ha
      | cons p l ih => intro a ha; exact ih _ (r0 _ (add_nonneg ha (sq0 _)))
    exact this l 0 le_rfl
  have one : ∀ a b : K, 0 ≤ a → 0 ≤ b → rnd (1 - rnd (a / b)) ≤ 1 := fun a b ha hb => by
    have := hm (1 - rnd (a / b)) 1 (by linarith [r0 _ (div_nonneg ha hb)])
    rwa [h1] at this
  refine ⟨sq0 _, r0 _ (add_nonneg (r0 _ (add_nonneg hc hv)) hb), hc, hb, hv, ?_, ?_⟩
  · intro v hv
    unfold nashSutcliffe at hv
    simp only at hv
    split at hv
    · cases hv
    · rw [← Option.some.inj hv]
      exact one _ _ (hsum _) (hsum _)
  · intro v hv
    unfold indexOfAgreement at hv
    simp only at hv
    split at hv
    · cases hv
    · rw [← Option.some.inj hv]
      exact one _ _ hR (hsum _)

end

/-! ## Concrete cases -/

open Verif.Rolling.Fl in
example : (fun l : List (ℚ × ℚ) => (mseDecomposition rnd64 id l).2.2) [(rnd64 (1 / 10), 1), (rnd64 (3 / 10), 0), (7, 5)] ≠ (0, 0) ∧
    nashSutcliffe rnd64 fromLeft [(rnd64 (1 / 10), 1), (rnd64 (3 / 10), 0), (7, 5)] ≠ none ∧ rnd64 1 = 1 ∧ rnd64 0 = 0 := by decide +kernel

example : npMin [(3 : ℚ), 1, 2] < npMax [(3 : ℚ), 1, 2] := by decide +kernel

example : Scaling.npStd [0, 2] ≠ 0 := by
  have : Scaling.npStd [0, 2] = 1 := by norm_num [Scaling.npStd, Scaling.npMean]
  rw [this]
  norm_num

end Verif.Rounding
