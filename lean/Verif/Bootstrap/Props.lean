import Mathlib.Tactic.Linarith
import Mathlib.Tactic.Ring
import Mathlib.Tactic.FieldSimp
import Mathlib.Tactic.NormNum
import Mathlib.Tactic.Positivity
import Mathlib.Data.List.GetD
import Verif.Bootstrap.Model
import Verif.Common.ListAux

/-! C18: bootstrapped confidence intervals. -/

namespace Verif.Bootstrap

/-! #### Quantiles -/

theorem interpAt_between (a : ℕ → ℝ) (ha : Monotone a) (h : ℝ) (h0 : 0 ≤ h) :
    a ⌊h⌋₊ ≤ interpAt a h ∧ interpAt a h ≤ a (⌊h⌋₊ + 1) := by
  have h1 := Nat.floor_le h0
  have h2 := Nat.lt_floor_add_one h
  have h3 : a ⌊h⌋₊ ≤ a (⌊h⌋₊ + 1) := ha (Nat.le_succ _)
  unfold interpAt
  constructor
  · nlinarith
  · nlinarith

theorem interpAt_mono (a : ℕ → ℝ) (ha : Monotone a) (h h' : ℝ) (h0 : 0 ≤ h) (hh : h ≤ h') :
    interpAt a h ≤ interpAt a h' := by
  rcases (Nat.floor_mono hh).eq_or_lt with he | hlt
  · unfold interpAt
    rw [he]
    have h3 : a ⌊h'⌋₊ ≤ a (⌊h'⌋₊ + 1) := ha (Nat.le_succ _)
    nlinarith
  · exact ((interpAt_between a ha h h0).2.trans (ha hlt)).trans (interpAt_between a ha h' (h0.trans hh)).1

theorem sortedValues_pairwise (vals : List (Option ℝ)) : (sortedValues vals).Pairwise (· ≤ ·) :=
  List.pairwise_insertionSort _ _

theorem getD_mono (l : List ℝ) (hl : l.Pairwise (· ≤ ·)) (hne : l ≠ []) :
    Monotone (fun i => l.getD (min i (l.length - 1)) 0) := by
  intro i j hij
  have hp : 0 < l.length := List.length_pos_of_ne_nil hne
  have hi : min i (l.length - 1) < l.length := by omega
  have hj : min j (l.length - 1) < l.length := by omega
  simp only [List.getD_eq_getElem _ _ hi, List.getD_eq_getElem _ _ hj]
  have hle : min i (l.length - 1) ≤ min j (l.length - 1) := by omega
  rcases hle.eq_or_lt with h | h
  · simp [h]
  · exact (List.pairwise_iff_getElem.mp hl) _ _ hi hj h

/-- the value of `nanquantile` on non-empty data -/
theorem nanquantile_eq (vals : List (Option ℝ)) (q : ℝ) (hq : 0 ≤ q ∧ q ≤ 1) (hne : sortedValues vals ≠ []) :
    nanquantile vals q = .ok (some (interpAt (fun i => (sortedValues vals).getD (min i ((sortedValues vals).length - 1)) 0)
      ((((sortedValues vals).length - 1 : ℕ) : ℝ) * q))) := by
  unfold nanquantile
  rw [if_pos hq]
  cases hs : sortedValues vals with
  | nil => exact absurd hs hne
  | cons a l => simp

/-- Specification of the quantile: let `s` be the values that are not NaN in increasing order. At the virtual index `k + g`
(`0 ≤ g < 1`) the quantile is `(1 - g) s_k + g s_{k+1}`. -/
theorem nanquantile_spec (vals : List (Option ℝ)) (s : List ℝ) (hs : s.Pairwise (· ≤ ·)) (hp : s.Perm (vals.filterMap id))
    (q g : ℝ) (k : ℕ) (hg : 0 ≤ g ∧ g < 1) (hk : k < s.length) (hk' : g = 0 ∨ k + 1 < s.length) (hq : 0 ≤ q ∧ q ≤ 1)
    (h : ((s.length : ℝ) - 1) * q = k + g) :
    nanquantile vals q = .ok (some ((1 - g) * s.getD k 0 + g * s.getD (k + 1) 0)) := by
  have e : sortedValues vals = s := by
    apply List.Perm.eq_of_pairwise (le := (· ≤ ·)) (fun a b _ _ h1 h2 => le_antisymm h1 h2) (sortedValues_pairwise vals) hs
    exact ((List.perm_insertionSort _ _).trans hp.symm)
  have hne : s ≠ [] := by rintro rfl; simp at hk
  rw [nanquantile_eq vals q hq (by rw [e]; exact hne), e]
  have hcast : (((s.length - 1 : ℕ) : ℝ)) = (s.length : ℝ) - 1 := by
    rw [Nat.cast_sub (by omega)]; simp
  rw [hcast, h]
  unfold interpAt
  have hf : ⌊(k : ℝ) + g⌋₊ = k := by
    rw [Nat.floor_eq_iff (by have := hg.1; positivity)]
    constructor <;> linarith [hg.1, hg.2]
  rw [hf]
  have hm : min k (s.length - 1) = k := by omega
  simp only [hm]
  rcases hk' with rfl | hk'
  · simp
  · have hm' : min (k + 1) (s.length - 1) = k + 1 := by omega
    rw [hm']
    congr 2; ring

example : nanquantile [some 3, none, some 1, some 2] (1 / 4) = .ok (some (3 / 2)) := by
  rw [nanquantile_spec _ [1, 2, 3] (by norm_num) (by
    show List.Perm [1, 2, 3] [3, 1, 2]
    exact (List.perm_append_comm (l₁ := [1, 2]) (l₂ := [3]))) (1 / 4) (1 / 2) 0 (by norm_num) (by norm_num) (by norm_num)
    (by norm_num) (by norm_num)]
  norm_num

/-- Quantiles are monotone in the level and lie between the smallest and the largest value. -/
theorem nanquantile_mono (vals : List (Option ℝ)) (p q : ℝ) (hp : 0 ≤ p) (hpq : p ≤ q) (hq : q ≤ 1)
    (hne : ∃ v, some v ∈ vals) :
    ∃ a b, nanquantile vals p = .ok (some a) ∧ nanquantile vals q = .ok (some b) ∧ a ≤ b ∧
      (∀ lo, (∀ v, some v ∈ vals → lo ≤ v) → lo ≤ a) ∧ ∀ hi, (∀ v, some v ∈ vals → v ≤ hi) → b ≤ hi := by
  have hmem : ∀ v, v ∈ sortedValues vals ↔ some v ∈ vals := by
    intro v
    unfold sortedValues
    rw [List.mem_insertionSort, List.mem_filterMap]
    simp
  have hs : sortedValues vals ≠ [] := by
    obtain ⟨v, hv⟩ := hne
    exact List.ne_nil_of_mem ((hmem v).mpr hv)
  have hlen : 0 < (sortedValues vals).length := List.length_pos_of_ne_nil hs
  have hm := getD_mono _ (sortedValues_pairwise vals) hs
  have hel : ∀ i, (sortedValues vals).getD (min i ((sortedValues vals).length - 1)) 0 ∈ sortedValues vals := by
    intro i
    rw [List.getD_eq_getElem _ _ (by omega)]
    exact List.getElem_mem _
  have hL : (0 : ℝ) ≤ (((sortedValues vals).length - 1 : ℕ) : ℝ) := Nat.cast_nonneg _
  refine ⟨_, _, nanquantile_eq vals p ⟨hp, hpq.trans hq⟩ hs, nanquantile_eq vals q ⟨hp.trans hpq, hq⟩ hs, ?_, ?_, ?_⟩
  · exact interpAt_mono _ hm _ _ (mul_nonneg hL hp) (mul_le_mul_of_nonneg_left hpq hL)
  · intro lo hlo
    exact (hlo _ ((hmem _).mp (hel _))).trans (interpAt_between _ hm _ (mul_nonneg hL hp)).1
  · intro hi hhi
    exact (interpAt_between _ hm _ (mul_nonneg hL (hp.trans hpq))).2.trans (hhi _ ((hmem _).mp (hel _)))

/-! #### Intervals -/

/-- C18, percentile method: for `0 ≤ alpha ≤ 1` and at least one value that is not NaN, the bounds are the `alpha/2` and
`1 - alpha/2` quantiles, lower ≤ upper, and a smaller alpha gives an enclosing interval. -/
theorem percentile_ci_ordered (bs : List (Option ℝ)) (m : Option ℝ) (alpha : ℝ) (h0 : 0 ≤ alpha) (h1 : alpha ≤ 1)
    (hne : ∃ v, some v ∈ bs) :
    ∃ lo up, percentileCi bs m alpha = .ok (some lo, some up) ∧ lo ≤ up ∧
      nanquantile bs (alpha / 2) = .ok (some lo) ∧ nanquantile bs (1 - alpha / 2) = .ok (some up) ∧
      ∀ beta, 0 ≤ beta → beta ≤ alpha → ∃ lo' up', percentileCi bs m beta = .ok (some lo', some up') ∧ lo' ≤ lo ∧ up ≤ up' := by
  obtain ⟨lo, up, e1, e2, hle, _⟩ := nanquantile_mono bs (alpha / 2) (1 - alpha / 2) (by linarith) (by linarith) (by linarith) hne
  refine ⟨lo, up, ?_, hle, e1, e2, ?_⟩
  · unfold percentileCi
    rw [e1, e2]; rfl
  · intro beta hb hba
    obtain ⟨l', l2, e3, e4, h3, _⟩ := nanquantile_mono bs (beta / 2) (alpha / 2) (by linarith) (by linarith) (by linarith) hne
    obtain ⟨u2, u', e5, e6, h4, _⟩ := nanquantile_mono bs (1 - alpha / 2) (1 - beta / 2) (by linarith) (by linarith)
      (by linarith) hne
    rw [e1] at e4; rw [e2] at e5
    simp at e4 e5
    refine ⟨l', u', ?_, by rw [e4]; exact h3, by rw [e5]; exact h4⟩
    unfold percentileCi
    rw [e3, e6]; rfl

/-- C18, basic method: the interval is the percentile interval reflected at the estimate, hence ordered. -/
theorem basic_ci_reflects (bs : List (Option ℝ)) (m : ℝ) (alpha : ℝ) (h0 : 0 ≤ alpha) (h1 : alpha ≤ 1)
    (hne : ∃ v, some v ∈ bs) :
    ∃ lo up, percentileCi bs (some m) alpha = .ok (some lo, some up) ∧
      basicCi bs (some m) alpha = .ok (some (m - (up - m)), some (m + (m - lo))) ∧ m - (up - m) ≤ m + (m - lo) := by
  obtain ⟨lo, up, e, hle, e1, e2, _⟩ := percentile_ci_ordered bs (some m) alpha h0 h1 hne
  refine ⟨lo, up, e, ?_, by linarith⟩
  unfold basicCi
  rw [e1, e2]
  simp only [bind, Except.bind, pure, Except.pure, reflect]
  congr 3 <;> ring

example : ∃ lo up, basicCi [some 1, some 2, none] (some 5) (1 / 10) = .ok (some lo, some up) ∧ lo ≤ up := by
  obtain ⟨_, _, _, h, h'⟩ := basic_ci_reflects [some 1, some 2, none] 5 (1 / 10) (by norm_num) (by norm_num) ⟨1, by simp⟩
  exact ⟨_, _, h, h'⟩

/-- Outside `0 ≤ alpha ≤ 2` both methods raise ValueError. -/
theorem percentile_ci_range (bs : List (Option ℝ)) (m : Option ℝ) (alpha : ℝ) (h : alpha < 0 ∨ 2 < alpha) :
    percentileCi bs m alpha = .error .valueError ∧ basicCi bs m alpha = .error .valueError := by
  have e1 : nanquantile bs (alpha / 2) = .error .valueError := by
    unfold nanquantile; rw [if_neg]; rintro ⟨h1, h2⟩; rcases h with h | h <;> linarith
  have e2 : nanquantile bs (1 - alpha / 2) = .error .valueError := by
    unfold nanquantile; rw [if_neg]; rintro ⟨h1, h2⟩; rcases h with h | h <;> linarith
  constructor
  · unfold percentileCi; rw [e1]; rfl
  · unfold basicCi; rw [e2]; rfl

example : percentileCi [some 1, some 2] (some 1) 3 = .error .valueError := (percentile_ci_range _ _ 3 (by norm_num)).1

theorem acceleration_some (v : List ℝ) :
    acceleration (v.map some) =
      if (v.map (fun x => (v.sum / (v.length : ℝ) - x) ^ 2)).sum = 0 then none
      else some ((v.map (fun x => (v.sum / (v.length : ℝ) - x) ^ 3)).sum /
        (6 * ((v.map (fun x => (v.sum / (v.length : ℝ) - x) ^ 2)).sum *
          Real.sqrt (v.map (fun x => (v.sum / (v.length : ℝ) - x) ^ 2)).sum))) := by
  have h : (v.map some).filterMap id = v := by induction v <;> simp_all
  unfold acceleration
  rw [if_pos (by simp)]
  simp only [h]

/-- What the theorems use of the standard normal distribution. -/
structure NormalLike (ppf cdf : ℝ → ℝ) : Prop where
  inv : ∀ p, 0 < p → p < 1 → cdf (ppf p) = p
  half : ppf (1 / 2) = 0
  mono : Monotone cdf
  ppf_mono : ∀ p q, 0 < p → p ≤ q → q < 1 → ppf p ≤ ppf q
  pos : ∀ z, 0 ≤ cdf z ∧ cdf z ≤ 1

/-- The hypotheses on the distribution can be met (here by the uniform distribution on [-1/2, 1/2]). -/
theorem normalLike_uniform : NormalLike (fun p => p - 1 / 2) (fun z => max 0 (min 1 (z + 1 / 2))) where
  inv p h0 h1 := by
    simp only [sub_add_cancel]
    rw [min_eq_right h1.le, max_eq_right h0.le]
  half := by norm_num
  mono := fun a b h => max_le_max le_rfl (min_le_min le_rfl (by linarith))
  ppf_mono p q _ h _ := by simpa using h
  pos z := ⟨le_max_left _ _, max_le (by norm_num) (min_le_left _ _)⟩

/-- C18, BCa method: the interval actually computed for zero bias correction and zero acceleration is the percentile interval
of **twice** the requested alpha. -/
theorem bca_is_percentile_of_twice_alpha (ppf cdf : ℝ → ℝ) (hn : NormalLike ppf cdf) (bs : List (Option ℝ)) (m : ℝ)
    (alpha : ℝ) (jk : List (Option ℝ)) (h0 : 0 < alpha) (h1 : alpha < 1)
    (hz : ((bs.filter (leNan (some m))).length : ℝ) / (bs.length : ℝ) = 1 / 2) (ha : acceleration jk = some 0) :
    bcaCi ppf cdf bs (some m) alpha jk = percentileCi bs (some m) (2 * alpha) := by
  unfold bcaCi percentileCi
  simp only [hz, ha, hn.half]
  rw [if_pos (by norm_num)]
  unfold bcaLevel
  simp only [zero_add, zero_mul, sub_zero, div_one]
  rw [hn.inv alpha h0 h1, hn.inv (1 - alpha) (by linarith) (by linarith)]
  have e : 2 * alpha / 2 = alpha := by ring
  rw [e]

/-- C18 fails for BCa: with zero bias correction and zero acceleration the interval differs from the percentile interval of
the same alpha. -/
theorem bca_not_percentile (ppf cdf : ℝ → ℝ) (hn : NormalLike ppf cdf) :
    ∃ (bs : List (Option ℝ)) (m alpha : ℝ) (jk : List (Option ℝ)),
      ((bs.filter (leNan (some m))).length : ℝ) / (bs.length : ℝ) = 1 / 2 ∧ acceleration jk = some 0 ∧ 0 < alpha ∧ alpha < 1 ∧
      bcaCi ppf cdf bs (some m) alpha jk ≠ percentileCi bs (some m) alpha := by
  have hz : (([some 0, some 1].filter (leNan (some (0 : ℝ)))).length : ℝ) / (([some (0 : ℝ), some 1]).length : ℝ) = 1 / 2 := by
    simp [leNan]
  have ha : acceleration [some 0, some 1] = some 0 := by
    rw [show [some (0 : ℝ), some 1] = [0, 1].map some from rfl, acceleration_some]
    norm_num
  refine ⟨[some 0, some 1], 0, 1 / 2, [some 0, some 1], hz, ha, by norm_num, by norm_num, ?_⟩
  rw [bca_is_percentile_of_twice_alpha ppf cdf hn _ _ _ _ (by norm_num) (by norm_num) hz ha]
  have q : ∀ p : ℝ, 0 ≤ p → p < 1 → nanquantile [some 0, some 1] p = .ok (some p) := by
    intro p hp hp1
    rw [nanquantile_spec [some 0, some 1] [0, 1] (by norm_num) (List.Perm.refl _) p p 0 ⟨hp, hp1⟩ (by norm_num) (by norm_num)
      ⟨hp, hp1.le⟩ (by norm_num)]
    simp
  unfold percentileCi
  rw [q _ (by norm_num) (by norm_num), q _ (by norm_num) (by norm_num), q _ (by norm_num) (by norm_num),
    q _ (by norm_num) (by norm_num)]
  simp only [bind, Except.bind, pure, Except.pure]
  norm_num

example := bca_not_percentile _ _ normalLike_uniform

theorem bca_transform_mono (a u v : ℝ) (huv : u ≤ v) (hu : 0 < 1 - a * u) (hv : 0 < 1 - a * v) :
    u / (1 - a * u) ≤ v / (1 - a * v) := by
  rw [div_le_div_iff₀ hu hv]
  nlinarith

/-- C18, BCa method: lower ≤ upper for `0 < alpha ≤ 1/2` as long as the correction denominators are positive. -/
theorem bca_ci_ordered_partial (ppf cdf : ℝ → ℝ) (hn : NormalLike ppf cdf) (bs : List (Option ℝ)) (m : ℝ)
    (alpha a : ℝ) (jk : List (Option ℝ)) (h0 : 0 < alpha) (h1 : alpha ≤ 1 / 2) (z0 : ℝ)
    (hs : 0 < ((bs.filter (leNan (some m))).length : ℝ) / (bs.length : ℝ) ∧
      ((bs.filter (leNan (some m))).length : ℝ) / (bs.length : ℝ) < 1)
    (hz : z0 = ppf (((bs.filter (leNan (some m))).length : ℝ) / (bs.length : ℝ)))
    (ha : acceleration jk = some a)
    (hd1 : 0 < 1 - a * (z0 + ppf alpha)) (hd2 : 0 < 1 - a * (z0 + ppf (1 - alpha))) :
    ∃ lo up, bcaCi ppf cdf bs (some m) alpha jk = .ok (some lo, some up) ∧ lo ≤ up := by
  have hne : ∃ v, some v ∈ bs := by
    have hpos : (bs.filter (leNan (some m))) ≠ [] := by
      intro h
      rw [h] at hs
      simp at hs
    obtain ⟨v, hv⟩ := List.exists_mem_of_ne_nil _ hpos
    obtain ⟨h1, h2⟩ := List.mem_filter.mp hv
    cases v with
    | none => simp [leNan] at h2
    | some v => exact ⟨v, h1⟩
  have hlev : bcaLevel cdf z0 a (ppf alpha) ≤ bcaLevel cdf z0 a (ppf (1 - alpha)) := by
    unfold bcaLevel
    apply hn.mono
    have := hn.ppf_mono alpha (1 - alpha) h0 (by linarith) (by linarith)
    have := bca_transform_mono a (z0 + ppf alpha) (z0 + ppf (1 - alpha)) (by linarith) hd1 hd2
    linarith
  obtain ⟨lo, up, e1, e2, hle, _⟩ := nanquantile_mono bs (bcaLevel cdf z0 a (ppf alpha)) (bcaLevel cdf z0 a (ppf (1 - alpha)))
    (hn.pos _).1 hlev (hn.pos _).2 hne
  refine ⟨lo, up, ?_, hle⟩
  unfold bcaCi
  simp only
  rw [if_pos hs, ha]
  simp only
  rw [← hz, e1, e2]
  rfl

example : ∃ lo up, bcaCi (fun p => p - 1 / 2) (fun z => max 0 (min 1 (z + 1 / 2))) [some 0, some 1] (some 0) (1 / 4) [some 0, some 1] =
    .ok (some lo, some up) ∧ lo ≤ up := by
  have ha : acceleration [some 0, some 1] = some 0 := by
    norm_num [acceleration, List.filterMap_cons]
  have hz : (([some 0, some 1].filter (leNan (some (0 : ℝ)))).length : ℝ) / (([some (0 : ℝ), some 1]).length : ℝ) = 1 / 2 := by
    simp [leNan]
  exact bca_ci_ordered_partial _ _ normalLike_uniform _ 0 (1 / 4) 0 _ (by norm_num) (by norm_num) _ (by rw [hz]; norm_num) rfl ha
    (by norm_num) (by norm_num)

/-- BCa raises ValueError whenever the estimate is not strictly inside the bootstrapped values, or all jackknife values are
equal; e.g. for identical pairs of observations. -/
theorem bca_raises (ppf cdf : ℝ → ℝ) (bs : List (Option ℝ)) (m alpha : ℝ) (jk : List (Option ℝ))
    (h : (∀ v ∈ bs, ∃ w, v = some w ∧ w ≤ m) ∨ (∀ v ∈ bs, ∃ w, v = some w ∧ m < w) ∨
      (∃ c, ∀ v ∈ jk, v = some c)) :
    bcaCi ppf cdf bs (some m) alpha jk = .error .valueError := by
  unfold bcaCi
  simp only
  rcases h with h | h | ⟨c, h⟩
  · have : bs.filter (leNan (some m)) = bs := by
      rw [List.filter_eq_self]
      intro v hv
      obtain ⟨w, rfl, hw⟩ := h v hv
      simpa [leNan] using hw
    rw [if_neg]
    rw [this]
    rintro ⟨h1, h2⟩
    rcases eq_or_ne (bs.length : ℝ) 0 with h0 | h0
    · rw [h0] at h1; simp at h1
    · rw [div_self h0] at h2; exact lt_irrefl _ h2
  · have : bs.filter (leNan (some m)) = [] := by
      rw [List.filter_eq_nil_iff]
      intro v hv
      obtain ⟨w, rfl, hw⟩ := h v hv
      simpa [leNan] using hw
    rw [if_neg]
    rw [this]
    simp
  · have : acceleration jk = none := by
      have hj : jk = List.replicate jk.length (some c) := List.eq_replicate_iff.mpr ⟨rfl, h⟩
      unfold acceleration
      split
      · have hf : jk.filterMap id = List.replicate jk.length c := by
          rw [hj]; simp
        simp only [hf]
        rw [if_pos]
        simp
        rcases Nat.eq_zero_or_pos jk.length with h0 | h0
        · left; simpa using h0
        · right
          have : (jk.length : ℝ) ≠ 0 := by positivity
          field_simp
          ring
      · rfl
    rw [this]
    split <;> rfl

example : bcaCi id id [some 1, some 2] (some 2) (1 / 10) [some 0, some 1] = .error .valueError :=
  bca_raises _ _ _ _ _ _ (Or.inl (by simp))

/-! #### The calling functions -/

/-- C18: `with_bootstrapped_ci` returns the metric of the full data as estimate, with the percentile (basic) interval of the
metric values of the resampled pairs; pairs are resampled together. -/
theorem with_bootstrapped_ci_correct (ppf cdf : ℝ → ℝ) (metric : List ℝ → List ℝ → Option ℝ) (isInt : Bool)
    (pairs : List (ℝ × ℝ)) (alpha : ℝ) (minLen : ℕ) (draws : List (List ℕ)) (hmin : minLen ≤ pairs.length)
    (hd : ∀ idx ∈ draws, ∀ i ∈ idx, i < pairs.length) (h0 : 0 ≤ alpha) (h1 : alpha ≤ 1)
    (f : List (ℝ × ℝ) → Option ℝ) (hf : ∀ l, f l = metric (l.map Prod.fst) (l.map Prod.snd))
    (hne : ∃ idx ∈ draws, ∃ v, f (idx.map (fun i => pairs.getD i (0, 0))) = some v) :
    ∃ lo up, percentileCi (draws.map (fun idx => f (idx.map (fun i => pairs.getD i (0, 0))))) (f pairs) alpha =
        .ok (some lo, some up) ∧ lo ≤ up ∧
      withBootstrappedCi ppf cdf metric isInt (pairs.map Prod.fst) (pairs.map Prod.snd) alpha .percentile minLen draws =
        .ok (f pairs, some lo, some up) ∧
      ∀ m, f pairs = some m →
        withBootstrappedCi ppf cdf metric isInt (pairs.map Prod.fst) (pairs.map Prod.snd) alpha .basic minLen draws =
          .ok (some m, some (m - (up - m)), some (m + (m - lo))) := by
  have hbs : draws.map (fun idx => metric (take (pairs.map Prod.fst) idx) (take (pairs.map Prod.snd) idx)) =
      draws.map (fun idx => f (idx.map (fun i => pairs.getD i (0, 0)))) := by
    apply List.map_congr_left
    intro idx hidx
    rw [hf]
    unfold take
    rw [List.map_map, List.map_map]
    congr 1
    · apply List.map_congr_left
      intro i hi
      have := hd idx hidx i hi
      simp [List.getElem?_eq_getElem this]
    · apply List.map_congr_left
      intro i hi
      have := hd idx hidx i hi
      simp [List.getElem?_eq_getElem this]
  have hne' : ∃ v, some v ∈ draws.map (fun idx => f (idx.map (fun i => pairs.getD i (0, 0)))) := by
    obtain ⟨idx, h1, v, h2⟩ := hne
    exact ⟨v, List.mem_map.mpr ⟨idx, h1, h2⟩⟩
  obtain ⟨lo, up, e, hle, e1, e2, _⟩ := percentile_ci_ordered _ (f pairs) alpha h0 h1 hne'
  have hlen : ¬ (pairs.map Prod.fst).length < minLen := by simpa using hmin
  refine ⟨lo, up, e, hle, ?_, ?_⟩
  · unfold withBootstrappedCi
    rw [if_neg hlen]
    simp only [reduceCtorEq, if_false, bind, Except.bind, pure, Except.pure]
    rw [hbs, ← hf pairs, e]
  · intro m hm
    obtain ⟨lo', up', e', e'', _⟩ := basic_ci_reflects _ m alpha h0 h1 hne'
    rw [hm] at e
    rw [e] at e'
    simp at e'
    obtain ⟨rfl, rfl⟩ := e'
    unfold withBootstrappedCi
    rw [if_neg hlen]
    simp only [reduceCtorEq, if_false, bind, Except.bind, pure, Except.pure]
    rw [hbs, ← hf pairs, hm, e'']

/-- `with_bootstrapped_ci_correct` applies: two samples of three pairs, the metric is the difference of the sums. -/
example : ∃ lo up, withBootstrappedCi id id (fun x y => some (x.sum - y.sum)) false [1, 2, 4] [1, 1, 1] (1 / 10) .percentile 3
    [[0, 0, 1], [2, 1, 2]] = .ok (some 4, some lo, some up) ∧ lo ≤ up := by
  obtain ⟨lo, up, _, h, h', _⟩ := with_bootstrapped_ci_correct id id (fun x y => some (x.sum - y.sum)) false
    [(1, 1), (2, 1), (4, 1)] (1 / 10) 3 [[0, 0, 1], [2, 1, 2]] (by simp) (by simp) (by norm_num) (by norm_num) _
    (fun _ => rfl) ⟨[0, 0, 1], by simp, _, rfl⟩
  refine ⟨lo, up, ?_, h⟩
  rw [show (some 4 : Option ℝ) = some (((([(1, 1), (2, 1), (4, 1)] : List (ℝ × ℝ)).map Prod.fst)).sum -
    ((([(1, 1), (2, 1), (4, 1)] : List (ℝ × ℝ)).map Prod.snd)).sum) by norm_num]
  exact h'

/-- C18: too short series and unknown methods raise. -/
theorem with_bootstrapped_ci_errors (ppf cdf : ℝ → ℝ) (metric : List ℝ → List ℝ → Option ℝ) (isInt : Bool)
    (x y : List ℝ) (alpha : ℝ) (minLen : ℕ) (draws : List (List ℕ)) (method : Method) :
    (x.length < minLen → withBootstrappedCi ppf cdf metric isInt x y alpha method minLen draws = .error .valueError) ∧
    (minLen ≤ x.length → withBootstrappedCi ppf cdf metric isInt x y alpha .other minLen draws = .error .unboundLocal) := by
  constructor
  · intro h; unfold withBootstrappedCi; rw [if_pos h]
  · intro h; unfold withBootstrappedCi; rw [if_neg (by omega)]; rfl

example : withBootstrappedCi id id (fun x _ => some x.sum) false [1, 2] [1, 3] (1 / 10) .bca 10 [[0, 1]] = .error .valueError :=
  (with_bootstrapped_ci_errors id id _ false [1, 2] [1, 3] _ 10 _ _).1 (by simp)

/-- The BCa interval of `with_bootstrapped_ci` for floating point data uses the leave-one-out values. -/
theorem jackknife_float (metric : List ℝ → List ℝ → Option ℝ) (x y : List ℝ) :
    jackknife metric false x y = .ok ((List.range x.length).map (fun i => metric (x.eraseIdx i) (y.eraseIdx i))) := by
  unfold jackknife
  apply mapM_except_of_forall
  rw [List.forall₂_map_right_iff]
  apply List.forall₂_same.mpr
  intro i _
  simp [store]

/-- `with_bootstrapped_ci(method="BCa")` on floating point data: the estimate and the BCa interval of the resampled values and
the leave-one-out values. -/
theorem with_bootstrapped_bca (ppf cdf : ℝ → ℝ) (metric : List ℝ → List ℝ → Option ℝ) (x y : List ℝ) (alpha : ℝ)
    (minLen : ℕ) (draws : List (List ℕ)) (hmin : minLen ≤ x.length) (ci : Interval) :
    withBootstrappedCi ppf cdf metric false x y alpha .bca minLen draws = .ok (metric x y, ci.1, ci.2) ↔
      bcaCi ppf cdf (draws.map (fun idx => metric (idx.map (fun i => x.getD i 0)) (idx.map (fun i => y.getD i 0))))
        (metric x y) alpha ((List.range x.length).map (fun i => metric (x.eraseIdx i) (y.eraseIdx i))) = .ok ci := by
  unfold withBootstrappedCi
  rw [if_neg (by omega), if_pos rfl, jackknife_float]
  simp only [bind, Except.bind, pure, Except.pure]
  unfold take
  generalize bcaCi ppf cdf _ _ _ _ = r
  cases r with
  | error e => simp
  | ok c => simp [Prod.ext_iff]

/-- the mean difference of three pairs, with two bootstrap samples: BCa is the formula applied to the metric of the samples and to the three
leave-one-out values -/
example (ci : Interval) := with_bootstrapped_bca id id (fun x y => some (x.sum - y.sum)) [1, 2, 4] [1, 1, 1] (1 / 10) 3 [[0, 0, 1], [2, 1, 2]]
  (by simp) ci

/-- For integer data the leave-one-out values are truncated: the metric "mean difference" on [0, 1, 1] and [0, 0, 0] has
leave-one-out values 1, 1/2, 1/2, but the jackknife array is 1, 0, 0. -/
theorem jackknife_int_truncates :
    jackknife (fun x y => some ((x.sum - y.sum) / x.length)) true [0, 1, 1] [0, 0, 0] = .ok [some 1, some 0, some 0] ∧
    jackknife (fun x y => some ((x.sum - y.sum) / x.length)) false [0, 1, 1] [0, 0, 0] =
      .ok [some 1, some (1 / 2), some (1 / 2)] := by
  have h1 : ⌊(1 / 2 : ℝ)⌋ = 0 := by rw [Int.floor_eq_iff]; norm_num
  constructor
  · apply mapM_except_of_forall
    simp only [List.length_cons, List.length_nil, List.range_succ, List.range_zero, List.nil_append, List.cons_append]
    refine .cons ?_ (.cons ?_ (.cons ?_ .nil))
    · simp [store]
    · simp [store]; norm_num
    · simp [store]; norm_num
  · rw [jackknife_float]
    simp [List.range_succ]

/-! #### Triple collocation -/

/-- C18: the interval of the scaling coefficient of the reference is exactly (1, 1) for every method. -/
theorem tcol_ci_reference (ppf cdf : ℝ → ℝ) (tc : TcolMetrics) (rows : List Row) (ref : Fin 3) (alpha : ℝ)
    (method : Method) (hm : method ≠ .other) (draws : List (List ℕ)) :
    tcolInterval ppf cdf tc rows ref alpha method draws 2 ref = .ok (some 1, some 1) := by
  unfold tcolInterval
  cases method <;> simp at hm ⊢

example : tcolInterval id id (fun _ _ _ => some 2) [fun _ => 1] 1 (1 / 10) .bca [[0]] 2 1 = .ok (some 1, some 1) :=
  tcol_ci_reference _ _ _ _ 1 _ _ (by decide) _

/-- C18: every other interval is the percentile (basic) interval of the values of this quantity and data set in the
bootstrapped samples, lower ≤ upper. -/
theorem tcol_ci_ordered (ppf cdf : ℝ → ℝ) (tc : TcolMetrics) (rows : List Row) (ref : Fin 3) (alpha : ℝ)
    (draws : List (List ℕ)) (k i : Fin 3) (h : ¬ (k = 2 ∧ i = ref)) (h0 : 0 ≤ alpha) (h1 : alpha ≤ 1)
    (hne : ∃ idx ∈ draws, ∃ v, tc (takeRows rows idx) k i = some v) (m : ℝ) (hm : tc rows k i = some m) :
    ∃ lo up, tcolInterval ppf cdf tc rows ref alpha .percentile draws k i = .ok (some lo, some up) ∧ lo ≤ up ∧
      percentileCi (draws.map (fun idx => tc (takeRows rows idx) k i)) (some m) alpha = .ok (some lo, some up) ∧
      tcolInterval ppf cdf tc rows ref alpha .basic draws k i = .ok (some (m - (up - m)), some (m + (m - lo))) := by
  have hne' : ∃ v, some v ∈ draws.map (fun idx => tc (takeRows rows idx) k i) := by
    obtain ⟨idx, h1, v, h2⟩ := hne
    exact ⟨v, List.mem_map.mpr ⟨idx, h1, h2⟩⟩
  obtain ⟨lo, up, e, e', hle⟩ := basic_ci_reflects _ m alpha h0 h1 hne'
  refine ⟨lo, up, ?_, by linarith, e, ?_⟩
  · unfold tcolInterval; simp only; rw [if_neg h, hm, e]
  · unfold tcolInterval; simp only; rw [if_neg h, hm, e']

example : ∃ lo up, tcolInterval id id (fun rows _ i => some (rows.map (fun r => r i)).sum) [fun i => i.val, fun i => 2 * i.val] 1 (1 / 10) .percentile
    [[0, 0], [1, 0]] 0 2 = .ok (some lo, some up) ∧ lo ≤ up := by
  obtain ⟨lo, up, h, h', _⟩ := tcol_ci_ordered id id (fun rows _ i => some (rows.map (fun r => r i)).sum) [fun i => i.val, fun i => 2 * i.val] 1
    (1 / 10) [[0, 0], [1, 0]] 0 2 (by decide) (by norm_num) (by norm_num) ⟨[0, 0], by simp, _, rfl⟩ _ rfl
  exact ⟨lo, up, h, h'⟩

/-- C18, BCa method for triple collocation: every interval except the one of the scaling coefficient of the reference has
lower ≤ upper and is computed from the values of this quantity and data set in the bootstrapped samples and from the
leave-one-out values of this quantity, under the conditions of `bca_ci_ordered_partial`. -/
theorem tcol_bca_ordered_partial (ppf cdf : ℝ → ℝ) (hn : NormalLike ppf cdf) (tc : TcolMetrics) (rows : List Row) (ref : Fin 3)
    (alpha a z0 m : ℝ) (draws : List (List ℕ)) (k i : Fin 3) (h : ¬ (k = 2 ∧ i = ref)) (h0 : 0 < alpha) (h1 : alpha ≤ 1 / 2)
    (hm : tc rows k i = some m) (bs : List (Option ℝ))
    (hbs : bs = draws.map (fun idx => tc (idx.map (fun j => rows.getD j (fun _ => 0))) k i))
    (hs : 0 < ((bs.filter (leNan (some m))).length : ℝ) / (bs.length : ℝ) ∧
      ((bs.filter (leNan (some m))).length : ℝ) / (bs.length : ℝ) < 1)
    (hz : z0 = ppf (((bs.filter (leNan (some m))).length : ℝ) / (bs.length : ℝ)))
    (ha : acceleration ((List.range rows.length).flatMap (fun r =>
      [tc (rows.eraseIdx r) k 0, tc (rows.eraseIdx r) k 1, tc (rows.eraseIdx r) k 2])) = some a)
    (hd1 : 0 < 1 - a * (z0 + ppf alpha)) (hd2 : 0 < 1 - a * (z0 + ppf (1 - alpha))) :
    ∃ lo up, tcolInterval ppf cdf tc rows ref alpha .bca draws k i = .ok (some lo, some up) ∧ lo ≤ up ∧
      nanquantile bs (bcaLevel cdf z0 a (ppf alpha)) = .ok (some lo) ∧
      nanquantile bs (bcaLevel cdf z0 a (ppf (1 - alpha))) = .ok (some up) := by
  obtain ⟨lo, up, e, hle⟩ := bca_ci_ordered_partial ppf cdf hn bs m alpha a _ h0 h1 z0 hs hz ha hd1 hd2
  have e' := e
  unfold bcaCi at e'
  simp only at e'
  rw [if_pos hs, ha] at e'
  simp only at e'
  rw [← hz] at e'
  refine ⟨lo, up, ?_, hle, ?_⟩
  · rw [← e, hbs]
    unfold tcolInterval
    simp only
    rw [if_neg h, hm]
    rfl
  · revert e'
    cases nanquantile bs (bcaLevel cdf z0 a (ppf alpha)) with
    | error _ => intro e'; cases e'
    | ok l =>
      cases nanquantile bs (bcaLevel cdf z0 a (ppf (1 - alpha))) with
      | error _ => intro e'; cases e'
      | ok u =>
        intro e'
        simp only [bind, Except.bind, pure, Except.pure, Except.ok.injEq, Prod.mk.injEq] at e'
        rw [e'.1, e'.2]
        exact ⟨rfl, rfl⟩

/-- a quantity that is the first entry of the first row: two rows, two bootstrap samples -/
example : ∃ lo up, tcolInterval (fun p => p - 1 / 2) (fun z => max 0 (min 1 (z + 1 / 2))) (fun rows _ _ => some ((rows.getD 0 (fun _ => 0)) 0))
    [fun _ => 0, fun _ => 1] 1 (1 / 4) .bca [[0, 1], [1, 0]] 0 2 = .ok (some lo, some up) ∧ lo ≤ up := by
  have ha : acceleration [some 1, some 1, some 1, some 0, some 0, some 0] = some 0 := by
    norm_num [acceleration, List.filterMap_cons]
  have hz : (([some 0, some 1].filter (leNan (some (0 : ℝ)))).length : ℝ) / (([some (0 : ℝ), some 1]).length : ℝ) = 1 / 2 := by
    simp [leNan]
  obtain ⟨lo, up, h, h', _⟩ := tcol_bca_ordered_partial (fun p => p - 1 / 2) (fun z => max 0 (min 1 (z + 1 / 2))) normalLike_uniform
    (fun rows _ _ => some ((rows.getD 0 (fun _ => 0)) 0)) [fun _ => 0, fun _ => 1] 1 (1 / 4) 0 (1 / 2 - 1 / 2) 0 [[0, 1], [1, 0]] 0 2 (by decide)
    (by norm_num) (by norm_num) rfl [some 0, some 1] rfl (by rw [hz]; norm_num) (by rw [hz]) ha (by norm_num) (by norm_num)
  exact ⟨lo, up, h, h'⟩

/-- C18: `tcol_metrics_with_bootstrapped_ci` returns, for each quantity and data set, the estimate from all observations and
the interval of that quantity and data set; too few observations raise. -/
theorem tcol_with_bootstrapped_ci_entries (ppf cdf : ℝ → ℝ) (tc : TcolMetrics) (rows : List Row) (ref : Fin 3) (alpha : ℝ)
    (method : Method) (minLen : ℕ) (draws : List (List ℕ)) :
    (rows.length < minLen →
      tcolWithBootstrappedCi ppf cdf tc rows ref alpha method minLen draws = .error .valueError) ∧
    (minLen ≤ rows.length → ∀ ci : Fin 3 → Fin 3 → Interval,
      (∀ k i, tcolInterval ppf cdf tc rows ref alpha method draws k i = .ok (ci k i)) →
      tcolWithBootstrappedCi ppf cdf tc rows ref alpha method minLen draws =
        .ok ((List.finRange 3).map (fun k => (List.finRange 3).map (fun i => (tc rows k i, ci k i))))) := by
  constructor
  · intro h; unfold tcolWithBootstrappedCi; rw [if_pos h]
  · intro h ci hci
    unfold tcolWithBootstrappedCi
    rw [if_neg (by omega)]
    apply mapM_except_of_forall
    rw [List.forall₂_map_right_iff]
    apply List.forall₂_same.mpr
    intro k _
    apply mapM_except_of_forall
    rw [List.forall₂_map_right_iff]
    apply List.forall₂_same.mpr
    intro i _
    rw [hci]
    rfl

example : tcolWithBootstrappedCi id id (fun _ _ _ => some 2) [fun _ => 1] 1 (1 / 10) .basic 10 [[0]] = .error .valueError :=
  (tcol_with_bootstrapped_ci_entries _ _ _ _ _ _ _ 10 _).1 (by simp)

/-- The BCa interval of one data set should use the leave-one-out values of that data set. The code passes those of all three:
there are leave-one-out values for which the two accelerations differ. -/
theorem tcol_bca_mixes_data_sets :
    ∃ (tc : TcolMetrics) (rows : List Row), acceleration (tcolJackknife tc rows 0) ≠
      acceleration ((List.range rows.length).map (fun r => tc (rows.eraseIdx r) 0 0)) := by
  refine ⟨fun l _ i => if i = 0 then (l.map (fun r => r 0)).head? else some 0, [fun _ => 0, fun _ => 1], ?_⟩
  have e1 : tcolJackknife (fun (l : List Row) _ (i : Fin 3) => if i = 0 then (l.map (fun r => r 0)).head? else some 0)
      [fun _ => 0, fun _ => 1] 0 = [some 1, some 0, some 0, some 0, some 0, some 0] := by
    simp [tcolJackknife, List.range_succ, List.finRange_succ]
  have e2 : ((List.range 2).map (fun r => (if (0 : Fin 3) = 0 then
      ((([fun _ => 0, fun _ => 1] : List Row).eraseIdx r).map (fun r => r 0)).head? else some 0))) = [some 1, some 0] := by
    simp [List.range_succ]
  have e3 : acceleration [some 1, some 0] = some 0 := by
    rw [show [some (1 : ℝ), some 0] = [1, 0].map some from rfl, acceleration_some]
    norm_num
  have e4 : acceleration [some 1, some 0, some 0, some 0, some 0, some 0] ≠ some 0 := by
    rw [show [some (1 : ℝ), some 0, some 0, some 0, some 0, some 0] = [1, 0, 0, 0, 0, 0].map some from rfl, acceleration_some]
    norm_num
  intro h
  rw [e1] at h
  apply e4
  rw [h]
  exact (congrArg acceleration e2).trans e3

end Verif.Bootstrap
