import Mathlib.Tactic.Linarith
import Mathlib.Tactic.Positivity
import Mathlib.Tactic.Ring
import Mathlib.Tactic.FieldSimp
import Verif.Cdf.Percentiles
import Verif.Rounding.MovingProps

/-! C120: the percentiles of CDF matching in machine arithmetic. Every operation of `_matlab_percentile_values_from_sorted` is rounded; of `np.interp` the
arithmetic of its C source is used. The spline of `_unique_percentile_interpolation` is evaluated exactly (only its check of the abscissas matters here). -/

namespace Verif.Rounding

open Rolling.Fl (rnd64)

variable {K : Type} [Field K] [LinearOrder K]

/-- `np.interp` strictly between two knots: `slope * (x - xp[j]) + fp[j]`. Used for cdf_matching.py:235-255. -/
def interpBetween (rnd : K → K) (p q : K × K) (x : K) : K :=
  rnd (rnd (rnd (rnd (q.2 - p.2) / rnd (q.1 - p.1)) * rnd (x - p.1)) + p.2)

/-- `np.interp(x, xp, fp, left, right)` with `right` the last value, at one `x`: the last knot at or before `x`, its value if `x` is that knot or behind the last knot.
Used for cdf_matching.py:235-255. -/
def interp (rnd : K → K) (left : K) : List (K × K) → K → K
  | [], _ => left
  | [p], x => if x < p.1 then left else p.2
  | p :: q :: rest, x =>
    if x < p.1 then left
    else if q.1 ≤ x then interp rnd left (q :: rest) x
    else if x = p.1 then p.2
    else interpBetween rnd p q x

/-- cdf_matching.py:253: `100.0 * (np.arange(data.size) + 0.5) / data.size` -/
def ranks (rnd : K → K) (data : List K) : List (K × K) :=
  data.zipIdx.map (fun v => (rnd (rnd (100 * rnd ((v.2 : K) + 1 / 2)) / (data.length : K)), v.1))

/-- cdf_matching.py:235-255 `_matlab_percentile_values_from_sorted` -/
def matlabPercentiles (rnd : K → K) (data percentiles : List K) : Except Cdf.Err (List K) :=
  match data with
  | [] => .error .indexError
  | a :: _ => .ok (percentiles.map (interp rnd a (ranks rnd data)))

/-- cdf_matching.py:230-232 `_percentile_values_from_sorted` -/
def percentileValues (rnd : K → K) (isArray : Bool) (data percentiles : List K) : Except Cdf.Err (List K) := do
  let perc ← matlabPercentiles rnd data percentiles
  Cdf.uniquePercentiles isArray perc percentiles

/-- cdf_matching.py:163-164, 178: `np.arange(nbins + 1) / nbins * 100` -/
def regularPercentiles (rnd : K → K) (nbins : ℕ) : List K :=
  (List.range (nbins + 1)).map (fun (i : ℕ) => rnd (rnd ((i : K) / (nbins : K)) * 100))

section
variable [IsStrictOrderedRing K]

theorem RelErr.nonneg_of {rnd : K → K} {u : K} (h : RelErr rnd u) (hu : u ≤ 1) {x : K} (hx : 0 ≤ x) : 0 ≤ rnd x := by
  have := (abs_le.1 (h.err x)).1
  rw [abs_of_nonneg hx] at this
  have : u * x ≤ 1 * x := mul_le_mul_of_nonneg_right hu hx
  linarith

theorem RelErr.le_of {rnd : K → K} {u : K} (h : RelErr rnd u) {x : K} (hx : 0 ≤ x) : rnd x ≤ (1 + u) * x := by
  have := (abs_le.1 (h.err x)).2
  rw [abs_of_nonneg hx] at this
  linarith

theorem RelErr.ge_of {rnd : K → K} {u : K} (h : RelErr rnd u) {x : K} (hx : 0 ≤ x) : (1 - u) * x ≤ rnd x := by
  have := (abs_le.1 (h.err x)).1
  rw [abs_of_nonneg hx] at this
  linarith

/-- between two knots the value is between theirs, provided `x` is clearly before the second knot -/
theorem between_mem {rnd : K → K} {u : K} (h : RelErr rnd u) (hm : ∀ x y, x ≤ y → rnd x ≤ rnd y) (hu : 64 * u ≤ 1) (p q : K × K) (x : K) (hp : rnd p.2 = p.2)
    (hq : rnd q.2 = q.2) (hpq : p.2 ≤ q.2) (h1 : p.1 ≤ x) (h2 : x < q.1) (hsep : (x - p.1) * (1 + 8 * u) ≤ q.1 - p.1) :
    p.2 ≤ interpBetween rnd p q x ∧ interpBetween rnd p q x ≤ q.2 := by
  have hu0 := h.nonneg
  have hu1 : u ≤ 1 := by linarith
  have G : 0 < q.1 - p.1 := by linarith
  have D : 0 ≤ q.2 - p.2 := by linarith
  have X : 0 ≤ x - p.1 := by linarith
  have d0 := h.nonneg_of hu1 D
  have x0 := h.nonneg_of hu1 X
  have g0 : 0 < rnd (q.1 - p.1) := lt_of_lt_of_le (mul_pos (by linarith) G) (h.ge_of G.le)
  have s0 : 0 ≤ rnd (q.2 - p.2) / rnd (q.1 - p.1) := div_nonneg d0 g0.le
  have s1 := h.nonneg_of hu1 s0
  have pr0 : 0 ≤ rnd (rnd (q.2 - p.2) / rnd (q.1 - p.1)) * rnd (x - p.1) := mul_nonneg s1 x0
  unfold interpBetween
  constructor
  · exact hp.symm.le.trans (hm _ _ (by have := h.nonneg_of hu1 pr0; linarith))
  · refine le_trans (hm _ _ ?_) hq.le
    -- the product is at most the difference of the values
    have b1 : rnd (q.2 - p.2) / rnd (q.1 - p.1) ≤ (1 + u) * (q.2 - p.2) / ((1 - u) * (q.1 - p.1)) :=
      div_le_div₀ (mul_nonneg (by linarith) D) (h.le_of D) (mul_pos (by linarith) G) (h.ge_of G.le)
    have b2 := (h.le_of s0).trans (mul_le_mul_of_nonneg_left b1 (by linarith : 0 ≤ 1 + u))
    have b3 := mul_le_mul b2 (h.le_of X) x0 (s1.trans b2)
    have b4 := (h.le_of pr0).trans (mul_le_mul_of_nonneg_left b3 (by linarith : 0 ≤ 1 + u))
    have e1 : (1 + u) * ((1 + u) * ((1 + u) * (q.2 - p.2) / ((1 - u) * (q.1 - p.1))) * ((1 + u) * (x - p.1))) =
        (q.2 - p.2) * ((1 + u) ^ 4 * (x - p.1) / ((1 - u) * (q.1 - p.1))) := by
      have : 1 - u ≠ 0 := by linarith
      have := G.ne'
      field_simp
    have b5 : (1 + u) ^ 4 * (x - p.1) / ((1 - u) * (q.1 - p.1)) ≤ 1 := by
      rw [div_le_one (mul_pos (by linarith) G)]
      have c1 : (1 + u) ^ 4 ≤ (1 - u) * (1 + 8 * u) := by
        have u2 : 64 * u * u ≤ 1 * u := mul_le_mul_of_nonneg_right hu hu0
        have u3 : 64 * u * (u * u) ≤ 1 * (u * u) := mul_le_mul_of_nonneg_right hu (by positivity)
        have u4 : 64 * u * (u * u * u) ≤ 1 * (u * u * u) := mul_le_mul_of_nonneg_right hu (by positivity)
        have := mul_nonneg hu0 hu0
        ring_nf at u2 u3 u4 this ⊢
        linarith
      have c2 := mul_le_mul_of_nonneg_right c1 X
      have c3 := mul_le_mul_of_nonneg_left hsep (by linarith : 0 ≤ 1 - u)
      linarith
    have b6 := mul_le_mul_of_nonneg_left b5 D
    rw [e1] at b4
    linarith

/-- inside one interval larger arguments give larger values -/
theorem between_mono {rnd : K → K} {u : K} (h : RelErr rnd u) (hm : ∀ x y, x ≤ y → rnd x ≤ rnd y) (hu : u ≤ 1) (p q : K × K) (hpq : p.2 ≤ q.2) (hx : p.1 ≤ q.1)
    (x y : K) (hxy : x ≤ y) : interpBetween rnd p q x ≤ interpBetween rnd p q y := by
  unfold interpBetween
  refine hm _ _ (add_le_add_left (hm _ _ (mul_le_mul_of_nonneg_left (hm _ _ (by linarith)) ?_)) _)
  exact h.nonneg_of hu (div_nonneg (h.nonneg_of hu (by linarith)) (h.nonneg_of hu (by linarith)))

/-- `x` is not just before a knot: between two successive knots it keeps a distance of `8u` of the interval from the second -/
def Clear (u : K) (knots : List (K × K)) (x : K) : Prop :=
  knots.IsChain (fun p q => p.1 ≤ x → x < q.1 → (x - p.1) * (1 + 8 * u) ≤ q.1 - p.1)

theorem interp_mem {rnd : K → K} {u : K} (h : RelErr rnd u) (hm : ∀ x y, x ≤ y → rnd x ≤ rnd y) (hu : 64 * u ≤ 1) (left : K) (p : K × K) (knots : List (K × K))
    (hk : ∀ k ∈ p :: knots, rnd k.2 = k.2) (hs : (p :: knots).IsChain (fun p q => p.2 ≤ q.2)) (x : K) (hx : p.1 ≤ x) (hc : Clear u (p :: knots) x) :
    p.2 ≤ interp rnd left (p :: knots) x ∧ interp rnd left (p :: knots) x ≤ ((p :: knots).getLast (by simp)).2 := by
  induction knots generalizing p with
  | nil => simp [interp, not_lt.2 hx]
  | cons q rest ih =>
    have hlast : ∀ (r : K × K) (l : List (K × K)), (r :: l).IsChain (fun p q => p.2 ≤ q.2) → r.2 ≤ ((r :: l).getLast (by simp)).2 := by
      intro r l
      induction l generalizing r with
      | nil => intro _; simp
      | cons a l ih' =>
        intro hch
        rw [List.isChain_cons_cons] at hch
        have := ih' a hch.2
        rw [List.getLast_cons (by simp)]
        exact hch.1.trans this
    rw [List.isChain_cons_cons] at hs
    unfold Clear at hc
    rw [List.isChain_cons_cons] at hc
    have hk' : ∀ k ∈ q :: rest, rnd k.2 = k.2 := fun k hk1 => hk k (List.mem_cons_of_mem _ hk1)
    rw [List.getLast_cons (by simp)]
    have hl := hlast q rest hs.2
    unfold interp
    rw [if_neg (not_lt.2 hx)]
    split_ifs with g1 g2
    · obtain ⟨a, b⟩ := ih q hk' hs.2 g1 hc.2
      exact ⟨hs.1.trans a, b⟩
    · exact ⟨le_rfl, hs.1.trans hl⟩
    · obtain ⟨a, b⟩ := between_mem h hm hu p q x (hk p (by simp)) (hk q (by simp)) hs.1 hx (not_le.1 g1) (hc.1 hx (not_le.1 g1))
      exact ⟨a, b.trans hl⟩

theorem interp_mono {rnd : K → K} {u : K} (h : RelErr rnd u) (hm : ∀ x y, x ≤ y → rnd x ≤ rnd y) (hu : 64 * u ≤ 1) (left : K) (p : K × K) (knots : List (K × K))
    (hk : ∀ k ∈ p :: knots, rnd k.2 = k.2) (hs : (p :: knots).IsChain (fun p q => p.2 ≤ q.2)) (hx : (p :: knots).IsChain (fun p q => p.1 ≤ q.1)) (hl : left ≤ p.2)
    (x y : K) (hxy : x ≤ y) (cx : Clear u (p :: knots) x) (cy : Clear u (p :: knots) y) :
    interp rnd left (p :: knots) x ≤ interp rnd left (p :: knots) y := by
  induction knots generalizing p with
  | nil =>
    unfold interp
    split_ifs with g1 g2
    · exact le_rfl
    · exact hl
    · linarith
    · exact le_rfl
  | cons q rest ih =>
    by_cases y1 : y < p.1
    · simp only [interp, if_pos y1, if_pos (lt_of_le_of_lt hxy y1)]
      exact le_rfl
    have my := interp_mem h hm hu left p (q :: rest) hk hs y (not_lt.1 y1) cy
    by_cases x1 : x < p.1
    · rw [show interp rnd left (p :: q :: rest) x = left by simp [interp, x1]]
      exact hl.trans my.1
    have hs0 := hs
    have cx0 := cx
    have cy0 := cy
    rw [List.isChain_cons_cons] at hs hx
    unfold Clear at cx cy
    rw [List.isChain_cons_cons] at cx cy
    have hk' : ∀ k ∈ q :: rest, rnd k.2 = k.2 := fun k hk1 => hk k (List.mem_cons_of_mem _ hk1)
    by_cases x2 : q.1 ≤ x
    · rw [show interp rnd left (p :: q :: rest) x = interp rnd left (q :: rest) x by rw [interp, if_neg x1, if_pos x2],
        show interp rnd left (p :: q :: rest) y = interp rnd left (q :: rest) y by rw [interp, if_neg y1, if_pos (x2.trans hxy)]]
      exact ih q hk' hs.2 hx.2 (hl.trans hs.1) cx.2 cy.2
    · by_cases x3 : x = p.1
      · rw [show interp rnd left (p :: q :: rest) x = p.2 by rw [interp, if_neg x1, if_neg x2, if_pos x3]]
        exact my.1
      · rw [show interp rnd left (p :: q :: rest) x = interpBetween rnd p q x by rw [interp, if_neg x1, if_neg x2, if_neg x3]]
        have bx := between_mem h hm hu p q x (hk p (by simp)) (hk q (by simp)) hs.1 (not_lt.1 x1) (not_le.1 x2) (cx.1 (not_lt.1 x1) (not_le.1 x2))
        by_cases y2 : q.1 ≤ y
        · rw [show interp rnd left (p :: q :: rest) y = interp rnd left (q :: rest) y by rw [interp, if_neg y1, if_pos y2]]
          exact bx.2.trans (interp_mem h hm hu left q rest hk' hs.2 y y2 cy.2).1
        · have y3 : y ≠ p.1 := fun e => x3 (le_antisymm (hxy.trans e.le) (not_lt.1 x1))
          rw [show interp rnd left (p :: q :: rest) y = interpBetween rnd p q y by rw [interp, if_neg y1, if_neg y2, if_neg y3]]
          exact between_mono h hm (by linarith) p q hs.1 hx.1 x y hxy

/-! ### Ranks -/

omit [LinearOrder K] [IsStrictOrderedRing K] in
theorem ranks_chain {R : K × K → K × K → Prop} (rnd : K → K) (data : List K)
    (hR : ∀ (j : ℕ) (a b : K), data[j]? = some a → data[j + 1]? = some b →
      R (rnd (rnd (100 * rnd ((j : K) + 1 / 2)) / (data.length : K)), a) (rnd (rnd (100 * rnd (((j + 1 : ℕ) : K) + 1 / 2)) / (data.length : K)), b)) :
    (ranks rnd data).IsChain R := by
  rw [List.isChain_iff_getElem]
  intro i hi
  have hlen : (ranks rnd data).length = data.length := by simp [ranks]
  have h1 : i + 1 < data.length := by rw [hlen] at hi; exact hi
  have := hR i data[i] data[i + 1] (List.getElem?_eq_getElem (by omega)) (List.getElem?_eq_getElem h1)
  simpa [ranks] using this

/-- the ranks are the rounded exact ranks -/
theorem rank_eq {rnd : K → K} (n : ℕ) (hhalf : ∀ m : ℕ, m ≤ 200 * n → rnd ((m : K) / 2) = m / 2) (j : ℕ) (hj : j < n) :
    rnd (rnd (100 * rnd ((j : K) + 1 / 2)) / (n : K)) = rnd (50 * (2 * (j : K) + 1) / n) := by
  have e1 : rnd ((j : K) + 1 / 2) = (j : K) + 1 / 2 := by
    have := hhalf (2 * j + 1) (by omega)
    push_cast at this
    rw [show (j : K) + 1 / 2 = (2 * (j : K) + 1) / 2 by ring]
    exact this
  have e2 : rnd (100 * ((j : K) + 1 / 2)) = 100 * ((j : K) + 1 / 2) := by
    have := hhalf (100 * (2 * j + 1)) (by omega)
    push_cast at this
    rw [show 100 * ((j : K) + 1 / 2) = 100 * (2 * (j : K) + 1) / 2 by ring]
    exact this
  rw [e1, e2]
  congr 1
  ring

/-- sorted levels that are not just before a rank -/
theorem percentiles_clear {rnd : K → K} {u : K} (h : RelErr rnd u) (hm : ∀ x y, x ≤ y → rnd x ≤ rnd y) (hu : 64 * u ≤ 1) (data : List K) (hne : data ≠ [])
    (hhalf : ∀ m : ℕ, m ≤ 200 * data.length → rnd ((m : K) / 2) = m / 2) (hd : ∀ d ∈ data, rnd d = d)
    (hs : data.Pairwise (· ≤ ·)) (ps : List K) (hp : ps.Pairwise (· ≤ ·)) (hclear : ∀ p ∈ ps, Clear u (ranks rnd data) p) :
    ∃ out, matlabPercentiles rnd data ps = .ok out ∧ out.length = ps.length ∧ out.Pairwise (· ≤ ·) ∧ ∀ v ∈ out, data.head hne ≤ v ∧ v ≤ data.getLast hne := by
  obtain ⟨a, l, rfl⟩ : ∃ a l, data = a :: l := by
    cases data with
    | nil => exact absurd rfl hne
    | cons a l => exact ⟨a, l, rfl⟩
  generalize hN : (a :: l).length = n at hhalf
  have n1 : 1 ≤ n := by rw [← hN]; simp
  have nK : (1 : K) ≤ n := by exact_mod_cast n1
  have npos : (0 : K) < n := by linarith
  have hr := rank_eq (rnd := rnd) n hhalf
  -- the data at the ranks
  have hsnd : ∀ k ∈ ranks rnd (a :: l), rnd k.2 = k.2 := by
    intro k hk
    unfold ranks at hk
    obtain ⟨v, hv, rfl⟩ := List.mem_map.1 hk
    exact hd _ (List.fst_mem_of_mem_zipIdx hv)
  have hs2 : (ranks rnd (a :: l)).IsChain (fun p q => p.2 ≤ q.2) :=
    ranks_chain rnd _ fun j b c hb hc => by
      obtain ⟨i1, e1⟩ := List.getElem?_eq_some_iff.1 hb
      obtain ⟨i2, e2⟩ := List.getElem?_eq_some_iff.1 hc
      have := List.pairwise_iff_getElem.1 hs j (j + 1) i1 i2 (by omega)
      rw [e1, e2] at this
      exact this
  have hs1 : (ranks rnd (a :: l)).IsChain (fun p q => p.1 ≤ q.1) :=
    ranks_chain rnd _ fun j b c hb hc => by
      have hj : j + 1 < n := by
        rw [← hN]
        exact (List.getElem?_eq_some_iff.1 hc).1
      simp only [hN]
      rw [hr j (by omega), hr (j + 1) hj]
      refine hm _ _ (div_le_div_of_nonneg_right ?_ npos.le)
      push_cast
      linarith
  obtain ⟨p0, rest, hrk⟩ : ∃ p0 rest, ranks rnd (a :: l) = p0 :: rest := ⟨_, _, by unfold ranks; rw [List.zipIdx_cons, List.map_cons]⟩
  have hp0 : p0.2 = a := by
    have := congrArg List.head? hrk
    unfold ranks at this
    rw [List.zipIdx_cons, List.map_cons, List.head?_cons, List.head?_cons, Option.some.injEq] at this
    rw [← this]
  have hlast : ((p0 :: rest).getLast (by simp)).2 = (a :: l).getLast hne := by
    have e : (ranks rnd (a :: l)).map Prod.snd = a :: l := by
      unfold ranks
      rw [List.map_map]
      exact (List.map_congr_left fun v _ => rfl).trans (List.zipIdx_map_fst 0 (a :: l))
    rw [hrk] at e
    have e2 := List.getLast_map (f := Prod.snd) (l := p0 :: rest) (by simp)
    rw [← e2]
    congr 1
  rw [hrk] at hclear hsnd hs2 hs1
  refine ⟨_, rfl, by simp, ?_, ?_⟩
  · rw [List.pairwise_map]
    refine hp.imp_of_mem fun {x y} hx hy hxy => ?_
    simp only [hrk]
    exact interp_mono h hm hu a p0 rest hsnd hs2 hs1 hp0.ge _ _ hxy (hclear x hx) (hclear y hy)
  · intro v hv
    obtain ⟨x, hx, rfl⟩ := List.mem_map.1 hv
    simp only [hrk, List.head_cons]
    by_cases g : x < p0.1
    · have : interp rnd a (p0 :: rest) x = a := by cases rest <;> simp [interp, g]
      rw [this]
      refine ⟨le_rfl, ?_⟩
      rcases List.mem_cons.1 (List.getLast_mem hne) with e | e
      · exact e.ge
      · exact (List.pairwise_cons.1 hs).1 _ e
    · obtain ⟨b1, b2⟩ := interp_mem h hm hu a p0 rest hsnd hs2 x (not_lt.1 g) (hclear x hx)
      rw [hp0] at b1
      rw [hlast] at b2
      exact ⟨b1, b2⟩

/-- C120. The values of percentiles given as sorted whole numbers from 0 to 100 are sorted and inside the range of the data, for all sorted data. -/
theorem percentiles_sorted_partial {rnd : K → K} {u : K} (h : RelErr rnd u) (hm : ∀ x y, x ≤ y → rnd x ≤ rnd y) (hu : 3200 * u ≤ 1) (data : List K) (hne : data ≠ [])
    (hn : 400 * (data.length : K) * u ≤ 1) (hhalf : ∀ m : ℕ, m ≤ 200 * data.length → rnd ((m : K) / 2) = m / 2) (hd : ∀ d ∈ data, rnd d = d)
    (hs : data.Pairwise (· ≤ ·)) (ps : List ℕ) (hp : ps.Pairwise (· ≤ ·)) (hp100 : ∀ p ∈ ps, p ≤ 100) :
    ∃ out, matlabPercentiles rnd data (ps.map (fun p : ℕ => (p : K))) = .ok out ∧ out.length = ps.length ∧ out.Pairwise (· ≤ ·) ∧
      ∀ v ∈ out, data.head hne ≤ v ∧ v ≤ data.getLast hne := by
  have hu0 := h.nonneg
  refine (percentiles_clear h hm (by linarith) data hne hhalf hd hs (ps.map (fun p : ℕ => (p : K))) ?_ ?_).imp fun out ⟨a, b, c⟩ => ⟨a, by rw [b, List.length_map], c⟩
  · rw [List.pairwise_map]
    exact hp.imp fun hxy => by exact_mod_cast hxy
  intro x hx
  obtain ⟨p, hpm, rfl⟩ := List.mem_map.1 hx
  have hp := hp100 p hpm
  generalize hN : data.length = n at hn hhalf
  have n1 : 1 ≤ n := by rw [← hN]; exact List.length_pos_iff.2 hne
  have nK : (1 : K) ≤ n := by exact_mod_cast n1
  have npos : (0 : K) < n := by linarith
  have hr := rank_eq (rnd := rnd) n hhalf
  have hint : ∀ p : ℕ, p ≤ 100 → rnd (p : K) = p := by
    intro p hp
    have := hhalf (2 * p) (by omega)
    push_cast at this
    rwa [show 2 * (p : K) / 2 = p by ring] at this
  refine ranks_chain rnd _ fun j b c hb hc hlo hhi => ?_
  have hj : j + 1 < n := by
    rw [← hN]
    exact (List.getElem?_eq_some_iff.1 hc).1
  simp only [hN] at hlo hhi ⊢
  rw [hr j (by omega)] at hlo ⊢
  rw [hr (j + 1) hj] at hhi ⊢
  have hjK : (j : K) + 2 ≤ n := by exact_mod_cast hj
  have j0 : (0 : K) ≤ j := Nat.cast_nonneg j
  -- the exact next rank is larger than `p`, by at least 1/n
  have s1 : (p : K) < 50 * (2 * ((j + 1 : ℕ) : K) + 1) / n := by
    by_contra hcon
    have := hm _ _ (not_lt.1 hcon)
    rw [hint p hp] at this
    exact absurd hhi (not_lt.2 this)
  have s2 : (p : K) + 1 / n ≤ 50 * (2 * ((j + 1 : ℕ) : K) + 1) / n := by
    rw [lt_div_iff₀ npos] at s1
    have s3 : p * n < 50 * (2 * (j + 1) + 1) := by exact_mod_cast s1
    have s4 : p * n + 1 ≤ 50 * (2 * (j + 1) + 1) := s3
    rw [le_div_iff₀ npos, add_mul, one_div, inv_mul_cancel₀ npos.ne']
    exact_mod_cast s4
  have q1 : 50 * (2 * ((j + 1 : ℕ) : K) + 1) / n ≤ 100 := by
    rw [div_le_iff₀ npos]
    push_cast
    linarith
  have q0 : 0 ≤ 50 * (2 * ((j + 1 : ℕ) : K) + 1) / n := by positivity
  have q3 : 50 * (2 * (j : K) + 1) / n + 100 / n = 50 * (2 * ((j + 1 : ℕ) : K) + 1) / n := by
    push_cast
    field_simp
    ring
  have q4 : 0 ≤ 50 * (2 * (j : K) + 1) / n := by positivity
  have nn : 0 ≤ 100 / (n : K) := by positivity
  have g1 := h.ge_of q0
  have g2 := h.le_of q0
  have g3 := h.ge_of q4
  have t1 := mul_le_mul_of_nonneg_left q1 hu0
  have t2 : u * (50 * (2 * (j : K) + 1) / n) ≤ u * 100 := mul_le_mul_of_nonneg_left (by linarith) hu0
  -- the distance to the next rank, and the length of the interval
  have A : 1 / (n : K) - 100 * u ≤ rnd (50 * (2 * ((j + 1 : ℕ) : K) + 1) / n) - p := by linarith
  have B : rnd (50 * (2 * ((j + 1 : ℕ) : K) + 1) / n) - rnd (50 * (2 * (j : K) + 1) / n) ≤ 100 / n + 200 * u := by linarith
  have C : (p : K) - rnd (50 * (2 * (j : K) + 1) / n) ≤ 100 / n + 200 * u := by linarith
  have w : 400 * u ≤ 1 / n := by
    rw [le_div_iff₀ npos]
    linarith
  have e1 : 100 / (n : K) = 100 * (1 / n) := by ring
  rw [e1] at C
  have inv0 : 0 ≤ 1 / (n : K) := by positivity
  have C2 := mul_le_mul_of_nonneg_left C (by linarith : 0 ≤ 8 * u)
  have w2 : 3200 * u * (1 / n) ≤ 1 * (1 / (n : K)) := mul_le_mul_of_nonneg_right hu inv0
  have w3 : 3200 * u * u ≤ 1 * u := mul_le_mul_of_nonneg_right hu hu0
  linarith

end

/-- C120 in double precision: up to 2^44 values -/
theorem percentiles_double (data : List ℚ) (hne : data ≠ []) (hn : data.length ≤ 2 ^ 44) (hd : ∀ d ∈ data, rnd64 d = d) (hs : data.Pairwise (· ≤ ·)) (ps : List ℕ)
    (hp : ps.Pairwise (· ≤ ·)) (hp100 : ∀ p ∈ ps, p ≤ 100) :
    ∃ out, matlabPercentiles rnd64 data (ps.map (fun p : ℕ => (p : ℚ))) = .ok out ∧ out.length = ps.length ∧ out.Pairwise (· ≤ ·) ∧
      ∀ v ∈ out, data.head hne ≤ v ∧ v ≤ data.getLast hne := by
  refine percentiles_sorted_partial rnd64_relErr Rolling.Fl.rnd64_mono (by norm_num) data hne ?_ ?_ hd hs ps hp hp100
  · have : (data.length : ℚ) ≤ 17592186044416 := by
      have : data.length ≤ 17592186044416 := hn
      exact_mod_cast this
    have e : (1 : ℚ) / 2 ^ 53 = 1 / 9007199254740992 := by norm_num
    rw [e]
    linarith
  · intro m hm
    have := Moving.rnd64_half (m : ℤ) (by rw [abs_of_nonneg (by positivity)]; have : m ≤ 200 * 2 ^ 44 := hm.trans (by omega); omega)
    simpa using this

example := percentiles_double [rnd64 (1 / 10), rnd64 (3 / 10), rnd64 (3 / 10), rnd64 (4 / 10)] (by simp) (by norm_num) (by simp [rnd64_idem]) (by decide +kernel)
  [0, 5, 30, 50, 70, 95, 100] (by decide) (by decide)

/-- the levels of 100 bins in double precision: within 2^-45 of the whole numbers, and below only for 29, 57 and 58 -/
theorem default_levels : ∀ k : Fin 101, |rnd64 (rnd64 ((k.val : ℚ) / (100 : ℕ)) * 100) - k.val| ≤ 1 / 2 ^ 45 ∧
    (rnd64 (rnd64 ((k.val : ℚ) / (100 : ℕ)) * 100) < k.val → (k.val = 29 ∧ rnd64 (rnd64 ((k.val : ℚ) / (100 : ℕ)) * 100) + 1 / 2 ^ 48 ≤ k.val) ∨
      ((k.val = 57 ∨ k.val = 58) ∧ rnd64 (rnd64 ((k.val : ℚ) / (100 : ℕ)) * 100) + 1 / 2 ^ 47 ≤ k.val)) := by
  decide +kernel

/-- C120, default number of bins (100) in double precision: up to 2^40 values -/
theorem percentiles_default (data : List ℚ) (hne : data ≠ []) (hn : data.length ≤ 2 ^ 40) (hd : ∀ d ∈ data, rnd64 d = d) (hs : data.Pairwise (· ≤ ·)) :
    ∃ out, matlabPercentiles rnd64 data (regularPercentiles rnd64 100) = .ok out ∧ out.length = 101 ∧ out.Pairwise (· ≤ ·) ∧
      ∀ v ∈ out, data.head hne ≤ v ∧ v ≤ data.getLast hne := by
  have hhalf : ∀ m : ℕ, m ≤ 200 * data.length → rnd64 ((m : ℚ) / 2) = m / 2 := by
    intro m hm
    have := Moving.rnd64_half (m : ℤ) (by rw [abs_of_nonneg (by positivity)]; have : m ≤ 200 * 2 ^ 40 := hm.trans (by omega); omega)
    simpa using this
  refine (percentiles_clear rnd64_relErr Rolling.Fl.rnd64_mono (by norm_num) data hne hhalf hd hs (regularPercentiles rnd64 100) ?_ ?_).imp
    fun out ⟨a, b, c⟩ => ⟨a, by rw [b]; simp [regularPercentiles], c⟩
  · unfold regularPercentiles
    rw [List.pairwise_map]
    refine List.pairwise_lt_range.imp fun {a b} hab => ?_
    refine Rolling.Fl.rnd64_mono _ _ (mul_le_mul_of_nonneg_right (Rolling.Fl.rnd64_mono _ _ (div_le_div_of_nonneg_right ?_ (by norm_num))) (by norm_num))
    exact_mod_cast hab.le
  intro x hx
  unfold regularPercentiles at hx
  obtain ⟨k, hk, rfl⟩ := List.mem_map.1 hx
  have hk100 : k < 101 := by simpa using hk
  obtain ⟨f1, f2⟩ := default_levels ⟨k, hk100⟩
  simp only at f1 f2
  generalize rnd64 (rnd64 ((k : ℚ) / (100 : ℕ)) * 100) = p at f1 f2 ⊢
  obtain ⟨f3, f4⟩ := abs_le.1 f1
  generalize hN : data.length = n at hn hhalf
  have n1 : 1 ≤ n := by rw [← hN]; exact List.length_pos_iff.2 hne
  have nK : (1 : ℚ) ≤ n := by exact_mod_cast n1
  have npos : (0 : ℚ) < n := by linarith
  have hr := rank_eq (rnd := rnd64) n hhalf
  have hkr : rnd64 (k : ℚ) = k := by
    have := hhalf (2 * k) (by omega)
    push_cast at this
    rwa [show 2 * (k : ℚ) / 2 = k by ring] at this
  refine ranks_chain rnd64 _ fun j b c hb hc hlo hhi => ?_
  have hj : j + 1 < n := by
    rw [← hN]
    exact (List.getElem?_eq_some_iff.1 hc).1
  simp only [hN] at hlo hhi ⊢
  rw [hr j (by omega)] at hlo ⊢
  rw [hr (j + 1) hj] at hhi ⊢
  have hjK : (j : ℚ) + 2 ≤ n := by exact_mod_cast hj
  have j0 : (0 : ℚ) ≤ j := Nat.cast_nonneg j
  have q1 : 50 * (2 * ((j + 1 : ℕ) : ℚ) + 1) / n ≤ 100 := by
    rw [div_le_iff₀ npos]
    push_cast
    linarith
  have q0 : 0 ≤ 50 * (2 * ((j + 1 : ℕ) : ℚ) + 1) / n := by positivity
  have q3 : 50 * (2 * (j : ℚ) + 1) / n + 100 * (1 / n) = 50 * (2 * ((j + 1 : ℕ) : ℚ) + 1) / n := by
    push_cast
    field_simp
    ring
  have q4 : 0 ≤ 50 * (2 * (j : ℚ) + 1) / n := by positivity
  have inv0 : 0 ≤ 1 / (n : ℚ) := by positivity
  have inv1 : 1 / 2 ^ 40 ≤ 1 / (n : ℚ) := one_div_le_one_div_of_le npos (by exact_mod_cast hn)
  have g1 := rnd64_relErr.ge_of q0
  have g2 := rnd64_relErr.le_of q0
  have g3 := rnd64_relErr.ge_of q4
  rcases lt_trichotomy (k * n) (50 * (2 * (j + 1) + 1)) with hlt | heq | hgt
  · -- the exact rank is larger than the exact level
    have s2 : (k : ℚ) + 1 / n ≤ 50 * (2 * ((j + 1 : ℕ) : ℚ) + 1) / n := by
      have s4 : k * n + 1 ≤ 50 * (2 * (j + 1) + 1) := hlt
      rw [le_div_iff₀ npos, add_mul, one_div, inv_mul_cancel₀ npos.ne']
      exact_mod_cast s4
    generalize 50 * (2 * ((j + 1 : ℕ) : ℚ) + 1) / n = Q at *
    generalize 50 * (2 * (j : ℚ) + 1) / n = Q0 at *
    generalize 1 / (n : ℚ) = iv at *
    norm_num at f3 f4 g1 g2 g3 inv1 ⊢
    linarith
  · -- equal: only 29, 57, 58 can be below
    have s2 : 50 * (2 * ((j + 1 : ℕ) : ℚ) + 1) / n = k := by
      rw [div_eq_iff npos.ne']
      exact_mod_cast heq.symm
    rw [s2] at hhi q1 q3 q0 g1 g2 ⊢
    rw [hkr] at hhi ⊢
    rcases f2 hhi with ⟨rfl, f5⟩ | ⟨rfl | rfl, f5⟩
    · have n50 : 50 ≤ n := by omega
      have : 1 / (n : ℚ) ≤ 1 / 50 := one_div_le_one_div_of_le (by norm_num) (by exact_mod_cast n50)
      generalize 50 * (2 * (j : ℚ) + 1) / n = Q0 at *
      norm_num at *
      linarith
    · have n50 : 50 ≤ n := by omega
      have : 1 / (n : ℚ) ≤ 1 / 50 := one_div_le_one_div_of_le (by norm_num) (by exact_mod_cast n50)
      generalize 50 * (2 * (j : ℚ) + 1) / n = Q0 at *
      norm_num at *
      linarith
    · have n50 : 25 ≤ n := by omega
      have : 1 / (n : ℚ) ≤ 1 / 25 := one_div_le_one_div_of_le (by norm_num) (by exact_mod_cast n50)
      generalize 50 * (2 * (j : ℚ) + 1) / n = Q0 at *
      norm_num at *
      linarith
  · -- the exact rank is smaller than the exact level: the rounded one as well
    exfalso
    have s2 : 50 * (2 * ((j + 1 : ℕ) : ℚ) + 1) / n + 1 / n ≤ k := by
      have s4 : 50 * (2 * (j + 1) + 1) + 1 ≤ k * n := hgt
      rw [← add_div, div_le_iff₀ npos]
      exact_mod_cast s4
    generalize 50 * (2 * ((j + 1 : ℕ) : ℚ) + 1) / n = Q at *
    generalize 1 / (n : ℚ) = iv at *
    norm_num at f3 f4 g1 g2 g3 inv1
    linarith

example := percentiles_default [rnd64 (1 / 10), rnd64 (3 / 10), rnd64 (3 / 10), rnd64 (4 / 10)] (by simp) (by norm_num) (by simp [rnd64_idem]) (by decide +kernel)

/-- eleven sorted values, the second and third are equal -/
def tiedData : List ℚ := [-99 / 1000, 443 / 1000, 443 / 1000, 1 / 2, 6 / 10, 7 / 10, 8 / 10, 9 / 10, 1, 11 / 10, 12 / 10].map rnd64

/-- **C120, negation.** With 22 bins the fourth percentile is larger than the fifth, and the function raises ValueError although the same call succeeds in exact arithmetic.
(The percentile 3/22·100 is rounded to a number just below the rank 1.5/11·100, and interpolation overshoots the tied value.) -/
theorem percentiles_unsorted : tiedData.Pairwise (· ≤ ·) ∧ (∀ d ∈ tiedData, rnd64 d = d) ∧
    (matlabPercentiles rnd64 tiedData (regularPercentiles rnd64 22)).toOption.map (fun l => decide (l.getD 4 0 < l.getD 3 0)) = some true ∧
    percentileValues rnd64 true tiedData (regularPercentiles rnd64 22) = .error .valueError ∧
    (Cdf.percentileValues true tiedData (Cdf.regularPercentiles 22)).toOption.isSome = true := by decide +kernel

end Verif.Rounding
