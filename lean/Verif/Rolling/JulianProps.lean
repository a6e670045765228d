import Verif.Rolling.Julian
import Verif.Rolling.FloatExact
import Verif.Collocation.JulianProps

/-! C110: the windows of `RollingMetrics` in the arithmetic of the machine. -/

namespace Verif.Rolling.Fl.Jd

open Verif.Rolling
open Verif.Pairwise Verif.Moments Verif.Rounding
open Verif.Collocation.Julian

/-! ## The model of this section and the one of C104 -/

theorem states_eq {rnd : ℚ → ℚ} (ts : ℕ → ℚ) (d : ℕ → Option ℚ × Option ℚ) (n : ℕ) (w : ℚ) (center : Bool) : ∀ (l : List ℕ) (s : State ℚ),
    states (bounds rnd ts n w center) rnd d s l = Fl.states rnd ts d n w center s l
  | [], _ => rfl
  | i :: l, s => by
    simp only [states, Fl.states]
    rw [states_eq ts d n w center l]
    rfl

/-- C110: with one arithmetic for all operations the results are those of `rolling_pr_rmsd` (C104) for Julian dates. -/
theorem rolling_machine (A : Arith ℚ) (minObs : ℕ) (index : ℕ → ℤ) (d : ℕ → Option ℚ × Option ℚ) (n : ℕ) (w : ℤ) (center : Bool) (minPeriods : ℤ) (hn : minObs ≤ n) :
    rollingMetrics A.rnd A minObs index d n w center minPeriods =
      some (rollingPrRmsd A (fun j => julian A.rnd (index j)) d n (windowJd A.rnd w) center minPeriods) := by
  unfold rollingMetrics rollingPrRmsd
  rw [if_neg (by omega), states_eq]

example := rolling_machine ⟨rnd64, fun x => x, fun _ _ x => x⟩ 2 (fun j => 3600000000000 * j) (fun j => (some j, some (j ^ 2))) 5 7200000000000 true 2 (by norm_num)

/-! ## The bounds -/

/-- sorted time stamps of the machine -/
def SortedQ (ts : ℕ → ℚ) (n : ℕ) : Prop := ∀ a b, a ≤ b → b < n → ts a ≤ ts b

/-- bounds after round `i` for a set `P i` of rows -/
def Block (P : ℕ → ℕ → Prop) (n i lo hi : ℕ) : Prop := lo ≤ i ∧ i < hi ∧ hi ≤ n ∧ (∀ j, j < n → (P i j ↔ lo ≤ j ∧ j < hi))

theorem scan_low (ts : ℕ → ℚ) (n i lo : ℕ) (c : ℚ → Prop) [DecidablePred c] (hup : ∀ a b, a ≤ b → c a → c b)
    (hs : SortedQ ts n) (hi : i < n) (hlo : lo ≤ i) (hb : ∀ j, j < lo → ¬ c (ts j)) (hc : c (ts i)) :
    ∃ m, scan (fun j => c (ts j)) lo (rangeAB lo n) = m ∧ lo ≤ m ∧ m ≤ i ∧ ∀ j, j < n → (c (ts j) ↔ m ≤ j) := by
  have hex : ∃ m, c (ts m) := ⟨i, hc⟩
  let m := Nat.find hex
  have hm : c (ts m) := Nat.find_spec hex
  have hmin : ∀ j, j < m → ¬ c (ts j) := fun j hj => Nat.find_min hex hj
  have hmi : m ≤ i := Nat.find_min' hex hc
  have hlom : lo ≤ m := by
    by_contra hcon
    exact hb m (by omega) hm
  refine ⟨m, ?_, hlom, hmi, ?_⟩
  · apply scan_first
    · exact hlom
    · omega
    · exact hm
    · intro j _ hj; exact hmin j hj
  · intro j hj
    constructor
    · intro h
      by_contra hcon
      exact hmin j (by omega) h
    · intro h
      exact hup _ _ (hs m j h hj) hm

/-- rows of the centred window of row `i` -/
def inC (rt : ℚ → ℚ) (ts : ℕ → ℚ) (w : ℚ) (i j : ℕ) : Prop := rt (ts i - w) ≤ ts j ∧ ts j ≤ rt (ts i + w)

/-- rows of the trailing window of row `i` -/
def inT (rt : ℚ → ℚ) (ts : ℕ → ℚ) (w : ℚ) (i j : ℕ) : Prop := j ≤ i ∧ rt (ts i - w) < ts j

theorem bounds_center {rt : ℚ → ℚ} (hm : ∀ x y, x ≤ y → rt x ≤ rt y) (ts : ℕ → ℚ) (n : ℕ) (w : ℚ) (hw1 : ∀ i < n, rt (ts i - w) ≤ ts i) (hw2 : ∀ i < n, ts i ≤ rt (ts i + w))
    (hs : SortedQ ts n) (i lo hi : ℕ) (hin : i < n)
    (hprev : (i = 0 ∧ lo = 0 ∧ hi = 0) ∨ (∃ i', i = i' + 1 ∧ Block (inC rt ts w) n i' lo hi)) :
    Block (inC rt ts w) n i (bounds rt ts n w true i lo hi).1 (bounds rt ts n w true i lo hi).2 ∧
    lo ≤ (bounds rt ts n w true i lo hi).1 ∧ hi ≤ (bounds rt ts n w true i lo hi).2 ∧ lo ≤ hi := by
  have hlo : lo ≤ i ∧ (∀ j, j < lo → ¬ (ts j ≥ rt (ts i - w))) ∧ hi ≤ n ∧ (∀ j, j < hi → ts j ≤ rt (ts i + w)) ∧ lo ≤ hi ∧
      (i ≠ 0 → 0 < hi) := by
    rcases hprev with ⟨rfl, rfl, rfl⟩ | ⟨i', rfl, c1, c2, c3, c4⟩
    · refine ⟨le_rfl, fun j hj => absurd hj (by omega), by omega, fun j hj => absurd hj (by omega), le_rfl, fun h => absurd rfl h⟩
    · have hii : ts i' ≤ ts (i' + 1) := hs _ _ (by omega) hin
      have m1 := hm (ts i' - w) (ts (i' + 1) - w) (by linarith)
      have m2 := hm (ts i' + w) (ts (i' + 1) + w) (by linarith)
      refine ⟨by omega, ?_, c3, ?_, by omega, fun _ => by omega⟩
      · intro j hj hcon
        have hjn : j < n := by omega
        have := (c4 j hjn).mp ⟨m1.trans hcon, (hs j i' (by omega) (by omega)).trans (hw2 i' (by omega))⟩
        omega
      · intro j hj
        by_cases hjl : lo ≤ j
        · exact ((c4 j (by omega)).mpr ⟨hjl, hj⟩).2.trans m2
        · exact ((hs j i' (by omega) (by omega)).trans (hw2 i' (by omega))).trans m2
  obtain ⟨l1, l2, l3, l4, l5, l6⟩ := hlo
  obtain ⟨m, hm1, hm2, hm3, hm4⟩ := scan_low ts n i lo (fun v => v ≥ rt (ts i - w))
    (fun a b hab h => by simp only [ge_iff_le] at *; linarith) hs hin l1 l2 (hw1 i hin)
  have e1 : (bounds rt ts n w true i lo hi).1 = m := by
    unfold bounds; simp only [if_true]; rw [← hm1]
  have hupper : ∃ u, (bounds rt ts n w true i lo hi).2 = u ∧ hi ≤ u ∧ u ≤ n ∧ i < u ∧
      ∀ j, j < n → (ts j ≤ rt (ts i + w) ↔ j < u) := by
    by_cases hlast : ts (n - 1) > rt (ts i + w)
    · have hex : ∃ u, ts u > rt (ts i + w) := ⟨n - 1, hlast⟩
      let u := Nat.find hex
      have hu : ts u > rt (ts i + w) := Nat.find_spec hex
      have hmin : ∀ j, j < u → ¬ ts j > rt (ts i + w) := fun j hj => Nat.find_min hex hj
      have hun : u ≤ n - 1 := Nat.find_min' hex hlast
      have hiu : i < u := by
        by_contra hcon
        have := hs u i (by omega) hin
        have := hw2 i hin
        linarith
      have hhu : hi ≤ u := by
        by_contra hcon
        have := l4 u (by omega)
        linarith
      refine ⟨u, ?_, hhu, by omega, hiu, ?_⟩
      · unfold bounds
        simp only [if_true]
        rw [if_pos hlast]
        exact scan_first (fun j => ts j > rt (ts i + w)) (if i = 0 then 1 else hi - 1)
          (n - (if i = 0 then 1 else hi - 1)) ((if i = 0 then 1 else hi - 1) + 1) u
          (by split <;> omega) (by split <;> omega) hu (fun j _ hj => hmin j hj)
      · intro j hj
        constructor
        · intro h
          by_contra hcon
          have := hs u j (by omega) hj
          linarith
        · intro h
          exact not_lt.mp (hmin j h)
    · refine ⟨n, ?_, l3, le_rfl, hin, ?_⟩
      · unfold bounds
        simp only [if_true]
        rw [if_neg hlast]
      · intro j hj
        refine ⟨fun _ => hj, fun _ => ?_⟩
        have := hs j (n - 1) (by omega) (by omega)
        rw [not_lt] at hlast
        linarith
  obtain ⟨u, hu1, hu2, hu3, hu4, hu5⟩ := hupper
  rw [e1, hu1]
  refine ⟨⟨hm3, hu4, hu3, ?_⟩, hm2, hu2, l5⟩
  intro j hj
  unfold inC
  rw [← hm4 j hj, ← hu5 j hj]

theorem bounds_trailing {rt : ℚ → ℚ} (hm : ∀ x y, x ≤ y → rt x ≤ rt y) (ts : ℕ → ℚ) (n : ℕ) (w : ℚ) (hw : ∀ i < n, rt (ts i - w) < ts i)
    (hs : SortedQ ts n) (i lo hi : ℕ) (hin : i < n)
    (hprev : (i = 0 ∧ lo = 0 ∧ hi = 0) ∨ (∃ i', i = i' + 1 ∧ (Block (inT rt ts w) n i' lo hi ∧ hi = i' + 1))) :
    (Block (inT rt ts w) n i (bounds rt ts n w false i lo hi).1 (bounds rt ts n w false i lo hi).2 ∧ (bounds rt ts n w false i lo hi).2 = i + 1) ∧
    lo ≤ (bounds rt ts n w false i lo hi).1 ∧ hi ≤ (bounds rt ts n w false i lo hi).2 ∧ lo ≤ hi := by
  have hlo : lo ≤ i ∧ (∀ j, j < lo → ¬ (ts j > rt (ts i - w))) ∧ hi ≤ i + 1 ∧ lo ≤ hi := by
    rcases hprev with ⟨rfl, rfl, rfl⟩ | ⟨i', rfl, ⟨c1, c2, c3, c4⟩, rfl⟩
    · exact ⟨le_rfl, fun j hj => absurd hj (by omega), by omega, le_rfl⟩
    · have hii : ts i' ≤ ts (i' + 1) := hs _ _ (by omega) hin
      have m1 := hm (ts i' - w) (ts (i' + 1) - w) (by linarith)
      refine ⟨by omega, ?_, by omega, by omega⟩
      intro j hj hcon
      have := (c4 j (by omega)).mp ⟨by omega, lt_of_le_of_lt m1 hcon⟩
      omega
  obtain ⟨l1, l2, l3, l4⟩ := hlo
  obtain ⟨m, hm1, hm2, hm3, hm4⟩ := scan_low ts n i lo (fun v => v > rt (ts i - w))
    (fun a b hab h => by simp only [gt_iff_lt] at *; linarith) hs hin l1 l2 (hw i hin)
  have e1 : (bounds rt ts n w false i lo hi).1 = m := by
    unfold bounds; simp only [Bool.false_eq_true, if_false]; rw [← hm1]
  have e2 : (bounds rt ts n w false i lo hi).2 = i + 1 := by
    unfold bounds; simp only [Bool.false_eq_true, if_false]
  rw [e1, e2]
  refine ⟨⟨⟨hm3, by omega, by omega, ?_⟩, rfl⟩, hm2, l3, l4⟩
  intro j hj
  have := hm4 j hj
  simp only [gt_iff_lt] at this
  unfold inT
  rw [this]; omega

/-! ## The sums -/

theorem states_values (bd : ℕ → ℕ → ℕ → ℕ × ℕ) (d : ℕ → ℝ × ℝ) (n : ℕ) (B : ℕ → ℕ → ℕ → Prop)
    (hB : ∀ i lo hi, i < n → ((i = 0 ∧ lo = 0 ∧ hi = 0) ∨ (∃ i', i = i' + 1 ∧ B i' lo hi)) →
      B i (bd i lo hi).1 (bd i lo hi).2 ∧ lo ≤ (bd i lo hi).1 ∧ hi ≤ (bd i lo hi).2 ∧ lo ≤ hi ∧ (bd i lo hi).1 < (bd i lo hi).2)
    (win : ℕ → List (ℝ × ℝ)) (hwin : ∀ i lo hi, i < n → B i lo hi → win i = seg d lo hi)
    (k i : ℕ) (hk : i + k = n) (f : State ℝ) (s : Moments.State ℝ × ℝ) (hr : Rel s f.sums) (hn : f.sums.nobs = f.hi - f.lower)
    (hp : (i = 0 ∧ f.lower = 0 ∧ f.hi = 0) ∨ (∃ i', i = i' + 1 ∧ B i' f.lower f.hi)) (hv : RInv (seg d f.lower f.hi) s) :
    ∀ j, j < k → ∃ f', (states bd id (full d) f (List.range' i k))[j]? = some f' ∧
      ∃ s', Rel s' f'.sums ∧ RInv (win (i + j)) s' ∧ ((f'.hi : ℤ) - (f'.lower : ℤ)) = ((win (i + j)).length : ℤ) ∧ win (i + j) ≠ [] := by
  induction k generalizing i f s with
  | zero => intro j hj; omega
  | succ k ih =>
    rw [List.range'_succ]
    unfold states
    have hin : i < n := by omega
    obtain ⟨b1, b2, b3, b4, b5⟩ := hB i f.lower f.hi hin hp
    have hv' := round_values d s _ _ _ _ hv b2 b3 b5 b4
    set lo' := (bd i f.lower f.hi).1 with hlo'
    set hi' := (bd i f.lower f.hi).2 with hhi'
    have e1 : ∀ a b, (rangeAB a b).map (full d) = (seg d a b).map (fun p => ((some p.1, some p.2) : Option ℝ × Option ℝ)) := by
      intro a b; unfold seg full; rw [List.map_map]; rfl
    have hrd : round bd id (full d) f i = ⟨lo', hi', ((seg d f.lower lo').map (fun p => ((some p.1, some p.2) : Option ℝ × Option ℝ))).foldl (remove id)
        (((seg d f.hi hi').map (fun p => ((some p.1, some p.2) : Option ℝ × Option ℝ))).foldl (add id) f.sums)⟩ := by
      rw [← e1, ← e1]; rfl
    obtain ⟨a1, a2⟩ := Rel_addAll (seg d f.hi hi') s f.sums hr
    obtain ⟨r1, r2⟩ := Rel_removeAll (seg d f.lower lo') _ _ a1 (by rw [a2, hn, seg_length, seg_length]; omega)
    rw [a2, hn, seg_length, seg_length] at r2
    have har : ∀ a b c e : ℕ, a ≤ b → a ≤ c → b ≤ e → c < e → b - a + (e - b) - (c - a) = e - c := by omega
    have i2 := ih (i + 1) (by omega) (round bd id (full d) f i) _ (by rw [hrd]; exact r1) (by rw [hrd]; exact r2.trans (har _ _ _ _ b4 b2 b3 b5))
      (by rw [hrd]; exact Or.inr ⟨i, rfl, b1⟩) (by rw [hrd]; exact hv')
    intro j hj
    cases j with
    | zero =>
      refine ⟨_, rfl, _, (by rw [hrd]; exact r1), ?_, ?_, ?_⟩
      · rw [Nat.add_zero, hwin i _ _ hin b1]; exact hv'
      · rw [Nat.add_zero, hwin i _ _ hin b1, seg_length, hrd]; simp only; omega
      · rw [Nat.add_zero, hwin i _ _ hin b1]
        intro hc
        have := seg_length d lo' hi'
        rw [hc] at this
        simp at this
        omega
    | succ j =>
      obtain ⟨f', h1, s', h2, h3, h4, h5⟩ := i2 j (by omega)
      refine ⟨f', by simpa using h1, s', h2, ?_, ?_, ?_⟩
      · rw [show i + (j + 1) = i + 1 + j by omega]; exact h3
      · rw [show i + (j + 1) = i + 1 + j by omega]; exact h4
      · rw [show i + (j + 1) = i + 1 + j by omega]; exact h5

/-- the rows `j` with `used j` -/
def rows (d : ℕ → ℝ × ℝ) (n : ℕ) (used : ℕ → Bool) : List (ℝ × ℝ) := ((List.range n).filter used).map d

/-- the metrics of a set of rows: correlation, its p-value (for at least three rows) and RMSD -/
def IsMetrics (betainc : ℝ → ℝ → ℝ → ℝ) (minPeriods : ℤ) (l : List (ℝ × ℝ)) (o : Out ℝ) : Prop :=
  o.R = (expectedPr betainc minPeriods l).map Prod.fst ∧ (3 ≤ l.length → o.p = (expectedPr betainc minPeriods l).map Prod.snd) ∧ o.rmsd = expectedRmsd minPeriods l

theorem metrics_of_block (rt : ℚ → ℚ) (betainc : ℝ → ℝ → ℝ → ℝ) (minObs : ℕ) (index : ℕ → ℤ) (d : ℕ → ℝ × ℝ) (n : ℕ) (w : ℤ) (center : Bool) (minPeriods : ℤ) (hn : minObs ≤ n)
    (P : ℕ → ℕ → Bool) (B : ℕ → ℕ → ℕ → Prop) (hBl : ∀ i lo hi, B i lo hi → Block (fun i j => P i j = true) n i lo hi)
    (hB : ∀ i lo hi, i < n → ((i = 0 ∧ lo = 0 ∧ hi = 0) ∨ (∃ i', i = i' + 1 ∧ B i' lo hi)) →
      B i (bounds rt (fun j => julian rt (index j)) n (windowJd rt w) center i lo hi).1 (bounds rt (fun j => julian rt (index j)) n (windowJd rt w) center i lo hi).2 ∧
      lo ≤ (bounds rt (fun j => julian rt (index j)) n (windowJd rt w) center i lo hi).1 ∧
      hi ≤ (bounds rt (fun j => julian rt (index j)) n (windowJd rt w) center i lo hi).2 ∧ lo ≤ hi) :
    ∃ os, rollingMetrics rt (exact betainc) minObs index (full d) n w center minPeriods = some os ∧
      ∀ i, i < n → ∃ o, os[i]? = some o ∧ IsMetrics betainc minPeriods (rows d n (P i)) o := by
  unfold rollingMetrics
  rw [if_neg (by omega)]
  refine ⟨_, rfl, ?_⟩
  intro i hi
  rw [List.range_eq_range']
  have h := states_values (bounds rt (fun j => julian rt (index j)) n (windowJd rt w) center) d n B (by
      intro i lo hi hin hp
      obtain ⟨h1, h2, h3, h4⟩ := hB i lo hi hin hp
      exact ⟨h1, h2, h3, h4, by obtain ⟨q1, q2, _⟩ := hBl _ _ _ h1; omega⟩)
    (fun i => rows d n (P i)) (by
      intro i lo hi hin hb
      obtain ⟨q1, q2, q3, q4⟩ := hBl _ _ _ hb
      unfold rows seg rangeAB
      rw [filter_range_block _ n lo hi (by omega) q3 q4]) n 0 (by omega) ⟨0, 0, zero⟩ _ Rel_zero rfl (Or.inl ⟨rfl, rfl, rfl⟩) ⟨Inv_init, by simp [seg, rangeAB]⟩
  obtain ⟨f, h1, s, h2, h3, h4, h5⟩ := h i hi
  rw [Nat.zero_add] at h3 h4 h5
  refine ⟨out (exact betainc) minPeriods f, ?_, out_exact betainc minPeriods _ h5 f s h2 h3 h4⟩
  simp only [exact] at h1 ⊢
  rw [List.getElem?_map, h1]; rfl

/-! ## The windows -/

theorem windowJd_eq (w : ℤ) : windowJd rnd64 w = halfWindow rnd64 w := by
  have half : ∀ x : ℚ, rnd64 (x / 2) = rnd64 x / 2 := fun x => by
    have := rnd64_scale x (-1)
    rw [zpow_neg_one] at this
    rwa [div_eq_mul_inv, div_eq_mul_inv]
  have twice : rnd64 ((2 * w : ℤ) : ℚ) / dayNs / 2 = rnd64 (w : ℚ) / dayNs := by
    have := rnd64_scale (w : ℚ) 1
    rw [zpow_one] at this
    push_cast
    rw [mul_comm, this]
    ring
  unfold windowJd halfWindow windowDays
  rw [← half, twice, rnd64_idem]

theorem low_iff (w : ℤ) (hw0 : 0 ≤ w) (hw : w < 2 ^ 63) (r t : ℤ) (hr : InRange r) (ht : InRange t) :
    (r - t + 200000 ≤ w → rnd64 (julian rnd64 r - halfWindow rnd64 w) < julian rnd64 t) ∧
    (rnd64 (julian rnd64 r - halfWindow rnd64 w) < julian rnd64 t → r - t ≤ w + 200000) := by
  have h := rnd64_relErr
  have et := abs_le.mp (julian_err h t ht)
  have er := abs_le.mp (julian_err h r hr)
  obtain ⟨ew, w0, w1⟩ := halfWindow_err h w hw0 hw
  have ew' := abs_le.mp ew
  obtain ⟨r1, r2⟩ := exact_range r hr
  have s1 : (1 : ℚ) / 2 ^ 31 ≤ 1 := by norm_num
  have s2 : (1 : ℚ) / 2 ^ 32 ≤ 1 := by norm_num
  have el := abs_le.mp (err_le h (b := 4000000) (abs_le.mpr ⟨by linarith, by linarith⟩ : |julian rnd64 r - halfWindow rnd64 w| ≤ 4000000))
  have s3 : (1 : ℚ) / 2 ^ 53 * 4000000 ≤ 1 / 2 ^ 31 := by norm_num
  have s4 : 3 * ((1 : ℚ) / 2 ^ 31) + 1 / 2 ^ 32 < 200000 / 86400000000000 := by norm_num
  have dd : (dayNs : ℚ) = 86400000000000 := by norm_num [dayNs]
  have ex : Collocation.Julian.exact t - Collocation.Julian.exact r = -((r - t : ℤ) : ℚ) / 86400000000000 := by
    unfold Collocation.Julian.exact
    rw [dd]
    push_cast
    ring
  rw [dd] at ew ew' w0 w1
  constructor
  · intro hd
    have q1 : ((r - t : ℤ) : ℚ) + 200000 ≤ w := by exact_mod_cast hd
    linarith
  · intro h1
    have q1 : ((r - t : ℤ) : ℚ) ≤ ((w + 200000 : ℤ) : ℚ) := by push_cast at *; linarith
    exact_mod_cast q1

theorem low_days (k : ℤ) (h0 : 0 ≤ k) (hk : k ≤ 200000) (r t : ℤ) (hr : InRange r) (h : k * dayNs ≤ r - t) :
    ¬ rnd64 (julian rnd64 r - halfWindow rnd64 (k * dayNs)) < julian rnd64 t := by
  have ka : |k| ≤ 200000 := abs_le.mpr ⟨by omega, hk⟩
  have kn : |(-k)| ≤ 200000 := by rw [abs_neg]; exact ka
  have m1 := julian_mono rnd64_relErr rnd64_mono t (r + -k * dayNs) (by rw [neg_mul]; omega)
  have i1 : rnd64 (julian rnd64 (r + -k * dayNs)) = julian rnd64 (r + -k * dayNs) := rnd64_idem _
  rw [julian_shift r _ hr kn] at m1 i1
  rw [halfWindow_days k ka]
  push_cast at m1 i1
  rw [← sub_eq_add_neg] at m1 i1
  rw [i1]
  exact not_lt.mpr m1

theorem sorted_julian {index : ℕ → ℤ} {n : ℕ} (hs : ∀ a b, a ≤ b → b < n → index a ≤ index b) : SortedQ (fun j => julian rnd64 (index j)) n :=
  fun a b hab hb => julian_mono rnd64_relErr rnd64_mono _ _ (hs a b hab hb)

theorem halfWindow_nonneg (w : ℤ) (hw0 : 0 ≤ w) : 0 ≤ halfWindow rnd64 w := by
  have r0 : ∀ x, 0 ≤ x → 0 ≤ rnd64 x := fun x hx => (rnd64_sign x).1 hx
  unfold halfWindow windowDays
  exact r0 _ (div_nonneg (r0 _ (div_nonneg (r0 _ (by exact_mod_cast (by omega : 0 ≤ 2 * w))) (by norm_num [dayNs]))) (by norm_num))

/-- C110, centred windows (partial: up to 0.2 ms at the edges of the window, see `rolling_window_wrong`): for sorted time stamps every row of the result holds the metrics of a set of rows
that contains all rows that are more than 0.2 ms inside of the window and no row that is more than 0.2 ms outside; if the window is a whole number of days, it contains all rows of the
window, the edges included. -/
theorem rolling_center_partial (betainc : ℝ → ℝ → ℝ → ℝ) (minObs : ℕ) (index : ℕ → ℤ) (d : ℕ → ℝ × ℝ) (n : ℕ) (w : ℤ) (minPeriods : ℤ) (hn : minObs ≤ n)
    (hs : ∀ a b, a ≤ b → b < n → index a ≤ index b) (hr : ∀ i, i < n → InRange (index i)) (hw0 : 0 ≤ w) (hw : w < 2 ^ 63) :
    ∃ used : ℤ → ℤ → Bool,
      (∀ i j, i < n → j < n → (|index j - index i| + 200000 ≤ w → used (index i) (index j) = true) ∧
        (used (index i) (index j) = true → |index j - index i| ≤ w + 200000) ∧
        (∀ k, w = k * dayNs → k ≤ 100000 → |index j - index i| ≤ w → used (index i) (index j) = true)) ∧
      ∃ os, rollingMetrics rnd64 (exact betainc) minObs index (full d) n w true minPeriods = some os ∧
        ∀ i, i < n → ∃ o, os[i]? = some o ∧ IsMetrics betainc minPeriods (rows d n (fun j => used (index i) (index j))) o := by
  refine ⟨fun r t => inside rnd64 (halfWindow rnd64 w) (julian rnd64 r) (julian rnd64 t), ?_, ?_⟩
  · intro i j hi hj
    obtain ⟨h1, h2⟩ := inside_iff rnd64_relErr w hw0 hw (index i) (index j) (hr i hi) (hr j hj)
    refine ⟨h1, h2, ?_⟩
    rintro k rfl hk hd
    have k0 : 0 ≤ k := by
      unfold dayNs at hw0
      omega
    exact inside_days k k0 (by omega) _ _ (hr i hi) hd
  · refine metrics_of_block rnd64 betainc minObs index d n w true minPeriods hn _ (Block (inC rnd64 (fun j => julian rnd64 (index j)) (windowJd rnd64 w)) n) ?_ ?_
    · rintro i lo hi ⟨b1, b2, b3, b4⟩
      refine ⟨b1, b2, b3, fun j hj => ?_⟩
      rw [← b4 j hj, inC, windowJd_eq]
      simp [inside]
    · have hh := halfWindow_nonneg w hw0
      rw [← windowJd_eq] at hh
      have idem : ∀ t, rnd64 (julian rnd64 t) = julian rnd64 t := fun t => rnd64_idem _
      exact fun i lo hi hin hp => bounds_center rnd64_mono _ n _ (fun i _ => (rnd64_mono _ _ (by linarith)).trans_eq (idem _))
        (fun i _ => (idem _).symm.trans_le (rnd64_mono _ _ (by linarith))) (sorted_julian hs) i lo hi hin hp

/-- C110, trailing windows (partial: up to 0.2 ms at the start of the window, see `rolling_window_wrong`): every row of the result holds the metrics of a set of rows that are not later,
contains all of them that are more than 0.2 ms inside of the window and no row that is more than 0.2 ms outside; if the window is a whole number of days, no row at the open start of the
window is in it. -/
theorem rolling_trailing_partial (betainc : ℝ → ℝ → ℝ → ℝ) (minObs : ℕ) (index : ℕ → ℤ) (d : ℕ → ℝ × ℝ) (n : ℕ) (w : ℤ) (minPeriods : ℤ) (hn : minObs ≤ n)
    (hs : ∀ a b, a < b → b < n → index a < index b) (hr : ∀ i, i < n → InRange (index i)) (hw0 : 200000 ≤ w) (hw : w < 2 ^ 63) :
    ∃ used : ℤ → ℤ → Bool,
      (∀ i j, i < n → j < n → (index j ≤ index i → index i - index j + 200000 ≤ w → used (index i) (index j) = true) ∧
        (used (index i) (index j) = true → index j ≤ index i ∧ index i - index j ≤ w + 200000) ∧
        (∀ k, w = k * dayNs → k ≤ 100000 → used (index i) (index j) = true → index i - index j < w)) ∧
      ∃ os, rollingMetrics rnd64 (exact betainc) minObs index (full d) n w false minPeriods = some os ∧
        ∀ i, i < n → ∃ o, os[i]? = some o ∧ IsMetrics betainc minPeriods (rows d n (fun j => used (index i) (index j))) o := by
  have hs' : ∀ a b, a ≤ b → b < n → index a ≤ index b := fun a b hab hb => by
    rcases Nat.lt_or_eq_of_le hab with h | rfl
    · exact (hs a b h hb).le
    · exact le_rfl
  refine ⟨fun r t => decide (t ≤ r ∧ rnd64 (julian rnd64 r - halfWindow rnd64 w) < julian rnd64 t), ?_, ?_⟩
  · intro i j hi hj
    simp only [decide_eq_true_eq]
    obtain ⟨h1, h2⟩ := low_iff w (by omega) hw (index i) (index j) (hr i hi) (hr j hj)
    refine ⟨fun a b => ⟨a, h1 b⟩, fun a => ⟨a.1, h2 a.2⟩, ?_⟩
    rintro k rfl hk ⟨_, hd⟩
    have k0 : 0 ≤ k := by
      unfold dayNs at hw0
      omega
    by_contra hc
    exact low_days k k0 (by omega) _ _ (hr i hi) (by omega) hd
  · refine metrics_of_block rnd64 betainc minObs index d n w false minPeriods hn _
      (fun i lo hi => i < n ∧ Block (inT rnd64 (fun j => julian rnd64 (index j)) (windowJd rnd64 w)) n i lo hi ∧ hi = i + 1) ?_ ?_
    · rintro i lo hi ⟨hin, ⟨b1, b2, b3, b4⟩, _⟩
      refine ⟨b1, b2, b3, fun j hj => ?_⟩
      rw [← b4 j hj, inT, windowJd_eq]
      simp only [decide_eq_true_eq]
      have : index j ≤ index i ↔ j ≤ i := by
        constructor
        · intro h
          by_contra hc
          exact absurd (hs i j (by omega) hj) (not_lt.mpr h)
        · intro h; exact hs' j i h hin
      rw [this]
    · intro i lo hi hin hp
      have := bounds_trailing rnd64_mono (fun j => julian rnd64 (index j)) n (windowJd rnd64 w)
        (fun i hi => by
          rw [windowJd_eq]
          exact (low_iff w (by omega) hw (index i) (index i) (hr i hi) (hr i hi)).1 (by omega)) (sorted_julian hs') i lo hi hin
        (hp.imp id (fun ⟨i', a, b⟩ => ⟨i', a, b.2⟩))
      exact ⟨⟨hin, this.1⟩, this.2⟩

/-! ## The edges of the window -/

/-- RMSD of each window for the given number of required observations, of the numbers 0, 1, ... and zeros (exact sums): is there one? -/
def given (rt : ℚ → ℚ) (index : ℕ → ℤ) (n : ℕ) (w : ℤ) (center : Bool) (minPeriods : ℤ) : Option (List Bool) :=
  (rollingMetrics rt (⟨id, id, fun _ _ _ => 0⟩ : Arith ℚ) 0 index (fun j => (some (j : ℚ), some 0)) n w center minPeriods).map (fun os => os.map (fun o => o.rmsd.isSome))

/-- every `h` hours from 2000-01-01 -/
def every (h : ℤ) : ℕ → ℤ := fun j => hour (j * h)

/-- C110 is violated at the edges: with hourly data, windows of one hour and at least three observations required a centred window should give a result everywhere but at the ends; with data
every eight hours, windows of eight hours and at least two observations required a trailing window should give none (its start is open). -/
theorem rolling_window_wrong :
    given rnd64 (every 1) 7 3600000000000 true 3 = some [false, false, false, true, false, false, false] ∧
    given id (every 1) 7 3600000000000 true 3 = some [false, true, true, true, true, true, false] ∧
    given rnd64 (every 8) 6 28800000000000 false 2 = some [false, false, true, false, false, true] ∧
    given id (every 8) 6 28800000000000 false 2 = some [false, false, false, false, false, false] := by decide +kernel

/-- six hourly data in 2000, centred windows of two days -/
example (betainc : ℝ → ℝ → ℝ → ℝ) (d : ℕ → ℝ × ℝ) : ∃ used : ℤ → ℤ → Bool, (∀ i j, i < 40 → j < 40 → |every 6 j - every 6 i| ≤ 2 * dayNs → used (every 6 i) (every 6 j) = true) ∧
    ∃ os, rollingMetrics rnd64 (exact betainc) 10 (every 6) (full d) 40 (2 * dayNs) true 2 = some os ∧
      ∀ i, i < 40 → ∃ o, os[i]? = some o ∧ IsMetrics betainc 2 (rows d 40 (fun j => used (every 6 i) (every 6 j))) o := by
  obtain ⟨used, h1, h2⟩ := rolling_center_partial betainc 10 (every 6) d 40 (2 * dayNs) 2 (by norm_num) (fun a b hab _ => by unfold every hour; omega)
    (fun i hi => by unfold every hour InRange; omega) (by unfold dayNs; omega) (by unfold dayNs; omega)
  exact ⟨used, fun i j hi hj h => (h1 i j hi hj).2.2 2 rfl (by norm_num) h, h2⟩

/-- and trailing windows of two days -/
example (betainc : ℝ → ℝ → ℝ → ℝ) (d : ℕ → ℝ × ℝ) : ∃ used : ℤ → ℤ → Bool,
    (∀ i j, i < 40 → j < 40 → (used (every 6 i) (every 6 j) = true ↔ j ≤ i ∧ i < j + 8)) ∧
    ∃ os, rollingMetrics rnd64 (exact betainc) 10 (every 6) (full d) 40 (2 * dayNs) false 2 = some os ∧
      ∀ i, i < 40 → ∃ o, os[i]? = some o ∧ IsMetrics betainc 2 (rows d 40 (fun j => used (every 6 i) (every 6 j))) o := by
  obtain ⟨used, h1, h2⟩ := rolling_trailing_partial betainc 10 (every 6) d 40 (2 * dayNs) 2 (by norm_num) (fun a b hab _ => by unfold every hour; omega)
    (fun i hi => by unfold every hour InRange; omega) (by unfold dayNs; omega) (by unfold dayNs; omega)
  refine ⟨used, fun i j hi hj => ⟨fun h => ?_, fun h => ?_⟩, h2⟩
  · have a := ((h1 i j hi hj).2.1 h).1
    have b := (h1 i j hi hj).2.2 2 rfl (by norm_num) h
    unfold every hour dayNs at *
    omega
  · refine (h1 i j hi hj).1 ?_ ?_ <;> unfold every hour <;> (try unfold dayNs) <;> omega

end Verif.Rolling.Fl.Jd
