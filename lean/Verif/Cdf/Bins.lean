import Verif.Cdf.Props
import Verif.Cdf.Units
import Mathlib.Tactic.NormNum
import Mathlib.Tactic.IntervalCases

/-! C123: how many bins CDF matching uses for a given `minobs`, and how many observations each bin holds. -/

set_option linter.unusedSectionVars false

namespace Verif.Cdf

variable {K : Type} [Field K] [LinearOrder K] [IsStrictOrderedRing K]

/-! ### The number of bins -/

theorem diff_length (l : List K) : (diff l).length = l.length - 1 := by
  match l with
  | [] => rfl
  | [_] => rfl
  | a :: b :: l =>
    rw [diff, List.length_cons, diff_length (b :: l)]
    simp

theorem diff_get (l : List K) (i : ℕ) (hi : i + 1 < l.length) : (diff l)[i]? = some (l[i + 1] - l[i]) := by
  induction l generalizing i with
  | nil => simp at hi
  | cons a l ih =>
    cases l with
    | nil => simp at hi
    | cons b l =>
      rw [diff]
      cases i with
      | zero => rfl
      | succ i =>
        rw [List.getElem?_cons_succ]
        exact ih i (by simpa using hi)

theorem foldl_min_lt (l : List K) (d c : K) : l.foldl min d < c ↔ ∃ v ∈ d :: l, v < c := by
  induction l generalizing d with
  | nil => simp
  | cons a l ih =>
    rw [List.foldl_cons, ih]
    simp only [List.mem_cons, exists_eq_or_imp, min_lt_iff, or_assoc]

/-- the observations expected between two neighbouring levels -/
def TooFew (ps : List K) (n m : ℕ) : Prop := ∃ i, ∃ h : i + 1 < ps.length, (n : K) * (ps[i + 1] - ps[i]) / 100 < m

theorem minbin_iff (ps ds : List K) (d : K) (hd : diff ps = d :: ds) (n m : ℕ) : (n : K) * ds.foldl min d / 100 < m ↔ TooFew ps n m := by
  have key : ∀ v ∈ diff ps, (∃ i, ∃ h : i + 1 < ps.length, v = ps[i + 1] - ps[i]) := by
    intro v hv
    obtain ⟨i, hi, rfl⟩ := List.mem_iff_getElem.mp hv
    have hi' : i + 1 < ps.length := by rw [diff_length] at hi; omega
    refine ⟨i, hi', ?_⟩
    have := diff_get ps i hi'
    rw [List.getElem?_eq_getElem hi] at this
    exact Option.some.inj this
  have mem : ds.foldl min d ∈ d :: ds := by
    clear hd key
    induction ds generalizing d with
    | nil => simp
    | cons a l ih =>
      rw [List.foldl_cons]
      rcases min_choice d a with h | h
      · rw [h]
        rcases List.mem_cons.mp (ih d) with h' | h'
        · rw [h']; simp
        · exact List.mem_cons_of_mem _ (List.mem_cons_of_mem _ h')
      · rw [h]
        exact List.mem_cons_of_mem _ (ih a)
  constructor
  · intro h
    obtain ⟨i, hi, e⟩ := key _ (hd ▸ mem)
    exact ⟨i, hi, e ▸ h⟩
  · rintro ⟨i, hi, h⟩
    refine lt_of_le_of_lt ?_ h
    have hm : ps[i + 1] - ps[i] ∈ d :: ds := hd ▸ List.mem_of_getElem? (diff_get ps i hi)
    have hle : ds.foldl min d ≤ ps[i + 1] - ps[i] := by
      by_contra hc
      exact absurd ((foldl_min_lt ds d _).mpr ⟨_, hm, not_le.mp hc⟩) (lt_irrefl _)
    have := mul_le_mul_of_nonneg_left hle (Nat.cast_nonneg (α := K) n)
    linarith

/-- C123: given percentile levels are used as they are as long as every one of their bins can hold `minobs` observations, and are
replaced by equally large bins otherwise: as many as hold `minobs` observations each, but not more than before and at least one. -/
theorem levels_used (P : Params K) (isArray : Bool) (ps : List K) (hp : P.percentiles = some (isArray, ps)) (h2 : 2 ≤ ps.length) (n : ℕ) :
    (P.minobs = none → calcPercentiles P n = .ok (isArray, ps, ps.length - 1)) ∧
    ∀ m, P.minobs = some m → (¬ TooFew ps n m → calcPercentiles P n = .ok (isArray, ps, ps.length - 1)) ∧
      (TooFew ps n m → calcPercentiles P n = .ok (true, regularPercentiles (max 1 (min (ps.length - 1) (n / m))), max 1 (min (ps.length - 1) (n / m)))) := by
  obtain ⟨d, ds, hd⟩ : ∃ d ds, diff ps = d :: ds := by
    cases h : diff ps with
    | nil =>
      have := diff_length ps
      rw [h] at this
      simp at this
      omega
    | cons d ds => exact ⟨d, ds, rfl⟩
  unfold calcPercentiles
  rw [hp]
  simp only [Option.getD_some, hd]
  refine ⟨fun h => by rw [h], fun m hm => ?_⟩
  rw [hm]
  refine ⟨fun h => by simp only; rw [if_neg (mt (minbin_iff ps ds d hd n m).mp h)], fun h => ?_⟩
  simp only
  rw [if_pos ((minbin_iff ps ds d hd n m).mpr h)]
  have : (if n / m = 0 then 1 else if n / m > ps.length - 1 then ps.length - 1 else n / m) = max 1 (min (ps.length - 1) (n / m)) := by
    generalize n / m = q
    split_ifs <;> omega
  rw [this]

theorem regular_get (N i : ℕ) (h : i < (regularPercentiles N : List K).length) : (regularPercentiles N : List K)[i] = (i : K) / N * 100 := by
  simp [regularPercentiles]

theorem regular_tooFew (N n m : ℕ) (hN : 1 ≤ N) : TooFew (regularPercentiles N : List K) n m ↔ n < m * N := by
  have hN' : (0 : K) < N := by exact_mod_cast hN
  have gap : ∀ i : ℕ, (n : K) * (((i + 1 : ℕ) : K) / N * 100 - (i : K) / N * 100) / 100 = n / N := by
    intro i
    push_cast
    field_simp
    ring
  have iff : (n : K) / N < m ↔ n < m * N := by
    rw [div_lt_iff₀ hN']
    exact_mod_cast Iff.rfl
  unfold TooFew
  simp only [regular_get, gap, iff, regular_length]
  exact ⟨fun ⟨_, _, h⟩ => h, fun h => ⟨0, by omega, h⟩⟩

/-- the number of bins for `n` samples: all `nbins`, or as many as hold `minobs` samples, at least one -/
def binsFor (nbins : ℕ) (minobs : Option ℕ) (n : ℕ) : ℕ :=
  match minobs with
  | none => nbins
  | some 0 => nbins
  | some (m + 1) => max 1 (min nbins (n / (m + 1)))

theorem bins_used (P : Params K) (hp : P.percentiles = none) (hn : 1 ≤ P.nbins) (n : ℕ) :
    calcPercentiles P n = .ok (true, regularPercentiles (binsFor P.nbins P.minobs n), binsFor P.nbins P.minobs n) := by
  have e : calcPercentiles P n = calcPercentiles { P with percentiles := some (true, regularPercentiles P.nbins) } n := by
    unfold calcPercentiles
    rw [hp]
    rfl
  obtain ⟨h1, h2⟩ := levels_used ({ P with percentiles := some (true, regularPercentiles P.nbins) } : Params K) true (regularPercentiles P.nbins : List K) rfl
    (by rw [regular_length]; omega) n
  rw [e]
  simp only [regular_length, Nat.add_sub_cancel, regular_tooFew _ _ _ hn] at h1 h2
  generalize calcPercentiles (⟨P.nbins, some (true, regularPercentiles P.nbins), P.minobs, P.edge, P.combine⟩ : Params K) n = c at h1 h2 ⊢
  cases hm : P.minobs with
  | none => exact h1 hm
  | some m =>
    obtain ⟨ha, hb⟩ := h2 m hm
    cases m with
    | zero => exact ha (by omega)
    | succ m =>
      show _ = Except.ok (true, regularPercentiles (max 1 (min P.nbins (n / (m + 1)))), max 1 (min P.nbins (n / (m + 1))))
      by_cases h : n < (m + 1) * P.nbins
      · exact hb h
      · rw [ha h]
        have : P.nbins ≤ n / (m + 1) := by
          rw [Nat.le_div_iff_mul_le (by omega), Nat.mul_comm]
          omega
        rw [min_eq_left this, max_eq_right hn]

/-- the bins are the most that hold `minobs` samples each, or one -/
theorem binsFor_most (nbins m n : ℕ) (hn : 1 ≤ nbins) (hm : 1 ≤ m) :
    let k := binsFor nbins (some m) n
    1 ≤ k ∧ k ≤ nbins ∧ (m ≤ n → k * m ≤ n) ∧ (n < m → k = 1) ∧ ∀ j, 1 ≤ j → j ≤ nbins → j * m ≤ n → j ≤ k := by
  obtain ⟨m, rfl⟩ : ∃ m', m = m' + 1 := ⟨m - 1, by omega⟩
  show 1 ≤ max 1 (min nbins (n / (m + 1))) ∧ _
  simp only [binsFor]
  refine ⟨le_max_left _ _, by omega, fun h => ?_, fun h => ?_, fun j h1 h2 h3 => ?_⟩
  · have h1 : 1 ≤ n / (m + 1) := by rw [Nat.le_div_iff_mul_le (by omega)]; omega
    have : max 1 (min nbins (n / (m + 1))) ≤ n / (m + 1) := by omega
    exact (Nat.mul_le_mul_right _ this).trans (Nat.div_mul_le_self _ _)
  · rw [Nat.div_eq_of_lt h]; omega
  · have : j ≤ n / (m + 1) := by rw [Nat.le_div_iff_mul_le (by omega)]; exact h3
    omega

/-! ### The percentiles of distinct data -/

/-- the level of the `j`-th smallest of `n` values -/
def rank (n j : ℕ) : K := 100 * ((j : K) + 1 / 2) / (n : K)

/-- the percentile of sorted data at one level -/
def level (data : List K) (p : K) : K := npInterp (ranks data) (data.headD 0) (data.getLastD 0) p

theorem matlab_level (data ps : List K) (hne : data ≠ []) : matlabPercentiles data ps = .ok (ps.map (level data)) := by
  cases data with
  | nil => exact absurd rfl hne
  | cons a l =>
    unfold matlabPercentiles
    rw [List.getLast?_eq_some_getLast hne]
    simp only [List.head?_cons]
    congr 2

theorem level_rank (data : List K) (hs : data.Pairwise (· ≤ ·)) (j : ℕ) (hj : j < data.length) : level data (rank data.length j) = data[j] := by
  have h := matlab_percentile_at_rank data hs j hj
  rw [matlab_level data _ (by rintro rfl; simp at hj)] at h
  simpa [rank] using h

theorem level_mono (data : List K) (hs : data.Pairwise (· ≤ ·)) (hne : data ≠ []) (p q : K) (h : p ≤ q) : level data p ≤ level data q := by
  obtain ⟨hx, hy⟩ := ranks_pairwise data hs
  obtain ⟨a, ha⟩ : ∃ a, data.head? = some a := by
    cases data with
    | nil => exact absurd rfl hne
    | cons a l => exact ⟨a, rfl⟩
  have hb := List.getLast?_eq_some_getLast hne
  have ea : data.headD 0 = a := by rw [List.headD_eq_head?_getD, ha]; rfl
  have eb : data.getLastD 0 = data.getLast hne := by rw [List.getLastD_eq_getLast?, hb]; rfl
  unfold level
  rw [ea, eb]
  exact npInterp_mono _ hx hy _ _ (fun k hk => sorted_head_le data hs a ha _ (ranks_mem data k hk))
    (fun k hk => sorted_le_last data hs _ hb _ (ranks_mem data k hk)) _ _ h

theorem rank_lt (n i j : ℕ) (hn : 1 ≤ n) (h : i < j) : (rank n i : K) < rank n j := by
  have hn' : (0 : K) < n := by exact_mod_cast hn
  have : (i : K) < j := by exact_mod_cast h
  unfold rank
  rw [div_lt_div_iff_of_pos_right hn']
  linarith

theorem ranks_ends (data : List K) (hne : data ≠ []) :
    (ranks data).head? = some (rank data.length 0, data.headD 0) ∧ (ranks data).getLast? = some (rank data.length (data.length - 1), data.getLastD 0) := by
  constructor
  · cases data with
    | nil => exact absurd rfl hne
    | cons a l => simp [ranks, rank]
  · rw [ranks, List.getLast?_map, List.getLast?_eq_getElem?, List.getElem?_eq_getElem (by simpa using List.length_pos_of_ne_nil hne)]
    simp only [List.length_zipIdx, List.getElem_zipIdx, Option.map_some, Nat.zero_add]
    rw [List.getLastD_eq_getLast?, List.getLast?_eq_some_getLast hne, List.getLast_eq_getElem]
    rfl

theorem level_strict (data : List K) (hs : data.Pairwise (· < ·)) (h2 : 2 ≤ data.length) (p q : K) (h : p < q) (hp : p < rank data.length (data.length - 1))
    (hq : rank data.length 0 < q) : level data p < level data q := by
  have hne : data ≠ [] := by rintro rfl; simp at h2
  have hle : data.Pairwise (· ≤ ·) := hs.imp fun h => h.le
  have hl : (ranks data).length = data.length := by simp [ranks]
  have hIY : IncY (ranks data) := by
    unfold IncY
    rw [List.pairwise_iff_getElem]
    intro i j hi hj hij
    simp only [ranks, List.getElem_map, List.getElem_zipIdx]
    exact (List.pairwise_iff_getElem.mp hs) i j _ _ hij
  have inner : ∀ v, rank data.length 0 ≤ v → v ≤ rank data.length (data.length - 1) → level data v = pwl (ranks data) v := by
    intro v h1 h2
    unfold level npInterp
    rw [(ranks_ends data hne).1, (ranks_ends data hne).2]
    simp only
    rw [if_neg (not_lt.mpr h1), if_neg (not_lt.mpr h2)]
  have r01 : (rank data.length 0 : K) < rank data.length (data.length - 1) := rank_lt _ _ _ (by omega) (by omega)
  have a1 : level data p ≤ level data (max p (rank data.length 0)) := level_mono data hle hne _ _ (le_max_left _ _)
  have a2 : level data (min q (rank data.length (data.length - 1))) ≤ level data q := level_mono data hle hne _ _ (min_le_left _ _)
  refine lt_of_le_of_lt a1 (lt_of_lt_of_le ?_ a2)
  rw [inner _ (le_max_right _ _) (max_le hp.le r01.le), inner _ (le_min hq.le r01.le) (min_le_right _ _)]
  exact pwl_strictMono _ (ranks_pairwise data hle).1 hIY (by omega) _ _ (max_lt (lt_min h hp) (lt_min hq r01))

/-! ### Observations in a bin -/

/-- the levels are percentages, and neighbouring ones are so far apart that `m` of `n` observations fit between them -/
def Spaced (ps : List K) (n m : ℕ) : Prop :=
  (∀ p ∈ ps, 0 ≤ p ∧ p ≤ 100) ∧ ∀ i, ∀ h : i + 1 < ps.length, (m : K) ≤ (n : K) * (ps[i + 1] - ps[i]) / 100

theorem spaced_strict (ps : List K) (n m : ℕ) (hm : 1 ≤ m) (h : Spaced ps n m) : ps.Pairwise (· < ·) := by
  rw [← List.isChain_iff_pairwise, List.isChain_iff_getElem]
  intro i hi
  by_contra hc
  have h1 := h.2 i hi
  have h2 : (1 : K) ≤ m := by exact_mod_cast hm
  have := mul_nonneg (Nat.cast_nonneg (α := K) n) (sub_nonneg.mpr (not_lt.mp hc))
  linarith

/-- the percentiles of distinct data are read off the ranks, no two of them are equal -/
theorem percentiles_distinct (isArray : Bool) (data ps : List K) (hs : data.Pairwise (· < ·)) (hne : data ≠ []) (m : ℕ) (hm : 1 ≤ m)
    (hsp : Spaced ps data.length m) : percentileValues isArray data ps = .ok (ps.map (level data)) ∧ (2 ≤ data.length → (ps.map (level data)).Pairwise (· < ·)) := by
  have hstrict := spaced_strict ps data.length m hm hsp
  have hN : 1 ≤ data.length := List.length_pos_of_ne_nil hne
  have hN' : (0 : K) < data.length := by exact_mod_cast hN
  have hm' : (1 : K) ≤ m := by exact_mod_cast hm
  have hP : 2 ≤ data.length → (ps.map (level data)).Pairwise (· < ·) := by
    intro h2
    rw [← List.isChain_iff_pairwise, List.isChain_iff_getElem]
    intro i hi
    rw [List.length_map] at hi
    simp only [List.getElem_map]
    have g := hsp.2 i hi
    have l0 := (hsp.1 _ (List.getElem_mem (by omega : i < ps.length))).1
    have l1 := (hsp.1 _ (List.getElem_mem hi)).2
    have g' : 100 / (data.length : K) ≤ ps[i + 1] - ps[i] := by
      rw [div_le_iff₀ hN']
      linarith
    have hpos : 0 < 100 / (data.length : K) := div_pos (by norm_num) hN'
    refine level_strict data hs h2 _ _ (by linarith) ?_ ?_
    · have : (rank data.length (data.length - 1) : K) = 100 - 100 / (data.length : K) / 2 := by
        unfold rank
        rw [Nat.cast_sub hN]
        field_simp
        push_cast
        ring
      linarith
    · have : (rank data.length 0 : K) = 100 / (data.length : K) / 2 := by
        unfold rank
        push_cast
        ring
      linarith
  refine ⟨?_, hP⟩
  unfold percentileValues
  simp only [bind, Except.bind, matlab_level data ps hne]
  by_cases h2 : 2 ≤ data.length
  · unfold uniquePercentiles
    simp only
    rw [if_neg]
    rintro ⟨h, -⟩
    exact h (by rw [unique_length_of_strict _ (hP h2), List.length_map])
  · have hc : ∀ p, level data p = data[0] := by
      intro p
      have hl : data.length = 1 := by omega
      obtain ⟨a, rfl⟩ := List.length_eq_one_iff.mp hl
      simp [level, npInterp, ranks, pwl]
    have : ps.map (level data) = List.replicate ps.length data[0] := by
      rw [List.eq_replicate_iff]
      exact ⟨by simp, by simp [hc]⟩
    rw [this]
    cases hps : ps with
    | nil => simp [uniquePercentiles, npUnique]
    | cons p l =>
      exact unique_percentiles_constant isArray data[0] _ _ (by simp)

/-- `m` observations in the bin number `i` -/
theorem bin_filled (data ps : List K) (hs : data.Pairwise (· < ·)) (m : ℕ) (hm : 1 ≤ m) (hsp : Spaced ps data.length m) (i : ℕ) (hi : i + 1 < ps.length) :
    ∃ s, s + m ≤ data.length ∧ ∀ j, s ≤ j → j < s + m → ∀ hj : j < data.length, level data ps[i] ≤ data[j] ∧ data[j] ≤ level data ps[i + 1] ∧
      (i + 2 < ps.length → data[j] < level data ps[i + 1]) := by
  have hle : data.Pairwise (· ≤ ·) := hs.imp fun h => h.le
  have g := hsp.2 i hi
  have l0 := (hsp.1 _ (List.getElem_mem (by omega : i < ps.length))).1
  have l1 := (hsp.1 _ (List.getElem_mem hi)).2
  have hm' : (1 : K) ≤ m := by exact_mod_cast hm
  have hN : 1 ≤ data.length := by
    by_contra h
    have : data.length = 0 := by omega
    rw [this] at g
    norm_num at g
    omega
  have hne : data ≠ [] := List.ne_nil_of_length_pos hN
  have hN' : (0 : K) < data.length := by exact_mod_cast hN
  have hu : 0 < 100 / (data.length : K) := div_pos (by norm_num) hN'
  have rk : ∀ j : ℕ, (rank data.length j : K) = (j + 1 / 2) * (100 / (data.length : K)) := by
    intro j
    unfold rank
    field_simp
  have g' : m * (100 / (data.length : K)) ≤ ps[i + 1] - ps[i] := by
    rw [mul_div_assoc', div_le_iff₀ hN']
    linarith
  have tot : (data.length : K) * (100 / (data.length : K)) = 100 := by field_simp
  have ex : ∃ s : ℕ, ps[i] ≤ rank data.length s := by
    refine ⟨data.length, ?_⟩
    rw [rk, add_mul, tot]
    have := (hsp.1 _ (List.getElem_mem (by omega : i < ps.length))).2
    linarith
  classical
  have hs1 := Nat.find_spec ex
  have hs2 : rank data.length (Nat.find ex) - 100 / (data.length : K) < ps[i] := by
    rw [rk]
    by_cases h0 : Nat.find ex = 0
    · rw [h0]
      push_cast
      linarith
    · have hmin := Nat.find_min ex (m := Nat.find ex - 1) (by omega)
      rw [not_le, rk, Nat.cast_sub (by omega)] at hmin
      push_cast at hmin
      linarith
  generalize Nat.find ex = s at hs1 hs2
  have up : ∀ j : ℕ, j < s + m → (rank data.length j : K) < ps[i + 1] := by
    intro j hj
    have : (j : K) + 1 ≤ s + m := by exact_mod_cast hj
    rw [rk] at hs2 ⊢
    have := mul_le_mul_of_nonneg_right this hu.le
    linarith
  have inside : s + m ≤ data.length := by
    have h := up (s + m - 1) (by omega)
    have h' : (rank data.length (s + m - 1) : K) < 100 := h.trans_le l1
    rw [rk] at h'
    by_contra hc
    have : (data.length : K) ≤ ((s + m - 1 : ℕ) : K) := by exact_mod_cast (by omega : data.length ≤ s + m - 1)
    have := mul_le_mul_of_nonneg_right this hu.le
    linarith
  refine ⟨s, inside, fun j h1 h2 hj => ?_⟩
  have rj : (rank data.length s : K) ≤ rank data.length j := by
    rcases Nat.eq_or_lt_of_le h1 with h | h
    · rw [h]
    · exact (rank_lt _ _ _ hN h).le
  refine ⟨?_, ?_, fun h3 => ?_⟩
  · rw [← level_rank data hle j hj]
    exact level_mono data hle hne _ _ (hs1.trans rj)
  · rw [← level_rank data hle j hj]
    exact level_mono data hle hne _ _ (up j h2).le
  · have gn := hsp.2 (i + 1) h3
    have ln := (hsp.1 _ (List.getElem_mem h3)).2
    have gn' : 100 / (data.length : K) ≤ ps[i + 1 + 1] - ps[i + 1] := by
      rw [div_le_iff₀ hN']
      linarith
    have jl : j < data.length - 1 := by
      by_contra hc
      have e : j = data.length - 1 := by omega
      have h := up j h2
      rw [rk, e, Nat.cast_sub hN] at h
      push_cast at h
      have : ((data.length : K) - 1 + 1 / 2) * (100 / (data.length : K)) = 100 - 100 / (data.length : K) / 2 := by
        rw [add_mul, sub_mul, tot]
        ring
      linarith
    rw [← level_rank data hle j hj]
    refine level_strict data hs (by omega) _ _ (up j h2) (rank_lt _ _ _ hN jl) (lt_of_le_of_lt ?_ (up j h2))
    rcases Nat.eq_zero_or_pos j with h | h
    · rw [h]
    · exact (rank_lt _ _ _ hN h).le

theorem spaced_more (ps : List K) (n n' m : ℕ) (hs : ps.Pairwise (· ≤ ·)) (h : Spaced ps n m) (hn : n ≤ n') : Spaced ps n' m := by
  refine ⟨h.1, fun i hi => (h.2 i hi).trans ?_⟩
  have h1 : (n : K) ≤ n' := by exact_mod_cast hn
  have h2 : 0 ≤ ps[i + 1] - ps[i] := sub_nonneg.mpr ((List.pairwise_iff_getElem.mp hs) i (i + 1) _ _ (by omega))
  have := mul_le_mul_of_nonneg_right h1 h2
  linarith

theorem regular_spaced (k n m : ℕ) (hk : 1 ≤ k) (h : k * m ≤ n) : Spaced (regularPercentiles k : List K) n m := by
  have hk' : (0 : K) < k := by exact_mod_cast hk
  constructor
  · intro p hp
    obtain ⟨i, hi, rfl⟩ := List.mem_map.mp hp
    have : (i : K) ≤ k := by exact_mod_cast (by have := List.mem_range.mp hi; omega : i ≤ k)
    have h1 : (i : K) / k ≤ 1 := by rw [div_le_one hk']; exact this
    have h0 : 0 ≤ (i : K) / k := div_nonneg (Nat.cast_nonneg _) hk'.le
    constructor <;> linarith
  · intro i hi
    by_contra hc
    exact absurd ((regular_tooFew (K := K) k n m hk).mp ⟨i, hi, not_le.mp hc⟩) (by rw [Nat.mul_comm]; omega)

/-- Between the entries `i` and `i + 1` of fitted percentiles lie at least `m` different values of a set; the upper one does not
count unless it is the last. -/
def Holds (perc : List (Option K)) (used : Set K) (i m : ℕ) (isLast : Prop) : Prop :=
  ∃ lo hi, perc[i]? = some (some lo) ∧ perc[i + 1]? = some (some hi) ∧
    ∃ l : List K, l.Nodup ∧ m ≤ l.length ∧ ∀ v ∈ l, v ∈ used ∧ lo ≤ v ∧ v ≤ hi ∧ (¬ isLast → v < hi)

theorem holds_of_data (used : Set K) (v ps : List K) (hnd : v.Nodup) (hu : ∀ w ∈ v, w ∈ used) (n m : ℕ) (hm : 1 ≤ m) (hsp : Spaced ps v.length m)
    (i : ℕ) (hi : i + 1 < ps.length) : Holds (pad n (ps.map (level (v.insertionSort (· ≤ ·))))) used i m (i + 2 = ps.length) := by
  have hperm := List.perm_insertionSort (· ≤ ·) v
  have hnd' : (v.insertionSort (· ≤ ·)).Nodup := hperm.nodup_iff.mpr hnd
  have hle : (v.insertionSort (· ≤ ·)).Pairwise (· ≤ ·) := List.pairwise_insertionSort _ _
  have hlt : (v.insertionSort (· ≤ ·)).Pairwise (· < ·) := (hle.and hnd').imp fun h => lt_of_le_of_ne h.1 h.2
  have hlen : (v.insertionSort (· ≤ ·)).length = v.length := List.length_insertionSort _ _
  generalize v.insertionSort (· ≤ ·) = data at *
  rw [← hlen] at hsp
  obtain ⟨s, h1, h2⟩ := bin_filled data ps hlt m hm hsp i hi
  refine ⟨level data ps[i], level data ps[i + 1], ?_, ?_, (data.drop s).take m, ?_, ?_, ?_⟩
  · unfold pad
    rw [List.getElem?_append_left (by simp; omega)]
    simp [List.getElem?_eq_getElem (by omega : i < ps.length)]
  · unfold pad
    rw [List.getElem?_append_left (by simp; omega)]
    simp [List.getElem?_eq_getElem hi]
  · exact (hnd'.sublist (List.drop_sublist _ _)).sublist (List.take_sublist _ _)
  · rw [List.length_take, List.length_drop]
    omega
  · intro w hw
    obtain ⟨j, hj, rfl⟩ := List.mem_iff_getElem.mp hw
    have hj' := hj
    rw [List.length_take, List.length_drop] at hj'
    rw [List.getElem_take, List.getElem_drop]
    obtain ⟨a, b, c⟩ := h2 (s + j) (by omega) (by omega) (by omega)
    exact ⟨hu _ (hperm.mem_iff.mp (List.getElem_mem _)), a, b, fun h => c (by omega)⟩

theorem valid_nodup (c : Bool) (x y : List (Option K)) : ((x.filterMap id).Nodup → (validValues c x y).1.Nodup) ∧ ((y.filterMap id).Nodup → (validValues c x y).2.Nodup) := by
  unfold validValues
  split_ifs with h
  · have fst : ∀ l : List (Option K × Option K), ((l.filter (fun p => p.1.isSome && p.2.isSome)).filterMap (·.1)).Sublist ((l.map Prod.fst).filterMap id) := by
      intro l
      rw [List.filterMap_map]
      exact (List.filter_sublist).filterMap _
    have snd : ∀ l : List (Option K × Option K), ((l.filter (fun p => p.1.isSome && p.2.isSome)).filterMap (·.2)).Sublist ((l.map Prod.snd).filterMap id) := by
      intro l
      rw [List.filterMap_map]
      exact (List.filter_sublist).filterMap _
    have e1 := fst (x.zip y)
    have e2 := snd (x.zip y)
    rw [List.map_fst_zip h.1.le] at e1
    rw [List.map_snd_zip h.1.ge] at e2
    exact ⟨fun h => h.sublist e1, fun h => h.sublist e2⟩
  · exact ⟨id, id⟩

theorem fit_filled (P : Params K) (x y : List (Option K)) (isArray : Bool) (ps : List K) (k : ℕ) (he : P.edge = false)
    (hc : calcPercentiles P (nUsed P.combine x y) = .ok (isArray, ps, k)) (m : ℕ) (hm : 1 ≤ m) (h2 : 2 ≤ ps.length) (hsp : Spaced ps (nUsed P.combine x y) m)
    (hx : (x.filterMap id).Nodup) (hy : (y.filterMap id).Nodup) :
    ∃ F, fit P x y = .ok F ∧ ∀ i, i + 1 < ps.length →
      Holds F.xPerc (UsedX P.combine x y) i m (i + 2 = ps.length) ∧ Holds F.yPerc (UsedY P.combine x y) i m (i + 2 = ps.length) := by
  obtain ⟨nx, ny⟩ := valid_nodup P.combine x y
  have hlen := valid_length P.combine x y
  have hst := (spaced_strict ps _ m hm hsp).imp fun h => h.le
  have sx := spaced_more ps _ (validValues P.combine x y).1.length m hst hsp (by rw [← hlen]; exact min_le_left _ _)
  have sy := spaced_more ps _ (validValues P.combine x y).2.length m hst hsp (by rw [← hlen]; exact min_le_right _ _)
  have pv : ∀ v : List K, v.Nodup → Spaced ps v.length m → percentileValues isArray (v.insertionSort (· ≤ ·)) ps = .ok (ps.map (level (v.insertionSort (· ≤ ·)))) := by
    intro v hv hs
    have hle : (v.insertionSort (· ≤ ·)).Pairwise (· ≤ ·) := List.pairwise_insertionSort _ _
    have hnd' : (v.insertionSort (· ≤ ·)).Nodup := (List.perm_insertionSort (· ≤ ·) v).nodup_iff.mpr hv
    have hl : (v.insertionSort (· ≤ ·)).length = v.length := List.length_insertionSort _ _
    refine (percentiles_distinct isArray _ ps ((hle.and hnd').imp fun h => lt_of_le_of_ne h.1 h.2) ?_ m hm (by rw [hl]; exact hs)).1
    rintro h
    rw [h] at hl
    have := hs.2 0 h2
    rw [← hl] at this
    norm_num at this
    omega
  have hfit : fitPercentiles P (validValues P.combine x y).1 (validValues P.combine x y).2 =
      .ok (ps.map (level ((validValues P.combine x y).1.insertionSort (· ≤ ·))), ps.map (level ((validValues P.combine x y).2.insertionSort (· ≤ ·)))) := by
    unfold fitPercentiles
    simp only [bind, Except.bind, hlen, hc, pv _ (nx hx) sx, pv _ (ny hy) sy, he]
    simp
  obtain ⟨n, hF⟩ : ∃ n, fit P x y = .ok ⟨pad n (ps.map (level ((validValues P.combine x y).1.insertionSort (· ≤ ·)))),
      pad n (ps.map (level ((validValues P.combine x y).2.insertionSort (· ≤ ·))))⟩ := by
    unfold fit
    simp only [bind, Except.bind, hfit]
    exact ⟨_, rfl⟩
  refine ⟨_, hF, fun i hi => ⟨?_, ?_⟩⟩
  · exact holds_of_data _ _ _ (nx hx) (fun w hw => (mem_validX _ _ _ _).mp hw) _ m hm sx i hi
  · exact holds_of_data _ _ _ (ny hy) (fun w hw => (mem_validY _ _ _ _).mp hw) _ m hm sy i hi

/-! ### Results for the estimator -/

/-- C123: after a fit with regular bins, exactly the percentiles of `binsFor` bins are there, in both data sets; the rest of the arrays is
NaN. -/
theorem fitted_bins (P : Params K) (hp : P.percentiles = none) (hn : 1 ≤ P.nbins) (x y : List (Option K)) (F : Fitted K) (h : fit P x y = .ok F) :
    let k := binsFor P.nbins P.minobs (nUsed P.combine x y)
    F.xPerc.length = P.nbins + 1 ∧ F.yPerc.length = P.nbins + 1 ∧ ∀ i, i ≤ P.nbins →
      ((∃ v w, F.xPerc[i]? = some (some v) ∧ F.yPerc[i]? = some (some w)) ↔ i ≤ k) ∧ (F.xPerc[i]? = some none ↔ k < i) ∧ (F.yPerc[i]? = some none ↔ k < i) := by
  intro k
  have hlen := valid_length P.combine x y
  have hk : 1 ≤ k ∧ k ≤ P.nbins := by
    show 1 ≤ binsFor P.nbins P.minobs _ ∧ binsFor P.nbins P.minobs _ ≤ P.nbins
    unfold binsFor
    split
    · exact ⟨hn, le_rfl⟩
    · exact ⟨hn, le_rfl⟩
    · omega
  have hcalc := bins_used P hp hn (nUsed P.combine x y)
  unfold fit at h
  simp only [bind, Except.bind] at h
  split at h
  · cases h
  · rename_i r hr
    obtain ⟨xp, yp⟩ := r
    simp only [hp] at h
    have hl : xp.length = k + 1 ∧ yp.length = k + 1 := by
      unfold fitPercentiles at hr
      simp only [bind, Except.bind, hlen, hcalc] at hr
      split_ifs at hr with h1 h2
      · unfold linregPercentiles at hr
        simp only [bind, Except.bind] at hr
        split_ifs at hr
        split at hr
        · cases hr
        · obtain ⟨rfl, rfl⟩ := Prod.mk.inj (Except.ok.inj hr)
          have : k = 1 := h1.1
          rw [this]
          exact ⟨rfl, rfl⟩
      · split at hr
        · cases hr
        · rename_i xp' hx'
          split at hr
          · cases hr
          · rename_i yp' hy'
            split at hr
            · cases hr
            · rename_i out ho
              obtain ⟨rfl, rfl⟩ := Prod.mk.inj (Except.ok.inj hr)
              have a := percentileValues_length _ _ _ _ hx'
              have b := percentileValues_length _ _ _ _ hy'
              rw [regular_length] at a b
              refine ⟨a, ?_⟩
              unfold linearEdgeScaling at ho
              simp only [bind, Except.bind] at ho
              split at ho
              · cases ho
              · split at ho
                · cases ho
                · rw [← Except.ok.inj ho]
                  simpa using b
      · split at hr
        · cases hr
        · rename_i xp' hx'
          split at hr
          · cases hr
          · rename_i yp' hy'
            obtain ⟨rfl, rfl⟩ := Prod.mk.inj (Except.ok.inj hr)
            have a := percentileValues_length _ _ _ _ hx'
            have b := percentileValues_length _ _ _ _ hy'
            rw [regular_length] at a b
            exact ⟨a, b⟩
    obtain rfl := Except.ok.inj h
    have get : ∀ (l : List K) (i : ℕ), l.length = k + 1 → i ≤ P.nbins → (i ≤ k → ∃ v, (pad (P.nbins + 1) l)[i]? = some (some v)) ∧ (k < i → (pad (P.nbins + 1) l)[i]? = some none) := by
      intro l i hl hi
      unfold pad
      constructor
      · intro h
        exact ⟨l[i], by rw [List.getElem?_append_left (by simp; omega)]; simp [List.getElem?_eq_getElem (by omega : i < l.length)]⟩
      · intro h
        rw [List.getElem?_append_right (by simp; omega), List.getElem?_replicate, if_pos (by simp; omega)]
    refine ⟨by simp [pad]; omega, by simp [pad]; omega, fun i hi => ?_⟩
    obtain ⟨a1, a2⟩ := get xp i hl.1 hi
    obtain ⟨b1, b2⟩ := get yp i hl.2 hi
    rcases Nat.lt_or_ge k i with h | h
    · simp [a2 h, b2 h, h]
    · obtain ⟨v, hv⟩ := a1 h
      obtain ⟨w, hw⟩ := b1 h
      simp [hv, hw, h]

/-- C123, the part that holds: if all values of the source are different from each other and all values of the reference as well, and
there are at least `minobs` of each, then every bin holds at least `minobs` of them, in both data sets. -/
theorem bins_hold_minobs_partial (P : Params K) (hp : P.percentiles = none) (hn : 1 ≤ P.nbins) (he : P.edge = false) (m : ℕ) (hm : 1 ≤ m) (hmo : P.minobs = some m)
    (x y : List (Option K)) (hmn : m ≤ nUsed P.combine x y) (hx : (x.filterMap id).Nodup) (hy : (y.filterMap id).Nodup) :
    ∃ F, fit P x y = .ok F ∧ ∀ i, i < binsFor P.nbins (some m) (nUsed P.combine x y) →
      Holds F.xPerc (UsedX P.combine x y) i m (i + 1 = binsFor P.nbins (some m) (nUsed P.combine x y)) ∧
      Holds F.yPerc (UsedY P.combine x y) i m (i + 1 = binsFor P.nbins (some m) (nUsed P.combine x y)) := by
  obtain ⟨k1, -, k3, -⟩ := binsFor_most P.nbins m (nUsed P.combine x y) hn hm
  have hc := bins_used P hp hn (nUsed P.combine x y)
  rw [hmo] at hc
  generalize binsFor P.nbins (some m) (nUsed P.combine x y) = k at *
  obtain ⟨F, h1, h2⟩ := fit_filled P x y _ _ _ he hc m hm (by rw [regular_length]; omega) (regular_spaced k _ m k1 (k3 hmn)) hx hy
  refine ⟨F, h1, fun i hi => ?_⟩
  have := h2 i (by rw [regular_length]; omega)
  rw [regular_length] at this
  simpa using this

/-- C123: the same for given percentile levels between 0 and 100 that leave room for `minobs` observations in every bin; they are kept. -/
theorem given_bins_hold_minobs_partial (P : Params K) (isArray : Bool) (ps : List K) (hp : P.percentiles = some (isArray, ps)) (h2 : 2 ≤ ps.length)
    (h100 : ∀ p ∈ ps, 0 ≤ p ∧ p ≤ 100) (he : P.edge = false) (m : ℕ) (hm : 1 ≤ m) (hmo : P.minobs = some m) (x y : List (Option K))
    (hroom : ¬ TooFew ps (nUsed P.combine x y) m) (hx : (x.filterMap id).Nodup) (hy : (y.filterMap id).Nodup) :
    ∃ F, fit P x y = .ok F ∧ ∀ i, i + 1 < ps.length →
      Holds F.xPerc (UsedX P.combine x y) i m (i + 2 = ps.length) ∧ Holds F.yPerc (UsedY P.combine x y) i m (i + 2 = ps.length) :=
  fit_filled P x y _ _ _ he (((levels_used P isArray ps hp h2 _).2 m hmo).1 hroom) m hm h2
    ⟨h100, fun i hi => not_lt.mp fun hc => hroom ⟨i, hi, hc⟩⟩ hx hy

/-- A spline that cannot be built raises ValueError: fewer than two knots or abscissas that do not increase. -/
theorem spline_raises (knots : List (K × K)) (xs : List K) (h : knots.length < 2 ∨ ¬ IncX knots) : spline knots xs = .error .valueError := by
  unfold spline
  rw [if_neg]
  intro hc
  rw [Bool.and_eq_true, decide_eq_true_eq, increasing_iff] at hc
  rcases h with h | h
  · omega
  · exact h hc.2

/-- C123: with regular bins and without linear edge scaling a fit succeeds exactly if both data sets have an observation, and raises
IndexError otherwise. -/
theorem fit_outcome (P : Params K) (hp : P.percentiles = none) (hn : 1 ≤ P.nbins) (he : P.edge = false) (x y : List (Option K)) :
    ((UsedX P.combine x y).Nonempty ∧ (UsedY P.combine x y).Nonempty → ∃ F, fit P x y = .ok F) ∧
    (¬ ((UsedX P.combine x y).Nonempty ∧ (UsedY P.combine x y).Nonempty) → fit P x y = .error .indexError) := by
  have ex : (UsedX P.combine x y).Nonempty ↔ (validValues P.combine x y).1.insertionSort (· ≤ ·) ≠ [] :=
    ⟨fun ⟨v, hv⟩ => List.ne_nil_of_mem ((sorted_mem _ v).mpr ((mem_validX _ _ _ v).mpr hv)),
     fun h => by obtain ⟨v, hv⟩ := List.exists_mem_of_ne_nil _ h; exact ⟨v, (mem_validX _ _ _ v).mp ((sorted_mem _ v).mp hv)⟩⟩
  have ey : (UsedY P.combine x y).Nonempty ↔ (validValues P.combine x y).2.insertionSort (· ≤ ·) ≠ [] :=
    ⟨fun ⟨v, hv⟩ => List.ne_nil_of_mem ((sorted_mem _ v).mpr ((mem_validY _ _ _ v).mpr hv)),
     fun h => by obtain ⟨v, hv⟩ := List.exists_mem_of_ne_nil _ h; exact ⟨v, (mem_validY _ _ _ v).mp ((sorted_mem _ v).mp hv)⟩⟩
  rw [ex, ey]
  obtain ⟨k, hk, hcalc⟩ := calc_ok P hp hn (min (validValues P.combine x y).1.length (validValues P.combine x y).2.length)
  have hsx : ((validValues P.combine x y).1.insertionSort (· ≤ ·)).Pairwise (· ≤ ·) := List.pairwise_insertionSort _ _
  have hsy : ((validValues P.combine x y).2.insertionSort (· ≤ ·)).Pairwise (· ≤ ·) := List.pairwise_insertionSort _ _
  have none : ∀ ps : List K, percentileValues true ([] : List K) ps = .error .indexError := fun ps => rfl
  unfold fit fitPercentiles
  simp only [bind, Except.bind, hcalc, he]
  constructor
  · rintro ⟨h1, h2⟩
    obtain ⟨xp, hxp⟩ := percentileValues_total _ k hk hsx h1
    obtain ⟨yp, hyp⟩ := percentileValues_total _ k hk hsy h2
    simp only [hxp, hyp]
    simp
  · intro h
    by_cases h1 : (validValues P.combine x y).1.insertionSort (· ≤ ·) = []
    · rw [h1, none]
      simp
    · obtain ⟨xp, hxp⟩ := percentileValues_total _ k hk hsx h1
      have h2 : (validValues P.combine x y).2.insertionSort (· ≤ ·) = [] := by
        by_contra h2
        exact h ⟨h1, h2⟩
      rw [hxp, h2, none]
      simp

/-- C123, where it fails: nine zeros and a one, `minobs=5`. The fit uses two bins, and the second one holds a single observation. -/
theorem bins_hold_minobs_wrong :
    (fit (⟨2, none, some 5, false, false⟩ : Params ℚ) (List.replicate 9 (some 0) ++ [some 1]) ((List.range 10).map (fun i => some (i : ℚ)))).toOption.map Fitted.xPerc =
      some [some 0, some (1 / 2), some 1] ∧
    (List.replicate 9 (0 : ℚ) ++ [1]).countP (fun v => decide (1 / 2 ≤ v ∧ v ≤ 1)) = 1 := by
  decide +kernel

/-! ### The hypotheses can be met -/

/-- five values of the source, six of the reference -/
def exSource : List (Option ℚ) := [some 4, none, some 1, some 3, some 7, some 9]
def exReference : List (Option ℚ) := [some 10, some 20, some 5, some 1, some 7, some 9]

example : TooFew ([0, 10, 100] : List ℚ) 20 3 ∧ ¬ TooFew ([0, 10, 100] : List ℚ) 20 2 := by
  constructor
  · exact ⟨0, by simp, by norm_num⟩
  · rintro ⟨i, hi, h⟩
    have hi' : i < 2 := Nat.lt_of_succ_lt_succ hi
    interval_cases i <;> norm_num at h

example := levels_used (⟨2, some (true, [0, 10, 100]), some 2, false, false⟩ : Params ℚ) true [0, 10, 100] rfl (by simp) 20
example := bins_used (⟨10, none, some 3, false, false⟩ : Params ℚ) rfl (by simp) 20
example : binsFor 10 (some 3) 20 = 6 ∧ binsFor 10 (some 3) 2 = 1 ∧ binsFor 10 (some 3) 40 = 10 := by decide
example := binsFor_most 10 3 20 (by norm_num) (by norm_num)
example := fitted_bins (⟨3, none, some 2, true, false⟩ : Params ℚ) rfl (by simp) exSource exReference
example := bins_hold_minobs_partial (⟨3, none, some 2, false, false⟩ : Params ℚ) rfl (by simp) rfl 2 (by simp) rfl exSource exReference (by decide) (by decide +kernel) (by decide +kernel)
example : (fit (⟨3, none, some 2, false, false⟩ : Params ℚ) exSource exReference).toOption =
    some ⟨[some 1, some 4, some 9, none], [some 1, some 8, some 20, none]⟩ := by decide +kernel
example := given_bins_hold_minobs_partial (⟨2, some (false, [0, 40, 100]), some 2, false, true⟩ : Params ℚ) false [0, 40, 100] rfl (by simp)
  (by simp only [List.mem_cons, List.not_mem_nil, or_false]; rintro p (rfl | rfl | rfl) <;> norm_num) rfl 2 (by simp) rfl exSource exReference
  (by
    have : nUsed true exSource exReference = 5 := by decide
    rw [this]
    rintro ⟨i, hi, h⟩
    have hi' : i < 2 := Nat.lt_of_succ_lt_succ hi
    interval_cases i <;> norm_num at h)
  (by decide +kernel) (by decide +kernel)
example := spline_raises [(1, 2), (1, (3 : ℚ))] [0] (.inr (by simp [IncX]))
example := fit_outcome (⟨3, none, some 2, false, true⟩ : Params ℚ) rfl (by simp) rfl [some 1, none] [none, some 2]

end Verif.Cdf
