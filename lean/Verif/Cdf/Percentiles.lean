import Verif.Cdf.Lemmas

/-! C21: percentiles without ties, and what `percentileValues` returns. -/

set_option linter.unusedSectionVars false

namespace Verif.Cdf

variable {K : Type} [Field K] [LinearOrder K] [IsStrictOrderedRing K]

theorem mem_setLastX (p : K) (l : List (K × K)) (hne : l ≠ []) (k : K × K) (hk : k ∈ l) (h : k ≠ l.getLast hne) :
    k ∈ setLastX p l := by
  induction l with
  | nil => simp at hk
  | cons a l ih =>
    cases l with
    | nil => simp at hk h; exact absurd hk h
    | cons b l =>
      simp only [setLastX]
      rcases List.mem_cons.mp hk with rfl | hk
      · simp
      · exact List.mem_cons_of_mem _ (ih (by simp) hk (by rwa [List.getLast_cons (by simp)] at h))

theorem strict_last_max (l : List K) (h : l.Pairwise (· < ·)) (hne : l ≠ []) (v : K) (hv : v ∈ l) : v ≤ l.getLast hne := by
  obtain ⟨i, hi, rfl⟩ := List.mem_iff_getElem.mp hv
  rw [List.getLast_eq_getElem]
  rcases Nat.lt_or_ge i (l.length - 1) with h' | h'
  · exact ((List.pairwise_iff_getElem.mp h) i _ hi (by omega) h').le
  · have : i = l.length - 1 := by omega
    simp [this]

/-- C21: let `perc` be sorted, with at least two different values, and the levels strictly increasing. The result is strictly
increasing, has one value per level, starts and ends with the original values, keeps the value at the first position of every
level of ties but the highest, and is unchanged if there were no ties. -/
theorem unique_percentiles_strict (perc percentiles : List K) (hs : perc.Pairwise (· ≤ ·)) (hp : percentiles.Pairwise (· < ·))
    (hlen : perc.length = percentiles.length) (h2 : ∃ v ∈ perc, ∃ w ∈ perc, v ≠ w) :
    ∃ out : List K, uniquePercentiles true perc percentiles = .ok out ∧ out.Pairwise (· < ·) ∧ out.length = perc.length ∧
      out.head? = perc.head? ∧ out.getLast? = perc.getLast? ∧
      (∀ (i : ℕ) (v : K), perc[i]? = some v → (∀ (j : ℕ) (w : K), j < i → perc[j]? = some w → w ≠ v) → (∃ w ∈ perc, v < w) → out[i]? = some v) ∧
      (perc.Pairwise (· < ·) → out = perc) := by
  have hu2 : 1 < (npUnique perc).length := by
    obtain ⟨v, hv, w, hw, hne⟩ := h2
    have hv' := (mem_npUnique perc v).mpr hv
    have hw' := (mem_npUnique perc w).mpr hw
    match hq : npUnique perc with
    | [] => rw [hq] at hv'; simp at hv'
    | [a] => rw [hq] at hv' hw'; simp at hv' hw'; exact absurd (hv'.trans hw'.symm) hne
    | _ :: _ :: _ => simp
  by_cases hc : (npUnique perc).length = percentiles.length
  · refine ⟨perc, ?_, strict_of_unique_length perc hs (hc.trans hlen.symm), rfl, rfl, rfl, fun i v h _ _ => h, fun _ => rfl⟩
    unfold uniquePercentiles
    simp [hc]
  · obtain ⟨k1, k2, k3⟩ := tie_knots perc percentiles hs hp hlen
    set base := (npUnique perc).map (fun v => (percentiles.getD (perc.idxOf v) 0, v)) with hbase
    have hbne : base ≠ [] := by
      intro h
      have : base.length = 0 := by rw [h]; rfl
      rw [hbase, List.length_map] at this
      omega
    have hune : npUnique perc ≠ [] := by intro h; rw [h] at hu2; simp at hu2
    have hblast : (base.getLast hbne).2 = (npUnique perc).getLast hune := by
      simp [hbase]
    set knots := setLastX (percentiles.getLastD 0) base with hknots
    have hspl : uniquePercentiles true perc percentiles = .ok (percentiles.map (pwl knots)) := by
      unfold uniquePercentiles
      simp only
      rw [if_pos ⟨hc, hu2⟩, if_pos trivial]
      unfold spline
      rw [if_pos]
      simp only [Bool.and_eq_true, decide_eq_true_eq, increasing_iff]
      exact ⟨by rw [k3]; exact hu2, k1⟩
    have hfirst : ∀ v ∈ perc, (∃ w ∈ perc, v < w) → pwl knots (percentiles.getD (perc.idxOf v) 0) = v := by
      intro v hv ⟨w, hw, hvw⟩
      have hmem : (percentiles.getD (perc.idxOf v) 0, v) ∈ base :=
        List.mem_map.mpr ⟨v, (mem_npUnique perc v).mpr hv, rfl⟩
      have := mem_setLastX (percentiles.getLastD 0) base hbne _ hmem (by
        intro he
        have h1 : v = (npUnique perc).getLast hune := by rw [← hblast, ← he]
        have h2 := strict_last_max _ (npUnique_inc perc) hune w ((mem_npUnique perc w).mpr hw)
        rw [← h1] at h2
        exact absurd h2 (not_le.mpr hvw))
      exact pwl_knot knots k1 _ this
    have hlastv : ∀ b, perc.getLast? = some b → b = (npUnique perc).getLast hune := by
      intro b hb
      apply le_antisymm
      · exact strict_last_max _ (npUnique_inc perc) hune b ((mem_npUnique perc b).mpr (List.mem_of_getLast? hb))
      · exact sorted_le_last perc hs b hb _ ((mem_npUnique perc _).mp (List.getLast_mem hune))
    have hkey : ∀ (i : ℕ) (v : K), perc[i]? = some v → (∀ (j : ℕ) (w : K), j < i → perc[j]? = some w → w ≠ v) → (∃ w ∈ perc, v < w) →
        (percentiles.map (pwl knots))[i]? = some v := by
      intro i v hi hj hw
      obtain ⟨hilt, hiv⟩ := List.getElem?_eq_some_iff.mp hi
      have hidx : perc.idxOf v = i := by
        have hv : v ∈ perc := hiv ▸ List.getElem_mem hilt
        have hlt := List.idxOf_lt_length_iff.mpr hv
        have he : perc[perc.idxOf v] = v := List.getElem_idxOf hlt
        rcases Nat.lt_trichotomy (perc.idxOf v) i with h | h | h
        · exact absurd he (hj _ _ h (List.getElem?_eq_getElem hlt))
        · exact h
        · have := List.not_of_lt_findIdx (p := (· == v)) (xs := perc) h
          simp [hiv] at this
      have hv : v ∈ perc := hiv ▸ List.getElem_mem hilt
      have := hfirst v hv hw
      rw [hidx] at this
      have hi' : i < percentiles.length := hlen ▸ hilt
      rw [List.getElem?_map, List.getElem?_eq_getElem hi']
      rw [List.getD_eq_getElem _ _ hi'] at this
      simp [this]
    refine ⟨_, hspl, ?_, by simp [hlen], ?_, ?_, hkey, ?_⟩
    · rw [List.pairwise_map]
      exact hp.imp (fun h => pwl_strictMono knots k1 k2 (by rw [k3]; exact hu2) _ _ h)
    · cases hperc : perc with
      | nil => obtain ⟨v, hv, _⟩ := h2; rw [hperc] at hv; simp at hv
      | cons a l =>
        have ha : perc.head? = some a := by rw [hperc]; rfl
        have hlt : ∃ w ∈ perc, a < w := by
          obtain ⟨v, hv, w, hw, hne⟩ := h2
          have h1 := sorted_head_le perc hs a ha v hv
          have h2 := sorted_head_le perc hs a ha w hw
          rcases h1.eq_or_lt with h | h
          · exact ⟨w, hw, lt_of_le_of_ne h2 (by rw [h]; exact hne)⟩
          · exact ⟨v, hv, h⟩
        have := hkey 0 a (by rw [hperc]; rfl) (by omega) hlt
        rw [List.head?_eq_getElem?, this]
        rfl
    · have hpne : perc ≠ [] := by obtain ⟨v, hv, _⟩ := h2; exact List.ne_nil_of_mem hv
      have hqne : percentiles ≠ [] := by rintro rfl; simp at hlen; exact hpne hlen
      have hl := List.getLast?_eq_some_getLast hpne
      have hb := hlastv _ hl
      rw [hl, List.getLast?_map, List.getLast?_eq_some_getLast hqne]
      simp only [Option.map_some, Option.some.injEq]
      have hm := setLastX_last (percentiles.getLastD 0) base hbne
      have := pwl_knot knots k1 _ hm
      rw [hblast, ← hb] at this
      rw [List.getLastD_eq_getLast?, List.getLast?_eq_some_getLast hqne] at this
      exact this
    · intro hstrict
      exact absurd ((unique_length_of_strict perc hstrict).trans hlen) hc

/-- C21 fails for data with a single value: nothing is changed, the percentiles stay tied. -/
theorem unique_percentiles_constant (isArray : Bool) (c : K) (percentiles : List K) (n : ℕ) (hn : 1 ≤ n) :
    uniquePercentiles isArray (List.replicate n c) percentiles = .ok (List.replicate n c) := by
  unfold uniquePercentiles
  have : (npUnique (List.replicate n c)).length = 1 := by
    have h : ∀ v ∈ npUnique (List.replicate n c), v = c := fun v hv =>
      (List.mem_replicate.mp ((mem_npUnique _ v).mp hv)).2
    have hinc := npUnique_inc (List.replicate n c)
    have hm : c ∈ npUnique (List.replicate n c) := (mem_npUnique _ c).mpr (List.mem_replicate.mpr ⟨by omega, rfl⟩)
    match hq : npUnique (List.replicate n c) with
    | [] => rw [hq] at hm; simp at hm
    | [a] => rfl
    | a :: b :: l =>
      rw [hq] at h hinc
      have h1 := (List.pairwise_cons.mp hinc).1 b (by simp)
      rw [h a (by simp), h b (by simp)] at h1
      exact absurd h1 (lt_irrefl _)
  simp [this]

/-- Levels passed as a Python list: TypeError as soon as there are ties. -/
theorem unique_percentiles_list_raises (perc percentiles : List K) (hs : perc.Pairwise (· ≤ ·))
    (hlen : perc.length = percentiles.length) (h2 : ∃ v ∈ perc, ∃ w ∈ perc, v ≠ w) (ht : ¬ perc.Pairwise (· < ·)) :
    uniquePercentiles false perc percentiles = .error .typeError := by
  have hu2 : 1 < (npUnique perc).length := by
    obtain ⟨v, hv, w, hw, hne⟩ := h2
    have hv' := (mem_npUnique perc v).mpr hv
    have hw' := (mem_npUnique perc w).mpr hw
    match hq : npUnique perc with
    | [] => rw [hq] at hv'; simp at hv'
    | [a] => rw [hq] at hv' hw'; simp at hv' hw'; exact absurd (hv'.trans hw'.symm) hne
    | _ :: _ :: _ => simp
  unfold uniquePercentiles
  simp only
  rw [if_pos ⟨fun h => ht (strict_of_unique_length perc hs (h.trans hlen.symm)), hu2⟩]
  rfl

/-- Whatever the input, a successful call keeps the order, the length and the ends. -/
theorem unique_percentiles_sorted (isArray : Bool) (perc percentiles out : List K) (hs : perc.Pairwise (· ≤ ·))
    (hp : percentiles.Pairwise (· < ·)) (hlen : perc.length = percentiles.length)
    (h : uniquePercentiles isArray perc percentiles = .ok out) :
    out.Pairwise (· ≤ ·) ∧ out.length = perc.length ∧ out.head? = perc.head? ∧ out.getLast? = perc.getLast? := by
  by_cases h2 : ∃ v ∈ perc, ∃ w ∈ perc, v ≠ w
  · by_cases ht : perc.Pairwise (· < ·)
    · have : uniquePercentiles isArray perc percentiles = .ok perc := by
        unfold uniquePercentiles
        simp [(unique_length_of_strict perc ht).trans hlen]
      rw [this] at h
      simp at h
      subst h
      exact ⟨hs, rfl, rfl, rfl⟩
    · cases isArray with
      | false => rw [unique_percentiles_list_raises perc percentiles hs hlen h2 ht] at h; simp at h
      | true =>
        obtain ⟨o, h', h1, h2, h3, h4, _⟩ := unique_percentiles_strict perc percentiles hs hp hlen h2
        rw [h'] at h
        simp at h
        subst h
        exact ⟨h1.imp (fun h => h.le), h2, h3, h4⟩
  · cases hperc : perc with
    | nil =>
      subst hperc
      have : uniquePercentiles isArray [] percentiles = .ok [] := by
        unfold uniquePercentiles
        simp [npUnique]
      rw [this] at h
      simp at h
      subst h
      exact ⟨List.Pairwise.nil, rfl, rfl, rfl⟩
    | cons a l =>
      have hr : perc = List.replicate (l.length + 1) a := by
        rw [List.eq_replicate_iff]
        refine ⟨by rw [hperc]; simp, ?_⟩
        intro b hb
        by_contra hne
        exact h2 ⟨b, hb, a, by rw [hperc]; simp, hne⟩
      rw [hr, unique_percentiles_constant isArray a percentiles _ (by omega)] at h
      simp at h
      subst h
      rw [← hperc, hr]
      exact ⟨by rw [← hr]; exact hs, rfl, rfl, rfl⟩

example : ∃ out, uniquePercentiles true [1, 1, 2, 2] [0, 10, 50, (100 : ℚ)] = .ok out ∧ out = [1, 11 / 10, 3 / 2, 2] :=
  ⟨_, rfl, by decide +kernel⟩

/-- the values of the percentiles of sorted data are sorted and inside the data range -/
theorem percentileValues_sorted (isArray : Bool) (data percentiles out : List K) (hs : data.Pairwise (· ≤ ·))
    (hp : percentiles.Pairwise (· < ·)) (h : percentileValues isArray data percentiles = .ok out) :
    out.Pairwise (· ≤ ·) ∧ out.length = percentiles.length ∧
      (∀ a b, data.head? = some a → data.getLast? = some b → ∀ v ∈ out, a ≤ v ∧ v ≤ b) ∧ data ≠ [] := by
  unfold percentileValues at h
  simp only [bind, Except.bind] at h
  cases hm : matlabPercentiles data percentiles with
  | error e => rw [hm] at h; simp at h
  | ok perc =>
    rw [hm] at h
    simp only at h
    obtain ⟨m1, m2, m3⟩ := matlab_sorted data percentiles perc hs hp hm
    obtain ⟨u1, u2, u3, u4⟩ := unique_percentiles_sorted isArray perc percentiles out m1 hp m2 h
    refine ⟨u1, u2.trans m2, ?_, ?_⟩
    · intro a b ha hb v hv
      have hne : out ≠ [] := List.ne_nil_of_mem hv
      obtain ⟨c, hc⟩ : ∃ c, out.head? = some c := by
        cases out with
        | nil => exact absurd rfl hne
        | cons c l => exact ⟨c, rfl⟩
      have hd := List.getLast?_eq_some_getLast hne
      constructor
      · exact (m3 a b ha hb c (List.mem_of_head? (u3 ▸ hc))).1.trans (sorted_head_le out u1 c hc v hv)
      · exact (sorted_le_last out u1 _ hd v hv).trans (m3 a b ha hb _ (List.mem_of_getLast? (u4 ▸ hd))).2
    · rintro rfl
      simp [matlabPercentiles] at hm

/-- if the lowest level is 0 and the highest is 100, the first and last value are the minimum and maximum of the data -/
theorem percentileValues_ends (isArray : Bool) (data percentiles out : List K) (hs : data.Pairwise (· ≤ ·))
    (hp : percentiles.Pairwise (· < ·)) (h0 : percentiles.head? = some 0) (h100 : percentiles.getLast? = some 100)
    (h : percentileValues isArray data percentiles = .ok out) :
    out.head? = data.head? ∧ out.getLast? = data.getLast? := by
  unfold percentileValues at h
  simp only [bind, Except.bind] at h
  cases hm : matlabPercentiles data percentiles with
  | error e => rw [hm] at h; simp at h
  | ok perc =>
    rw [hm] at h
    simp only at h
    obtain ⟨m1, m2, m3⟩ := matlab_sorted data percentiles perc hs hp hm
    obtain ⟨u1, u2, u3, u4⟩ := unique_percentiles_sorted isArray perc percentiles out m1 hp m2 h
    rw [u3, u4]
    unfold matlabPercentiles at hm
    cases ha : data.head? with
    | none => rw [ha] at hm; cases data.getLast? <;> simp at hm
    | some a =>
      cases hb : data.getLast? with
      | none => rw [ha, hb] at hm; simp at hm
      | some b =>
        rw [ha, hb] at hm
        simp only [Except.ok.injEq] at hm
        subst hm
        have hne : data ≠ [] := by rintro rfl; simp at ha
        have hn : 0 < data.length := List.length_pos_of_ne_nil hne
        have hnK : (0 : K) < (data.length : K) := by exact_mod_cast hn
        have hrne : ranks data ≠ [] := by
          intro h
          have : (ranks data).length = 0 := by rw [h]; rfl
          unfold ranks at this
          rw [List.length_map, List.length_zipIdx] at this
          omega
        have hrh : ∃ v, (ranks data).head? = some (100 * (0 + 1 / 2) / (data.length : K), v) := by
          cases data with
          | nil => exact absurd rfl hne
          | cons c l => exact ⟨c, by simp [ranks]⟩
        have hrl : ∃ v, (ranks data).getLast? = some (100 * (((data.length - 1 : ℕ) : K) + 1 / 2) / (data.length : K), v) := by
          rw [List.getLast?_eq_some_getLast hrne, List.getLast_eq_getElem]
          refine ⟨data[data.length - 1]'(by omega), ?_⟩
          simp [ranks]
        obtain ⟨va, hva⟩ := hrh
        obtain ⟨vb, hvb⟩ := hrl
        have e0 : npInterp (ranks data) a b 0 = a := by
          unfold npInterp
          rw [hva, hvb]
          simp only
          rw [if_pos]
          positivity
        have e100 : npInterp (ranks data) a b 100 = b := by
          unfold npInterp
          rw [hva, hvb]
          simp only
          have h1 : ¬ (100 : K) < 100 * (0 + 1 / 2) / (data.length : K) := by
            rw [not_lt, div_le_iff₀ hnK]
            have : (1 : K) ≤ (data.length : K) := by exact_mod_cast hn
            linarith
          rw [if_neg h1, if_pos]
          rw [div_lt_iff₀ hnK, Nat.cast_sub (by omega)]
          push_cast
          linarith
        constructor
        · rw [List.head?_map, h0, Option.map_some, e0]
        · rw [List.getLast?_map, h100, Option.map_some, e100]

end Verif.Cdf
