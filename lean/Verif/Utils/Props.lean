import Verif.Utils.Interp
import Verif.DfMetrics.Model
import Mathlib.Algebra.Order.Ring.Rat
import Mathlib.Algebra.Field.Rat

/-! C45, C46 and C60: the helper functions. -/

namespace Verif.Utils
set_option linter.unusedSectionVars false

section
variable {K : Type} [Field K] [LinearOrder K] [IsStrictOrderedRing K]

theorem uniqInd_length (l : List K) : (uniqInd l).length = l.toFinset.card := by
  unfold uniqInd
  rw [List.length_map, List.length_insertionSort, List.card_toFinset]

/-- the different values in ascending order -/
def values (l : List K) : List K := l.dedup.insertionSort (· ≤ ·)

theorem mem_values (l : List K) (v : K) : v ∈ values l ↔ v ∈ l := by
  unfold values
  rw [(List.perm_insertionSort _ _).mem_iff, List.mem_dedup]

theorem uniqInd_get (l : List K) (i k : ℕ) (h : (uniqInd l)[i]? = some k) :
    ∃ v, (values l)[i]? = some v ∧ v ∈ l ∧ l.getD k 0 = v := by
  unfold uniqInd at h
  rw [List.getElem?_map] at h
  obtain ⟨v, hv, rfl⟩ := Option.map_eq_some_iff.1 h
  have hm : v ∈ l := (mem_values l v).1 (List.mem_of_getElem? hv)
  refine ⟨v, hv, hm, ?_⟩
  have hlt := List.idxOf_lt_length_of_mem hm
  simp [List.getD, hlt]

theorem update_single {l : List K} (hl : Asc l) (v : K) (hv : l.count v = 1) : update id l (positions l v) = l := by
  have hmem : v ∈ l := List.count_pos_iff.1 (by omega)
  obtain ⟨A, B, k, rfl, hA, hB, aA, aB⟩ := asc_split hl v hmem
  have hvA : v ∉ A := fun h => lt_irrefl _ (hA v h)
  have hvB : v ∉ B := fun h => lt_irrefl _ (hB v h)
  rw [positions_blocks A B (k + 1) v hvA hvB]
  simp only [List.count_append, List.count_replicate_self, List.count_eq_zero.2 hvA, List.count_eq_zero.2 hvB] at hv
  unfold update
  rw [List.length_range', if_neg (by omega)]

theorem forStep_ok {l : List K} (hl : Asc l) (h2 : 2 ≤ l.toFinset.card) (i : ℕ) (hi : i < l.toFinset.card) :
    ∃ l', forStep id l i = .ok l' ∧ Step l l' ∧ l.toFinset.card ≤ l'.toFinset.card ∧
      (l'.toFinset.card = l.toFinset.card → l' = l ∧ ∀ v, (values l)[i]? = some v → l.count v = 1) := by
  unfold forStep
  obtain ⟨k, hk⟩ : ∃ k, (uniqInd l)[i]? = some k :=
    ⟨_, List.getElem?_eq_getElem (by rw [uniqInd_length]; exact hi)⟩
  obtain ⟨v, hv, hmem, hget⟩ := uniqInd_get l i k hk
  rw [hk]
  refine ⟨update id l (positions l v), by rw [← hget], ?_⟩
  have hc : 0 < l.count v := List.count_pos_iff.2 hmem
  rcases Nat.lt_or_ge (l.count v) 2 with h | h
  · have h1 : l.count v = 1 := by omega
    rw [update_single hl v h1]
    refine ⟨Step.refl hl, le_refl _, fun _ => ⟨rfl, fun w hw => ?_⟩⟩
    rw [hv] at hw
    rw [← Option.some.inj hw]; exact h1
  · obtain ⟨w, hw, hwv⟩ := Finset.exists_mem_ne (s := l.toFinset) (by omega) v
    obtain ⟨hs, hlt⟩ := update_ok hl v h ⟨w, List.mem_toFinset.1 hw, hwv⟩
    exact ⟨hs, hlt.le, fun h => absurd h (by omega)⟩

theorem foldl_ok (c : ℕ) : ∀ (is : List ℕ) (l : List K), Asc l → 2 ≤ l.toFinset.card → c ≤ l.toFinset.card →
    (∀ i ∈ is, i < c) →
    ∃ l', is.foldlM (forStep id) l = .ok l' ∧ Step l l' ∧ l.toFinset.card ≤ l'.toFinset.card ∧
      (l'.toFinset.card = l.toFinset.card → ∀ i ∈ is, ∀ v, (values l)[i]? = some v → l.count v = 1)
  | [], l, hl, _, _, _ => ⟨l, rfl, Step.refl hl, le_refl _, fun _ _ h => absurd h (by simp)⟩
  | i :: is, l, hl, h2, hc, hi => by
    obtain ⟨l1, e1, s1, c1, p1⟩ := forStep_ok hl h2 i (lt_of_lt_of_le (hi i (by simp)) hc)
    obtain ⟨l2, e2, s2, c2, p2⟩ := foldl_ok c is l1 s1.asc (by omega) (by omega) (fun j hj => hi j (by simp [hj]))
    refine ⟨l2, ?_, s1.trans s2, by omega, fun h j hj v hv => ?_⟩
    · rw [List.foldlM_cons, e1]; exact e2
    · obtain ⟨rfl, q1⟩ := p1 (by omega)
      rcases List.mem_cons.1 hj with rfl | hj
      · exact q1 v hv
      · exact p2 (by omega) j hj v hv

theorem forLoop_ok {l : List K} (hl : Asc l) (h2 : 2 ≤ l.toFinset.card) (hd : l.toFinset.card ≠ l.length) :
    ∃ l', forLoop id l = .ok l' ∧ Step l l' ∧ l.toFinset.card < l'.toFinset.card := by
  obtain ⟨l', e, s, c, p⟩ := foldl_ok l.toFinset.card (List.range l.toFinset.card) l hl h2 (le_refl _)
    (fun i hi => List.mem_range.1 hi)
  refine ⟨l', by unfold forLoop; rw [uniqInd_length]; exact e, s, lt_of_le_of_ne c (fun h => hd ?_)⟩
  rw [List.toFinset_card_of_nodup]
  rw [List.nodup_iff_count_le_one]
  intro v
  by_cases hv : v ∈ l
  · obtain ⟨i, hi, hiv⟩ := List.getElem_of_mem ((mem_values l v).2 hv)
    have hlen : (values l).length = l.toFinset.card := by
      unfold values; rw [List.length_insertionSort, List.card_toFinset]
    rw [p h.symm i (List.mem_range.2 (by omega)) v (by rw [List.getElem?_eq_getElem hi, hiv])]
  · rw [List.count_eq_zero.2 hv]; omega

theorem interp_core : ∀ (m : ℕ) (l : List K), Asc l → (l.toFinset.card = l.length ∨ 2 ≤ l.toFinset.card) →
    l.length ≤ l.toFinset.card + m →
    ∃ l', (∀ fuel, m ≤ fuel → interpUniq id fuel l = .ok (some l')) ∧ Step l l' ∧ l'.toFinset.card = l'.length
  | m, l, hl, hc, hm => by
    by_cases hd : l.toFinset.card = l.length
    · refine ⟨l, fun fuel _ => ?_, Step.refl hl, hd⟩
      unfold interpUniq
      rw [if_pos (by rw [uniqInd_length]; exact hd)]
    · obtain ⟨l1, e1, s1, c1⟩ := forLoop_ok hl (hc.resolve_left hd) hd
      have hle : l.toFinset.card ≤ l.length := List.toFinset_card_le l
      cases m with
      | zero => omega
      | succ m =>
        obtain ⟨l', e', s', c'⟩ := interp_core m l1 s1.asc (Or.inr (by have := hc.resolve_left hd; omega))
          (by rw [s1.length]; omega)
        refine ⟨l', fun fuel hf => ?_, s1.trans s', c'⟩
        cases fuel with
        | zero => omega
        | succ fuel =>
          rw [interpUniq, if_neg (by rw [uniqInd_length]; exact hd)]
          simp only [e1]
          exact e' fuel (by omega)

/-- C45, proved for arrays in ascending order that have at least two different values (or fewer than two entries): `interp_uniq`
ends after at most as many rounds as there are entries. The result is strictly increasing, has the same length and the same first and
last entry, and entries that occurred once are unchanged. Missing: other orders, and constant arrays, for which the claim is false
(`interp_uniq_never_ends`, `interp_uniq_index_error`). -/
theorem interp_uniq_ascending_partial (src : List K) (hasc : src.Pairwise (· ≤ ·))
    (hne : src.length ≤ 1 ∨ ∃ x ∈ src, ∃ y ∈ src, x ≠ y) :
    ∃ out, (∀ fuel, src.length ≤ fuel → interpUniq id fuel src = .ok (some out)) ∧
      out.Pairwise (· < ·) ∧ out.length = src.length ∧ out.head? = src.head? ∧ out.getLast? = src.getLast? ∧
      ∀ (i : ℕ) (x : K), src[i]? = some x → src.count x = 1 → out[i]? = some x := by
  have hc : src.toFinset.card = src.length ∨ 2 ≤ src.toFinset.card := by
    rcases hne with h | ⟨x, hx, y, hy, hxy⟩
    · left
      match src, h with
      | [], _ => rfl
      | [a], _ => simp
    · right
      exact Finset.one_lt_card.2 ⟨x, List.mem_toFinset.2 hx, y, List.mem_toFinset.2 hy, hxy⟩
  obtain ⟨out, e, s, hd⟩ := interp_core src.length src hasc hc (by omega)
  refine ⟨out, e, ?_, s.length, s.head, s.last, ?_⟩
  · have hnd : out.Nodup := by
      rw [← List.dedup_eq_self]
      exact (List.dedup_sublist out).eq_of_length (by rw [← List.card_toFinset]; exact hd)
    exact List.Pairwise.imp₂ (fun a b h1 h2 => lt_of_le_of_ne h1 h2) s.asc hnd
  · intro i x hx hcx
    obtain ⟨hlt, hxi⟩ := List.getElem?_eq_some_iff.1 hx
    have hlt' : i < out.length := by rw [s.length]; exact hlt
    have := (List.forall₂_iff_get.1 s.keeps).2 i hlt hlt'
    simp only [List.get_eq_getElem, hxi] at this
    rw [List.getElem?_eq_getElem hlt', (this hcx).1]

example : (interpUniq id 3 [(0 : ℚ), 1, 1, 1, 1, 2, 2]).toOption
    = some (some [0, 1 / 2, 3 / 4, 7 / 8, 23 / 16, 55 / 32, 2]) := by decide +kernel

/-! ### arrays that begin and end with the same value -/

theorem mem_positions (l : List K) (v : K) (i : ℕ) : i ∈ positions l v ↔ l[i]? = some v := by
  unfold positions
  rw [List.mem_filter, List.mem_range, decide_eq_true_iff]
  constructor
  · exact fun h => h.2
  · exact fun h => ⟨(List.getElem?_eq_some_iff.1 h).1, h⟩

theorem positions_sorted (l : List K) (v : K) : (positions l v).Pairwise (· < ·) :=
  List.Pairwise.filter _ List.pairwise_lt_range

theorem getD_mem_positions (l : List K) (v : K) (j : ℕ) (h : j < (positions l v).length) :
    l[(positions l v).getD j 0]? = some v := by
  rw [← mem_positions]
  simp [List.getD, h]

/-- the first and the last entry are the value `c`, and there are at least two entries -/
def Closed (l : List K) (c : K) : Prop := 2 ≤ l.length ∧ l[0]? = some c ∧ l[l.length - 1]? = some c

theorem closed_set {l : List K} {c : K} (h : Closed l c) (i : ℕ) (x : K) (h0 : i ≠ 0) (h1 : i ≠ l.length - 1) :
    Closed (l.set i x) c := by
  refine ⟨by simpa using h.1, ?_, ?_⟩
  · rw [List.getElem?_set_ne h0]; exact h.2.1
  · rw [List.length_set, List.getElem?_set_ne h1]; exact h.2.2

theorem closed_update {l : List K} {c : K} (h : Closed l c) (v : K) : Closed (update id l (positions l v)) c := by
  unfold update
  by_cases hlen : 1 < (positions l v).length
  · rw [if_pos hlen]
    have m0 := getD_mem_positions l v 0 (by omega)
    have m1 := getD_mem_positions l v 1 hlen
    have mL := getD_mem_positions l v ((positions l v).length - 1) (by omega)
    by_cases hvc : v = c
    · subst hvc
      have hp0 : (positions l v).getD 0 0 = 0 := by
        obtain ⟨j, hj, e⟩ := List.getElem_of_mem ((mem_positions l v 0).2 h.2.1)
        rcases Nat.eq_zero_or_pos j with rfl | hpos
        · simp [List.getD, hj, e]
        · have := List.pairwise_iff_getElem.1 (positions_sorted l v) 0 j (by omega) hj hpos
          omega
      have hpL : (positions l v).getD ((positions l v).length - 1) 0 = l.length - 1 := by
        obtain ⟨j, hj, e⟩ := List.getElem_of_mem ((mem_positions l v (l.length - 1)).2 h.2.2)
        rcases Nat.lt_or_ge j ((positions l v).length - 1) with hlt | hge
        · have := List.pairwise_iff_getElem.1 (positions_sorted l v) j ((positions l v).length - 1) hj (by omega) hlt
          have hb : (positions l v)[(positions l v).length - 1]'(by omega) < l.length := by
            have := (mem_positions l v _).1 (List.getElem_mem (l := positions l v) (n := (positions l v).length - 1) (by omega))
            exact (List.getElem?_eq_some_iff.1 this).1
          omega
        · have : j = (positions l v).length - 1 := by omega
          subst this
          simp [List.getD, hj, e]
      rw [if_neg (by rw [hpL]; omega), if_pos hpL, hp0]
      have hb : before l 0 = v := by
        unfold before
        rw [if_pos rfl]
        simp [List.getD, h.2.2]
      have h1 : l.getD ((positions l v).getD 1 0) 0 = v := by rw [List.getD, m1]; rfl
      rw [hb, h1]
      have : id ((v + v) / 2) = v := by simp
      rw [this]
      refine ⟨by simpa using h.1, ?_, ?_⟩
      · rw [List.getElem?_set_self (by have := h.1; omega)]
      · rw [List.length_set, List.getElem?_set_ne (by have := h.1; omega)]; exact h.2.2
    · have ne0 : ∀ j, l[j]? = some v → j ≠ 0 ∧ j ≠ l.length - 1 := by
        intro j hj
        constructor
        · rintro rfl; rw [h.2.1] at hj; exact hvc (Option.some.inj hj).symm
        · rintro rfl; rw [h.2.2] at hj; exact hvc (Option.some.inj hj).symm
      rw [if_neg (fun hh => (ne0 _ m0).1 hh.1), if_neg (ne0 _ mL).2]
      refine closed_set (closed_set h _ _ (ne0 _ m0).1 (ne0 _ m0).2) _ _ (ne0 _ m1).1 ?_
      rw [List.length_set]; exact (ne0 _ m1).2
  · rw [if_neg hlen]; exact h

theorem closed_fold : ∀ (is : List ℕ) (l l' : List K) (c : K), Closed l c → is.foldlM (forStep id) l = .ok l' → Closed l' c
  | [], l, l', c, h, e => by cases e; exact h
  | i :: is, l, l', c, h, e => by
    rw [List.foldlM_cons] at e
    cases hs : forStep id l i with
    | error x => rw [hs] at e; cases e
    | ok l1 =>
      rw [hs] at e
      refine closed_fold is l1 l' c ?_ e
      unfold forStep at hs
      cases hu : (uniqInd l)[i]? with
      | none => rw [hu] at hs; cases hs
      | some k => rw [hu] at hs; cases hs; exact closed_update h _

/-- Negation for C45: `interp_uniq` never returns for an array that begins and ends with the same value, for example a constant one. -/
theorem interp_uniq_never_ends (src : List K) (c : K) (hlen : 2 ≤ src.length) (h0 : src[0]? = some c)
    (h1 : src[src.length - 1]? = some c) (fuel : ℕ) (out : List K) : interpUniq id fuel src ≠ .ok (some out) := by
  have hc : Closed src c := ⟨hlen, h0, h1⟩
  clear hlen h0 h1
  induction fuel generalizing src with
  | zero =>
    intro h
    unfold interpUniq at h
    by_cases hu : (uniqInd src).length = src.length
    · rw [uniqInd_length, List.card_toFinset] at hu
      have hnd : src.Nodup := by
        rw [← List.dedup_eq_self]
        exact (List.dedup_sublist src).eq_of_length hu
      have hl := hc.1
      exact absurd ((List.getElem?_inj (i := 0) (j := src.length - 1) (by omega) hnd).1 (hc.2.1.trans hc.2.2.symm)) (by omega)
    · rw [if_neg hu] at h; cases h
  | succ fuel ih =>
    intro h
    rw [interpUniq] at h
    by_cases hu : (uniqInd src).length = src.length
    · rw [uniqInd_length, List.card_toFinset] at hu
      have hnd : src.Nodup := by
        rw [← List.dedup_eq_self]
        exact (List.dedup_sublist src).eq_of_length hu
      have hl := hc.1
      exact absurd ((List.getElem?_inj (i := 0) (j := src.length - 1) (by omega) hnd).1 (hc.2.1.trans hc.2.2.symm)) (by omega)
    · rw [if_neg hu] at h
      cases hf : forLoop id src with
      | error e => rw [hf] at h; cases h
      | ok l1 =>
        rw [hf] at h
        exact ih l1 (closed_fold _ src l1 c hc hf) h

end

/-- it really goes on: the constant array is never left -/
theorem interp_uniq_constant (fuel : ℕ) : (interpUniq id fuel [(1 : ℚ), 1]).toOption = some none := by
  induction fuel with
  | zero => decide +kernel
  | succ fuel ih =>
    have h1 : ¬ (uniqInd [(1 : ℚ), 1]).length = [(1 : ℚ), 1].length := by decide +kernel
    have h2 : forLoop id [(1 : ℚ), 1] = .ok [1, 1] := by
      have : (forLoop id [(1 : ℚ), 1]).toOption = some [1, 1] := by decide +kernel
      cases h : forLoop id [(1 : ℚ), 1] with
      | error e => rw [h] at this; cases this
      | ok l => rw [h] at this; cases this; rfl
    rw [interpUniq, if_neg h1]
    simp only [h2]
    exact ih

/-- conversion to an integer array: the fractional part is cut off -/
def truncate (x : ℚ) : ℚ := (Int.tdiv x.num x.den : ℚ)

/-- Negation for C45: for an integer array in ascending order `interp_uniq` never ends either, the interpolated value is cut off
when it is stored. -/
theorem interp_uniq_integer (fuel : ℕ) : (interpUniq truncate fuel [(0 : ℚ), 0, 1]).toOption = some none := by
  induction fuel with
  | zero => decide +kernel
  | succ fuel ih =>
    have h1 : ¬ (uniqInd [(0 : ℚ), 0, 1]).length = [(0 : ℚ), 0, 1].length := by decide +kernel
    have h2 : forLoop truncate [(0 : ℚ), 0, 1] = .ok [0, 0, 1] := by
      have : (forLoop truncate [(0 : ℚ), 0, 1]).toOption = some [0, 0, 1] := by decide +kernel
      cases h : forLoop truncate [(0 : ℚ), 0, 1] with
      | error e => rw [h] at this; cases this
      | ok l => rw [h] at this; cases this; rfl
    rw [interpUniq, if_neg h1]
    simp only [h2]
    exact ih

/-- Negation for C45: for an array in another order `interp_uniq` can raise an IndexError, as the number of different values can
decrease within the loop. -/
theorem interp_uniq_index_error : interpUniq id 1 [(2 : ℚ), 0, 0, 1] = .error .indexError := by
  have h1 : ¬ (uniqInd [(2 : ℚ), 0, 0, 1]).length = [(2 : ℚ), 0, 0, 1].length := by decide +kernel
  have h2 : forLoop id [(2 : ℚ), 0, 0, 1] = .error .indexError := by
    cases h : forLoop id [(2 : ℚ), 0, 0, 1] with
    | error e =>
      have : (match forLoop id [(2 : ℚ), 0, 0, 1] with | .error e => some e | .ok _ => none) = some .indexError := by
        decide +kernel
      rw [h] at this; cases this; rfl
    | ok l =>
      have : (forLoop id [(2 : ℚ), 0, 0, 1]).toOption = none := by decide +kernel
      rw [h] at this; cases this
  rw [interpUniq, if_neg h1]
  simp only [h2]
  rfl

/-! ### array_dropna -/

section
variable {V : Type}

/-- the positions where none of the arrays is NaN, the array `a` restricted to them -/
def complete (nan : V → Bool) (N : ℕ) (arrs : List (ℕ → V)) (a : ℕ → V) : List V :=
  ((List.range N).filter (fun r => arrs.all (fun b => !nan (b r)))).map a

/-- C46, proved for two arrays: `array_dropna` returns each array restricted to the positions without NaN in any of them. Missing:
other numbers of arrays, for which the claim is false (`array_dropna_three`, `array_dropna_one`). -/
theorem array_dropna_two_partial (nan : V → Bool) (N : ℕ) (a b : ℕ → V) :
    DfMetrics.arrayDropna nan N [a, b] = .ok [complete nan N [a, b] a, complete nan N [a, b] b] := by
  have h : (fun r => !(nan (a r) || nan (b r))) = (fun r => [a, b].all (fun c => !nan (c r))) := by
    funext r; simp
  unfold DfMetrics.arrayDropna complete DfMetrics.compress
  simp only [h, List.map_cons, List.map_nil]

/-- with three arrays the NaN of the third one are not looked at -/
theorem array_dropna_three (nan : V → Bool) (N : ℕ) (a b c : ℕ → V) :
    DfMetrics.arrayDropna nan N [a, b, c]
      = .ok [complete nan N [a, b] a, complete nan N [a, b] b, complete nan N [a, b] c] := by
  have h : (fun r => !(nan (a r) || nan (b r))) = (fun r => [a, b].all (fun c => !nan (c r))) := by
    funext r; simp
  unfold DfMetrics.arrayDropna complete DfMetrics.compress
  simp only [h, List.map_cons, List.map_nil]

/-- three arrays are handled correctly exactly if the third one has no NaN at the positions where the first two are complete -/
theorem array_dropna_three_iff (nan : V → Bool) (N : ℕ) (a b c : ℕ → V) :
    DfMetrics.arrayDropna nan N [a, b, c]
        = .ok [complete nan N [a, b, c] a, complete nan N [a, b, c] b, complete nan N [a, b, c] c] ↔
      ∀ r < N, nan (a r) = false → nan (b r) = false → nan (c r) = false := by
  rw [array_dropna_three]
  constructor
  · intro h r hr ha hb
    have h3 : complete nan N [a, b] c = complete nan N [a, b, c] c := by
      have := Except.ok.inj h
      simpa using (List.cons.inj (List.cons.inj (List.cons.inj this).2).2).1
    have hm : c r ∈ complete nan N [a, b] c := by
      unfold complete
      refine List.mem_map.2 ⟨r, List.mem_filter.2 ⟨List.mem_range.2 hr, by simp [ha, hb]⟩, rfl⟩
    rw [h3] at hm
    obtain ⟨r', hr', e⟩ := List.mem_map.1 hm
    have := (List.mem_filter.1 hr').2
    simp at this
    rw [← e]; exact this.2.2
  · intro h
    have hf : (List.range N).filter (fun r => [a, b].all (fun d => !nan (d r)))
        = (List.range N).filter (fun r => [a, b, c].all (fun d => !nan (d r))) := by
      refine List.filter_congr (fun r hr => ?_)
      have := h r (List.mem_range.1 hr)
      cases ha : nan (a r) <;> cases hb : nan (b r) <;> simp [ha, hb]
      exact this ha hb
    unfold complete
    rw [hf]

/-- Negation for C46: with three arrays the result has rows with NaN -/
theorem array_dropna_keeps_nan :
    (DfMetrics.arrayDropna (V := Option ℕ) Option.isNone 2 [fun _ => some 1, fun _ => some 2, fun r => if r = 0 then none else some 3]).toOption
      = some [[some 1, some 1], [some 2, some 2], [none, some 3]] := by
  decide +kernel

/-- Negation for C46: any other number of arrays, also a single one, is a TypeError -/
theorem array_dropna_number (nan : V → Bool) (N : ℕ) (arrs : List (ℕ → V)) (h2 : arrs.length ≠ 2) (h3 : arrs.length ≠ 3) :
    DfMetrics.arrayDropna nan N arrs = .error .typeError := by
  match arrs, h2, h3 with
  | [], _, _ => rfl
  | [_], _, _ => rfl
  | [_, _], h, _ => exact absurd rfl h
  | [_, _, _], _, h => exact absurd rfl h
  | _ :: _ :: _ :: _ :: _, _, _ => rfl

example : ([fun _ => (none : Option ℕ)] : List (ℕ → Option ℕ)).length ≠ 2 := by decide

end

/-! ### ensure_iterable -/

/-- the elements of the result when it is iterated over, `none` if it cannot be (`Sum.inl` an object that was wrapped) -/
def elements {α : Type} : Iter α → Option (List (Obj α ⊕ α))
  | .single el => some [.inl el]
  | .same (.seq l) => some (l.map .inr)
  | .same _ => none

/-- C60, proved for strings, numbers and non-empty sequences: a string or a number is put into a list, a sequence is iterated over as
it is. Missing: empty sequences and dictionaries, for which the claim is false (`ensure_iterable_empty`, `ensure_iterable_dict`). -/
theorem ensure_iterable_partial {α : Type} :
    (∀ s : List Char, (ensureIterable (α := α) (.str s)).map elements = .ok (some [.inl (.str s)])) ∧
    (∀ a : α, (ensureIterable (.scalar a)).map elements = .ok (some [.inl (.scalar a)])) ∧
    (∀ l : List α, l ≠ [] → (ensureIterable (.seq l)).map elements = .ok (some (l.map .inr))) := by
  refine ⟨fun s => rfl, fun a => rfl, fun l hl => ?_⟩
  cases l with
  | nil => exact absurd rfl hl
  | cons x l => rfl

/-- Negation for C60: an empty list becomes a list with one element, the empty list -/
theorem ensure_iterable_empty {α : Type} :
    (ensureIterable (α := α) (.seq [])).map elements = .ok (some [.inl (.seq [])]) := rfl

/-- Negation for C60: a dictionary without the key 0 raises a KeyError -/
theorem ensure_iterable_dict {α : Type} (a : α) : ensureIterable (.dict false a) = .error .keyError := rfl

example := array_dropna_two_partial Option.isNone 3 (fun r => if r = 0 then none else some r) (fun r => if r = 2 then none else some (r + 1))
/-- every row with values in the first two arrays has one in the third -/
example := (array_dropna_three_iff Option.isNone 3 (fun r => if r = 0 then none else some r) (fun r => if r = 2 then none else some (r + 1))
  (fun r => if r = 2 then none else some r)).mpr (by decide)

end Verif.Utils
