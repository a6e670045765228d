import Verif.Utils.Lemmas
import Mathlib.Tactic.NormNum

/-! One replacement of `interp_uniq` for an array in ascending order. -/

namespace Verif.Utils
set_option linter.unusedSectionVars false

section
variable {K : Type} [Field K] [LinearOrder K] [IsStrictOrderedRing K]

theorem getD_range' (a k i : ℕ) (h : i < k) : (List.range' a k).getD i 0 = a + i := by
  simp [List.getD, h]

theorem set_mid (A B : List K) (x y : K) (n : ℕ) (h : n = A.length) : (A ++ x :: B).set n y = A ++ y :: B := by
  subst h; simp

theorem getD_mid (A B : List K) (x : K) (n : ℕ) (h : n = A.length) : (A ++ x :: B).getD n 0 = x := by
  subst h; simp [List.getD]

theorem rep_cons (k : ℕ) (v : K) (B : List K) :
    List.replicate (k + 1) v ++ B = List.replicate k v ++ v :: B := by
  rw [List.replicate_succ', List.append_assoc]; rfl

theorem update_start (k : ℕ) (v b : K) (B : List K) :
    update id (List.replicate (k + 2) v ++ b :: B) (List.range' 0 (k + 2))
      = List.replicate (k + 1) v ++ (v + b) / 2 :: b :: B := by
  unfold update
  have e0 := getD_range' 0 (k + 2) 0 (by omega)
  have e1 : (List.range' 0 (k + 2)).getD (k + 1) 0 = k + 1 := by rw [getD_range' _ _ _ (by omega)]; omega
  have e2 : (List.range' 0 (k + 2)).getD k 0 = k := by rw [getD_range' _ _ _ (by omega)]; omega
  rw [List.length_range', if_pos (by omega)]
  simp only [Nat.add_sub_cancel, Nat.add_succ_sub_one]
  rw [e0, e1, e2, if_pos ⟨by omega, by simp; omega⟩]
  have h1 : (List.replicate (k + 2) v ++ b :: B).getD k 0 = v := by
    rw [rep_cons (k + 1) v (b :: B), rep_cons k v]
    exact getD_mid _ _ _ _ (by simp)
  have h2 : (List.replicate (k + 2) v ++ b :: B).getD (k + 1 + 1) 0 = b := getD_mid _ _ _ _ (by simp)
  rw [h1, h2, rep_cons (k + 1) v (b :: B), set_mid _ _ _ _ _ (by simp)]
  rfl

theorem update_end (A : List K) (a v : K) (k : ℕ) :
    update id (A ++ a :: List.replicate (k + 2) v) (List.range' (A.length + 1) (k + 2))
      = A ++ a :: (v + a) / 2 :: List.replicate (k + 1) v := by
  unfold update
  have e0 := getD_range' (A.length + 1) (k + 2) 0 (by omega)
  have e1 : (List.range' (A.length + 1) (k + 2)).getD (k + 1) 0 = A.length + 1 + k + 1 := by
    rw [getD_range' _ _ _ (by omega)]; omega
  have e3 := getD_range' (A.length + 1) (k + 2) 1 (by omega)
  rw [List.length_range', if_pos (by omega)]
  simp only [Nat.add_succ_sub_one]
  rw [e0, e1, e3, if_neg (by omega), if_pos (by simp; omega)]
  have h1 : (A ++ a :: List.replicate (k + 2) v).getD (A.length + 1 + 1) 0 = v := by
    rw [show A ++ a :: List.replicate (k + 2) v = (A ++ [a, v]) ++ v :: List.replicate k v by
      simp [List.replicate_succ]]
    exact getD_mid _ _ _ _ (by simp)
  have h2 : before (A ++ a :: List.replicate (k + 2) v) (A.length + 1 + 0) = a := by
    unfold before
    rw [if_neg (by omega)]
    exact getD_mid _ _ _ _ (by omega)
  rw [h1, h2]
  rw [show A ++ a :: List.replicate (k + 2) v = (A ++ [a]) ++ v :: List.replicate (k + 1) v by
      simp [List.replicate_succ]]
  rw [set_mid _ _ _ _ _ (by simp)]
  simp

theorem update_middle (A : List K) (a v b : K) (k : ℕ) (B : List K) :
    update id (A ++ a :: (List.replicate (k + 2) v ++ b :: B)) (List.range' (A.length + 1) (k + 2))
      = A ++ a :: (v + a) / 2 :: ((v + a) / 2 + (List.replicate k v ++ b :: B).headD 0) / 2 ::
          (List.replicate k v ++ b :: B) := by
  unfold update
  have e0 := getD_range' (A.length + 1) (k + 2) 0 (by omega)
  have e1 : (List.range' (A.length + 1) (k + 2)).getD (k + 1) 0 = A.length + 1 + k + 1 := by
    rw [getD_range' _ _ _ (by omega)]; omega
  have e3 := getD_range' (A.length + 1) (k + 2) 1 (by omega)
  rw [List.length_range', if_pos (by omega)]
  simp only [Nat.add_succ_sub_one]
  rw [e0, e1, e3, if_neg (by omega), if_neg (by simp; omega)]
  obtain ⟨c, C, hC⟩ : ∃ c C, List.replicate k v ++ b :: B = c :: C := by
    cases k with
    | zero => exact ⟨b, B, by simp⟩
    | succ k => exact ⟨v, List.replicate k v ++ b :: B, by simp [List.replicate_succ]⟩
  have hsrc : A ++ a :: (List.replicate (k + 2) v ++ b :: B) = (A ++ [a]) ++ v :: (v :: c :: C) := by
    rw [← hC]; simp [List.replicate_succ]
  have h1 : (A ++ a :: (List.replicate (k + 2) v ++ b :: B)).getD (A.length + 1 + 1) 0 = v := by
    rw [hsrc, show (A ++ [a]) ++ v :: (v :: c :: C) = (A ++ [a, v]) ++ v :: c :: C by simp]
    exact getD_mid _ _ _ _ (by simp)
  have h2 : before (A ++ a :: (List.replicate (k + 2) v ++ b :: B)) (A.length + 1 + 0) = a := by
    unfold before
    rw [if_neg (by omega)]
    exact getD_mid _ _ _ _ (by omega)
  rw [h1, h2, hC, hsrc, set_mid _ _ _ _ _ (by simp)]
  simp only [id]
  rw [getD_mid (A ++ [a]) _ _ _ (by simp)]
  rw [show (A ++ [a]) ++ (v + a) / 2 :: v :: c :: C = (A ++ [a, (v + a) / 2, v]) ++ c :: C by simp]
  rw [getD_mid _ _ _ _ (by simp)]
  rw [show (A ++ [a, (v + a) / 2, v]) ++ c :: C = (A ++ [a, (v + a) / 2]) ++ v :: c :: C by simp]
  rw [set_mid _ _ _ _ _ (by simp)]
  simp

theorem asc_append {A B : List K} (hA : Asc A) (hB : Asc B) (h : ∀ a ∈ A, ∀ b ∈ B, a ≤ b) : Asc (A ++ B) :=
  List.pairwise_append.2 ⟨hA, hB, h⟩

theorem asc_replicate (k : ℕ) (v : K) : Asc (List.replicate k v) := by
  unfold Asc; rw [List.pairwise_replicate]; right; exact le_refl v

theorem count_rep (k : ℕ) (v x : K) (hx : x ∈ List.replicate (k + 2) v) : 2 ≤ (List.replicate (k + 2) v).count x := by
  rw [List.mem_replicate] at hx
  rw [hx.2, List.count_replicate_self]; omega

/-- a replacement keeps the order, the first and the last entry, and gives more different values -/
theorem update_ok {l : List K} (hl : Asc l) (v : K) (hv : 2 ≤ l.count v) (hne : ∃ w ∈ l, w ≠ v) :
    Step l (update id l (positions l v)) ∧ l.toFinset.card < (update id l (positions l v)).toFinset.card := by
  have hmem : v ∈ l := List.count_pos_iff.1 (by omega)
  obtain ⟨A, B, k, rfl, hA, hB, aA, aB⟩ := asc_split hl v hmem
  have hvA : v ∉ A := fun h => lt_irrefl _ (hA v h)
  have hvB : v ∉ B := fun h => lt_irrefl _ (hB v h)
  rw [positions_blocks A B (k + 1) v hvA hvB]
  simp only [List.count_append, List.count_replicate_self, List.count_eq_zero.2 hvA, List.count_eq_zero.2 hvB] at hv
  obtain ⟨k, rfl⟩ : ∃ j, k = j + 1 := ⟨k - 1, by omega⟩
  rcases List.eq_nil_or_concat A with rfl | ⟨A, a, rfl⟩
  · cases B with
    | nil =>
      obtain ⟨w, hw, hwv⟩ := hne
      simp only [List.nil_append, List.append_nil, List.mem_replicate] at hw
      exact absurd hw.2 hwv
    | cons b B =>
      have hvb : v < b := hB b (by simp)
      have hbB : ∀ x ∈ B, b ≤ x := (List.pairwise_cons.1 aB).1
      simp only [List.nil_append, List.length_nil]
      rw [update_start]
      have hm1 : v < (v + b) / 2 := by linarith
      have hm2 : (v + b) / 2 < b := by linarith
      constructor
      · have hx : List.replicate (k + 1) v ++ (v + b) / 2 :: b :: B
            = [] ++ (List.replicate (k + 1) v ++ [(v + b) / 2]) ++ (b :: B) := by simp
        rw [hx]
        refine step_middle (A := []) (M := List.replicate (k + 2) v) (by simp) (count_rep k v) ?_ (by simp) ?_
          (by simp [List.replicate_succ]) (by simp [List.getLast?_append, List.getLast?_cons])
        · refine asc_append (asc_append List.Pairwise.nil (asc_append (asc_replicate _ _) (List.pairwise_singleton _ _) ?_)
            (by simp)) aB ?_
          · intro x hx y hy
            rw [List.mem_replicate] at hx
            rw [List.mem_singleton] at hy
            rw [hx.2, hy]; exact hm1.le
          · intro x hx y hy
            have hy' : b ≤ y := by
              rcases List.mem_cons.1 hy with rfl | hy
              · exact le_refl _
              · exact hbB y hy
            simp only [List.nil_append, List.mem_append, List.mem_replicate, List.mem_singleton] at hx
            rcases hx with hx | hx
            · rw [hx.2]; linarith
            · rw [hx]; linarith
        · intro x hx h
          have hx' : b ≤ x := by
            rcases List.mem_cons.1 hx with rfl | hx
            · exact le_refl _
            · exact hbB x hx
          simp only [List.mem_append, List.mem_replicate, List.mem_singleton] at h
          rcases h with h | h
          · rw [h.2] at hx'; linarith
          · rw [h] at hx'; linarith
      · rw [card_append (A := List.replicate (k + 1 + 1) v) (B := b :: B) (by
            intro x hx y hy; rw [List.mem_replicate] at hx; rw [hx.2]; exact hB y hy), card_replicate]
        rw [card_append (A := List.replicate (k + 1) v) (B := (v + b) / 2 :: b :: B) (by
            intro x hx y hy; rw [List.mem_replicate] at hx; rw [hx.2]
            rcases List.mem_cons.1 hy with rfl | hy
            · exact hm1
            · exact hB y hy), card_replicate]
        rw [show (v + b) / 2 :: b :: B = [(v + b) / 2] ++ b :: B from rfl, card_append (A := [(v + b) / 2]) (B := b :: B) (by
            intro x hx y hy
            rw [List.mem_singleton] at hx
            rw [hx]
            rcases List.mem_cons.1 hy with rfl | hy
            · exact hm2
            · exact lt_of_lt_of_le hm2 (hbB y hy))]
        simp
  · have hav : a < v := hA a (by simp)
    rw [List.concat_eq_append] at *
    have hAa : ∀ x ∈ A, x ≤ a := fun x hx => (List.pairwise_append.1 aA).2.2 x hx a (by simp)
    have hm1 : a < (v + a) / 2 := by linarith
    have hm2 : (v + a) / 2 < v := by linarith
    cases B with
    | nil =>
      simp only [List.append_nil, List.length_append, List.length_singleton, List.append_assoc, List.singleton_append]
      rw [update_end]
      constructor
      · have hx : A ++ a :: (v + a) / 2 :: List.replicate (k + 1) v
            = (A ++ [a]) ++ ((v + a) / 2 :: List.replicate (k + 1) v) ++ [] := by simp
        have hx' : A ++ a :: List.replicate (k + 1 + 1) v = (A ++ [a]) ++ List.replicate (k + 2) v ++ [] := by simp
        rw [hx, hx']
        refine step_middle (by simp) (count_rep k v) ?_ ?_ (by simp) ?_ ?_
        · rw [List.append_nil]
          refine asc_append aA (List.pairwise_cons.2 ⟨?_, asc_replicate _ _⟩) ?_
          · intro y hy; rw [List.mem_replicate] at hy; rw [hy.2]; exact hm2.le
          · intro x hx y hy
            have hxa : x ≤ a := by
              rcases List.mem_append.1 hx with hx | hx
              · exact hAa x hx
              · rw [List.mem_singleton.1 hx]
            rcases List.mem_cons.1 hy with rfl | hy
            · linarith
            · rw [List.mem_replicate] at hy; rw [hy.2]; linarith
        · intro x hx h
          have hxa : x ≤ a := by
              rcases List.mem_append.1 hx with hx | hx
              · exact hAa x hx
              · rw [List.mem_singleton.1 hx]
          rcases List.mem_cons.1 h with rfl | h
          · linarith
          · rw [List.mem_replicate] at h; rw [h.2] at hxa; linarith
        · cases A <;> simp
        · simp [List.getLast?_append, List.getLast?_replicate, List.getLast?_cons]
      · rw [show A ++ a :: List.replicate (k + 1 + 1) v = (A ++ [a]) ++ List.replicate (k + 1 + 1) v by simp,
          card_append (A := A ++ [a]) (by
            intro x hx y hy; rw [List.mem_replicate] at hy; rw [hy.2]; exact hA x hx), card_replicate]
        rw [show A ++ a :: (v + a) / 2 :: List.replicate (k + 1) v
              = (A ++ [a]) ++ ([(v + a) / 2] ++ List.replicate (k + 1) v) by simp,
          card_append (A := A ++ [a]) (by
            intro x hx y hy
            have hxa : x ≤ a := by
              rcases List.mem_append.1 hx with hx | hx
              · exact hAa x hx
              · rw [List.mem_singleton.1 hx]
            rcases List.mem_append.1 hy with hy | hy
            · rw [List.mem_singleton.1 hy]; linarith
            · rw [List.mem_replicate] at hy; rw [hy.2]; linarith),
          card_append (A := [(v + a) / 2]) (by
            intro x hx y hy
            rw [List.mem_replicate] at hy; rw [hy.2, List.mem_singleton.1 hx]; exact hm2), card_replicate]
        simp
    | cons b B =>
      have hvb : v < b := hB b (by simp)
      have hbB : ∀ x ∈ B, b ≤ x := (List.pairwise_cons.1 aB).1
      have hbB' : ∀ x ∈ b :: B, b ≤ x := fun x hx => by
        rcases List.mem_cons.1 hx with rfl | hx
        · exact le_refl _
        · exact hbB x hx
      have hAa' : ∀ x ∈ A ++ [a], x ≤ a := fun x hx => by
        rcases List.mem_append.1 hx with hx | hx
        · exact hAa x hx
        · rw [List.mem_singleton.1 hx]
      simp only [List.length_append, List.length_singleton, List.append_assoc, List.cons_append, List.nil_append]
      rw [update_middle]
      obtain ⟨c, hc, hvc, hcb⟩ : ∃ c, (List.replicate k v ++ b :: B).headD 0 = c ∧ v ≤ c ∧
          ((k = 0 ∧ c = b) ∨ (0 < k ∧ c = v)) := by
        cases k with
        | zero => exact ⟨b, by simp, hvb.le, Or.inl ⟨rfl, rfl⟩⟩
        | succ k => exact ⟨v, by simp [List.replicate_succ], le_refl _, Or.inr ⟨by omega, rfl⟩⟩
      rw [hc]
      generalize hm : (v + a) / 2 = m at *
      generalize hn : (m + c) / 2 = n
      have hmn : m < n := by linarith
      have hnc : n < c := by linarith
      have hcb' : c ≤ b := by rcases hcb with h | h <;> rw [h.2]; exact hvb.le
      have hnk : ∀ y ∈ List.replicate k v, n < y := by
        intro y hy
        rw [List.mem_replicate] at hy
        rcases hcb with h | h
        · exact absurd h.1 hy.1
        · rw [hy.2, ← h.2]; exact hnc
      have e1 : A ++ a :: (List.replicate (k + 1 + 1) v ++ b :: B) = (A ++ [a]) ++ List.replicate (k + 2) v ++ (b :: B) := by simp
      have e2 : A ++ a :: m :: n :: (List.replicate k v ++ b :: B)
          = (A ++ [a]) ++ ([m] ++ ([n] ++ List.replicate k v)) ++ (b :: B) := by simp
      rw [e1, e2]
      have hMb : ∀ x ∈ [m] ++ ([n] ++ List.replicate k v), x < b := by
        intro x hx
        simp only [List.mem_append, List.mem_singleton] at hx
        rcases hx with rfl | rfl | hx
        · linarith
        · linarith
        · rw [List.mem_replicate] at hx; rw [hx.2]; exact hvb
      have haM : ∀ x ∈ [m] ++ ([n] ++ List.replicate k v), a < x := by
        intro x hx
        simp only [List.mem_append, List.mem_singleton] at hx
        rcases hx with rfl | rfl | hx
        · linarith
        · linarith
        · rw [List.mem_replicate] at hx; rw [hx.2]; exact hav
      have hab1 : ∀ x ∈ (A ++ [a]) ++ ([m] ++ ([n] ++ List.replicate k v)), ∀ y ∈ b :: B, x < y := by
        intro x hx y hy
        rcases List.mem_append.1 hx with hx | hx
        · linarith [hAa' x hx, hbB' y hy]
        · linarith [hMb x hx, hbB' y hy]
      have hab2 : ∀ x ∈ A ++ [a], ∀ y ∈ [m] ++ ([n] ++ List.replicate k v), x < y := by
        intro x hx y hy
        linarith [hAa' x hx, haM y hy]
      have hab3 : ∀ x ∈ [m], ∀ y ∈ [n] ++ List.replicate k v, x < y := by
        intro x hx y hy
        rw [List.mem_singleton.1 hx]
        rcases List.mem_append.1 hy with hy | hy
        · rw [List.mem_singleton.1 hy]; exact hmn
        · exact hmn.trans (hnk y hy)
      have hab4 : ∀ x ∈ [n], ∀ y ∈ List.replicate k v, x < y := by
        intro x hx y hy
        rw [List.mem_singleton.1 hx]; exact hnk y hy
      constructor
      · refine step_middle (by simp) (count_rep k v) ?_ ?_ ?_ (by cases A <;> simp) (by
          simp [List.getLast?_append, List.getLast?_cons])
        · refine asc_append (asc_append aA (asc_append (List.pairwise_singleton _ _) (asc_append (List.pairwise_singleton _ _)
            (asc_replicate _ _) ?_) ?_) ?_) aB ?_
          · exact fun x hx y hy => (hab4 x hx y hy).le
          · exact fun x hx y hy => (hab3 x hx y hy).le
          · exact fun x hx y hy => (hab2 x hx y hy).le
          · exact fun x hx y hy => (hab1 x hx y hy).le
        · exact fun x hx h => lt_irrefl _ (hab2 x hx x h)
        · exact fun x hx h => lt_irrefl _ (hab1 x (by simp only [List.mem_append]; right; simpa using h) x hx)
      · rw [card_append hab1, card_append hab2, card_append hab3, card_append hab4]
        rw [card_append (A := (A ++ [a]) ++ List.replicate (k + 2) v) (by
            intro x hx y hy
            rcases List.mem_append.1 hx with hx | hx
            · linarith [hAa' x hx, hbB' y hy]
            · rw [List.mem_replicate] at hx; rw [hx.2]; exact hB y hy),
          card_append (A := A ++ [a]) (B := List.replicate (k + 2) v) (by
            intro x hx y hy
            rw [List.mem_replicate] at hy; rw [hy.2]; exact hA x hx), card_replicate]
        simp

end
end Verif.Utils
