import Verif.Resample.Model
import Verif.Resample.Spec
import Verif.Common.Sorted
import Mathlib.Tactic.Ring

set_option linter.unusedSectionVars false

namespace Verif.Resample

variable {K : Type*} [Field K] [LinearOrder K] [IsStrictOrderedRing K]

theorem advLower_eq (b : K) : ∀ (ts : List K), ts.Pairwise (· ≤ ·) → ∀ j,
    advLower b ts j = j + ts.countP (fun x => decide (x < b))
  | [], _, j => by simp [advLower]
  | t :: ts, h, j => by
    unfold advLower
    have hd := downClosed_lt h b
    split
    · rename_i hb
      rw [countP_eq_zero_of_head_false hd (by simpa using hb)]; rfl
    · rename_i hb
      rw [advLower_eq b ts (List.pairwise_cons.1 h).2, List.countP_cons_of_pos (by simpa using hb)]
      omega

theorem advUpper_eq (b : K) : ∀ (ts : List K), ts.Pairwise (· ≤ ·) → (∃ t ∈ ts, b < t) →
    ∀ j u, advUpper b ts j u = j + ts.countP (fun x => decide (x ≤ b)) - 1
  | [], _, hex, j, u => by simp at hex
  | t :: ts, h, hex, j, u => by
    unfold advUpper
    have hd := downClosed_le h b
    split
    · rename_i hb
      rw [countP_eq_zero_of_head_false hd (by simpa using hb)]; simp
    · rename_i hb
      have hex' : ∃ t ∈ ts, b < t := by
        obtain ⟨x, hx, hbx⟩ := hex
        rcases List.mem_cons.1 hx with rfl | hx
        · exact absurd hbx hb
        · exact ⟨x, hx, hbx⟩
      rw [advUpper_eq b ts (List.pairwise_cons.1 h).2 hex',
        List.countP_cons_of_pos (by simpa using hb)]
      push_cast; ring

/-- Skipping at most `countP` leading elements removes exactly that many from the count. -/
theorem countP_drop {α : Type*} {p : α → Bool} {l : List α} (h : DownClosed p l) {k : Nat}
    (hk : k ≤ l.countP p) : k + (l.drop k).countP p = l.countP p := by
  induction k generalizing l with
  | zero => simp
  | succ k ih =>
    cases l with
    | nil => simp at hk
    | cons a l =>
      cases ha : p a with
      | false => rw [countP_eq_zero_of_head_false h ha] at hk; omega
      | true =>
        rw [List.countP_cons_of_pos ha] at hk ⊢
        rw [List.drop_succ_cons]
        have := ih h.tail (by omega)
        omega

theorem nanmean_eq_windowMean (l : List (K × Option K)) (w t : K)
    (l' : List (Option K)) (h : l' = (l.filter (fun o => |o.1 - t| ≤ w / 2)).map Prod.snd) :
    nanmean l' = windowMean l w t := by
  subst h
  unfold nanmean windowMean windowValues
  simp only [List.filterMap_map, Function.comp_def, id]
  have hfun : (fun x : K × Option K => x.2) = Prod.snd := rfl
  rw [hfun]
  cases (List.filterMap Prod.snd (List.filter (fun o => decide (|o.1 - t| ≤ w / 2)) l)) with
  | nil => simp
  | cons a l => simp

theorem last_max {l : List K} (h : l.Pairwise (· ≤ ·)) {last : K} (hl : l.getLast? = some last) :
    ∀ x ∈ l, x ≤ last := by
  induction l with
  | nil => simp
  | cons a l ih =>
    intro x hx
    cases l with
    | nil => simp at hl hx; subst hl; subst hx; exact le_refl _
    | cons b l =>
      rw [List.getLast?_cons_cons] at hl
      have ih' := ih (List.pairwise_cons.1 h).2 hl
      rcases List.mem_cons.1 hx with rfl | hx
      · exact (List.pairwise_cons.1 h).1 _ (List.mem_of_getLast? hl)
      · exact ih' x hx

/-- Both cursors after a step are the counts for the current target. -/
theorem step_cursors {times : List K} {values : List (Option K)} {half last : K}
    (hs : times.Pairwise (· ≤ ·)) (hl : times.getLast? = some last)
    {s : Nat × Int} {target : K}
    (h1 : s.1 ≤ times.countP (fun x => decide (x < target - half)))
    (h2 : (max 0 s.2).toNat ≤ times.countP (fun x => decide (x ≤ target + half))) :
    (step times values half last s target).1 =
      (times.countP (fun x => decide (x < target - half)),
       (times.countP (fun x => decide (x ≤ target + half)) : Int) - 1) := by
  unfold step
  have hdrop : ∀ k, (times.drop k).Pairwise (· ≤ ·) := fun k => hs.sublist (List.drop_sublist _ _)
  simp only [Prod.mk.injEq]
  constructor
  · rw [advLower_eq _ _ (hdrop _)]
    exact countP_drop (downClosed_lt hs _) h1
  · split
    · rename_i hlt
      have hmem : last ∈ times.drop (max 0 s.2).toNat := by
        have hlen : (max 0 s.2).toNat < times.length := by
          refine lt_of_le_of_lt h2 ?_
          rcases Nat.lt_or_ge (times.countP (fun x => decide (x ≤ target + half))) times.length with h | h
          · exact h
          · have := List.countP_eq_length.1 (le_antisymm List.countP_le_length h) last (List.mem_of_getLast? hl)
            simp at this; exact absurd hlt (not_lt.2 this)
        apply List.mem_of_getLast?
        rw [List.getLast?_drop, if_neg (by omega), hl]
      rw [advUpper_eq _ _ (hdrop _) ⟨last, hmem, hlt⟩]
      have := countP_drop (downClosed_le hs (target + half)) h2
      have h3 : max 0 s.2 = ((max 0 s.2).toNat : Int) := by omega
      omega
    · rename_i hge
      have : times.countP (fun x => decide (x ≤ target + half)) = times.length := by
        rw [List.countP_eq_length]
        intro x hx
        have := last_max hs hl x hx
        simpa using le_trans this (not_lt.1 hge)
      omega

/-- The output of a step is the specified mean. -/
theorem step_out {times : List K} {values : List (Option K)} {w last : K}
    (hs : times.Pairwise (· ≤ ·)) (hlen : times.length = values.length)
    (hl : times.getLast? = some last) {s : Nat × Int} {target : K}
    (h1 : s.1 ≤ times.countP (fun x => decide (x < target - w / 2)))
    (h2 : (max 0 s.2).toNat ≤ times.countP (fun x => decide (x ≤ target + w / 2))) :
    (step times values (w / 2) last s target).2 = windowMean (times.zip values) w target := by
  have hc := step_cursors (values := values) hs hl h1 h2
  set obs := times.zip values with hobs
  have ht : times = obs.map Prod.fst := by
    rw [hobs, List.map_fst_zip (by omega)]
  have hv : values = obs.map Prod.snd := by
    rw [hobs, List.map_snd_zip (by omega)]
  have hsO : obs.Pairwise (fun a b => a.1 ≤ b.1) := by
    rw [ht, List.pairwise_map] at hs; exact hs
  set p : K × Option K → Bool := fun o => decide (o.1 < target - w / 2)
  set q : K × Option K → Bool := fun o => decide (o.1 ≤ target + w / 2)
  have hp : DownClosed p obs := hsO.imp (fun {x y} hxy => by
    simpa [p] using fun hy => lt_of_le_of_lt hxy hy)
  have hq : DownClosed q obs := hsO.imp (fun {x y} hxy => by
    simpa [q] using fun hy => le_trans hxy hy)
  have hcp : times.countP (fun x => decide (x < target - w / 2)) = obs.countP p := by
    rw [ht, List.countP_map]; rfl
  have hcq : times.countP (fun x => decide (x ≤ target + w / 2)) = obs.countP q := by
    rw [ht, List.countP_map]; rfl
  -- the slice of the code
  have hslice : ∀ (lo up : Nat), (values.drop lo).take (up - lo) = ((obs.take up).drop lo).map Prod.snd := by
    intro lo up
    rw [hv, List.drop_take, List.map_take, List.map_drop]
  have hfil : (obs.take (obs.countP q)).drop (obs.countP p) =
      obs.filter (fun o => |o.1 - target| ≤ w / 2) := by
    rw [List.drop_take, drop_countP hp]
    have hq' : DownClosed q (obs.filter (fun x => !p x)) := List.Pairwise.sublist List.filter_sublist hq
    rcases le_or_gt (target - w / 2) (target + w / 2) with hle | hgt
    · have hcount : obs.countP q - obs.countP p = (obs.filter (fun x => !p x)).countP q := by
        rw [List.countP_filter]
        have : obs.countP q = obs.countP (fun a => q a && !p a) + obs.countP p := by
          clear hsO hp hq hcp hcq hslice hq' hc h1 h2 hs ht hv hl hlen hobs
          induction obs with
          | nil => simp
          | cons a l ih =>
            have hpq : p a = true → q a = true := by
              intro h; simp [p, q] at *; linarith
            simp only [List.countP_cons, ih]
            cases hpa : p a <;> cases hqa : q a <;> simp_all <;> omega
        omega
      rw [hcount, take_countP hq', List.filter_filter]
      apply List.filter_congr
      intro o _
      simp only [p, q, abs_le]
      rw [Bool.eq_iff_iff]
      simp
      constructor
      · rintro ⟨h1, h2⟩; constructor <;> linarith
      · rintro ⟨h1, h2⟩; constructor <;> linarith
    · have hempty : obs.filter (fun o => |o.1 - target| ≤ w / 2) = [] := by
        rw [List.filter_eq_nil_iff]
        intro o _
        simp only [decide_eq_true_eq, not_le]
        have := abs_nonneg (o.1 - target)
        linarith
      rw [hempty]
      have : obs.countP q ≤ obs.countP p := List.countP_mono_left (by
        intro x _ hx; simp [p, q] at *; linarith)
      rw [Nat.sub_eq_zero_of_le this, List.take_zero]
  have hout : (step times values (w / 2) last s target).2 =
      (if max ((step times values (w / 2) last s target).1.2 -
          ((step times values (w / 2) last s target).1.1 : Int) + 1) 0 = 0 then none
       else nanmean ((values.drop (step times values (w / 2) last s target).1.1).take
         ((step times values (w / 2) last s target).1.2 + 1 -
          ((step times values (w / 2) last s target).1.1 : Int)).toNat)) := rfl
  rw [hout, hc, hcp, hcq]
  have htn : ((obs.countP q : Int) - 1 + 1 - (obs.countP p : Int)).toNat = obs.countP q - obs.countP p := by
    omega
  simp only [htn, hslice]
  rw [hfil]
  split
  · rename_i h0
    have hnil : obs.filter (fun o => |o.1 - target| ≤ w / 2) = [] := by
      rw [← hfil, List.drop_take]
      have : obs.countP q - obs.countP p = 0 := by omega
      rw [this]; simp
    simp [windowMean, windowValues, hnil]
  · exact nanmean_eq_windowMean _ _ _ _ rfl

/-- For sorted targets every output is the specified mean. -/
theorem loop_eq {times : List K} {values : List (Option K)} {w last : K}
    (hs : times.Pairwise (· ≤ ·)) (hlen : times.length = values.length)
    (hl : times.getLast? = some last) : ∀ (targets : List K), targets.Pairwise (· ≤ ·) →
    ∀ s : Nat × Int,
    (∀ t ∈ targets, s.1 ≤ times.countP (fun x => decide (x < t - w / 2)) ∧
      (max 0 s.2).toNat ≤ times.countP (fun x => decide (x ≤ t + w / 2))) →
    loop times values (w / 2) last s targets = targets.map (windowMean (times.zip values) w)
  | [], _, _, _ => rfl
  | t :: rest, hso, s, hinv => by
    unfold loop
    have ht := hinv t (by simp)
    simp only [List.map_cons]
    rw [step_out hs hlen hl ht.1 ht.2]
    congr 1
    apply loop_eq hs hlen hl rest (List.pairwise_cons.1 hso).2
    intro t' ht'
    have hle : t ≤ t' := (List.pairwise_cons.1 hso).1 t' ht'
    rw [step_cursors hs hl ht.1 ht.2]
    constructor
    · apply List.countP_mono_left
      intro x _ hx
      simp at *; linarith
    · have : times.countP (fun x => decide (x ≤ t + w / 2)) ≤ times.countP (fun x => decide (x ≤ t' + w / 2)) := by
        apply List.countP_mono_left
        intro x _ hx
        simp at *; linarith
      simp only
      omega

end Verif.Resample
