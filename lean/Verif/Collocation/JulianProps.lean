import Verif.Collocation.Julian
import Verif.Resample.Lemmas
import Verif.Rounding.MetricsProps
import Verif.Rounding.FiltersProps
import Verif.Results.TimesProps

/-! C109: the window of `temporal_collocation(method="mean")` in the arithmetic of the machine. -/

namespace Verif.Collocation.Julian

open Verif.Resample (advLower advUpper Err advLower_eq advUpper_eq countP_drop last_max)
open Verif.Rounding Verif.Rolling.Fl
open Verif.Results.Times (rnd64_int)

/-! ## The two cursors -/

section
variable {rnd : ℚ → ℚ} {times : List ℚ} {values : List (Option ℚ)} {half last : ℚ}

theorem step_cursors (hs : times.Pairwise (· ≤ ·)) (hl : times.getLast? = some last) {s : ℕ × ℤ} {target : ℚ}
    (h1 : s.1 ≤ times.countP (fun x => decide (x < rnd (target - half))))
    (h2 : (max 0 s.2).toNat ≤ times.countP (fun x => decide (x ≤ rnd (target + half)))) :
    (step rnd times values half last s target).1 =
      (times.countP (fun x => decide (x < rnd (target - half))), (times.countP (fun x => decide (x ≤ rnd (target + half))) : ℤ) - 1) := by
  unfold step
  have hdrop : ∀ k, (times.drop k).Pairwise (· ≤ ·) := fun k => hs.sublist (List.drop_sublist _ _)
  simp only [Prod.mk.injEq]
  constructor
  · rw [advLower_eq _ _ (hdrop _)]
    exact countP_drop (downClosed_lt hs _) h1
  · split
    · rename_i hlt
      have hmem : last ∈ times.drop (max 0 s.2).toNat := by
        have hlen : (max 0 s.2).toNat < times.length := by
          refine lt_of_le_of_lt h2 ?_
          rcases Nat.lt_or_ge (times.countP (fun x => decide (x ≤ rnd (target + half)))) times.length with h | h
          · exact h
          · have := List.countP_eq_length.1 (le_antisymm List.countP_le_length h) last (List.mem_of_getLast? hl)
            simp at this; exact absurd hlt (not_lt.2 this)
        apply List.mem_of_getLast?
        rw [List.getLast?_drop, if_neg (by omega), hl]
      rw [advUpper_eq _ _ (hdrop _) ⟨last, hmem, hlt⟩]
      have := countP_drop (downClosed_le hs (rnd (target + half))) h2
      have h3 : max 0 s.2 = ((max 0 s.2).toNat : ℤ) := by omega
      omega
    · rename_i hge
      have : times.countP (fun x => decide (x ≤ rnd (target + half))) = times.length := by
        rw [List.countP_eq_length]
        intro x hx
        have := last_max hs hl x hx
        simpa using le_trans this (not_lt.1 hge)
      omega

/-- the rows between the two bounds -/
def inside (rnd : ℚ → ℚ) (half target : ℚ) (t : ℚ) : Bool := decide (rnd (target - half) ≤ t ∧ t ≤ rnd (target + half))

theorem step_out (hs : times.Pairwise (· ≤ ·)) (hlen : times.length = values.length) (hl : times.getLast? = some last) {s : ℕ × ℤ} {target : ℚ}
    (h1 : s.1 ≤ times.countP (fun x => decide (x < rnd (target - half))))
    (h2 : (max 0 s.2).toNat ≤ times.countP (fun x => decide (x ≤ rnd (target + half))))
    (hle : rnd (target - half) ≤ rnd (target + half)) :
    (step rnd times values half last s target).2 =
      nanmean rnd (((times.zip values).filter (fun o => inside rnd half target o.1)).map Prod.snd) := by
  have hc := step_cursors (values := values) hs hl h1 h2
  set obs := times.zip values with hobs
  have ht : times = obs.map Prod.fst := by rw [hobs, List.map_fst_zip (by omega)]
  have hv : values = obs.map Prod.snd := by rw [hobs, List.map_snd_zip (by omega)]
  have hsO : obs.Pairwise (fun a b => a.1 ≤ b.1) := by
    rw [ht, List.pairwise_map] at hs; exact hs
  set p : ℚ × Option ℚ → Bool := fun o => decide (o.1 < rnd (target - half))
  set q : ℚ × Option ℚ → Bool := fun o => decide (o.1 ≤ rnd (target + half))
  have hp : DownClosed p obs := hsO.imp (fun {x y} hxy => by simpa [p] using fun hy => lt_of_le_of_lt hxy hy)
  have hq : DownClosed q obs := hsO.imp (fun {x y} hxy => by simpa [q] using fun hy => le_trans hxy hy)
  have hcp : times.countP (fun x => decide (x < rnd (target - half))) = obs.countP p := by rw [ht, List.countP_map]; rfl
  have hcq : times.countP (fun x => decide (x ≤ rnd (target + half))) = obs.countP q := by rw [ht, List.countP_map]; rfl
  have hslice : ∀ (lo up : ℕ), (values.drop lo).take (up - lo) = ((obs.take up).drop lo).map Prod.snd := by
    intro lo up
    rw [hv, List.drop_take, List.map_take, List.map_drop]
  have hfil : (obs.take (obs.countP q)).drop (obs.countP p) = obs.filter (fun o => inside rnd half target o.1) := by
    rw [List.drop_take, drop_countP hp]
    have hq' : DownClosed q (obs.filter (fun x => !p x)) := List.Pairwise.sublist List.filter_sublist hq
    have hcount : obs.countP q - obs.countP p = (obs.filter (fun x => !p x)).countP q := by
      rw [List.countP_filter]
      have : obs.countP q = obs.countP (fun a => q a && !p a) + obs.countP p := by
        clear hsO hp hq hcp hcq hslice hq' hc h1 h2 hs ht hv hl hlen hobs
        induction obs with
        | nil => simp
        | cons a l ih =>
          have hpq : p a = true → q a = true := by
            intro h
            simp only [p, q, decide_eq_true_eq] at *
            linarith
          simp only [List.countP_cons, ih]
          cases hpa : p a <;> cases hqa : q a <;> simp_all <;> omega
      omega
    rw [hcount, take_countP hq', List.filter_filter]
    apply List.filter_congr
    intro o _
    simp only [p, q, inside]
    rw [Bool.eq_iff_iff]
    simp
    tauto
  have hout : (step rnd times values half last s target).2 =
      (if max ((step rnd times values half last s target).1.2 - ((step rnd times values half last s target).1.1 : ℤ) + 1) 0 = 0 then none
       else nanmean rnd ((values.drop (step rnd times values half last s target).1.1).take
         ((step rnd times values half last s target).1.2 + 1 - ((step rnd times values half last s target).1.1 : ℤ)).toNat)) := rfl
  rw [hout, hc, hcp, hcq]
  have htn : ((obs.countP q : ℤ) - 1 + 1 - (obs.countP p : ℤ)).toNat = obs.countP q - obs.countP p := by omega
  simp only [htn, hslice]
  rw [hfil]
  split
  · rename_i h0
    have hnil : obs.filter (fun o => inside rnd half target o.1) = [] := by
      rw [← hfil, List.drop_take]
      have : obs.countP q - obs.countP p = 0 := by omega
      rw [this]; simp
    rw [hnil]
    rfl
  · rfl

theorem loop_eq (hm : ∀ x y, x ≤ y → rnd x ≤ rnd y) (hh : 0 ≤ half) (hs : times.Pairwise (· ≤ ·)) (hlen : times.length = values.length)
    (hl : times.getLast? = some last) : ∀ (targets : List ℚ), targets.Pairwise (· ≤ ·) → ∀ s : ℕ × ℤ,
    (∀ t ∈ targets, s.1 ≤ times.countP (fun x => decide (x < rnd (t - half))) ∧
      (max 0 s.2).toNat ≤ times.countP (fun x => decide (x ≤ rnd (t + half)))) →
    loop rnd times values half last s targets =
      targets.map (fun t => nanmean rnd (((times.zip values).filter (fun o => inside rnd half t o.1)).map Prod.snd))
  | [], _, _, _ => rfl
  | t :: rest, hso, s, hinv => by
    unfold loop
    have ht := hinv t (by simp)
    simp only [List.map_cons]
    rw [step_out hs hlen hl ht.1 ht.2 (hm _ _ (by linarith))]
    congr 1
    apply loop_eq hm hh hs hlen hl rest (List.pairwise_cons.1 hso).2
    intro t' ht'
    have hle : t ≤ t' := (List.pairwise_cons.1 hso).1 t' ht'
    rw [step_cursors hs hl ht.1 ht.2]
    constructor
    · apply List.countP_mono_left
      intro x _ hx
      have := hm (t - half) (t' - half) (by linarith)
      simp only [decide_eq_true_eq] at *
      exact lt_of_lt_of_le hx this
    · have : times.countP (fun x => decide (x ≤ rnd (t + half))) ≤ times.countP (fun x => decide (x ≤ rnd (t' + half))) := by
        apply List.countP_mono_left
        intro x _ hx
        have := hm (t + half) (t' + half) (by linarith)
        simp only [decide_eq_true_eq] at *
        exact hx.trans this
      simp only
      omega

end

/-! ## Julian dates -/

/-- the exact Julian date -/
def exact (t : ℤ) : ℚ := 4881175 / 2 + (t : ℚ) / dayNs

theorem err_le {rnd : ℚ → ℚ} {u : ℚ} (h : RelErr rnd u) {x b : ℚ} (hx : |x| ≤ b) : |rnd x - x| ≤ u * b :=
  (h.err x).trans (mul_le_mul_of_nonneg_left hx h.nonneg)

theorem hours_err {rnd : ℚ → ℚ} (h : RelErr rnd (1 / 2 ^ 53)) (r : ℤ) (h0 : 0 ≤ r) (h1 : r < dayNs) :
    |hours rnd r - (r : ℚ) / 3600000000000| ≤ 120 / 2 ^ 53 := by
  unfold dayNs at h1
  simp only [hours]
  obtain ⟨hh, ehh⟩ : ∃ z : ℤ, z = r / 3600000000000 := ⟨_, rfl⟩
  obtain ⟨m, em⟩ : ∃ z : ℤ, z = r / 60000000000 % 60 := ⟨_, rfl⟩
  obtain ⟨s, es⟩ : ∃ z : ℤ, z = r / 1000000000 % 60 := ⟨_, rfl⟩
  obtain ⟨us, eus⟩ : ∃ z : ℤ, z = r / 1000 % 1000000 := ⟨_, rfl⟩
  obtain ⟨ns, ens⟩ : ∃ z : ℤ, z = r % 1000 := ⟨_, rfl⟩
  rw [← ehh, ← em, ← es, ← eus, ← ens]
  have hr : r = hh * 3600000000000 + m * 60000000000 + s * 1000000000 + us * 1000 + ns := by omega
  have b1 : 0 ≤ hh ∧ hh ≤ 23 := by omega
  have b2 : 0 ≤ m ∧ m ≤ 59 := by omega
  have b3 : 0 ≤ s ∧ s ≤ 59 := by omega
  have b4 : 0 ≤ us ∧ us ≤ 999999 := by omega
  have b5 : 0 ≤ ns ∧ ns ≤ 999 := by omega
  clear ehh em es eus ens
  have hrq : (r : ℚ) = hh * 3600000000000 + m * 60000000000 + s * 1000000000 + us * 1000 + ns := by rw [hr]; push_cast; ring
  have q1 : (0 : ℚ) ≤ hh ∧ (hh : ℚ) ≤ 23 := by exact_mod_cast b1
  have q2 : (0 : ℚ) ≤ m ∧ (m : ℚ) ≤ 59 := by exact_mod_cast b2
  have q3 : (0 : ℚ) ≤ s ∧ (s : ℚ) ≤ 59 := by exact_mod_cast b3
  have q4 : (0 : ℚ) ≤ us ∧ (us : ℚ) ≤ 999999 := by exact_mod_cast b4
  have q5 : (0 : ℚ) ≤ ns ∧ (ns : ℚ) ≤ 999 := by exact_mod_cast b5
  rw [hrq]
  clear hr b1 b2 b3 b4 b5 hrq h0 h1
  obtain ⟨b1, c1⟩ := q1
  obtain ⟨b2, c2⟩ := q2
  obtain ⟨b3, c3⟩ := q3
  obtain ⟨b4, c4⟩ := q4
  obtain ⟨b5, c5⟩ := q5
  have u1 : (1 : ℚ) / 2 ^ 53 < 1 / 10 ^ 15 := by norm_num
  have u0 : (0 : ℚ) < 1 / 2 ^ 53 := by norm_num
  rw [show (120 : ℚ) / 2 ^ 53 = 120 * (1 / 2 ^ 53) by norm_num]
  generalize (1 : ℚ) / 2 ^ 53 = u at *
  have key : ∀ x b : ℚ, -b ≤ x → x ≤ b → -(u * b) ≤ rnd x - x ∧ rnd x - x ≤ u * b := fun x b p q => abs_le.mp (err_le h (abs_le.mpr ⟨p, q⟩))
  have a1 := key ((m : ℚ) / 60) 1 (by linarith) (by linarith)
  generalize rnd ((m : ℚ) / 60) = x1 at *
  have a2 := key ((s : ℚ) / 3600) 1 (by linarith) (by linarith)
  generalize rnd ((s : ℚ) / 3600) = x2 at *
  have a3 := key ((us : ℚ) / 3600) 300 (by linarith) (by linarith)
  generalize rnd ((us : ℚ) / 3600) = x3 at *
  have a4 := key (x3 / 10 ^ 6) 1 (by linarith) (by linarith)
  generalize rnd (x3 / 10 ^ 6) = x4 at *
  have a5 := key ((ns : ℚ) / 3600) 1 (by linarith) (by linarith)
  generalize rnd ((ns : ℚ) / 3600) = x5 at *
  have a6 := key (x5 / 10 ^ 9) 1 (by linarith) (by linarith)
  generalize rnd (x5 / 10 ^ 9) = x6 at *
  have a7 := key (hh + x1) 25 (by linarith) (by linarith)
  generalize rnd (hh + x1) = x7 at *
  have a8 := key (x7 + x2) 25 (by linarith) (by linarith)
  generalize rnd (x7 + x2) = x8 at *
  have a9 := key (x8 + x4) 26 (by linarith) (by linarith)
  generalize rnd (x8 + x4) = x9 at *
  have a10 := key (x9 + x6) 27 (by linarith) (by linarith)
  generalize rnd (x9 + x6) = x10 at *
  rw [abs_le]
  constructor <;> linarith

/-- the sum before the last rounding -/
def julianSum (rnd : ℚ → ℚ) (t : ℤ) : ℚ := 4881175 / 2 + (t / dayNs : ℤ) + rnd (hours rnd (t % dayNs) / 24)

theorem julianSum_err {rnd : ℚ → ℚ} (h : RelErr rnd (1 / 2 ^ 53)) (t : ℤ) : |julianSum rnd t - exact t| ≤ 8 / 2 ^ 53 := by
  have hd : (0 : ℤ) < dayNs := by decide
  have r0 := Int.emod_nonneg t hd.ne'
  have r1 := Int.emod_lt_of_pos t hd
  have e := hours_err h (t % dayNs) r0 r1
  have et : (t : ℚ) = dayNs * (t / dayNs : ℤ) + (t % dayNs : ℤ) := by exact_mod_cast (Int.mul_ediv_add_emod t dayNs).symm
  have q0 : (0 : ℚ) ≤ (t % dayNs : ℤ) := by exact_mod_cast r0
  have q1 : ((t % dayNs : ℤ) : ℚ) ≤ 86400000000000 := by exact_mod_cast r1.le
  unfold julianSum exact
  rw [et, add_div, mul_div_cancel_left₀ _ (by norm_num [dayNs])]
  generalize ((t / dayNs : ℤ) : ℚ) = d
  generalize ((t % dayNs : ℤ) : ℚ) = r at *
  generalize hours rnd (t % dayNs) = x at *
  have dd : (dayNs : ℚ) = 86400000000000 := by norm_num [dayNs]
  rw [dd]
  have u1 : (1 : ℚ) / 2 ^ 53 < 1 / 10 ^ 15 := by norm_num
  have u0 : (0 : ℚ) < 1 / 2 ^ 53 := by norm_num
  rw [show (120 : ℚ) / 2 ^ 53 = 120 * (1 / 2 ^ 53) by norm_num] at e
  rw [show (8 : ℚ) / 2 ^ 53 = 8 * (1 / 2 ^ 53) by norm_num]
  generalize (1 : ℚ) / 2 ^ 53 = u at *
  have e' := abs_le.mp e
  have e2 := abs_le.mp (err_le h (b := 2) (abs_le.mpr ⟨by linarith, by linarith⟩ : |x / 24| ≤ 2))
  generalize rnd (x / 24) = y at *
  rw [abs_le]
  constructor <;> linarith

theorem julian_mono {rnd : ℚ → ℚ} (h : RelErr rnd (1 / 2 ^ 53)) (hm : ∀ x y, x ≤ y → rnd x ≤ rnd y) (t t' : ℤ) (ht : t ≤ t') : julian rnd t ≤ julian rnd t' := by
  rcases eq_or_lt_of_le ht with rfl | hlt
  · exact le_rfl
  refine hm _ _ ?_
  show julianSum rnd t ≤ julianSum rnd t'
  have e1 := abs_le.mp (julianSum_err h t)
  have e2 := abs_le.mp (julianSum_err h t')
  have : exact t + 1 / 86400000000000 ≤ exact t' := by
    unfold exact
    have : (t : ℚ) + 1 ≤ t' := by exact_mod_cast hlt
    have dd : (dayNs : ℚ) = 86400000000000 := by norm_num [dayNs]
    rw [dd]
    linarith
  have : (8 : ℚ) / 2 ^ 53 < 1 / 10 ^ 15 := by norm_num
  linarith

/-- the range of time stamps of pandas (1677 to 2262) -/
def InRange (t : ℤ) : Prop := -2 ^ 63 ≤ t ∧ t < 2 ^ 63

theorem exact_range (t : ℤ) (ht : InRange t) : 2000000 ≤ exact t ∧ exact t ≤ 3000000 := by
  obtain ⟨h1, h2⟩ := ht
  have q1 : -2 ^ 63 ≤ (t : ℚ) := by exact_mod_cast h1
  have q2 : (t : ℚ) ≤ 2 ^ 63 := by exact_mod_cast h2.le
  have dd : (dayNs : ℚ) = 86400000000000 := by norm_num [dayNs]
  unfold exact
  rw [dd]
  constructor <;> linarith

theorem julian_err {rnd : ℚ → ℚ} (h : RelErr rnd (1 / 2 ^ 53)) (t : ℤ) (ht : InRange t) : |julian rnd t - exact t| ≤ 1 / 2 ^ 31 := by
  obtain ⟨r1, r2⟩ := exact_range t ht
  have e1 := abs_le.mp (julianSum_err h t)
  have e8 : (8 : ℚ) / 2 ^ 53 < 1 / 10 ^ 15 := by norm_num
  have e2 := abs_le.mp (err_le h (b := 3000001) (abs_le.mpr ⟨by linarith, by linarith⟩ : |julianSum rnd t| ≤ 3000001))
  have e3 : (1 : ℚ) / 2 ^ 53 * 3000001 + 8 / 2 ^ 53 ≤ 1 / 2 ^ 31 := by norm_num
  have : julian rnd t = rnd (julianSum rnd t) := rfl
  rw [this, abs_le]
  constructor <;> linarith

/-- half of the window as calculated -/
def halfWindow (rnd : ℚ → ℚ) (w : ℤ) : ℚ := rnd (windowDays rnd w / 2)

theorem halfWindow_err {rnd : ℚ → ℚ} (h : RelErr rnd (1 / 2 ^ 53)) (w : ℤ) (hw0 : 0 ≤ w) (hw : w < 2 ^ 63) :
    |halfWindow rnd w - (w : ℚ) / dayNs| ≤ 1 / 2 ^ 32 ∧ (0 : ℚ) ≤ (w : ℚ) / dayNs ∧ (w : ℚ) / dayNs ≤ 200000 := by
  have q1 : (0 : ℚ) ≤ (w : ℚ) := by exact_mod_cast hw0
  have q2 : (w : ℚ) ≤ 2 ^ 63 := by exact_mod_cast hw.le
  have dd : (dayNs : ℚ) = 86400000000000 := by norm_num [dayNs]
  unfold halfWindow windowDays
  push_cast
  rw [dd]
  have e0 := abs_le.mp (err_le h (b := 2 * 2 ^ 63) (abs_le.mpr ⟨by linarith, by linarith⟩ : |2 * (w : ℚ)| ≤ 2 * 2 ^ 63))
  generalize rnd (2 * (w : ℚ)) = y at *
  have e1 := abs_le.mp (err_le h (b := 400000) (abs_le.mpr ⟨by linarith, by linarith⟩ : |y / 86400000000000| ≤ 400000))
  generalize rnd (y / 86400000000000) = x at *
  have e3 : (1 : ℚ) / 2 ^ 53 * 400000 ≤ 1 / 2 ^ 32 / 4 := by norm_num
  have e4 : (1 : ℚ) / 2 ^ 32 ≤ 1 := by norm_num
  have e2 := abs_le.mp (err_le h (b := 400000) (abs_le.mpr ⟨by linarith, by linarith⟩ : |x / 2| ≤ 400000))
  have e6 : (1 : ℚ) / 2 ^ 53 * (2 * 2 ^ 63) / 86400000000000 ≤ 1 / 2 ^ 32 / 4 := by norm_num
  refine ⟨abs_le.mpr ⟨by linarith, by linarith⟩, by linarith, by linarith⟩

/-- observations nearer than the window (minus 0.2 ms) are inside, those inside are nearer than the window (plus 0.2 ms) -/
theorem inside_iff {rnd : ℚ → ℚ} (h : RelErr rnd (1 / 2 ^ 53)) (w : ℤ) (hw0 : 0 ≤ w) (hw : w < 2 ^ 63) (r t : ℤ) (hr : InRange r) (ht : InRange t) :
    (|t - r| + 200000 ≤ w → inside rnd (halfWindow rnd w) (julian rnd r) (julian rnd t) = true) ∧
    (inside rnd (halfWindow rnd w) (julian rnd r) (julian rnd t) = true → |t - r| ≤ w + 200000) := by
  have et := abs_le.mp (julian_err h t ht)
  have er := abs_le.mp (julian_err h r hr)
  obtain ⟨ew, w0, w1⟩ := halfWindow_err h w hw0 hw
  have ew' := abs_le.mp ew
  obtain ⟨r1, r2⟩ := exact_range r hr
  have s1 : (1 : ℚ) / 2 ^ 31 ≤ 1 := by norm_num
  have s2 : (1 : ℚ) / 2 ^ 32 ≤ 1 := by norm_num
  have el := abs_le.mp (err_le h (b := 4000000) (abs_le.mpr ⟨by linarith, by linarith⟩ : |julian rnd r - halfWindow rnd w| ≤ 4000000))
  have eu := abs_le.mp (err_le h (b := 4000000) (abs_le.mpr ⟨by linarith, by linarith⟩ : |julian rnd r + halfWindow rnd w| ≤ 4000000))
  have s3 : (1 : ℚ) / 2 ^ 53 * 4000000 ≤ 1 / 2 ^ 31 := by norm_num
  have s4 : 3 * ((1 : ℚ) / 2 ^ 31) + 1 / 2 ^ 32 ≤ 200000 / 86400000000000 := by norm_num
  have dd : (dayNs : ℚ) = 86400000000000 := by norm_num [dayNs]
  have ex : exact t - exact r = ((t - r : ℤ) : ℚ) / 86400000000000 := by
    unfold exact
    rw [dd]
    push_cast
    ring
  rw [dd] at ew ew' w0 w1
  simp only [inside, decide_eq_true_eq]
  constructor
  · intro hd
    have h1 : t - r + 200000 ≤ w := by have := le_abs_self (t - r); omega
    have h2 : -(t - r) + 200000 ≤ w := by have := neg_le_abs (t - r); omega
    have q1 : ((t - r : ℤ) : ℚ) + 200000 ≤ w := by exact_mod_cast h1
    have q2 : -((t - r : ℤ) : ℚ) + 200000 ≤ w := by exact_mod_cast h2
    constructor <;> linarith
  · rintro ⟨h1, h2⟩
    have q1 : ((t - r : ℤ) : ℚ) ≤ ((w + 200000 : ℤ) : ℚ) := by push_cast at *; linarith
    have q2 : -((w + 200000 : ℤ) : ℚ) ≤ ((t - r : ℤ) : ℚ) := by push_cast at *; linarith
    rw [abs_le]
    exact ⟨by exact_mod_cast q2, by exact_mod_cast q1⟩

theorem collocation_eq {rnd : ℚ → ℚ} (h : RelErr rnd (1 / 2 ^ 53)) (hm : ∀ x y, x ≤ y → rnd x ≤ rnd y) (other : List (ℤ × Option ℚ)) (refs : List ℤ) (w : ℤ)
    (hne : other ≠ []) (hw0 : 0 ≤ w) (ho : other.Pairwise (fun a b => a.1 ≤ b.1)) (hr : refs.Pairwise (· ≤ ·)) :
    meanCollocation rnd other refs w = .ok (refs.map (fun r => nanmean rnd
      ((other.filter (fun o => inside rnd (halfWindow rnd w) (julian rnd r) (julian rnd o.1))).map Prod.snd))) := by
  unfold meanCollocation resampleMean
  rw [if_neg (by simp)]
  cases hl : (other.map (fun o => julian rnd o.1)).getLast? with
  | none => exact absurd (List.getLast?_eq_none_iff.1 hl) (by simpa using hne)
  | some last =>
    simp only
    have hh : 0 ≤ rnd (windowDays rnd w / 2) := by
      have r0 : ∀ x, 0 ≤ x → 0 ≤ rnd x := fun x hx => h.zero ▸ hm 0 x hx
      have q1 : (0 : ℚ) ≤ rnd ((2 * w : ℤ) : ℚ) / dayNs :=
        div_nonneg (r0 _ (by exact_mod_cast (by omega : 0 ≤ 2 * w))) (by norm_num [dayNs])
      exact r0 _ (div_nonneg (r0 _ q1) (by norm_num))
    rw [loop_eq hm hh (List.pairwise_map.mpr (ho.imp fun hab => julian_mono h hm _ _ hab)) (by simp) hl _
      (List.pairwise_map.mpr (hr.imp fun hab => julian_mono h hm _ _ hab)) (0, 0) (fun t _ => by simp)]
    rw [List.map_map]
    congr 1
    apply List.map_congr_left
    intro r _
    simp only [Function.comp]
    congr 1
    rw [List.zip_map', List.filter_map, List.map_map]
    rfl

/-- C109 (partial: up to 0.2 ms at the edges of the window, see `mean_window_wrong`): for sorted time stamps every result of `temporal_collocation(method="mean")`
is the mean of the values of the rows of a set that contains all rows that are more than 0.2 ms inside of the window and no row that is more than 0.2 ms outside. -/
theorem mean_window_partial {rnd : ℚ → ℚ} (h : RelErr rnd (1 / 2 ^ 53)) (hm : ∀ x y, x ≤ y → rnd x ≤ rnd y) (other : List (ℤ × Option ℚ)) (refs : List ℤ) (w : ℤ)
    (hne : other ≠ []) (hw0 : 0 ≤ w) (hw : w < 2 ^ 63) (ho : other.Pairwise (fun a b => a.1 ≤ b.1)) (hr : refs.Pairwise (· ≤ ·))
    (hor : ∀ o ∈ other, InRange o.1) (hrr : ∀ r ∈ refs, InRange r) :
    ∃ used : ℤ → ℤ → Bool, (∀ r ∈ refs, ∀ o ∈ other, (|o.1 - r| + 200000 ≤ w → used r o.1 = true) ∧ (used r o.1 = true → |o.1 - r| ≤ w + 200000)) ∧
      meanCollocation rnd other refs w = .ok (refs.map (fun r => nanmean rnd ((other.filter (fun o => used r o.1)).map Prod.snd))) :=
  ⟨fun r t => inside rnd (halfWindow rnd w) (julian rnd r) (julian rnd t), fun r hr' o ho' => inside_iff h w hw0 hw r o.1 (hrr r hr') (hor o ho'),
    collocation_eq h hm other refs w hne hw0 ho hr⟩

/-! ## Windows of whole days -/

theorem nearestEven_add_even (q : ℚ) (m : ℤ) : nearestEven (q + ((2 * m : ℤ) : ℚ)) = nearestEven q + 2 * m := by
  have hf : (q + ((2 * m : ℤ) : ℚ)).floor = q.floor + 2 * m := by
    have := Int.floor_add_intCast q (2 * m)
    exact this
  unfold nearestEven
  simp only [hf]
  have e : q + ((2 * m : ℤ) : ℚ) - ((q.floor + 2 * m : ℤ) : ℚ) = q - (q.floor : ℚ) := by push_cast; ring
  have p : (q.floor + 2 * m) % 2 = q.floor % 2 := by omega
  rw [e, p]
  by_cases h1 : q - (q.floor : ℚ) < 1 / 2
  · rw [if_pos h1, if_pos h1]
  · rw [if_neg h1, if_neg h1]
    by_cases h2 : 1 / 2 < q - (q.floor : ℚ)
    · rw [if_pos h2, if_pos h2]; ring
    · rw [if_neg h2, if_neg h2]
      by_cases h3 : q.floor % 2 = 0
      · rw [if_pos h3, if_pos h3]
      · rw [if_neg h3, if_neg h3]; ring

theorem expo_julian (x : ℚ) (h1 : 2 ^ 21 ≤ x) (h2 : x < 2 ^ 22) : expo x = -31 := by
  have hx : x ≠ 0 := by intro h; rw [h] at h1; norm_num at h1
  refine expo_unique x hx _ ?_ ?_
  · rw [abs_of_nonneg (by linarith), le_div_iff₀ (by positivity)]
    norm_num
    linarith
  · rw [abs_of_nonneg (by linarith), div_lt_iff₀ (by positivity)]
    norm_num
    linarith

theorem rnd64_shift (x : ℚ) (k : ℤ) (h1 : 2 ^ 21 ≤ x) (h2 : x < 2 ^ 22) (h3 : 2 ^ 21 ≤ x + k) (h4 : x + k < 2 ^ 22) : rnd64 (x + k) = rnd64 x + k := by
  have hx : x ≠ 0 := by intro h; rw [h] at h1; norm_num at h1
  have hy : x + k ≠ 0 := by intro h; rw [h] at h3; norm_num at h3
  rw [rnd64_eq _ hx, rnd64_eq _ hy, expo_julian x h1 h2, expo_julian _ h3 h4]
  have e : (x + k) / (2 : ℚ) ^ (-31 : ℤ) = x / 2 ^ (-31 : ℤ) + ((2 * (k * 2 ^ 30) : ℤ) : ℚ) := by
    rw [add_div]
    push_cast
    norm_num
    ring
  rw [e, nearestEven_add_even]
  push_cast
  norm_num
  ring

theorem julian_shift (t : ℤ) (k : ℤ) (ht : InRange t) (hk : |k| ≤ 200000) : julian rnd64 (t + k * dayNs) = julian rnd64 t + k := by
  have hd : (0 : ℤ) < dayNs := by decide
  have e1 : (t + k * dayNs) / dayNs = t / dayNs + k := Int.add_mul_ediv_right _ _ hd.ne'
  have e2 : (t + k * dayNs) % dayNs = t % dayNs := Int.add_mul_emod_self_right _ _ _
  have es := abs_le.mp (julianSum_err rnd64_relErr t)
  have e8 : (8 : ℚ) / 2 ^ 53 < 1 := by norm_num
  have hx : 2330000 ≤ exact t ∧ exact t ≤ 2550000 := by
    obtain ⟨h1, h2⟩ := ht
    have q1 : -2 ^ 63 ≤ (t : ℚ) := by exact_mod_cast h1
    have q2 : (t : ℚ) ≤ 2 ^ 63 := by exact_mod_cast h2.le
    have dd : (dayNs : ℚ) = 86400000000000 := by norm_num [dayNs]
    unfold exact
    rw [dd]
    constructor <;> linarith
  have hk' : |(k : ℚ)| ≤ 200000 := by exact_mod_cast hk
  obtain ⟨k1, k2⟩ := abs_le.mp hk'
  have hs : julian rnd64 (t + k * dayNs) = rnd64 (julianSum rnd64 t + k) := by
    unfold julian julianSum
    rw [e1, e2]
    push_cast
    congr 1
    ring
  rw [hs, show julian rnd64 t = rnd64 (julianSum rnd64 t) from rfl]
  refine rnd64_shift _ _ ?_ ?_ ?_ ?_ <;> norm_num <;> linarith

theorem rnd64_scale (x : ℚ) (n : ℤ) : rnd64 (x * 2 ^ n) = rnd64 x * 2 ^ n := by
  have p : (2 : ℚ) ^ n ≠ 0 := by positivity
  have pp : (0 : ℚ) < 2 ^ n := by positivity
  by_cases hx : x = 0
  · rw [hx]; simp [rnd64]
  · have hy : x * 2 ^ n ≠ 0 := mul_ne_zero hx p
    have hd : ∀ y : ℚ, y * 2 ^ n / 2 ^ (expo x + n) = y / 2 ^ expo x := fun y => by
      rw [zpow_add₀ (by norm_num), mul_div_mul_right _ _ p]
    have he : expo (x * 2 ^ n) = expo x + n := by
      obtain ⟨h1, h2⟩ := expo_spec x hx
      refine expo_unique _ hy _ ?_ ?_ <;> rw [abs_mul, abs_of_pos pp, hd] <;> assumption
    rw [rnd64_eq _ hx, rnd64_eq _ hy, he, hd, zpow_add₀ (by norm_num), mul_assoc]

/-- whole days are multiples of 2^16 nanoseconds -/
theorem rnd64_days (k : ℤ) (hk : |k| ≤ 400000) : rnd64 ((k * dayNs : ℤ) : ℚ) = ((k * dayNs : ℤ) : ℚ) := by
  have e : ((k * dayNs : ℤ) : ℚ) = ((k * 1318359375 : ℤ) : ℚ) * 2 ^ (16 : ℤ) := by
    unfold dayNs
    push_cast
    norm_num
    ring
  obtain ⟨k1, k2⟩ := abs_le.mp hk
  rw [e, rnd64_scale, rnd64_int _ (abs_lt.mpr ⟨by omega, by omega⟩)]

theorem halfWindow_days (k : ℤ) (hk : |k| ≤ 200000) : halfWindow rnd64 (k * dayNs) = k := by
  have hd : (dayNs : ℚ) ≠ 0 := by norm_num [dayNs]
  obtain ⟨k1, k2⟩ := abs_le.mp hk
  unfold halfWindow windowDays
  have e : ((2 * k * dayNs : ℤ) : ℚ) / dayNs = ((2 * k : ℤ) : ℚ) := by
    push_cast
    rw [mul_div_assoc, div_self hd, mul_one]
  rw [← mul_assoc, rnd64_days _ (abs_le.mpr ⟨by omega, by omega⟩), e, rnd64_int _ (abs_lt.mpr ⟨by omega, by omega⟩), show ((2 * k : ℤ) : ℚ) / 2 = (k : ℚ) by push_cast; ring, rnd64_int _ (abs_lt.mpr ⟨by omega, by omega⟩)]

/-- the test of the window at the edges, for a window of `k` days -/
theorem inside_days (k : ℤ) (h0 : 0 ≤ k) (hk : k ≤ 200000) (r t : ℤ) (hr : InRange r) (h : |t - r| ≤ k * dayNs) :
    inside rnd64 (halfWindow rnd64 (k * dayNs)) (julian rnd64 r) (julian rnd64 t) = true := by
  have ka : |k| ≤ 200000 := abs_le.mpr ⟨by omega, hk⟩
  have kn : |(-k)| ≤ 200000 := by rw [abs_neg]; exact ka
  obtain ⟨h1, h2⟩ := abs_le.mp h
  have m1 := julian_mono rnd64_relErr rnd64_mono (r + -k * dayNs) t (by rw [neg_mul]; omega)
  have m2 := julian_mono rnd64_relErr rnd64_mono t (r + k * dayNs) (by omega)
  have i1 : rnd64 (julian rnd64 (r + -k * dayNs)) = julian rnd64 (r + -k * dayNs) := rnd64_idem _
  have i2 : rnd64 (julian rnd64 (r + k * dayNs)) = julian rnd64 (r + k * dayNs) := rnd64_idem _
  rw [julian_shift r _ hr kn] at m1 i1
  rw [julian_shift r _ hr ka] at m2 i2
  rw [halfWindow_days k ka]
  unfold inside
  push_cast at m1 i1
  rw [← sub_eq_add_neg] at m1 i1
  rw [i1, i2]
  simp [m1, m2]

/-- C109 for windows of a whole number of days: no row in the window is lost, the edges included, whatever the times of day. -/
theorem mean_window_days (other : List (ℤ × Option ℚ)) (refs : List ℤ) (k : ℤ) (hne : other ≠ []) (h0 : 0 ≤ k) (hk : k ≤ 100000)
    (ho : other.Pairwise (fun a b => a.1 ≤ b.1)) (hr : refs.Pairwise (· ≤ ·)) (hor : ∀ o ∈ other, InRange o.1) (hrr : ∀ r ∈ refs, InRange r) :
    ∃ used : ℤ → ℤ → Bool, (∀ r ∈ refs, ∀ o ∈ other, (|o.1 - r| ≤ k * dayNs → used r o.1 = true) ∧ (used r o.1 = true → |o.1 - r| ≤ k * dayNs + 200000)) ∧
      meanCollocation rnd64 other refs (k * dayNs) = .ok (refs.map (fun r => nanmean rnd64 ((other.filter (fun o => used r o.1)).map Prod.snd))) := by
  have hw0 : 0 ≤ k * dayNs := mul_nonneg h0 (by decide)
  refine ⟨fun r t => inside rnd64 (halfWindow rnd64 (k * dayNs)) (julian rnd64 r) (julian rnd64 t), fun r hr' o ho' => ⟨?_, ?_⟩,
    collocation_eq rnd64_relErr rnd64_mono other refs _ hne hw0 ho hr⟩
  · exact inside_days k h0 (by omega) r o.1 (hrr r hr')
  · exact (inside_iff rnd64_relErr _ hw0 (by unfold dayNs; omega) r o.1 (hrr r hr') (hor o ho')).2

example := mean_window_days [(0, some 1), (86400000000000, none), (200000000000000, some 4)] [2, 86400000000001] 1 (by simp) (by norm_num) (by norm_num)
  (by decide) (by decide) (by simp [InRange]) (by simp [InRange])

theorem hours_exact (r : ℤ) : hours id r = (r : ℚ) / 3600000000000 := by
  have hr : (r : ℚ) = (r / 3600000000000 : ℤ) * 3600000000000 + (r / 60000000000 % 60 : ℤ) * 60000000000 + (r / 1000000000 % 60 : ℤ) * 1000000000 +
      (r / 1000 % 1000000 : ℤ) * 1000 + (r % 1000 : ℤ) := by
    have : r = r / 3600000000000 * 3600000000000 + r / 60000000000 % 60 * 60000000000 + r / 1000000000 % 60 * 1000000000 + r / 1000 % 1000000 * 1000 + r % 1000 := by omega
    exact_mod_cast this
  simp only [hours, id]
  rw [hr]
  ring

theorem julian_exact (t : ℤ) : julian id t = exact t := by
  have et : (t : ℚ) = dayNs * (t / dayNs : ℤ) + (t % dayNs : ℤ) := by exact_mod_cast (Int.mul_ediv_add_emod t dayNs).symm
  unfold julian exact
  rw [hours_exact, et, add_div, mul_div_cancel_left₀ _ (by norm_num [dayNs])]
  have dd : (dayNs : ℚ) = 86400000000000 := by norm_num [dayNs]
  simp only [id, dd]
  ring

/-- C109: without rounding every result is the mean over exactly the rows of the window, edges included (sorted time stamps). -/
theorem mean_window_exact (other : List (ℤ × Option ℚ)) (refs : List ℤ) (w : ℤ) (hne : other ≠ []) (hw0 : 0 ≤ w)
    (ho : other.Pairwise (fun a b => a.1 ≤ b.1)) (hr : refs.Pairwise (· ≤ ·)) :
    meanCollocation id other refs w = .ok (refs.map (fun r => nanmean id ((other.filter (fun o => |o.1 - r| ≤ w)).map Prod.snd))) := by
  have dd : (dayNs : ℚ) = 86400000000000 := by norm_num [dayNs]
  have mono : ∀ a b : ℤ, a ≤ b → julian id a ≤ julian id b := fun a b hab => by
    rw [julian_exact, julian_exact, exact, exact, dd]
    have : (a : ℚ) ≤ b := by exact_mod_cast hab
    linarith
  have hhalf : (id (windowDays id w / 2) : ℚ) = (w : ℚ) / 86400000000000 := by
    simp only [windowDays, id, dd]
    push_cast
    ring
  have w0 : (0 : ℚ) ≤ (w : ℚ) := by exact_mod_cast hw0
  unfold meanCollocation resampleMean
  rw [if_neg (by simp)]
  cases hl : (other.map (fun o => julian id o.1)).getLast? with
  | none => exact absurd (List.getLast?_eq_none_iff.1 hl) (by simpa using hne)
  | some last =>
    simp only
    rw [hhalf, loop_eq (rnd := id) (values := other.map Prod.snd) (fun _ _ h => h) (by linarith) (List.pairwise_map.mpr (ho.imp fun hab => mono _ _ hab)) (by simp) hl _
      (List.pairwise_map.mpr (hr.imp fun hab => mono _ _ hab)) (0, 0) (fun t _ => by simp)]
    rw [List.map_map]
    congr 1
    apply List.map_congr_left
    intro r _
    simp only [Function.comp]
    congr 1
    rw [List.zip_map', List.filter_map, List.map_map]
    congr 1
    apply List.filter_congr
    intro o _
    simp only [Function.comp, inside, id, julian_exact, exact, dd]
    have hiff : |o.1 - r| ≤ w ↔ (-(w : ℚ) ≤ (o.1 : ℚ) - r ∧ (o.1 : ℚ) - r ≤ w) := by
      rw [abs_le]
      norm_cast
    rw [decide_eq_decide, hiff]
    constructor
    · rintro ⟨h1, h2⟩; constructor <;> linarith
    · rintro ⟨h1, h2⟩; constructor <;> linarith

example := mean_window_exact [(0, some 1), (5, none), (9, some 4)] [2, 7] 3 (by simp) (by norm_num) (by decide) (by decide)

/-- C109: the distance in days that the deprecated `df_match` compares with its window (temporal_matching.py:88-105) is exact enough: for a window that is the number of days of `k`
nanoseconds (less than 52 days) the edge is always inside and the next nanosecond always outside. numpy divides the nanoseconds, converted to `double`. -/
theorem day_distance_exact (d k : ℤ) (hk0 : 0 ≤ k) (hk : k < 2 ^ 52) : rnd64 (rnd64 (d : ℚ) / dayNs) ≤ rnd64 (rnd64 (k : ℚ) / dayNs) ↔ d ≤ k := by
  have dd : (dayNs : ℚ) = 86400000000000 := by norm_num [dayNs]
  have rk : rnd64 (k : ℚ) = k := rnd64_int k (abs_lt.mpr ⟨by omega, by omega⟩)
  have rk1 : rnd64 ((k + 1 : ℤ) : ℚ) = (k + 1 : ℤ) := rnd64_int (k + 1) (abs_lt.mpr ⟨by omega, by omega⟩)
  rw [dd, rk]
  constructor
  · intro hle
    by_contra hlt
    have h1 : rnd64 (((k + 1 : ℤ) : ℚ) / 86400000000000) ≤ rnd64 (rnd64 (d : ℚ) / 86400000000000) := by
      refine rnd64_mono _ _ (div_le_div_of_nonneg_right ?_ (by norm_num))
      rw [← rk1]
      exact rnd64_mono _ _ (by exact_mod_cast (by omega : k + 1 ≤ d))
    have k0 : (0 : ℚ) ≤ k := by exact_mod_cast hk0
    have k1 : (k : ℚ) + 1 ≤ 2 ^ 52 := by exact_mod_cast (by omega : k + 1 ≤ 2 ^ 52)
    have e1 := (abs_le.mp (err_le rnd64_relErr (le_of_eq (abs_of_nonneg (by positivity : (0 : ℚ) ≤ (k : ℚ) / 86400000000000))))).2
    have e2 := (abs_le.mp (err_le rnd64_relErr (le_of_eq (abs_of_nonneg (by push_cast; positivity : (0 : ℚ) ≤ ((k + 1 : ℤ) : ℚ) / 86400000000000))))).1
    push_cast at e2 h1
    have c : rnd64 ((k + 1 : ℚ) / 86400000000000) ≤ rnd64 ((k : ℚ) / 86400000000000) := h1.trans hle
    norm_num at e1 e2 k1
    linarith
  · intro hle
    refine rnd64_mono _ _ (div_le_div_of_nonneg_right ?_ (by norm_num))
    rw [← rk]
    exact rnd64_mono _ _ (by exact_mod_cast hle)

example := day_distance_exact 86400000000001 86400000000000 (by norm_num) (by norm_num)

/-- C109: the result for a set of rows is missing if no row has a value, and otherwise the mean of the values up to the rounding errors of this sum. -/
theorem nanmean_err {rnd : ℚ → ℚ} {u : ℚ} (h : RelErr rnd u) (vs : List (Option ℚ)) :
    ((∀ v ∈ vs, v = none) → nanmean rnd vs = none) ∧
    (vs.filterMap id ≠ [] → ∃ m, nanmean rnd vs = some m ∧
      |m - (vs.filterMap id).sum / ((vs.filterMap id).length : ℚ)| ≤
        ((1 + u) ^ ((vs.filterMap id).length + 1) - 1) * (absSum (vs.filterMap id) / ((vs.filterMap id).length : ℚ))) := by
  constructor
  · intro hv
    simpa [nanmean] using hv
  · intro hne
    simp only [nanmean]
    rw [if_neg (by simpa using hne)]
    refine ⟨_, rfl, ?_⟩
    exact mean_up_to h (vs.filterMap id) (vs.filterMap id) (List.Perm.refl _) hne

/-! ## The edges of the window -/

/-- full hours of 2000-01-01 -/
def hour (n : ℤ) : ℤ := 946684800000000000 + n * 3600000000000

/-- an edge neighbour after two days, at a time of day with a rounded Julian date -/
example : (-2 ^ 63 ≤ hour 1 + 7 ∧ hour 1 + 7 < 2 ^ 63) ∧ inside rnd64 (halfWindow rnd64 (2 * dayNs)) (julian rnd64 (hour 1 + 7)) (julian rnd64 (hour 1 + 7 + 2 * dayNs)) = true ∧
    exact (hour 1 + 7) ≠ julian rnd64 (hour 1 + 7) := by decide +kernel

/-- what the documentation promises: the mean of the values of all rows in the window -/
def documented (other : List (ℤ × ℚ)) (w r : ℤ) : ℚ :=
  let vs := (other.filter (fun o => |o.1 - r| ≤ w)).map Prod.snd
  vs.sum / (vs.length : ℚ)

/-- C109, negation: hourly data and a window of one hour. At 00:00 and 03:00 the neighbours are used, at 01:00 the next and at 02:00 the previous value is missing in
the mean. -/
theorem mean_window_wrong :
    (meanCollocation rnd64 [(hour 0, some 1), (hour 1, some 2), (hour 2, some 3), (hour 3, some 7)] [hour 0, hour 1, hour 2, hour 3] 3600000000000).toOption =
      some [some (3 / 2), some (3 / 2), some 5, some 5] ∧
    [hour 0, hour 1, hour 2, hour 3].map (documented [(hour 0, 1), (hour 1, 2), (hour 2, 3), (hour 3, 7)] 3600000000000) = [3 / 2, 2, 4, 5] := by
  decide +kernel

/-! ## Concrete cases -/

-- the hypotheses of `mean_window_partial` and `inside_iff`
example : ([(hour 0, some 1), (hour 1, none), (hour 2, some 3)] : List (ℤ × Option ℚ)) ≠ [] ∧
    ([(hour 0, some 1), (hour 1, none), (hour 2, some 3)] : List (ℤ × Option ℚ)).Pairwise (fun a b => a.1 ≤ b.1) ∧ (hour 0 ≤ hour 1) ∧
    (-2 ^ 63 ≤ hour 2 ∧ hour 2 < 2 ^ 63) ∧ |hour 0 - hour 1| + 200000 ≤ 7200000000000 := by decide +kernel

example : RelErr rnd64 (1 / 2 ^ 53) ∧ ∀ x y : ℚ, x ≤ y → rnd64 x ≤ rnd64 y := ⟨rnd64_relErr, rnd64_exactly.mono⟩

-- the Julian dates of 2000-01-01 01:00 and 02:00
example : julian rnd64 (hour 1) = 2451544 + 1 / 2 + 89478485 / 2 ^ 31 ∧ julian rnd64 (hour 2) - julian rnd64 (hour 1) ≠ halfWindow rnd64 3600000000000 := by decide +kernel

end Verif.Collocation.Julian
