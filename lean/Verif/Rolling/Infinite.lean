import Verif.Pairwise.Infinite
import Verif.Rolling.FloatProps

/-!
C145: values that are not finite, and overflow, in `rolling_pr_rmsd` (`src/pytesmo/metrics/_fast_pairwise.pyx:347-489`).

The observations and sums are numbers of the machine (`Pairwise.Infinite.X`: finite, infinite, NaN). Time stamps are finite, their sums with the window
are rounded as in C104 (`Rolling.Fl.bounds`). Only the version for `double` is modelled; `rolling_nobs` is exact.
-/

set_option linter.unusedSectionVars false

namespace Verif.Rolling.Infinite

open Verif.Rolling (rangeAB)
open Verif.Pairwise.Infinite (X Machine IsNumber)

variable {K : Type} [Field K] [LinearOrder K]

/-- local variables, _fast_pairwise.pyx:400, 403 -/
structure Sums (K : Type) where
  nobs : ℕ
  mx : X K
  my : X K
  M2x : X K
  M2y : X K
  C : X K
  msd : X K
  deriving DecidableEq

/-- _fast_pairwise.pyx:400, 403 -/
def zero : Sums K := ⟨0, .fin 0, .fin 0, .fin 0, .fin 0, .fin 0, .fin 0⟩

/-- `(x[j] - y[j])**2`, _fast_pairwise.pyx:456, 470 -/
def square (M : Machine K) (p : X K × X K) : X K := Pairwise.Infinite.mul M (Pairwise.Infinite.sub M p.1 p.2) (Pairwise.Infinite.sub M p.1 p.2)

/-- _fast_pairwise.pyx:451-459 -/
def add (M : Machine K) (s : Sums K) (p : X K × X K) : Sums K :=
  let n : X K := .fin ((s.nobs + 1 : ℕ) : K)
  let mx := Pairwise.Infinite.add M s.mx (Pairwise.Infinite.div M (Pairwise.Infinite.sub M p.1 s.mx) n)
  let my := Pairwise.Infinite.add M s.my (Pairwise.Infinite.div M (Pairwise.Infinite.sub M p.2 s.my) n)
  { nobs := s.nobs + 1, mx := mx, my := my
    M2x := Pairwise.Infinite.add M s.M2x (Pairwise.Infinite.mul M (Pairwise.Infinite.sub M p.1 mx) (Pairwise.Infinite.sub M p.1 s.mx))
    M2y := Pairwise.Infinite.add M s.M2y (Pairwise.Infinite.mul M (Pairwise.Infinite.sub M p.2 my) (Pairwise.Infinite.sub M p.2 s.my))
    C := Pairwise.Infinite.add M s.C (Pairwise.Infinite.mul M (Pairwise.Infinite.sub M p.1 mx) (Pairwise.Infinite.sub M p.2 s.my))
    msd := Pairwise.Infinite.add M s.msd (Pairwise.Infinite.div M (Pairwise.Infinite.sub M (square M p) s.msd) n) }

/-- _fast_pairwise.pyx:465-473 -/
def remove (M : Machine K) (s : Sums K) (p : X K × X K) : Sums K :=
  let n : X K := .fin ((s.nobs - 1 : ℕ) : K)
  let mx := Pairwise.Infinite.sub M s.mx (Pairwise.Infinite.div M (Pairwise.Infinite.sub M p.1 s.mx) n)
  let my := Pairwise.Infinite.sub M s.my (Pairwise.Infinite.div M (Pairwise.Infinite.sub M p.2 s.my) n)
  { nobs := s.nobs - 1, mx := mx, my := my
    M2x := Pairwise.Infinite.sub M s.M2x (Pairwise.Infinite.mul M (Pairwise.Infinite.sub M p.1 s.mx) (Pairwise.Infinite.sub M p.1 mx))
    M2y := Pairwise.Infinite.sub M s.M2y (Pairwise.Infinite.mul M (Pairwise.Infinite.sub M p.2 s.my) (Pairwise.Infinite.sub M p.2 my))
    C := Pairwise.Infinite.sub M s.C (Pairwise.Infinite.mul M (Pairwise.Infinite.sub M p.1 s.mx) (Pairwise.Infinite.sub M p.2 my))
    msd := Pairwise.Infinite.sub M s.msd (Pairwise.Infinite.div M (Pairwise.Infinite.sub M (square M p) s.msd) n) }

/-- variables that live across the rounds, _fast_pairwise.pyx:400-403 -/
structure State (K : Type) where
  lower : ℕ
  hi : ℕ
  sums : Sums K
  deriving DecidableEq

/-- _fast_pairwise.pyx:404-473: one round up to the sums -/
def round (M : Machine K) (rnd : K → K) (ts : ℕ → K) (d : ℕ → X K × X K) (n : ℕ) (w : K) (center : Bool) (s : State K) (i : ℕ) : State K :=
  let b := Fl.bounds rnd ts n w center i s.lower s.hi
  let a := ((rangeAB s.hi b.2).map d).foldl (add M) s.sums
  ⟨b.1, b.2, ((rangeAB s.lower b.1).map d).foldl (remove M) a⟩

/-- _fast_pairwise.pyx:404-473: the state at the end of each round -/
def states (M : Machine K) (rnd : K → K) (ts : ℕ → K) (d : ℕ → X K × X K) (n : ℕ) (w : K) (center : Bool) : State K → List ℕ → List (State K)
  | _, [] => []
  | s, i :: is =>
    let r := round M rnd ts d n w center s i
    r :: states M rnd ts d n w center r is

/-- one row of the two arrays that are returned, _fast_pairwise.pyx:475-489 -/
structure Out (K : Type) where
  R : X K
  p : X K
  rmsd : X K
  deriving DecidableEq

/-- _fast_pairwise.pyx:475-487; the p-value is a function of R and the number of observations (333-340) -/
def out (M : Machine K) (pvalue : X K → ℕ → X K) (minPeriods : ℤ) (s : State K) : Out K :=
  let numObs : ℤ := (s.hi : ℤ) - (s.lower : ℤ)
  if numObs = 0 ∨ numObs < minPeriods then ⟨.nan, .nan, .nan⟩
  else
    let pr := Pairwise.Infinite.pearsonr M pvalue s.sums.M2x s.sums.M2y s.sums.C numObs.toNat
    ⟨pr.1, pr.2, Pairwise.Infinite.sqrt M s.sums.msd⟩

/-- _fast_pairwise.pyx:347-489 `rolling_pr_rmsd(timestamps, x, y, window_size, center, min_periods)` -/
def rollingPrRmsd (M : Machine K) (pvalue : X K → ℕ → X K) (rnd : K → K) (ts : ℕ → K) (d : ℕ → X K × X K) (n : ℕ) (w : K) (center : Bool)
    (minPeriods : ℤ) : List (Out K) :=
  (states M rnd ts d n w center ⟨0, 0, zero⟩ (List.range n)).map (out M pvalue minPeriods)

/-! ## Values that are not finite stay in the sums -/

/-- observations are added one after the other -/
theorem fold_adds (M : Machine K) (d : ℕ → X K × X K) (I : ℕ → Sums K → Prop) (step : ∀ h s, I h s → I (h + 1) (add M s (d h))) :
    ∀ (m h : ℕ) (s : Sums K), I h s → I (h + m) (((List.range' h m).map d).foldl (add M) s)
  | 0, _, _, hs => hs
  | m + 1, h, s, hs => by
    rw [List.range'_succ, List.map_cons, List.foldl_cons, show h + (m + 1) = (h + 1) + m by omega]
    exact fold_adds M d I step m (h + 1) _ (step h s hs)

/-- invariants of the sums, indexed by the number of observations that were added -/
theorem round_invariant (M : Machine K) (rnd : K → K) (ts : ℕ → K) (d : ℕ → X K × X K) (n : ℕ) (w : K) (center : Bool) (I : ℕ → Sums K → Prop)
    (step : ∀ h s, I h s → I (h + 1) (add M s (d h))) (less : ∀ h h' s, h' ≤ h → I h s → I h' s) (leave : ∀ h s p, I h s → I h (remove M s p))
    (f : State K) (i : ℕ) (h : I f.hi f.sums) : I (round M rnd ts d n w center f i).hi (round M rnd ts d n w center f i).sums := by
  unfold round
  simp only
  refine Fl.foldl_keeps (I _) _ (leave _) _ _ ?_
  unfold rangeAB
  have := fold_adds M d I step ((Fl.bounds rnd ts n w center i f.lower f.hi).2 - f.hi) f.hi f.sums h
  exact less _ _ _ (by omega) this

theorem states_invariant [IsStrictOrderedRing K] (M : Machine K) (rnd : K → K) (ts : ℕ → K) (d : ℕ → X K × X K) (n : ℕ) (w : K) (center : Bool)
    (hw : Fl.Windows rnd ts n w center) (I : ℕ → Sums K → Prop)
    (step : ∀ h s, I h s → I (h + 1) (add M s (d h))) (less : ∀ h h' s, h' ≤ h → I h s → I h' s) (leave : ∀ h s p, I h s → I h (remove M s p)) :
    ∀ (m i : ℕ) (f : State K), i + m = n → f.lower ≤ i → I f.hi f.sums → ∀ j, j < m →
      ∃ f', (states M rnd ts d n w center f (List.range' i m))[j]? = some f' ∧ f'.lower ≤ i + j ∧ i + j < f'.hi ∧ I f'.hi f'.sums
  | 0, _, _, _, _, _, j, hj => absurd hj (Nat.not_lt_zero j)
  | m + 1, i, f, him, hlo, hf, j, hj => by
    rw [List.range'_succ]
    unfold states
    obtain ⟨b1, b2⟩ := Fl.bounds_own rnd ts n w center hw i f.lower f.hi (by omega) hlo
    have b1' : (round M rnd ts d n w center f i).lower ≤ i := b1
    have b2' : i < (round M rnd ts d n w center f i).hi := b2
    have hr := round_invariant M rnd ts d n w center I step less leave f i hf
    cases j with
    | zero => exact ⟨_, rfl, b1', b2', hr⟩
    | succ j =>
      obtain ⟨f', h1, h2, h3, h4⟩ := states_invariant M rnd ts d n w center hw I step less leave m (i + 1) _ (by omega) (by omega) hr j (by omega)
      exact ⟨f', by simpa using h1, by omega, by omega, h4⟩

/-- adding an observation to a mean squared difference that is not finite gives NaN -/
theorem added_to_infinite [IsStrictOrderedRing K] (M : Machine K) (m q : X K) (n : ℕ) (h : ¬ IsNumber m) :
    Pairwise.Infinite.add M m (Pairwise.Infinite.div M (Pairwise.Infinite.sub M q m) (.fin ((n + 1 : ℕ) : K))) = .nan := by
  have hn : ¬ (((n + 1 : ℕ) : K) < 0) := not_lt.mpr (Nat.cast_nonneg _)
  cases m with
  | fin a => exact absurd trivial h
  | nan => exact Pairwise.Infinite.add_nan_left M _
  | inf s =>
    cases q with
    | fin a => cases s <;> simp [Pairwise.Infinite.add, Pairwise.Infinite.sub, Pairwise.Infinite.div, hn, -Nat.cast_add]
    | nan => cases s <;> rfl
    | inf t => cases s <;> cases t <;> simp [Pairwise.Infinite.add, Pairwise.Infinite.sub, Pairwise.Infinite.div, hn, -Nat.cast_add]

/-- C145, part 1 (negation, for all data, roundings, overflow and windows): if the squared difference of an observation is not finite (one of its values
is not finite, or the square overflows), the RMSD of *every* later window is not finite, whether the observation is in the window or not. From the
next observation on it is NaN. -/
theorem rmsd_forever [IsStrictOrderedRing K] (M : Machine K) (pvalue : X K → ℕ → X K) (rnd : K → K) (ts : ℕ → K) (d : ℕ → X K × X K) (n : ℕ) (w : K)
    (center : Bool) (minPeriods : ℤ) (hw : Fl.Windows rnd ts n w center) (k : ℕ) (hk : ¬ IsNumber (square M (d k))) (i : ℕ) (hki : k ≤ i) (hin : i < n) :
    ∃ o, (rollingPrRmsd M pvalue rnd ts d n w center minPeriods)[i]? = some o ∧ ¬ IsNumber o.rmsd ∧ (k < i → o.rmsd = .nan) := by
  obtain ⟨f, h1, h2, h3, h4, h5⟩ := states_invariant M rnd ts d n w center hw
    (fun h s => (k < h → ¬ IsNumber s.msd) ∧ (k + 1 < h → s.msd = .nan))
    (fun h s hs => by
      refine ⟨fun hlt => ?_, fun hlt => ?_⟩
      · by_cases he : k = h
        · subst he
          exact Pairwise.Infinite.add_spreads M _ _ (Or.inr (Pairwise.Infinite.div_spreads M _ _ (Pairwise.Infinite.sub_spreads M _ _ (Or.inl hk))))
        · exact Pairwise.Infinite.add_spreads M _ _ (Or.inl (hs.1 (by omega)))
      · exact added_to_infinite M s.msd (square M (d h)) s.nobs (hs.1 (by omega)))
    (fun h h' s hle hs => ⟨fun hlt => hs.1 (by omega), fun hlt => hs.2 (by omega)⟩)
    (fun h s p hs => ⟨fun hlt => Pairwise.Infinite.sub_spreads M _ _ (Or.inl (hs.1 hlt)), fun hlt => by
      show Pairwise.Infinite.sub M s.msd _ = _
      rw [hs.2 hlt]; exact Pairwise.Infinite.sub_nan_left M _⟩)
    n 0 ⟨0, 0, zero⟩ (by omega) le_rfl ⟨fun h => absurd h (Nat.not_lt_zero _), fun h => absurd h (Nat.not_lt_zero _)⟩ i hin
  rw [Nat.zero_add] at h2 h3
  refine ⟨out M pvalue minPeriods f, ?_, ?_, ?_⟩
  · unfold rollingPrRmsd
    rw [List.getElem?_map, List.range_eq_range', h1]; rfl
  · unfold out
    simp only
    split
    · exact id
    · exact Pairwise.Infinite.sqrt_spreads M _ (h4 (by omega))
  · intro hlt
    unfold out
    simp only
    split
    · rfl
    · show Pairwise.Infinite.sqrt M f.sums.msd = .nan
      rw [h5 (by omega)]; rfl

/-- C145, part 2 (negation): after an observation with a value that is not finite the correlation of every later window is -1 with p-value 0, or NaN. It
is -1 if both values are not finite and there are enough observations. -/
theorem correlation_forever [IsStrictOrderedRing K] (M : Machine K) (pvalue : X K → ℕ → X K) (rnd : K → K) (ts : ℕ → K) (d : ℕ → X K × X K) (n : ℕ) (w : K)
    (center : Bool) (minPeriods : ℤ) (hw : Fl.Windows rnd ts n w center) (k : ℕ) (hk : ¬ IsNumber (d k).1 ∨ ¬ IsNumber (d k).2) (i : ℕ) (hki : k ≤ i)
    (hin : i < n) :
    ∃ o, (rollingPrRmsd M pvalue rnd ts d n w center minPeriods)[i]? = some o ∧ ((o.R = .fin (-1) ∧ o.p = .fin 0) ∨ (o.R = .nan ∧ o.p = .nan)) ∧
      (¬ IsNumber (d k).1 → ¬ IsNumber (d k).2 → minPeriods ≤ 1 → o.R = .fin (-1) ∧ o.p = .fin 0) := by
  obtain ⟨f, h1, h2, h3, h4⟩ := states_invariant M rnd ts d n w center hw
    (fun h s => k < h → (¬ IsNumber (d k).1 → s.M2x = .nan) ∧ (¬ IsNumber (d k).2 → s.M2y = .nan))
    (fun h s hs hlt => by
      by_cases he : k = h
      · subst he
        refine ⟨fun hx => ?_, fun hy => ?_⟩
        · show Pairwise.Infinite.add M s.M2x (Pairwise.Infinite.mul M (Pairwise.Infinite.sub M (d k).1 _) _) = .nan
          rw [Pairwise.Infinite.own_deviation M _ _ _ hx, Pairwise.Infinite.mul_nan_left, Pairwise.Infinite.add_nan_right]
        · show Pairwise.Infinite.add M s.M2y (Pairwise.Infinite.mul M (Pairwise.Infinite.sub M (d k).2 _) _) = .nan
          rw [Pairwise.Infinite.own_deviation M _ _ _ hy, Pairwise.Infinite.mul_nan_left, Pairwise.Infinite.add_nan_right]
      · obtain ⟨a, b⟩ := hs (by omega)
        refine ⟨fun hx => ?_, fun hy => ?_⟩
        · show Pairwise.Infinite.add M s.M2x _ = .nan
          rw [a hx, Pairwise.Infinite.add_nan_left]
        · show Pairwise.Infinite.add M s.M2y _ = .nan
          rw [b hy, Pairwise.Infinite.add_nan_left])
    (fun h h' s hle hs hlt => hs (by omega))
    (fun h s p hs hlt => by
      obtain ⟨a, b⟩ := hs hlt
      refine ⟨fun hx => ?_, fun hy => ?_⟩
      · show Pairwise.Infinite.sub M s.M2x _ = .nan
        rw [a hx, Pairwise.Infinite.sub_nan_left]
      · show Pairwise.Infinite.sub M s.M2y _ = .nan
        rw [b hy, Pairwise.Infinite.sub_nan_left])
    n 0 ⟨0, 0, zero⟩ (by omega) le_rfl (fun h => absurd h (Nat.not_lt_zero _)) i hin
  rw [Nat.zero_add] at h2 h3
  obtain ⟨hx, hy⟩ := h4 (by omega)
  have hneg : Pairwise.Infinite.clip (.nan : X K) = .fin (-1) := rfl
  have key : ∀ (vx vy cov : X K) (m : ℕ), vx = .nan ∨ vy = .nan →
      ((Pairwise.Infinite.pearsonr M pvalue vx vy cov m = (.fin (-1), .fin 0)) ∨ Pairwise.Infinite.pearsonr M pvalue vx vy cov m = (.nan, .nan)) ∧
      (vx = .nan → vy = .nan → Pairwise.Infinite.pearsonr M pvalue vx vy cov m = (.fin (-1), .fin 0)) := by
    intro vx vy cov m h
    have hs : Pairwise.Infinite.sqrt M (Pairwise.Infinite.mul M vx vy) = .nan := by
      rcases h with h | h
      · rw [h, Pairwise.Infinite.mul_nan_left]; rfl
      · rw [h, Pairwise.Infinite.mul_nan_right]; rfl
    constructor
    · unfold Pairwise.Infinite.pearsonr
      split
      · exact Or.inr rfl
      · left
        simp [hs, Pairwise.Infinite.div_nan_right, hneg, Pairwise.Infinite.abs]
    · intro ha hb
      unfold Pairwise.Infinite.pearsonr
      rw [if_neg (by simp [ha, hb])]
      simp [hs, Pairwise.Infinite.div_nan_right, hneg, Pairwise.Infinite.abs]
  refine ⟨out M pvalue minPeriods f, ?_, ?_, ?_⟩
  · unfold rollingPrRmsd
    rw [List.getElem?_map, List.range_eq_range', h1]; rfl
  · unfold out
    simp only
    split
    · exact Or.inr ⟨rfl, rfl⟩
    · rcases (key f.sums.M2x f.sums.M2y f.sums.C ((f.hi : ℤ) - (f.lower : ℤ)).toNat (hk.imp hx hy)).1 with h | h
      · left; rw [h]; exact ⟨rfl, rfl⟩
      · right; rw [h]; exact ⟨rfl, rfl⟩
  · intro ha hb hm
    unfold out
    simp only
    rw [if_neg (by omega)]
    have := (key f.sums.M2x f.sums.M2y f.sums.C ((f.hi : ℤ) - (f.lower : ℤ)).toNat (Or.inl (hx ha))).2 (hx ha) (hy hb)
    rw [this]; exact ⟨rfl, rfl⟩

/-! ## Samples: `double` -/

/-- days -/
def exTimes : ℕ → ℚ := fun j => j

theorem exWindows : Fl.Windows id exTimes 5 2 false :=
  ⟨fun a b h _ => by show (a : ℚ) ≤ b; exact_mod_cast h, fun i _ => by simp, fun i _ => by simp⟩

/-- one infinite value, or one large value -/
def exData (v : X ℚ) : ℕ → X ℚ × X ℚ
  | 1 => (v, .fin 3)
  | 3 => (.fin 1, .fin 1)
  | 4 => (.fin 2, .fin 2)
  | _ => (.fin 1, .fin 2)

/-- C145 (negation): the last window has two observations, in which the series agree. After an infinite value three days before the RMSD is NaN and the
correlation -1 with p-value 0; after a large value the RMSD is NaN. -/
theorem infinite_before (sq : ℚ → ℚ) (pvalue : X ℚ → ℕ → X ℚ) :
    (∃ o, (rollingPrRmsd (Pairwise.Infinite.double sq) pvalue id exTimes (exData (.inf false)) 5 2 false 1)[4]? = some o ∧ o.rmsd = .nan ∧
      ((o.R = .fin (-1) ∧ o.p = .fin 0) ∨ (o.R = .nan ∧ o.p = .nan))) ∧
    (∃ o, (rollingPrRmsd (Pairwise.Infinite.double sq) pvalue id exTimes (exData (.fin (2 ^ 600))) 5 2 false 1)[4]? = some o ∧ o.rmsd = .nan) := by
  constructor
  · obtain ⟨o, h1, h2, h3⟩ := rmsd_forever (Pairwise.Infinite.double sq) pvalue id exTimes (exData (.inf false)) 5 2 false 1 exWindows 1
      (by simp [square, exData, Pairwise.Infinite.sub, Pairwise.Infinite.mul, IsNumber]) 4 (by omega) (by omega)
    obtain ⟨o', h1', h2', -⟩ := correlation_forever (Pairwise.Infinite.double sq) pvalue id exTimes (exData (.inf false)) 5 2 false 1 exWindows 1
      (Or.inl (by simp [exData, IsNumber])) 4 (by omega) (by omega)
    rw [h1] at h1'
    cases h1'
    exact ⟨o, h1, h3 (by omega), h2'⟩
  · obtain ⟨o, h1, h2, h3⟩ := rmsd_forever (Pairwise.Infinite.double sq) pvalue id exTimes (exData (.fin (2 ^ 600))) 5 2 false 1 exWindows 1
      (by
        have : square (Pairwise.Infinite.double sq) (exData (.fin (2 ^ 600)) 1) = .inf false := by
          show square (Pairwise.Infinite.double id) (exData (.fin (2 ^ 600)) 1) = .inf false
          decide +kernel
        rw [this]; exact id) 4 (by omega) (by omega)
    exact ⟨o, h1, h3 (by omega)⟩

/-- without the infinite value, in exact arithmetic: RMSD 0 and correlation 1 in the last window -/
example : ((rollingPrRmsd (Pairwise.Infinite.rounded id (fun x => if x = 1 / 4 then 1 / 2 else 0)) (fun _ _ => .nan) id exTimes (exData (.fin 3)) 5 2 false 1)[4]?).map
    (fun o => (o.R, o.rmsd)) = some (.fin 1, .fin 0) := by decide +kernel

/-! ## Finite numbers -/

/-- NaN of C104 -/
def liftO (a : Option K) : X K := a.elim .nan .fin

/-- sums of C104 -/
def liftSums (s : Fl.Sums K) : Sums K := ⟨s.nobs, liftO s.mx, liftO s.my, liftO s.M2x, liftO s.M2y, liftO s.C, liftO s.msd⟩

/-- no sum is NaN -/
def Clean (s : Fl.Sums K) : Prop := s.mx.isSome ∧ s.my.isSome ∧ s.M2x.isSome ∧ s.M2y.isSome ∧ s.C.isSome ∧ s.msd.isSome

theorem lift_add [IsStrictOrderedRing K] (rnd sq : K → K) (s : Fl.Sums K) (x y : K) (h : Clean s) :
    add (Pairwise.Infinite.rounded rnd sq) (liftSums s) (.fin x, .fin y) = liftSums (Fl.add rnd s (some x, some y)) ∧ Clean (Fl.add rnd s (some x, some y)) := by
  obtain ⟨n, a, b, c, e, f, g⟩ := s
  obtain ⟨h1, h2, h3, h4, h5, h6⟩ := h
  simp only [Option.isSome_iff_exists] at h1 h2 h3 h4 h5 h6
  obtain ⟨a, rfl⟩ := h1
  obtain ⟨b, rfl⟩ := h2
  obtain ⟨c, rfl⟩ := h3
  obtain ⟨e, rfl⟩ := h4
  obtain ⟨f, rfl⟩ := h5
  obtain ⟨g, rfl⟩ := h6
  have hn : ((n : K) + 1) ≠ 0 := by positivity
  constructor
  · simp [add, Fl.add, liftSums, liftO, Fl.op, Fl.divN, Fl.sqDiff, square, Pairwise.Infinite.add, Pairwise.Infinite.sub, Pairwise.Infinite.mul,
      Pairwise.Infinite.div, Pairwise.Infinite.rounded, hn]
  · simp [Clean, Fl.add, Fl.op, Fl.divN, Fl.sqDiff]

theorem lift_remove [IsStrictOrderedRing K] (rnd sq : K → K) (s : Fl.Sums K) (x y : K) (h : Clean s) (hs : 2 ≤ s.nobs) :
    remove (Pairwise.Infinite.rounded rnd sq) (liftSums s) (.fin x, .fin y) = liftSums (Fl.remove rnd s (some x, some y)) ∧
      Clean (Fl.remove rnd s (some x, some y)) := by
  obtain ⟨n, a, b, c, e, f, g⟩ := s
  obtain ⟨h1, h2, h3, h4, h5, h6⟩ := h
  simp only [Option.isSome_iff_exists] at h1 h2 h3 h4 h5 h6
  obtain ⟨a, rfl⟩ := h1
  obtain ⟨b, rfl⟩ := h2
  obtain ⟨c, rfl⟩ := h3
  obtain ⟨e, rfl⟩ := h4
  obtain ⟨f, rfl⟩ := h5
  obtain ⟨g, rfl⟩ := h6
  obtain ⟨m, rfl⟩ : ∃ m, n = m + 2 := ⟨n - 2, by simp only at hs; omega⟩
  have hn : ((m : K) + 1) ≠ 0 := by positivity
  constructor
  · simp [remove, Fl.remove, liftSums, liftO, Fl.op, Fl.divN, Fl.sqDiff, square, Pairwise.Infinite.sub, Pairwise.Infinite.mul,
      Pairwise.Infinite.div, Pairwise.Infinite.rounded, hn]
  · simp [Clean, Fl.remove, Fl.op, Fl.divN, Fl.sqDiff]

theorem lift_adds [IsStrictOrderedRing K] (rnd sq : K → K) (x y : ℕ → K) : ∀ (l : List ℕ) (s : Fl.Sums K), Clean s →
    (l.map (fun j => ((.fin (x j), .fin (y j)) : X K × X K))).foldl (add (Pairwise.Infinite.rounded rnd sq)) (liftSums s) =
      liftSums ((l.map (fun j => (some (x j), some (y j)))).foldl (Fl.add rnd) s) ∧
    Clean ((l.map (fun j => (some (x j), some (y j)))).foldl (Fl.add rnd) s) ∧
    ((l.map (fun j => (some (x j), some (y j)))).foldl (Fl.add rnd) s).nobs = s.nobs + l.length
  | [], s, h => ⟨rfl, h, rfl⟩
  | j :: l, s, h => by
    obtain ⟨h1, h2⟩ := lift_add rnd sq s (x j) (y j) h
    obtain ⟨h3, h4, h5⟩ := lift_adds rnd sq x y l _ h2
    simp only [List.map_cons, List.foldl_cons, h1]
    refine ⟨h3, h4, ?_⟩
    rw [h5, List.length_cons]
    show s.nobs + 1 + l.length = _
    omega

theorem lift_removes [IsStrictOrderedRing K] (rnd sq : K → K) (x y : ℕ → K) : ∀ (l : List ℕ) (s : Fl.Sums K), Clean s → l.length < s.nobs →
    (l.map (fun j => ((.fin (x j), .fin (y j)) : X K × X K))).foldl (remove (Pairwise.Infinite.rounded rnd sq)) (liftSums s) =
      liftSums ((l.map (fun j => (some (x j), some (y j)))).foldl (Fl.remove rnd) s) ∧
    Clean ((l.map (fun j => (some (x j), some (y j)))).foldl (Fl.remove rnd) s) ∧
    ((l.map (fun j => (some (x j), some (y j)))).foldl (Fl.remove rnd) s).nobs = s.nobs - l.length
  | [], s, h, _ => ⟨rfl, h, rfl⟩
  | j :: l, s, h, hl => by
    rw [List.length_cons] at hl
    obtain ⟨h1, h2⟩ := lift_remove rnd sq s (x j) (y j) h (by omega)
    have hr : (Fl.remove rnd s (some (x j), some (y j))).nobs = s.nobs - 1 := rfl
    obtain ⟨h3, h4, h5⟩ := lift_removes rnd sq x y l _ h2 (by omega)
    simp only [List.map_cons, List.foldl_cons, h1]
    refine ⟨h3, h4, ?_⟩
    rw [h5, List.length_cons, hr]
    omega

theorem scan_finds (cond : ℕ → Prop) [DecidablePred cond] (a k v : ℕ) (h : ∃ j, a ≤ j ∧ j < a + k ∧ cond j) :
    a ≤ Rolling.scan cond v (List.range' a k) ∧ (∀ j, a ≤ j → j < Rolling.scan cond v (List.range' a k) → ¬ cond j) ∧
      cond (Rolling.scan cond v (List.range' a k)) ∧ Rolling.scan cond v (List.range' a k) < a + k := by
  have hex : ∃ j, a ≤ j ∧ cond j := h.imp fun j hj => ⟨hj.1, hj.2.2⟩
  obtain ⟨j, h1, h2, h3⟩ := h
  have hf := Nat.find_spec hex
  have hle : Nat.find hex ≤ j := Nat.find_min' hex ⟨h1, h3⟩
  have hmin : ∀ i, a ≤ i → i < Nat.find hex → ¬ cond i := fun i hi hlt hc => Nat.find_min hex hlt ⟨hi, hc⟩
  rw [Rolling.scan_first cond a k v (Nat.find hex) hf.1 (by omega) hf.2 hmin]
  exact ⟨hf.1, hmin, hf.2, by omega⟩

/-- end of the window before round `i` -/
def Before (rnd : K → K) (ts : ℕ → K) (n : ℕ) (w : K) (center : Bool) (i hi : ℕ) : Prop :=
  (i = 0 ∧ hi = 0) ∨ (0 < i ∧ i ≤ hi ∧ if center then hi ≤ n ∧ ts (hi - 1) ≤ rnd (ts (i - 1) + w) else hi = i)

/-- windows move forwards -/
theorem bounds_grow [IsStrictOrderedRing K] (rnd : K → K) (ts : ℕ → K) (n : ℕ) (w : K) (center : Bool) (hw : Fl.Windows rnd ts n w center) (hr : Monotone rnd)
    (i lo hi : ℕ) (hin : i < n) (hlo : lo ≤ i) (hb : Before rnd ts n w center i hi) :
    lo ≤ (Fl.bounds rnd ts n w center i lo hi).1 ∧ hi ≤ (Fl.bounds rnd ts n w center i lo hi).2 ∧
      Before rnd ts n w center (i + 1) (Fl.bounds rnd ts n w center i lo hi).2 := by
  obtain ⟨o1, o2⟩ := Fl.bounds_own rnd ts n w center hw i lo hi hin hlo
  cases center with
  | false =>
    unfold Fl.bounds rangeAB
    simp only [Bool.false_eq_true, if_false]
    refine ⟨(scan_finds _ lo (n - lo) lo ⟨i, hlo, by omega, hw.low i hin⟩).1, ?_, Or.inr ⟨by omega, le_rfl, by simp⟩⟩
    rcases hb with ⟨_, h⟩ | ⟨_, _, h⟩
    · omega
    · simp only [Bool.false_eq_true, if_false] at h
      omega
  | true =>
    refine ⟨?_, ?_⟩
    · unfold Fl.bounds rangeAB
      simp only [if_true]
      exact (scan_finds _ lo (n - lo) lo ⟨i, hlo, by omega, (hw.low i hin).le⟩).1
    · have hhi : hi ≤ n := by
        rcases hb with ⟨_, h⟩ | ⟨_, _, h⟩
        · omega
        · simp only [if_true] at h; exact h.1
      unfold Before
      unfold Fl.bounds rangeAB at o2 ⊢
      simp only [if_true] at o2 ⊢
      by_cases hc : ts (n - 1) > rnd (ts i + w)
      · rw [if_pos hc] at o2 ⊢
        have hu : ∃ u, u = (if i = 0 then 1 else hi - 1) ∧ u < n ∧ hi ≤ u + 1 ∧ (1 ≤ i → ¬ ts u > rnd (ts i + w)) ∧ (i = 0 → u = 1) ∧ (1 ≤ i → u = hi - 1) := by
          rcases hb with ⟨h0, h1⟩ | ⟨h0, h1, h2⟩
          · refine ⟨_, rfl, ?_, ?_, fun h => by omega, fun h => if_pos h, fun h => by omega⟩
            · rw [if_pos h0]
              by_contra hn
              have hn1 : n - 1 = i := by omega
              rw [hn1] at hc
              exact absurd (hw.high i hin) (not_le.mpr hc)
            · omega
          · simp only [if_true] at h2
            refine ⟨_, rfl, ?_, ?_, fun _ => ?_, fun h => by omega, fun _ => if_neg (by omega)⟩
            · rw [if_neg (by omega)]; omega
            · rw [if_neg (by omega)]; omega
            · rw [if_neg (by omega)]
              refine not_lt.mpr (h2.2.trans (hr ?_))
              have := hw.sorted (i - 1) i (by omega) hin
              linarith
        obtain ⟨u, hu0, hu1, hu2, hu3, hu4, hu5⟩ := hu
        rw [← hu0] at o2 ⊢
        obtain ⟨s1, s2, s3, s4⟩ := scan_finds (fun j => ts j > rnd (ts i + w)) u (n - u) (u + 1) ⟨n - 1, by omega, by omega, hc⟩
        set m := Rolling.scan (fun j => ts j > rnd (ts i + w)) (u + 1) (List.range' u (n - u)) with hm
        have hmu : 1 ≤ i → u < m := fun h => by
          rcases Nat.lt_or_ge u m with h' | h'
          · exact h'
          · exact absurd (show ts u > rnd (ts i + w) by rw [show u = m by omega]; exact s3) (hu3 h)
        refine ⟨?_, Or.inr ⟨by omega, by omega, by omega, ?_⟩⟩
        · rcases Nat.eq_zero_or_pos i with h | h
          · rcases hb with ⟨_, h1⟩ | ⟨h1, _⟩ <;> omega
          · have := hmu h; omega
        · rw [Nat.add_sub_cancel]
          rcases Nat.eq_zero_or_pos i with h | h
          · by_cases h1 : m = 1
            · rw [h1]; subst h; exact hw.high 0 hin
            · exact not_lt.mp (s2 (m - 1) (by have := hu4 h; omega) (by omega))
          · exact not_lt.mp (s2 (m - 1) (by have := hmu h; omega) (by omega))
      · rw [if_neg hc]
        rw [if_neg hc] at o2
        refine ⟨hhi, Or.inr ⟨by omega, by omega, le_rfl, ?_⟩⟩
        rw [Nat.add_sub_cancel]
        exact not_lt.mp hc

/-- state of C104 -/
def liftState (s : Fl.State K) : State K := ⟨s.lower, s.hi, liftSums s.sums⟩

theorem states_lift [IsStrictOrderedRing K] (rnd sq : K → K) (ts : ℕ → K) (x y : ℕ → K) (n : ℕ) (w : K) (center : Bool)
    (hw : Fl.Windows rnd ts n w center) (hr : Monotone rnd) : ∀ (m i : ℕ) (f : Fl.State K), i + m = n → f.lower ≤ i →
      f.lower ≤ f.hi → f.sums.nobs = f.hi - f.lower → Clean f.sums → Before rnd ts n w center i f.hi →
      states (Pairwise.Infinite.rounded rnd sq) rnd ts (fun j => (.fin (x j), .fin (y j))) n w center (liftState f) (List.range' i m) =
        (Fl.states rnd ts (fun j => (some (x j), some (y j))) n w center f (List.range' i m)).map liftState
  | 0, _, _, _, _, _, _, _, _ => rfl
  | m + 1, i, f, him, hlo, hlh, hn, hc, hb => by
    rw [List.range'_succ]
    unfold states Fl.states
    obtain ⟨o1, o2⟩ := Fl.bounds_own rnd ts n w center hw i f.lower f.hi (by omega) hlo
    obtain ⟨g1, g2, g3⟩ := bounds_grow rnd ts n w center hw hr i f.lower f.hi (by omega) hlo hb
    obtain ⟨a1, a2, a3⟩ := lift_adds rnd sq x y (rangeAB f.hi (Fl.bounds rnd ts n w center i f.lower f.hi).2) f.sums hc
    have hlen : ∀ a b, (rangeAB a b).length = b - a := fun a b => by unfold rangeAB; exact List.length_range'
    rw [hlen] at a3
    obtain ⟨r1, r2, r3⟩ := lift_removes rnd sq x y (rangeAB f.lower (Fl.bounds rnd ts n w center i f.lower f.hi).1) _ a2
      (by rw [a3, hlen]; omega)
    rw [hlen, a3] at r3
    have hround : round (Pairwise.Infinite.rounded rnd sq) rnd ts (fun j => (.fin (x j), .fin (y j))) n w center (liftState f) i =
        liftState (Fl.round rnd ts (fun j => (some (x j), some (y j))) n w center f i) := by
      unfold round Fl.round liftState
      simp only
      rw [a1, r1]
    simp only [List.map_cons]
    rw [hround]
    congr 1
    exact states_lift rnd sq ts x y n w center hw hr m (i + 1) _ (by omega) (by show (Fl.bounds rnd ts n w center i f.lower f.hi).1 ≤ i + 1; omega)
      (by show (Fl.bounds rnd ts n w center i f.lower f.hi).1 ≤ (Fl.bounds rnd ts n w center i f.lower f.hi).2; omega)
      (by
        show _ = (Fl.bounds rnd ts n w center i f.lower f.hi).2 - (Fl.bounds rnd ts n w center i f.lower f.hi).1
        exact r3.trans (by omega))
      r2 g3

theorem lift_sqrt (A : Fl.Arith K) (a : Option K) : Pairwise.Infinite.sqrt (Pairwise.Infinite.rounded A.rnd A.sqrt) (liftO a) = liftO (Fl.fsqrt A a) := by
  cases a with
  | none => rfl
  | some v =>
    by_cases hv : v < 0
    · simp [liftO, Fl.fsqrt, Pairwise.Infinite.sqrt, hv]
    · simp [liftO, Fl.fsqrt, Pairwise.Infinite.sqrt, hv, Pairwise.Infinite.rounded]

theorem lift_coeff [IsStrictOrderedRing K] (A : Fl.Arith K) (vx vy c : Option K) :
    Pairwise.Infinite.clip (Pairwise.Infinite.div (Pairwise.Infinite.rounded A.rnd A.sqrt) (liftO c)
      (Pairwise.Infinite.sqrt (Pairwise.Infinite.rounded A.rnd A.sqrt) (Pairwise.Infinite.mul (Pairwise.Infinite.rounded A.rnd A.sqrt) (liftO vx) (liftO vy)))) =
      .fin (Fl.coeff A vx vy c) := by
  have hm : Pairwise.Infinite.mul (Pairwise.Infinite.rounded A.rnd A.sqrt) (liftO vx) (liftO vy) = liftO (Fl.op A.rnd (· * ·) vx vy) := by
    cases vx <;> cases vy <;> rfl
  rw [hm, lift_sqrt]
  unfold Fl.coeff
  have h1 : (-1 : K) < 1 := by linarith [zero_lt_one (α := K)]
  cases c with
  | none => simp [liftO, Pairwise.Infinite.div, Pairwise.Infinite.clip, Pairwise.Infinite.lt]
  | some c =>
    cases Fl.fsqrt A (Fl.op A.rnd (· * ·) vx vy) with
    | none => simp [liftO, Pairwise.Infinite.div, Pairwise.Infinite.clip, Pairwise.Infinite.lt]
    | some t =>
      by_cases ht : t = 0
      · rcases lt_trichotomy c 0 with hc | hc | hc
        · have hc' : ¬ 0 < c := not_lt.mpr hc.le
          simp [liftO, Pairwise.Infinite.div, Pairwise.Infinite.clip, Pairwise.Infinite.lt, ht, hc, hc.ne, hc']
        · simp [liftO, Pairwise.Infinite.div, Pairwise.Infinite.clip, Pairwise.Infinite.lt, ht, hc]
        · have hc' : ¬ c < 0 := not_lt.mpr hc.le
          simp [liftO, Pairwise.Infinite.div, Pairwise.Infinite.clip, Pairwise.Infinite.lt, ht, hc, hc.ne', hc', h1]
      · simp only [liftO, Option.elim, Pairwise.Infinite.div, ht, if_false, Pairwise.Infinite.rounded, Pairwise.Infinite.clip, Pairwise.Infinite.lt, Fl.clip]
        by_cases h2 : 1 < A.rnd (c / t)
        · simp [h2, h1]
        · by_cases h3 : -1 < A.rnd (c / t)
          · simp [h2, h3]
          · simp [h2, h3]

theorem lift_pearsonr [IsStrictOrderedRing K] (A : Fl.Arith K) (pvalue : X K → ℕ → X K) (hp : ∀ (r : K) (m : ℕ), pvalue (.fin r) m = liftO (Fl.pval A r m))
    (vx vy c : Option K) (m : ℕ) :
    Pairwise.Infinite.pearsonr (Pairwise.Infinite.rounded A.rnd A.sqrt) pvalue (liftO vx) (liftO vy) (liftO c) m =
      (liftO (Fl.pearsonr A vx vy c m).1, liftO (Fl.pearsonr A vx vy c m).2) := by
  have hz : ∀ v : Option K, liftO v = .fin 0 ↔ v = some 0 := fun v => by cases v <;> simp [liftO]
  unfold Pairwise.Infinite.pearsonr Fl.pearsonr
  by_cases h : vx = some 0 ∨ vy = some 0
  · rw [if_pos (by rwa [hz, hz]), if_pos h]; rfl
  · rw [if_neg (by rwa [hz, hz]), if_neg h, lift_coeff]
    by_cases hr : |Fl.coeff A vx vy c| = 1
    · simp [Pairwise.Infinite.abs, hr, liftO]
    · simp only [Pairwise.Infinite.abs, X.fin.injEq, hr, if_false, hp]
      rfl

/-- C145, part 3: with finite numbers and without overflow the results are those of C104, for every monotone rounding and centred and trailing windows. -/
theorem numbers_rolling [IsStrictOrderedRing K] (A : Fl.Arith K) (pvalue : X K → ℕ → X K) (hp : ∀ (r : K) (m : ℕ), pvalue (.fin r) m = liftO (Fl.pval A r m))
    (ts : ℕ → K) (x y : ℕ → K) (n : ℕ) (w : K) (center : Bool) (minPeriods : ℤ) (hw : Fl.Windows A.rnd ts n w center) (hr : Monotone A.rnd) :
    rollingPrRmsd (Pairwise.Infinite.rounded A.rnd A.sqrt) pvalue A.rnd ts (fun j => (.fin (x j), .fin (y j))) n w center minPeriods =
      (Fl.rollingPrRmsd A ts (fun j => (some (x j), some (y j))) n w center minPeriods).map (fun o => ⟨liftO o.R, liftO o.p, liftO o.rmsd⟩) := by
  have h := states_lift A.rnd A.sqrt ts x y n w center hw hr n 0 ⟨0, 0, Fl.zero⟩ (by omega) le_rfl le_rfl rfl ⟨rfl, rfl, rfl, rfl, rfl, rfl⟩ (Or.inl ⟨rfl, rfl⟩)
  have hlen : ∀ (l : List ℕ) (f : Fl.State K), (Fl.states A.rnd ts (fun j => (some (x j), some (y j))) n w center f l).length = l.length := by
    intro l
    induction l with
    | nil => intro f; rfl
    | cons a l ih => intro f; unfold Fl.states; simp [ih]
  unfold rollingPrRmsd Fl.rollingPrRmsd
  rw [List.range_eq_range', show (⟨0, 0, zero⟩ : State K) = liftState ⟨0, 0, Fl.zero⟩ from rfl, h]
  simp only [List.map_map]
  refine List.map_congr_left fun f hf => ?_
  obtain ⟨j, hj⟩ := List.mem_iff_getElem?.mp hf
  have hjn : j < n := by
    have := (List.getElem?_eq_some_iff.mp hj).1
    rwa [hlen, List.length_range'] at this
  obtain ⟨f', h1, h2, h3, -⟩ := Fl.states_keep (fun _ => True) A.rnd ts (fun j => (some (x j), some (y j))) n w center hw 0 (fun _ _ _ => trivial)
    (fun _ _ _ => trivial) (fun _ => trivial) n 0 ⟨0, 0, Fl.zero⟩ (by omega) le_rfl (fun _ => trivial) j hjn
  rw [hj] at h1
  cases h1
  have hnat : ((((f.hi : ℤ) - (f.lower : ℤ)).toNat : ℕ) : ℤ) = (f.hi : ℤ) - (f.lower : ℤ) := Int.toNat_of_nonneg (by omega)
  show out _ pvalue minPeriods (liftState f) = ⟨liftO (Fl.out A minPeriods f).R, liftO (Fl.out A minPeriods f).p, liftO (Fl.out A minPeriods f).rmsd⟩
  by_cases hc : (f.hi : ℤ) - (f.lower : ℤ) = 0 ∨ (f.hi : ℤ) - (f.lower : ℤ) < minPeriods
  · have e1 : out (Pairwise.Infinite.rounded A.rnd A.sqrt) pvalue minPeriods (liftState f) = ⟨.nan, .nan, .nan⟩ := if_pos hc
    have e2 : Fl.out A minPeriods f = ⟨none, none, none⟩ := if_pos hc
    rw [e1, e2]; rfl
  · have e1 : out (Pairwise.Infinite.rounded A.rnd A.sqrt) pvalue minPeriods (liftState f) =
        (let pr := Pairwise.Infinite.pearsonr (Pairwise.Infinite.rounded A.rnd A.sqrt) pvalue (liftO f.sums.M2x) (liftO f.sums.M2y) (liftO f.sums.C)
          ((f.hi : ℤ) - (f.lower : ℤ)).toNat
        ⟨pr.1, pr.2, Pairwise.Infinite.sqrt (Pairwise.Infinite.rounded A.rnd A.sqrt) (liftO f.sums.msd)⟩) := if_neg hc
    have e2 : Fl.out A minPeriods f =
        (let pr := Fl.pearsonr A f.sums.M2x f.sums.M2y f.sums.C ((f.hi : ℤ) - (f.lower : ℤ))
        ⟨pr.1, pr.2, Fl.fsqrt A f.sums.msd⟩) := if_neg hc
    rw [e1, e2]
    simp only
    rw [lift_pearsonr A pvalue hp, lift_sqrt, hnat]

/-- the hypotheses hold for five days, centred windows and arithmetic without rounding -/
example (sq : ℚ → ℚ) (beta : ℚ → ℚ → ℚ → ℚ) (x y : ℕ → ℚ) :=
  numbers_rolling (⟨id, sq, beta⟩ : Fl.Arith ℚ) (fun r m => match r with | .fin r => liftO (Fl.pval ⟨id, sq, beta⟩ r m) | _ => .nan) (fun _ _ => rfl) exTimes x y 5 1 true 1
    ⟨fun a b h _ => by show (a : ℚ) ≤ b; exact_mod_cast h, fun i _ => by simp, fun i _ => by simp⟩ monotone_id

/-- the RMSD of five days, centred windows -/
example : (rollingPrRmsd (Pairwise.Infinite.rounded id id) (fun _ _ => .nan) id exTimes (fun j => (.fin (j : ℚ), .fin 0)) 5 1 true 1).map (·.rmsd) =
    [.fin (1 / 2), .fin (5 / 3), .fin (14 / 3), .fin (29 / 3), .fin (25 / 2)] := by decide +kernel

end Verif.Rolling.Infinite
