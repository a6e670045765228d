import Verif.Memory.Props
import Verif.Pairwise.Deprecated

/-!
C134: metrics of two series of different lengths. `Memory.Props` covers the compiled routines (`bias`, `RSS`, the moments, `ubrmsd`);
here are the metrics of `src/pytesmo/metrics/pairwise.py` that are written with NumPy or that combine NumPy with the compiled `RSS`.

NumPy pairs arrays of equal length, repeats an array of length one, and raises ValueError otherwise. Arithmetic is over ℝ as in
`Verif.Pairwise`; a quotient by zero (NaN or an infinity in the code) is that of Lean, the negations below avoid it.
-/

namespace Verif.Memory

open Verif.Pairwise (npMean npMedian npStd1)

/-- What a call can end in besides a number: ValueError of NumPy, or an access outside of an array. Used for pairwise.py:80-542. -/
inductive LenErr
  | value
  | memory
  deriving DecidableEq

/-- `f(x, y)` of two one-dimensional NumPy arrays, element by element with broadcasting. Used for pairwise.py:103, 135, 154, 520, 542. -/
noncomputable def spread (f : ℝ → ℝ → ℝ) (x y : List ℝ) : Except LenErr (List ℝ) :=
  if x.length = y.length then .ok (List.zipWith f x y)
  else
    match x, y with
    | [a], y => .ok (y.map (f a))
    | x, [b] => .ok (x.map (fun a => f a b))
    | _, _ => .error .value

/-- A run of a compiled routine as the result of a call. Used for pairwise.py:193, 228, 292, 521. -/
noncomputable def compiled (r : Option ℝ) : Except LenErr ℝ :=
  match r with
  | none => .error .memory
  | some v => .ok v

/-- pairwise.py:135 `aad(x, y)` -/
noncomputable def aadLen (x y : List ℝ) : Except LenErr ℝ := (spread (fun a b => |a - b|) x y).map npMean

/-- pairwise.py:154 `mad(x, y)`; `none` is NaN (empty arrays) -/
noncomputable def madLen (x y : List ℝ) : Except LenErr (Option ℝ) := (spread (fun a b => |a - b|) x y).map npMedian

/-- pairwise.py:542 `nash_sutcliffe(o, p)` -/
noncomputable def nashLen (o p : List ℝ) : Except LenErr ℝ :=
  (spread (fun a b => (a - b) ^ 2) o p).map (fun d => 1 - d.sum / (o.map (fun a => (a - npMean o) ^ 2)).sum)

/-- pairwise.py:520-522 `index_of_agreement(o, p)`: the denominator with NumPy, then the compiled `RSS` -/
noncomputable def agreementLen (o p : List ℝ) : Except LenErr ℝ :=
  match spread (fun a b => (|b - npMean o| + |a - npMean o|) ^ 2) o p with
  | .error e => .error e
  | .ok d => (compiled (RSS o p)).map (fun r => 1 - r / d.sum)

/-- pairwise.py:102-104 `bias_ci(x, y, b, alpha)`: the number of observations is `len(x)`. -/
noncomputable def biasCiLen (tppf : ℝ → ℝ → ℝ) (x y : List ℝ) (b alpha : ℝ) : Except LenErr (ℝ × ℝ) :=
  (spread (fun a b => a - b) x y).map (fun d =>
    let delta := npStd1 d / Real.sqrt (x.length : ℝ) * tppf (1 - alpha / 2) ((x.length : ℝ) - 1)
    (b - delta, b + delta))

/-- pairwise.py:193 `msd(x, y)` -/
noncomputable def msdLen (x y : List ℝ) : Except LenErr ℝ := (compiled (RSS x y)).map (fun r => r / (x.length : ℝ))

/-- pairwise.py:220-228 `rmsd(x, y, ddof)` -/
noncomputable def rmsdLen (x y : List ℝ) (ddof : ℤ) : Except LenErr ℝ :=
  if ddof = 0 then (msdLen x y).map Real.sqrt
  else (compiled (RSS x y)).map (fun r => Real.sqrt (r / ((x.length : ℝ) - ddof)))

/-- pairwise.py:253 `nrmsd(x, y, ddof)`: `rmsd` first; `np.max([x, y])` of arrays of different lengths is a ValueError. -/
noncomputable def nrmsdLen (x y : List ℝ) (ddof : ℤ) : Except LenErr ℝ :=
  match rmsdLen x y ddof with
  | .error e => .error e
  | .ok r =>
    if x.length = y.length then .ok (r / (Pairwise.maxBoth (x.zip y) - Pairwise.minBoth (x.zip y))) else .error .value

/-- pairwise.py:286-294 `ubrmsd(x, y, ddof)`: the means are those of the whole arrays, `RSS` runs over the length of `x`. -/
noncomputable def ubrmsdLen (x y : List ℝ) (ddof : ℤ) : Except LenErr ℝ :=
  if ddof ≠ 0 then
    (compiled (RSS (x.map (fun a => a - npMean x)) (y.map (fun b => b - npMean y)))).map
      (fun r => Real.sqrt (r / ((x.length : ℝ) - ddof)))
  else compiled (ubrmsd x y)

/-! ### Broadcasting -/

/-- Specification: the two series of `n` values each that NumPy pairs, if there are any. -/
inductive Pairing : List ℝ → List ℝ → List ℝ → List ℝ → Prop
  | same (x y : List ℝ) (h : x.length = y.length) : Pairing x y x y
  | left (a : ℝ) (y : List ℝ) (h : y.length ≠ 1) : Pairing [a] y (List.replicate y.length a) y
  | right (x : List ℝ) (b : ℝ) (h : x.length ≠ 1) : Pairing x [b] x (List.replicate x.length b)

theorem pairing_length {x y x' y' : List ℝ} (h : Pairing x y x' y') : x'.length = y'.length := by
  cases h with
  | same _ _ h => exact h
  | left => simp
  | right => simp

theorem spread_pairing (f : ℝ → ℝ → ℝ) {x y x' y' : List ℝ} (h : Pairing x y x' y') : spread f x y = .ok (List.zipWith f x' y') := by
  cases h with
  | same _ _ h => simp [spread, h]
  | left a y h =>
    have h' : ¬ ([a] : List ℝ).length = y.length := fun e => h (by simpa using e.symm)
    unfold spread
    rw [if_neg h']
    congr 1
    clear h h'
    induction y with
    | nil => rfl
    | cons b y ih => simpa [List.replicate_succ] using ih
  | right x b h =>
    have h' : ¬ x.length = ([b] : List ℝ).length := fun e => h (by simpa using e)
    have hx : ∀ a, x ≠ [a] := fun a e => h (by simp [e])
    have e : spread f x [b] = .ok (x.map (fun a => f a b)) := by
      unfold spread
      rw [if_neg h']
      split
      · exact absurd rfl (hx _)
      · rename_i heq; cases heq; rfl
      · rename_i hn; exact absurd rfl (hn b)
    rw [e]
    congr 1
    clear h h' hx e
    induction x with
    | nil => rfl
    | cons a x ih => simpa [List.replicate_succ] using ih

theorem spread_refused (f : ℝ → ℝ → ℝ) (x y : List ℝ) (h : x.length ≠ y.length) (hx : x.length ≠ 1) (hy : y.length ≠ 1) :
    spread f x y = .error .value := by
  unfold spread
  rw [if_neg h]
  split
  · exact absurd rfl hx
  · exact absurd rfl hy
  · rfl

theorem zip_map_fst_of_length {x y : List ℝ} (h : x.length = y.length) : (x.zip y).map Prod.fst = x :=
  List.map_fst_zip (le_of_eq h)

theorem zipWith_zip (f : ℝ → ℝ → ℝ) (x y : List ℝ) : List.zipWith f x y = (x.zip y).map (fun p => f p.1 p.2) := by
  rw [List.zip, List.map_zipWith]

/-! ### The metrics -/

/-- **C134.** `aad` and `mad` of series that NumPy can pair are those of the pairs: equal lengths, or one value that stands for a constant
series. -/
theorem deviation_paired {x y x' y' : List ℝ} (h : Pairing x y x' y') :
    aadLen x y = .ok (Pairwise.aad (x'.zip y')) ∧ madLen x y = .ok (Pairwise.madOf (x'.zip y')) := by
  constructor
  · unfold aadLen; rw [spread_pairing _ h, zipWith_zip]; rfl
  · unfold madLen; rw [spread_pairing _ h, zipWith_zip]; rfl

theorem npMean_replicate (n : ℕ) (hn : n ≠ 0) (a : ℝ) : npMean (List.replicate n a) = a := by
  unfold npMean
  rw [List.sum_replicate, List.length_replicate, nsmul_eq_mul]
  have : (n : ℝ) ≠ 0 := Nat.cast_ne_zero.2 hn
  field_simp

/-- **C134.** The same for the Nash-Sutcliffe efficiency: a single prediction stands for a constant prediction. (With a single observation
the efficiency is undefined: the variance of the observations is 0.) -/
theorem nash_paired {o p o' p' : List ℝ} (h : Pairing o p o' p') : nashLen o p = .ok (Pairwise.nashSutcliffe (o'.zip p')) := by
  unfold nashLen
  rw [spread_pairing _ h, zipWith_zip]
  have hl := pairing_length h
  have e : (o.map (fun a => (a - npMean o) ^ 2)).sum
      = ((o'.zip p').map (fun q => (q.1 - npMean ((o'.zip p').map Prod.fst)) ^ 2)).sum := by
    rw [zip_map_fst_of_length hl]
    have e2 : (o'.zip p').map (fun q => (q.1 - npMean o') ^ 2) = o'.map (fun a => (a - npMean o') ^ 2) := by
      generalize npMean o' = m
      conv_rhs => rw [← zip_map_fst_of_length hl]
      rw [List.map_map]; rfl
    rw [e2]
    cases h with
    | same => rfl
    | right => rfl
    | left a _ hy =>
      have e3 : npMean [a] = a := by simp [npMean]
      rw [e3]
      by_cases h0 : p.length = 0
      · simp [h0]
      · rw [npMean_replicate _ h0]
        simp
  show Except.ok _ = _
  rw [e]; rfl

/-- **C134.** The interval of the bias with a single value as second series is that of the constant series. -/
theorem biasCi_right (tppf : ℝ → ℝ → ℝ) (x : List ℝ) (v b alpha : ℝ) (h : x.length ≠ 1) :
    biasCiLen tppf x [v] b alpha = .ok (Pairwise.biasCi tppf (x.zip (List.replicate x.length v)) b alpha) := by
  unfold biasCiLen
  rw [spread_pairing _ (.right x v h), zipWith_zip]
  have e : Pairwise.num (x.zip (List.replicate x.length v)) = (x.length : ℝ) := by simp [Pairwise.num]
  show Except.ok _ = _
  unfold Pairwise.biasCi
  rw [e]

/-- **C134.** Different lengths, none of them 1: `aad`, `mad`, `nash_sutcliffe`, `index_of_agreement` and `bias_ci` raise ValueError, and
`nrmsd` never returns a number for different lengths. Missing: the other metrics, which do not refuse such series (`msd_lengths`,
`metrics_safe`), and lengths of 1 (`deviation_paired`, `nash_paired`, `agreement_single_observation`). -/
theorem different_lengths_refused_partial (tppf : ℝ → ℝ → ℝ) (x y : List ℝ) (b alpha : ℝ) (ddof : ℤ) (h : x.length ≠ y.length) :
    (x.length ≠ 1 → y.length ≠ 1 → aadLen x y = .error .value ∧ madLen x y = .error .value ∧ nashLen x y = .error .value ∧
      agreementLen x y = .error .value ∧ biasCiLen tppf x y b alpha = .error .value) ∧
    (∀ v, nrmsdLen x y ddof ≠ .ok v) := by
  refine ⟨fun hx hy => ?_, fun v => ?_⟩
  · refine ⟨?_, ?_, ?_, ?_, ?_⟩
    · unfold aadLen; rw [spread_refused _ x y h hx hy]; rfl
    · unfold madLen; rw [spread_refused _ x y h hx hy]; rfl
    · unfold nashLen; rw [spread_refused _ x y h hx hy]; rfl
    · unfold agreementLen; rw [spread_refused _ x y h hx hy]
    · unfold biasCiLen; rw [spread_refused _ x y h hx hy]; rfl
  · unfold nrmsdLen
    cases rmsdLen x y ddof with
    | error e => simp
    | ok r => simp [h]

/-- **C134.** Equal lengths: the metrics that use the compiled `RSS` are those of the pairs. -/
theorem equal_lengths (tppf : ℝ → ℝ → ℝ) (x y : List ℝ) (b alpha : ℝ) (ddof : ℤ) (h : x.length = y.length) :
    agreementLen x y = .ok (Pairwise.indexOfAgreement (x.zip y)) ∧ msdLen x y = .ok (Pairwise.msd (x.zip y)) ∧
      rmsdLen x y ddof = .ok (Pairwise.rmsd (x.zip y) ddof) ∧ nrmsdLen x y ddof = .ok (Pairwise.nrmsd (x.zip y) ddof) ∧
      ubrmsdLen x y ddof = .ok (Pairwise.ubrmsd (x.zip y) ddof) ∧
      biasCiLen tppf x y b alpha = .ok (Pairwise.biasCi tppf (x.zip y) b alpha) := by
  have ht : y.take x.length = y := by rw [h]; exact List.take_length
  obtain ⟨-, hR, -, hU⟩ := metrics_safe x y (le_of_eq h)
  rw [ht] at hR hU
  have hn : Pairwise.num (x.zip y) = (x.length : ℝ) := by simp [Pairwise.num, h]
  have hm : msdLen x y = .ok (Pairwise.msd (x.zip y)) := by
    unfold msdLen Pairwise.msd; rw [hR, hn]; rfl
  have hr : rmsdLen x y ddof = .ok (Pairwise.rmsd (x.zip y) ddof) := by
    unfold rmsdLen Pairwise.rmsd
    split
    · rw [hm]; rfl
    · rw [hR, hn]; rfl
  have h1 : (x.zip y).map Prod.fst = x := zip_map_fst_of_length h
  have h2 : (x.zip y).map Prod.snd = y := List.map_snd_zip (le_of_eq h.symm)
  refine ⟨?_, hm, hr, ?_, ?_, ?_⟩
  · unfold agreementLen Pairwise.indexOfAgreement
    rw [spread_pairing _ (.same x y h), zipWith_zip, hR, h1]; rfl
  · unfold nrmsdLen Pairwise.nrmsd
    rw [hr]
    simp only [if_pos h]
  · unfold ubrmsdLen Pairwise.ubrmsd
    split
    · obtain ⟨-, hR', -, -⟩ := metrics_safe (x.map (fun a => a - npMean x)) (y.map (fun b => b - npMean y)) (by simp [h])
      rw [hR', hn, h1, h2]
      have e : (x.map (fun a => a - npMean x)).zip ((y.map (fun b => b - npMean y)).take (x.map (fun a => a - npMean x)).length)
          = (x.zip y).map (fun p => (p.1 - npMean x, p.2 - npMean y)) := by
        rw [List.length_map, List.take_of_length_le (by simp [h])]
        rw [List.zip_map]; rfl
      rw [e]; rfl
    · rw [hU]; rfl
  · unfold biasCiLen Pairwise.biasCi
    rw [spread_pairing _ (.same x y h), zipWith_zip, hn]; rfl

/-! ### What is not refused -/

/-- **C134, negation.** A second series that is too long is not refused by `msd` and `rmsd`: the values behind the length of the first one
are ignored. A second series that is too short is not refused either: memory behind its end is read. -/
theorem msd_lengths (x y : List ℝ) (ddof : ℤ) :
    (x.length ≤ y.length → msdLen x y = .ok (Pairwise.msd (x.zip (y.take x.length))) ∧
      rmsdLen x y ddof = .ok (Pairwise.rmsd (x.zip (y.take x.length)) ddof)) ∧
    (y.length < x.length → msdLen x y = .error .memory ∧ rmsdLen x y ddof = .error .memory ∧ nrmsdLen x y ddof = .error .memory) := by
  constructor
  · intro h
    obtain ⟨-, hR, -, -⟩ := metrics_safe x y h
    have hn : Pairwise.num (x.zip (y.take x.length)) = (x.length : ℝ) := by simp [Pairwise.num, h]
    have hm : msdLen x y = .ok (Pairwise.msd (x.zip (y.take x.length))) := by
      unfold msdLen Pairwise.msd; rw [hR, hn]; rfl
    refine ⟨hm, ?_⟩
    unfold rmsdLen Pairwise.rmsd
    split
    · rw [hm]; rfl
    · rw [hR, hn]; rfl
  · intro h
    obtain ⟨-, hR, -, -⟩ := metrics_unsafe x y h
    have hr : rmsdLen x y ddof = .error .memory := by
      unfold rmsdLen msdLen; rw [hR]; split <;> rfl
    refine ⟨?_, hr, ?_⟩
    · unfold msdLen; rw [hR]; rfl
    · unfold nrmsdLen; rw [hr]

/-- **C134, negation.** `index_of_agreement` of several observations and a single prediction passes the check of NumPy and then reads
behind the end of the predictions. -/
theorem agreement_single_prediction (o : List ℝ) (b : ℝ) (h : 1 < o.length) : agreementLen o [b] = .error .memory := by
  unfold agreementLen
  rw [spread_pairing _ (.right o b (by omega)), (metrics_unsafe o [b] (by simpa using h)).2.1]
  rfl

/-- **C134, negation.** `index_of_agreement` of a single observation and several predictions is a number, but not that of the constant
series of observations (which is 0 unless all predictions are right): only the first prediction enters the numerator. -/
theorem agreement_single_observation (a p0 : ℝ) (p : List ℝ) (hp : p ≠ []) :
    agreementLen [a] (p0 :: p) = .ok (1 - (a - p0) ^ 2 / ((p0 :: p).map (fun b => (b - a) ^ 2)).sum) ∧
      (((p0 :: p).map (fun b => (b - a) ^ 2)).sum ≠ 0 →
        Pairwise.indexOfAgreement ((List.replicate (p0 :: p).length a).zip (p0 :: p)) = 0) := by
  have hl : (p0 :: p).length ≠ 1 := by
    cases p with
    | nil => exact absurd rfl hp
    | cons => simp
  have hP := Pairing.left a (p0 :: p) hl
  have hsq : ∀ b : ℝ, (|b - a| + |a - a|) ^ 2 = (b - a) ^ 2 := fun b => by rw [sub_self, abs_zero, add_zero, sq_abs]
  have hzip : ∀ g : ℝ × ℝ → ℝ, ((List.replicate (p0 :: p).length a).zip (p0 :: p)).map g = (p0 :: p).map (fun b => g (a, b)) := by
    intro g
    generalize p0 :: p = q
    induction q with
    | nil => rfl
    | cons b q ih => simpa [List.replicate_succ] using ih
  have hone : npMean [a] = a := by simp [npMean]
  constructor
  · unfold agreementLen
    rw [hone, spread_pairing _ hP, zipWith_zip, hzip, (metrics_safe [a] (p0 :: p) (by simp)).2.1]
    simp only [hsq]
    have e : Pairwise.RSS ([a].zip ((p0 :: p).take ([a] : List ℝ).length)) = (a - p0) ^ 2 := by
      simp [Pairwise.RSS]
    rw [e]; rfl
  · intro h0
    unfold Pairwise.indexOfAgreement
    have hm : npMean (((List.replicate (p0 :: p).length a).zip (p0 :: p)).map Prod.fst) = a := by
      rw [zip_map_fst_of_length (by simp), npMean_replicate _ (by simp)]
    have hR : ∀ (l : List (ℝ × ℝ)) (s : ℝ), l.foldl (fun s p => s + (p.1 - p.2) ^ 2) s = s + (l.map (fun p => (p.2 - p.1) ^ 2)).sum := by
      intro l
      induction l with
      | nil => intro s; simp
      | cons q l ih => intro s; rw [List.foldl_cons, ih, List.map_cons, List.sum_cons]; ring
    have e1 : Pairwise.RSS ((List.replicate (p0 :: p).length a).zip (p0 :: p)) = ((p0 :: p).map (fun b => (b - a) ^ 2)).sum := by
      unfold Pairwise.RSS
      rw [hR, hzip, zero_add]
    simp only [hm]
    rw [e1, hzip]
    simp only [hsq]
    rw [div_self h0, sub_self]

/-- **C134, negation.** `ubrmsd` with `ddof` of a second series that is too long is a number, and not even that of the beginning of the
series: the mean is that of the whole. -/
theorem ubrmsd_ddof_wrong :
    ubrmsdLen [0, 0] [0, 0, 3] 1 = .ok (Real.sqrt 2) ∧ Pairwise.ubrmsd ([0, 0].zip [0, 0]) 1 = 0 := by
  constructor
  · unfold ubrmsdLen
    rw [if_pos (by decide), (metrics_safe _ _ (by simp)).2.1]
    show Except.ok _ = _
    congr 2
    norm_num [Pairwise.RSS, npMean]
  · norm_num [Pairwise.ubrmsd, Pairwise.RSS, npMean]

/-! ### Examples -/

example : aadLen [1, 2, 4] [1] = .ok (4 / 3) ∧ aadLen [1, 2, 4] [1, 2] = .error .value := by
  constructor
  · rw [(deviation_paired (.right [1, 2, 4] 1 (by simp))).1]
    norm_num [Pairwise.aad, npMean, List.replicate_succ]
  · exact (((different_lengths_refused_partial (fun _ _ => 0) [1, 2, 4] [1, 2] 0 0 0 (by simp)).1 (by simp) (by simp))).1

example : agreementLen [2] [2, 5] = .ok 1 ∧ Pairwise.indexOfAgreement ([2, 2].zip [2, 5]) = 0 := by
  have h := agreement_single_observation 2 2 [5] (by simp)
  constructor
  · rw [h.1]; norm_num
  · exact h.2 (by norm_num)

example : nashLen [1, 2, 6] [3] = .ok 0 := by
  rw [nash_paired (.right [1, 2, 6] 3 (by simp))]
  norm_num [Pairwise.nashSutcliffe, npMean, List.replicate_succ]

end Verif.Memory
