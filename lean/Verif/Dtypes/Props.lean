import Verif.Dtypes.Model

/-!
C98: metrics, calculators and filters and the element types of their arrays.
-/

set_option linter.unusedSectionVars false

noncomputable section

namespace Verif.Dtypes

open Verif.Pairwise Verif.Moments

/-! ### Specification -/

/-- the element type is a floating point type -/
def IsFloat (d : DType) : Prop := d = .f32 ∨ d = .f64

/-! ### Compiled functions -/

theorem fused_float {A : Type} (f : Pairs → A) (x y : Arr) (hx : IsFloat x.dtype) (h : y.dtype = x.dtype) :
    fused f x y = .ok (f (x.vals.zip y.vals)) := by
  unfold fused
  rcases hx with hx | hx <;> simp [hx, specialise, bind, Except.bind, h]

theorem fused_int {A : Type} (f : Pairs → A) (x y : Arr) (hx : x.dtype = .int) : fused f x y = .error .typeError := by
  unfold fused
  simp [hx, specialise, bind, Except.bind]

theorem fused_mixed {A : Type} (f : Pairs → A) (x y : Arr) (hx : IsFloat x.dtype) (h : y.dtype ≠ x.dtype) :
    fused f x y = .error .valueError := by
  unfold fused
  rcases hx with hx | hx <;> rw [hx] at h <;> simp [hx, specialise, bind, Except.bind, h]

theorem length_zip_eq (x y : Arr) (hl : x.vals.length = y.vals.length) : (x.vals.zip y.vals).length = x.vals.length := by
  rw [List.length_zip, hl, Nat.min_self]

theorem zip_fst (x y : Arr) (hl : x.vals.length = y.vals.length) : (x.vals.zip y.vals).map Prod.fst = x.vals := by
  rw [List.map_fst_zip hl.le]

theorem zip_snd (x y : Arr) (hl : x.vals.length = y.vals.length) : (x.vals.zip y.vals).map Prod.snd = y.vals := by
  rw [List.map_snd_zip hl.ge]

/-- **C98 (partial: two arrays of the same floating point type only).** Two arrays of the same floating point type and length: every metric has the
value of the numbers, the same for float32 and float64. -/
theorem metrics_one_type_partial (x y : Arr) (hx : IsFloat x.dtype) (h : y.dtype = x.dtype) (hl : x.vals.length = y.vals.length) (ddof : ℤ) :
    tBias x y = .ok (Pairwise.bias (x.vals.zip y.vals)) ∧ tRSS x y = .ok (Pairwise.RSS (x.vals.zip y.vals)) ∧
    tMsd x y = .ok (Pairwise.msd (x.vals.zip y.vals)) ∧ tRmsd x y ddof = .ok (Pairwise.rmsd (x.vals.zip y.vals) ddof) ∧
    tNrmsd x y ddof = .ok (Pairwise.nrmsd (x.vals.zip y.vals) ddof) ∧ tUbrmsd x y ddof = .ok (Pairwise.ubrmsd (x.vals.zip y.vals) ddof) ∧
    tMseCorr x y = .ok (Pairwise.mseCorr (x.vals.zip y.vals)) ∧ tMseVar x y = .ok (Pairwise.mseVar (x.vals.zip y.vals)) ∧
    tMseBias x y = .ok (Pairwise.mseBias (x.vals.zip y.vals)) ∧
    tMseDecomposition x y = .ok (Pairwise.mseDecomposition (x.vals.zip y.vals)) := by
  have hR : tRSS x y = .ok (Pairwise.RSS (x.vals.zip y.vals)) := fused_float _ _ _ hx h
  have hn : (x.vals.length : ℝ) = num (x.vals.zip y.vals) := by unfold num; rw [length_zip_eq x y hl]
  have hM : tMsd x y = .ok (Pairwise.msd (x.vals.zip y.vals)) := by
    unfold tMsd Pairwise.msd
    rw [hR, hn]
    rfl
  have hRm : tRmsd x y ddof = .ok (Pairwise.rmsd (x.vals.zip y.vals) ddof) := by
    unfold tRmsd Pairwise.rmsd
    split_ifs
    · rw [hM]; rfl
    · rw [hR, hn]; rfl
  refine ⟨fused_float _ _ _ hx h, hR, hM, hRm, ?_, ?_, fused_float _ _ _ hx h, fused_float _ _ _ hx h, fused_float _ _ _ hx h,
    fused_float _ _ _ hx h⟩
  · unfold tNrmsd Pairwise.nrmsd
    rw [hRm]
    rfl
  · unfold tUbrmsd Pairwise.ubrmsd
    split_ifs
    · have hni : ∀ a : Arr, IsFloat a.dtype → (centred a).dtype = a.dtype := by
        intro a ha
        unfold centred
        rcases ha with ha | ha <;> simp [ha]
      have hy : IsFloat y.dtype := h ▸ hx
      rw [show tRSS (centred x) (centred y) = .ok (Pairwise.RSS ((centred x).vals.zip (centred y).vals)) from
        fused_float _ _ _ (by rw [hni x hx]; exact hx) (by rw [hni x hx, hni y hy]; exact h)]
      have hz : (centred x).vals.zip (centred y).vals = (x.vals.zip y.vals).map
          (fun p => (p.1 - npMean x.vals, p.2 - npMean y.vals)) := by
        unfold centred
        simp only
        rw [List.zip_map]
        rfl
      simp only [zip_fst x y hl, zip_snd x y hl, ← hn, hz]
      rfl
    · exact fused_float _ _ _ hx h

/-- **C98, negation.** Two arrays of different type: every metric implemented in Cython raises although the numbers are fine (ValueError, or
TypeError if the first array holds integers), while `aad` returns the value. -/
theorem metrics_mixed_types (x y : Arr) (h : y.dtype ≠ x.dtype) (ddof : ℤ) (v : ℝ) :
    tBias x y ≠ .ok v ∧ tRSS x y ≠ .ok v ∧ tMsd x y ≠ .ok v ∧ tRmsd x y ddof ≠ .ok v ∧ tNrmsd x y ddof ≠ .ok v ∧
    tUbrmsd x y 0 ≠ .ok v ∧ tMseCorr x y ≠ .ok v ∧ tMseVar x y ≠ .ok v ∧ tMseBias x y ≠ .ok v ∧ (∀ w, tMseDecomposition x y ≠ .ok w) ∧
    (IsFloat x.dtype → tBias x y = .error .valueError ∧ tRmsd x y ddof = .error .valueError) ∧
    tAad x y = .ok (Pairwise.aad (x.vals.zip y.vals)) := by
  have hf : ∀ {A : Type} (f : Pairs → A), ∃ e, fused f x y = .error e ∧ (IsFloat x.dtype → e = .valueError) := by
    intro A f
    rcases hd : x.dtype with _ | _ | _
    · exact ⟨_, fused_mixed f x y (.inl hd) h, fun _ => rfl⟩
    · exact ⟨_, fused_mixed f x y (.inr hd) h, fun _ => rfl⟩
    · refine ⟨_, fused_int f x y hd, ?_⟩
      rintro (hh | hh) <;> cases hh
  have hb := hf Pairwise.bias
  obtain ⟨e, hR, he⟩ := hf Pairwise.RSS
  have hR : tRSS x y = .error e := hR
  have hM : tMsd x y = .error e := by unfold tMsd; rw [hR]; rfl
  have hRm : tRmsd x y ddof = .error e := by
    unfold tRmsd
    split_ifs
    · rw [hM]; rfl
    · rw [hR]; rfl
  have hN : tNrmsd x y ddof = .error e := by unfold tNrmsd; rw [hRm]; rfl
  have no : ∀ {A : Type} (f : Pairs → A) (w : A), fused f x y ≠ .ok w := by
    intro A f w hw
    obtain ⟨e, h1, -⟩ := hf f
    rw [h1] at hw
    cases hw
  refine ⟨no _ v, no _ v, by rw [hM]; simp, by rw [hRm]; simp, by rw [hN]; simp, ?_, no _ v, no _ v, no _ v, fun w => no _ w, ?_, rfl⟩
  · unfold tUbrmsd
    simpa using no ubrmsd0 v
  · intro hx
    refine ⟨fused_mixed _ x y hx h, ?_⟩
    rw [hRm, he hx]

/-- **C98, negation.** Arrays of integers: TypeError, except for `ubrmsd` with `ddof ≠ 0`, which is calculated from the centred (floating point)
arrays. -/
theorem metrics_integers (x y : Arr) (hx : x.dtype = .int) (hy : y.dtype = .int) (hl : x.vals.length = y.vals.length) (ddof : ℤ) :
    tBias x y = .error .typeError ∧ tRSS x y = .error .typeError ∧ tRmsd x y ddof = .error .typeError ∧
    tMseDecomposition x y = .error .typeError ∧ tUbrmsd x y 0 = .error .typeError ∧
    (ddof ≠ 0 → tUbrmsd x y ddof = .ok (Pairwise.ubrmsd (x.vals.zip y.vals) ddof)) := by
  have hR : tRSS x y = .error .typeError := fused_int _ _ _ hx
  refine ⟨fused_int _ _ _ hx, hR, ?_, fused_int _ _ _ hx, ?_, ?_⟩
  · unfold tRmsd tMsd
    rw [hR]
    split_ifs <;> rfl
  · unfold tUbrmsd
    simpa using fused_int ubrmsd0 x y hx
  · intro h0
    have e : tUbrmsd x y ddof = tUbrmsd ⟨.f64, x.vals⟩ ⟨.f64, y.vals⟩ ddof := by
      unfold tUbrmsd
      rw [if_pos h0, if_pos h0]
      have : ∀ a : Arr, a.dtype = .int → centred a = centred ⟨.f64, a.vals⟩ := by
        intro a ha
        unfold centred
        simp [ha]
      rw [this x hx, this y hy]
    rw [e]
    exact (metrics_one_type_partial ⟨.f64, x.vals⟩ ⟨.f64, y.vals⟩ (.inr rfl) rfl hl ddof).2.2.2.2.2.1

/-- converting both arrays to float64 first always works -/
theorem metrics_as_double (x y : Arr) (hl : x.vals.length = y.vals.length) (ddof : ℤ) :
    tBias ⟨.f64, x.vals⟩ ⟨.f64, y.vals⟩ = .ok (Pairwise.bias (x.vals.zip y.vals)) ∧
    tRmsd ⟨.f64, x.vals⟩ ⟨.f64, y.vals⟩ ddof = .ok (Pairwise.rmsd (x.vals.zip y.vals) ddof) := by
  obtain ⟨h1, -, -, h4, -⟩ := metrics_one_type_partial ⟨.f64, x.vals⟩ ⟨.f64, y.vals⟩ (.inr rfl) rfl hl ddof
  exact ⟨h1, h4⟩

/-! ### Frames -/

theorem promote_foldl_float (l : List DType) (d : DType) : IsFloat (l.foldl promote d) ↔ IsFloat d ∨ ∃ e ∈ l, IsFloat e := by
  induction l generalizing d with
  | nil => simp
  | cons e l ih =>
    rw [List.foldl_cons, ih]
    have : IsFloat (promote d e) ↔ IsFloat d ∨ IsFloat e := by
      cases d <;> cases e <;> simp [promote, IsFloat]
    rw [this]
    simp only [List.mem_cons, exists_eq_or_imp, or_assoc]

theorem promote_foldl_const (l : List DType) (d : DType) (h : ∀ e ∈ l, e = d) : l.foldl promote d = d := by
  induction l with
  | nil => rfl
  | cons e l ih =>
    rw [List.foldl_cons, h e List.mem_cons_self]
    have : promote d d = d := by simp [promote]
    rw [this]
    exact ih (fun e he => h e (List.mem_cons_of_mem _ he))

/-- **C98.** The metrics of a frame (`df_metrics`, `PairwiseIntercomparisonMetrics`, `RollingMetrics`) take the columns from one array of the common
type: if at least one column is floating point, every pair of columns has the metrics of its numbers; if all columns hold integers, every
metric raises TypeError. -/
theorem frame_metrics (l : List Arr) (i j : ℕ) (x y : Arr) (hi : l[i]? = some x) (hj : l[j]? = some y) :
    ∃ x' y', (values l)[i]? = some x' ∧ (values l)[j]? = some y' ∧ x'.vals = x.vals ∧ y'.vals = y.vals ∧
      ((∃ c ∈ l, IsFloat c.dtype) → tBias x' y' = .ok (Pairwise.bias (x.vals.zip y.vals)) ∧
        tRSS x' y' = .ok (Pairwise.RSS (x.vals.zip y.vals)) ∧
        tMoments x' y' = .ok (momentsWelford (x.vals.zip y.vals)) ∧
        tMseDecomposition x' y' = .ok (Pairwise.mseDecomposition (x.vals.zip y.vals)) ∧
        ∀ {A : Type} (f : List ℝ → Pairs → A) (ts : Arr), ts.dtype = .f64 → rollingTyped f ts x' y' = .ok (f ts.vals (x.vals.zip y.vals))) ∧
      ((∀ c ∈ l, c.dtype = .int) → tBias x' y' = .error .typeError ∧ tMoments x' y' = .error .typeError ∧
        ∀ {A : Type} (f : List ℝ → Pairs → A) (ts : Arr), rollingTyped f ts x' y' = .error .typeError) := by
  match l, hi, hj with
  | c :: l, hi, hj =>
    set d := (l.map Arr.dtype).foldl promote c.dtype with hd
    refine ⟨⟨d, x.vals⟩, ⟨d, y.vals⟩, ?_, ?_, rfl, rfl, ?_, ?_⟩
    · unfold values; rw [List.getElem?_map, hi]; rfl
    · unfold values; rw [List.getElem?_map, hj]; rfl
    · rintro ⟨e, he, hf⟩
      have hdf : IsFloat d := by
        rw [hd, promote_foldl_float]
        rcases List.mem_cons.mp he with rfl | he
        · exact .inl hf
        · exact .inr ⟨e.dtype, List.mem_map_of_mem he, hf⟩
      refine ⟨fused_float _ _ _ hdf rfl, fused_float _ _ _ hdf rfl, fused_float _ _ _ hdf rfl, fused_float _ _ _ hdf rfl, ?_⟩
      intro A f ts hts
      unfold rollingTyped
      rcases hdf with h | h <;> simp [h, specialise, bind, Except.bind, hts]
    · intro hall
      have hdi : d = .int := by
        rw [hd, hall c List.mem_cons_self]
        apply promote_foldl_const
        intro e he
        obtain ⟨a, ha, rfl⟩ := List.mem_map.mp he
        exact hall a (List.mem_cons_of_mem _ ha)
      refine ⟨fused_int _ _ _ hdi, fused_int _ _ _ hdi, ?_⟩
      intro A f ts
      unfold rollingTyped
      simp [hdi, specialise, bind, Except.bind]

/-! ### BasicMetrics -/

/-- **C98, negation for `BasicMetrics`.** If the two columns have different types (say float32 and float64), `calc_metrics` raises for every frame
with enough rows, so that no location of a validation gets metrics. -/
theorem basic_mixed_types (F : Calculators.BasicFuncs ℝ) (dx dy : DType) (h : dy ≠ dx) (other : Calculators.Name) (calcTau : Bool) (minObs : ℕ)
    (template : Calculators.Dict ℝ) (mt : Option (Calculators.Dict ℝ)) (data : Calculators.Frame ℝ) (info : Calculators.Info ℝ)
    (hn : minObs ≤ data.rows.length) (d : Calculators.Dict ℝ) : basicTyped F dx dy other calcTau minObs template mt data info ≠ .ok d := by
  have hr : ∀ x y, ∃ e, (basicFuncs F dx dy).rmsd x y = .error e := by
    intro x y
    simp only [basicFuncs, lift]
    cases hr : tRmsd ⟨dx, x.map (·.getD 0)⟩ ⟨dy, y.map (·.getD 0)⟩ 0 with
    | ok v => exact absurd hr (metrics_mixed_types ⟨dx, x.map (·.getD 0)⟩ ⟨dy, y.map (·.getD 0)⟩ h 0 v).2.2.2.1
    | error e => cases e <;> exact ⟨_, rfl⟩
  have hw : ∀ ws, Calculators.basicWrites (basicFuncs F dx dy) other calcTau data ≠ .ok ws := by
    intro ws hws
    unfold Calculators.basicWrites at hws
    simp only [bind, Except.bind] at hws
    cases h1 : Calculators.column data "ref".toList with
    | error e => rw [h1] at hws; cases hws
    | ok x =>
      rw [h1] at hws
      cases h2 : Calculators.column data other with
      | error e => rw [h2] at hws; cases hws
      | ok y =>
        rw [h2] at hws
        obtain ⟨e, he⟩ := hr x y
        simp only [he] at hws
        split at hws
        · cases hws
        split at hws <;> cases hws
  intro hc
  unfold basicTyped Calculators.basicCalc at hc
  simp only [bind, Except.bind] at hc
  split at hc
  · cases hc
  rw [if_neg (by omega)] at hc
  split at hc
  · cases hc
  rename_i ws hws
  exact hw ws hws

/-- the metrics of two columns without NaN -/
def exactFuncs (F : Calculators.BasicFuncs ℝ) : Calculators.BasicFuncs ℝ :=
  let num := fun (x y : List (Option ℝ)) (v : ℝ) => if x.all Option.isSome && y.all Option.isSome then some v else none
  let ps := fun (x y : List (Option ℝ)) => (x.map (·.getD 0)).zip (y.map (·.getD 0))
  { F with
    rmsd := fun x y => .ok (num x y (Pairwise.rmsd (ps x y) 0))
    bias := fun x y => .ok (num x y (Pairwise.bias (ps x y)))
    mse := fun x y => .ok (let m := Pairwise.mseDecomposition (ps x y); (num x y m.1, num x y m.2.1, num x y m.2.2.1, num x y m.2.2.2)) }

theorem column_length {K : Type} {f : Calculators.Frame K} {n : Calculators.Name} {l : List (Option K)} (h : Calculators.column f n = .ok l) :
    l.length = f.rows.length := by
  unfold Calculators.column at h
  split at h
  · rw [← Except.ok.inj h, List.length_map]
  · cases h

/-- **C98 for `BasicMetrics` (partial: columns of the same floating point type only).** The result is the one for the numbers, the same for float32
and float64. -/
theorem basic_one_type_partial (F : Calculators.BasicFuncs ℝ) (dx : DType) (hx : IsFloat dx) (other : Calculators.Name) (calcTau : Bool) (minObs : ℕ)
    (template : Calculators.Dict ℝ) (mt : Option (Calculators.Dict ℝ)) (data : Calculators.Frame ℝ) (info : Calculators.Info ℝ) :
    basicTyped F dx dx other calcTau minObs template mt data info =
      Calculators.basicCalc (exactFuncs F) other calcTau minObs template mt data info := by
  have hw : Calculators.basicWrites (basicFuncs F dx dx) other calcTau data = Calculators.basicWrites (exactFuncs F) other calcTau data := by
    unfold Calculators.basicWrites
    simp only [bind, Except.bind]
    cases h1 : Calculators.column data "ref".toList with
    | error e => rfl
    | ok x =>
      cases h2 : Calculators.column data other with
      | error e => rfl
      | ok y =>
        have hl : (Arr.mk dx (x.map (·.getD 0))).vals.length = (Arr.mk dx (y.map (·.getD 0))).vals.length := by
          simp only [List.length_map]
          rw [column_length h1, column_length h2]
        obtain ⟨k1, -, -, k4, -⟩ := metrics_one_type_partial ⟨dx, x.map (·.getD 0)⟩ ⟨dx, y.map (·.getD 0)⟩ hx rfl hl 0
        have r1 : (basicFuncs F dx dx).rmsd x y = (exactFuncs F).rmsd x y := by
          simp only [basicFuncs, lift, k4, Except.map, exactFuncs, hd]
          rfl
        have r2 : (basicFuncs F dx dx).bias x y = (exactFuncs F).bias x y := by
          simp only [basicFuncs, lift, k1, Except.map, exactFuncs, hd]
          rfl
        simp only [r1, r2]
        rfl
  unfold basicTyped Calculators.basicCalc
  rw [hw]

/-- **C98, negation for `BasicMetricsPlusMSE`** -/
theorem plus_mixed_types (F : Calculators.BasicFuncs ℝ) (dx dy : DType) (h : dy ≠ dx) (other : Calculators.Name) (minObs : ℕ)
    (template : Calculators.Dict ℝ) (mt : Option (Calculators.Dict ℝ)) (data : Calculators.Frame ℝ) (info : Calculators.Info ℝ)
    (hn : minObs ≤ data.rows.length) (d : Calculators.Dict ℝ) : plusTyped F dx dy other minObs template mt data info ≠ .ok d := by
  intro hc
  unfold plusTyped Calculators.mseCalc at hc
  simp only [bind, Except.bind] at hc
  split at hc
  · cases hc
  rename_i b hb
  exact basic_mixed_types F dx dy h other false minObs template mt data info hn b hb

/-- **C98 for `BasicMetricsPlusMSE` (partial: columns of the same floating point type only)** -/
theorem plus_one_type_partial (F : Calculators.BasicFuncs ℝ) (dx : DType) (hx : IsFloat dx) (other : Calculators.Name) (minObs : ℕ)
    (template : Calculators.Dict ℝ) (mt : Option (Calculators.Dict ℝ)) (data : Calculators.Frame ℝ) (info : Calculators.Info ℝ) :
    plusTyped F dx dx other minObs template mt data info = Calculators.mseCalc (exactFuncs F) other minObs template mt data info := by
  have hw : Calculators.mseWrites (basicFuncs F dx dx) other data = Calculators.mseWrites (exactFuncs F) other data := by
    unfold Calculators.mseWrites
    simp only [bind, Except.bind]
    cases h1 : Calculators.column data "ref".toList with
    | error e => rfl
    | ok x =>
      cases h2 : Calculators.column data other with
      | error e => rfl
      | ok y =>
        have hl : (Arr.mk dx (x.map (·.getD 0))).vals.length = (Arr.mk dx (y.map (·.getD 0))).vals.length := by
          simp only [List.length_map]
          rw [column_length h1, column_length h2]
        obtain ⟨-, -, -, -, -, -, -, -, -, k⟩ := metrics_one_type_partial ⟨dx, x.map (·.getD 0)⟩ ⟨dx, y.map (·.getD 0)⟩ hx rfl hl 0
        have r : (basicFuncs F dx dx).mse x y = (exactFuncs F).mse x y := by
          simp only [basicFuncs, lift, k, Except.map, exactFuncs, hd]
          rfl
        simp only [r]
  have hb := basic_one_type_partial F dx hx other false minObs template mt data info
  unfold basicTyped at hb
  unfold plusTyped Calculators.mseCalc
  rw [hw, hb]

/-! ### Filters -/

/-- **C98, filters.** `moving_average` takes data and dates of every type and filters the numbers; `boxcar_filter` and `exp_filter` themselves
return only for float64 data and dates: for float32 they raise ValueError although float32 is one of their argument types. -/
theorem filter_types (data : DType × List (Option ℝ)) (jd : Arr) (window nan : ℝ) (fillna : Bool) (minObs ctime : ℤ) :
    movingAverageTyped data jd window fillna minObs = .ok (Climatology.movingAverage (jd.vals.zip data.2) window fillna minObs) ∧
    (data.1 = .f64 → jd.dtype = .f64 →
      boxcarTyped data jd window nan fillna minObs = .ok (Filters.boxcarFilter (jd.vals.zip data.2) window nan fillna minObs) ∧
      expTyped data jd ctime nan = .ok (Filters.expFilter (jd.vals.zip data.2) ctime nan)) ∧
    (data.1 = .f64 → jd.dtype ≠ .f64 →
      boxcarTyped data jd window nan fillna minObs = .error .valueError ∧ expTyped data jd ctime nan = .error .valueError) ∧
    (data.1 = .f32 → boxcarTyped data jd window nan fillna minObs = .error .valueError ∧ expTyped data jd ctime nan = .error .valueError) ∧
    (data.1 = .int → boxcarTyped data jd window nan fillna minObs = .error .typeError ∧ expTyped data jd ctime nan = .error .typeError) := by
  refine ⟨?_, ?_, ?_, ?_, ?_⟩
  · simp [movingAverageTyped, boxcarTyped, filterTyped, specialise, bind, Except.bind, Climatology.movingAverage]
  · intro h1 h2
    simp [boxcarTyped, expTyped, filterTyped, specialise, bind, Except.bind, h1, h2]
  · intro h1 h2
    simp [boxcarTyped, expTyped, filterTyped, specialise, bind, Except.bind, h1, h2]
  · intro h1
    simp [boxcarTyped, expTyped, filterTyped, specialise, bind, Except.bind, h1]
  · intro h1
    simp [boxcarTyped, expTyped, filterTyped, specialise, bind, Except.bind, h1]

/-- **C98, rolling metrics.** `rolling_pr_rmsd` returns exactly for two arrays of the same floating point type and float64 time stamps. -/
theorem rolling_types {A : Type} (f : List ℝ → Pairs → A) (ts x y : Arr) (v : A) :
    rollingTyped f ts x y = .ok v ↔ IsFloat x.dtype ∧ y.dtype = x.dtype ∧ ts.dtype = .f64 ∧ v = f ts.vals (x.vals.zip y.vals) := by
  unfold rollingTyped
  rcases hx : x.dtype with _ | _ | _ <;> simp only [specialise, bind, Except.bind, IsFloat]
  · by_cases ht : ts.dtype = .f64
    · rw [if_neg (by simp [ht])]
      by_cases hy : y.dtype = .f32
      · rw [if_pos hy]
        simp [hy, ht, eq_comm]
      · rw [if_neg hy]
        simp [hy]
    · rw [if_pos ht]
      simp [ht]
  · by_cases ht : ts.dtype = .f64
    · rw [if_neg (by simp [ht])]
      by_cases hy : y.dtype = .f64
      · rw [if_pos hy]
        simp [hy, ht, eq_comm]
      · rw [if_neg hy]
        simp [hy]
    · rw [if_pos ht]
      simp [ht]
  · simp

/-! ### Cases -/

/-- float32 and float64 columns of a frame: `BasicMetrics` fails, the array of the frame is float64 -/
example : (∀ v, tBias ⟨.f32, [1, 2]⟩ ⟨.f64, [1, 3]⟩ ≠ .ok v) ∧ tBias ⟨.f64, [1, 2]⟩ ⟨.f64, [1, 3]⟩ = .ok (-1 / 2) ∧
    (values [⟨.f32, [1, 2]⟩, ⟨.f64, [1, 3]⟩]).map Arr.dtype = [.f64, .f64] := by
  refine ⟨fun v => (metrics_mixed_types _ _ (by decide) 0 v).1, ?_, rfl⟩
  rw [(metrics_one_type_partial ⟨.f64, [1, 2]⟩ ⟨.f64, [1, 3]⟩ (.inr rfl) rfl rfl 0).1]
  norm_num [Pairwise.bias, num]

example := metrics_integers ⟨.int, [1, 2]⟩ ⟨.int, [1, 3]⟩ rfl rfl rfl 1
example := metrics_as_double ⟨.int, [1, 2]⟩ ⟨.f32, [1, 3]⟩ rfl 0
example := frame_metrics [⟨.int, [1, 2]⟩, ⟨.f32, [1, 3]⟩, ⟨.f64, [0, 3]⟩] 0 1 ⟨.int, [1, 2]⟩ ⟨.f32, [1, 3]⟩ rfl rfl
example (F : Calculators.BasicFuncs ℝ) (T d) := plus_mixed_types F .f32 .f64 (by simp) "k1".toList 1 T none
  ⟨["ref".toList, "k1".toList], [(1, [some 1, some 2]), (2, [some 3, some 5])]⟩ ⟨7, 10, 20, none⟩ (by decide) d
example (F : Calculators.BasicFuncs ℝ) (T) := plus_one_type_partial F .f32 (.inl rfl) "k1".toList 1 T none
  ⟨["ref".toList, "k1".toList], [(1, [some 1, some 2]), (2, [some 3, some 5])]⟩ ⟨7, 10, 20, none⟩

end Verif.Dtypes
