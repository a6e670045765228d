import Verif.Validation.Units
import Verif.Validation.PairProps
import Verif.Validation.Triple
import Verif.Scaling.Units

/-!
C99: the results of a validation with scaling depend neither on the units of the data sets that are scaled, nor on origin and unit of the time axis.
-/

set_option linter.unusedSectionVars false
set_option synthInstance.maxSize 1000

noncomputable section

namespace Verif.Validation

open DataManager (Col col)
open Collocation (clock reclock recolumn)

/-! ### Masking -/

section
variable {α K Info : Type} [LinearOrder α] [_root_.Field K] [LinearOrder K] [IsStrictOrderedRing K]

theorem clock_inj {a : K} (ha : 0 < a) (b : K) {s t : K} : clock a b s = clock a b t ↔ s = t := by
  unfold clock
  constructor
  · intro h
    exact mul_left_cancel₀ ha.ne' (by linarith)
  · rintro rfl; rfl

theorem chooseFrom_other {a : K} (ha : 0 < a) (b : K) (u : α → K → K) (idx : List K) (f : Frame α K K) :
    chooseFrom (idx.map (clock a b)) (f.other a b u) = chooseFrom idx f := by
  have hinj : Function.Injective (clock a b) := fun s t h => (clock_inj ha b).mp h
  unfold chooseFrom
  have h1 : (f.other a b u).index = f.index.map (clock a b) := rfl
  rw [h1, List.length_map]
  by_cases h0 : f.index.length = 0
  · rw [if_pos h0, if_pos h0]
  · rw [if_neg h0, if_neg h0]
    by_cases hn : f.index.Nodup
    · rw [if_pos hn, if_pos ((List.nodup_map_iff hinj).mpr hn), List.map_map]
      congr 2
      apply List.map_congr_left
      intro t _
      simp only [Function.comp, List.mem_map_of_injective hinj]
    · rw [if_neg hn, if_neg (fun h => hn ((List.nodup_map_iff hinj).mp h))]

/-- C99, masking: masking data sets on another clock reject the same observations, whatever the units. `um` are the units of the masking data sets,
those of the reference under its name in the masking data manager. -/
theorem mask_other {a : K} (ha : 0 < a) (b : K) (um : α → K → K) (M M' : Masking α K K Info) (hds : M'.ds = M.ds) (href : M'.refName = M.refName)
    (hget : ∀ info, M'.getOther info = (M.getOther info).map (otherData a b um))
    (hmat : ∀ dfs ref n, M'.matcher (otherData a b um dfs) ref n = (M.matcher dfs ref n).map (List.map (fun e => (e.1, e.2.other a b um))))
    (tref : α) (ref : DF α K K) (info : Info) :
    maskDataset M' tref (ref.other a b (um M.refName)) info = (maskDataset M tref ref info).map (DF.other a b (um M.refName)) := by
  unfold maskDataset
  rw [hget, hds, href]
  simp only [bind, Except.bind]
  cases M.getOther info with
  | error e => rfl
  | ok others =>
    simp only [Except.map]
    have e1 : otherData a b um others ++ [(M.refName, ref.other a b (um M.refName))] = otherData a b um (others ++ [(M.refName, ref)]) := by
      simp [otherData]
    rw [e1, hmat]
    cases M.matcher (others ++ [(M.refName, ref)]) M.refName 2 with
    | error e => rfl
    | ok matched =>
      simp only [Except.map]
      cases DataManager.getResultNames M.ds M.refName 2 with
      | error e => rfl
      | ok names =>
        simp only
        have hi : (ref.other a b (um M.refName)).rows.map Prod.fst = (ref.rows.map Prod.fst).map (clock a b) := by
          simp [DF.other, Function.comp_def]
        have hm : names.mapM (fun r => Except.bind (getDataForResultTuple tref (matched.map (fun e => (e.1, e.2.other a b um))) r)
              (fun data => Except.bind (chooseFrom ((ref.other a b (um M.refName)).rows.map Prod.fst) data) (fun c => .ok (r, c)))) =
            names.mapM (fun r => Except.bind (getDataForResultTuple tref matched r)
              (fun data => Except.bind (chooseFrom (ref.rows.map Prod.fst) data) (fun c => .ok (r, c)))) := by
          congr 1
          funext r
          rw [getData_other, hi]
          cases getDataForResultTuple tref matched r with
          | error e => rfl
          | ok f =>
            show Except.bind (chooseFrom _ (f.other a b um)) _ = Except.bind (chooseFrom _ f) _
            rw [chooseFrom_other ha b um _ f]
        simp only [Except.bind] at hm
        rw [hm]
        generalize names.mapM (m := Except Exc) _ = q
        cases q with
        | error e => rfl
        | ok columns =>
          simp only [DF.other]
          congr 2
          rw [List.zipIdx_map, List.filter_map, List.map_map, List.map_map]
          rfl

/-- C99, masking with the matcher `Validation` uses for masking data sets (`make_combined_temporal_matcher`) -/
theorem mask_units {a : K} (ha : 0 < a) (b : K) (um : α → K → K) (M : Masking α K K Info) {hour : K} {window : Option K}
    (hw : 0 ≤ window.getD hour) (hM : M.matcher = fun dfs ref n => oneMatcher hour window dfs ref n 2) (tref : α) (ref : DF α K K) (info : Info) :
    maskDataset { M with getOther := fun info => (M.getOther info).map (otherData a b um)
                         matcher := fun dfs ref n => oneMatcher (a * hour) (window.map (a * ·)) dfs ref n 2 }
        tref (ref.other a b (um M.refName)) info = (maskDataset M tref ref info).map (DF.other a b (um M.refName)) :=
  mask_other ha b um M { M with getOther := fun info => (M.getOther info).map (otherData a b um)
                                matcher := fun dfs ref n => oneMatcher (a * hour) (window.map (a * ·)) dfs ref n 2 } rfl rfl (fun _ => rfl)
    (fun dfs ref n => by simp only [hM]; exact oneMatcher_other b um ha hw dfs ref n 2) tref ref info

end

/-! ### Scaling -/

section
variable {W Info : Type} {a b : ℝ} {gain offset : String → ℝ} {S : Setup String ℝ ℝ W Info}

/-- without scaling all data must be in common units from the beginning -/
theorem unscaled_scalesTo (g : ℝ → ℝ) (hsc : S.scale = none) : ScalesTo a b (fun _ => g) S g := by
  intro info key f hf
  unfold scaled
  rw [hsc]
  simp only [Except.map]
  unfold Frame.other Frame.inUnits
  congr 2
  apply List.map_congr_left
  intro c hc
  obtain ⟨n, hn⟩ := hf c hc
  rw [hn]
  rfl

theorem findIdx_other (u : String → ℝ → ℝ) (f : Frame String ℝ ℝ) (p : Label String → Bool) :
    (f.other a b u).columns.findIdx? (fun c => p c.1) = f.columns.findIdx? (fun c => p c.1) := by
  unfold Frame.other
  simp only [List.findIdx?_map]
  rfl

/-- scaling by a method that follows units brings all data to the units of the scaling reference; limits of `cdf_match` that mean the same in both units
of the reference -/
theorem default_scalesTo (hg : ∀ n, 0 < gain n) (kw : Scaling.Kwargs) (hkw : kw.inUnits (gain S.scalingRef) (offset S.scalingRef) = kw) {method : String}
    (hm : method ≠ "linreg") (hsc : S.scale = some (defaultScaler kw method)) :
    ScalesTo a b (fun n v => gain n * v + offset n) S (fun v => gain S.scalingRef * v + offset S.scalingRef) := by
  intro info key f hf
  unfold scaled
  rw [hsc]
  simp only
  rw [findIdx_other (a := a) (b := b) _ f (fun l => decide (l = .ds S.scalingRef))]
  cases hi : f.columns.findIdx? (fun c => decide (c.1 = .ds S.scalingRef)) with
  | none => rfl
  | some i =>
    simp only
    obtain ⟨hlt, hp, -⟩ := List.findIdx?_eq_some_iff_getElem.mp hi
    have hci : f.columns[i].1 = .ds S.scalingRef := of_decide_eq_true hp
    have hts : toScaling (f.other a b (fun n v => gain n * v + offset n)) =
        (toScaling f).map (fun c => (c.1, Scaling.inUnits (gain c.1) (offset c.1) c.2)) := by
      unfold toScaling Frame.other
      rw [List.map_map, List.map_map]
      apply List.map_congr_left
      intro c hc
      obtain ⟨n, hn⟩ := hf c hc
      simp only [Function.comp, hn, labelName, labelFun, Scaling.inUnits]
    have hget : (toScaling f)[i]? = some (S.scalingRef, f.columns[i].2) := by
      unfold toScaling
      rw [List.getElem?_map, List.getElem?_eq_getElem hlt]
      simp [hci, labelName]
    unfold defaultScaler
    rw [hts]
    have hscale := Scaling.scale_limits_units kw method hm gain offset hg _ i _ hget
    rw [hkw] at hscale
    rw [hscale]
    cases Scaling.scale (Scaling.scalingFunction kw method) (toScaling f) i with
    | error e => rfl
    | ok d =>
      simp only [Except.map]
      have hcols : (d.map (fun c => (c.1, Scaling.inUnits (gain S.scalingRef) (offset S.scalingRef) c.2))).map
            (fun c => ((Label.ds c.1 : Label String), c.2)) =
          (d.map (fun c => ((Label.ds c.1 : Label String), c.2))).map
            (fun c => (c.1, c.2.map (Option.map (fun v => gain S.scalingRef * v + offset S.scalingRef)))) := by
        rw [List.map_map, List.map_map]
        rfl
      rw [hcols]
      by_cases hk : S.scalingRef ∈ dsNames key
      · rw [if_pos hk, if_pos hk]; rfl
      · rw [if_neg hk, if_neg hk, List.any_map, List.filter_map]
        simp only [Function.comp_def]
        split <;> rfl

end

/-! ### The property -/

theorem toCalc_clock (a b : ℝ) (f : Frame String ℝ ℝ) : toCalc (f.inUnits a b id) = toCalc f := by
  unfold toCalc Frame.inUnits
  simp

/-- the calculator of pairs does not look at the times -/
theorem pair_ignores_clock (a b : ℝ) (F : Calculators.PairFuncs) (o : Calculators.PairOptions) (minObs : ℕ) (f : Frame String ℝ ℝ)
    (info : Calculators.Info ℝ) : pairCalculator F o minObs (f.inUnits a b id) info = pairCalculator F o minObs f info := by
  unfold pairCalculator
  rw [toCalc_clock]

/-- the calculator of triples does not look at the times -/
theorem triple_ignores_clock (a b : ℝ) (tcol : List (List (Option ℝ)) → Calculators.Tc ℝ) (ref : String) (minObs : ℕ) (f : Frame String ℝ ℝ)
    (info : Calculators.Info ℝ) : tripleCalculator tcol ref minObs (f.inUnits a b id) info = tripleCalculator tcol ref minObs f info := by
  unfold tripleCalculator
  rw [toCalc_clock]

theorem same_units (kw : Scaling.Kwargs) {c d : ℝ} (hc : c = 1) (hd : d = 0) : kw.inUnits c d = kw := by
  subst hc hd
  unfold Scaling.Kwargs.inUnits
  simp

/-- C99: scaling with `mean_std`, `min_max`, `cdf_match` or `cdf_beta_match`, with or without limits: every data set in units of its own (positive gains), the
scaling reference in the units it had, all on another clock; calculators that do not look at the times. All results are the same, for all locations,
with all exceptions and return codes. -/
theorem validation_units_partial {W Info : Type} {a : ℝ} (b : ℝ) (gain offset : String → ℝ) (hg : ∀ n, 0 < gain n)
    (S S' : Setup String ℝ ℝ W Info) (R : Reunited a b (fun n v => gain n * v + offset n) S S') (hgain : gain S.scalingRef = 1)
    (hoff : offset S.scalingRef = 0) (kw : Scaling.Kwargs) (method : String) (hm : method ≠ "linreg")
    (hsc : S.scale = some (defaultScaler kw method)) (hc : CalcsIgnore a b S id) (raising : Bool) (infos : List Info) :
    calcAll S' raising infos = calcAll S raising infos := by
  have hs := default_scalesTo (a := a) (b := b) (offset := offset) hg kw (same_units kw hgain hoff) hm hsc
  have hid : (fun v : ℝ => gain S.scalingRef * v + offset S.scalingRef) = id := by
    funext v
    rw [hgain, hoff]
    simp
  rw [hid] at hs
  exact results_other R hs hc raising infos

/-- C99 without scaling: the results do not depend on the clock. -/
theorem validation_clock {W Info : Type} {a : ℝ} (b : ℝ) (S S' : Setup String ℝ ℝ W Info) (R : Reunited a b (fun _ => id) S S')
    (hsc : S.scale = none) (hc : CalcsIgnore a b S id) (raising : Bool) (infos : List Info) :
    calcAll S' raising infos = calcAll S raising infos :=
  results_other R (unscaled_scalesTo id hsc) hc raising infos

/-- C99 for `Validation` with default matcher, `DefaultScaler` and `PairwiseIntercomparisonMetrics`: the data in other units and on another clock, the
window in units of that clock: the same results. -/
theorem pair_validation_units_partial {a : ℝ} (ha : 0 < a) (b : ℝ) (gain offset : String → ℝ) (hg : ∀ n, 0 < gain n) (P : PairJob) (hw : 0 ≤ P.window)
    (hgain : gain P.scalingRef = 1) (hoff : offset P.scalingRef = 0) (kw : Scaling.Kwargs) (method : String) (hm : method ≠ "linreg")
    (hsc : P.scaling = some (kw, method)) (raising : Bool) (infos : List (Calculators.Info ℝ)) :
    calcAll ({ P with getData := fun info => (P.getData info).map (otherData a b (fun n v => gain n * v + offset n)), window := a * P.window } : PairJob).setup
        raising infos = calcAll P.setup raising infos := by
  refine validation_units_partial (a := a) b gain offset hg P.setup _ ?_ hgain hoff kw method hm (by simp [PairJob.setup, hsc]) ?_ raising infos
  · constructor
    case getData => intro info; rfl
    case matcher => intro dfs ref n k; exact basicMatcher_other b _ ha hw dfs ref n k
    case mask => exact .inl ⟨rfl, rfl⟩
    all_goals rfl
  · intro c hc f info
    obtain rfl := List.mem_singleton.mp hc
    exact pair_ignores_clock a b _ _ _ f info

/-- C99 for `Validation` with the combined matcher and `TripleCollocationMetrics`: the same results on another clock. -/
theorem triple_validation_clock {a : ℝ} (ha : 0 < a) (b : ℝ) (P : TripleJob) (hw : 0 ≤ P.window.getD P.hour) (raising : Bool)
    (infos : List (Calculators.Info ℝ)) :
    calcAll ({ P with getData := fun info => (P.getData info).map (otherData a b (fun _ => id)), hour := a * P.hour,
                      window := P.window.map (a * ·) } : TripleJob).setup raising infos = calcAll P.setup raising infos := by
  refine validation_clock (a := a) b P.setup _ ?_ rfl ?_ raising infos
  · constructor
    case getData => intro info; rfl
    case matcher => intro dfs ref n k; exact oneMatcher_other b _ ha hw dfs ref n k
    case mask => exact .inl ⟨rfl, rfl⟩
    all_goals rfl
  · intro c hc f info
    obtain rfl := List.mem_singleton.mp hc
    exact triple_ignores_clock a b _ _ _ f info

/-! ### Case -/

/-- the job of C87 with the second data set in percent instead of fractions of 255, times in hours since the second day -/
example (infos : List (Calculators.Info ℝ)) :
    calcAll ({ exJob with
        getData := fun info => (exJob.getData info).map (otherData 24 (-24) (fun n v => (if n = "b" then 100 / 255 else 1) * v + if n = "a" then 273 else 0))
        window := 24 * exJob.window } : PairJob).setup false infos = calcAll exJob.setup false infos := by
  refine pair_validation_units_partial (by norm_num) (-24) (fun n => if n = "b" then 100 / 255 else 1) (fun n => if n = "a" then 273 else 0) ?_ exJob
    (by norm_num [exJob]) (by simp [exJob]) (by simp [exJob]) ⟨⟨100, none, none, false, false⟩, none, none⟩ "mean_std" (by decide) rfl false infos
  intro n
  split <;> norm_num

/-- the same with CDF matching, clipped to the range of the reference, not negative -/
example (infos : List (Calculators.Info ℝ)) (P : PairJob) (hP : P = { exJob with scaling := some (⟨⟨3, none, none, true, true⟩, none, some 0⟩, "cdf_match") }) :
    calcAll ({ P with
        getData := fun info => (P.getData info).map (otherData 24 (-24) (fun n v => (if n = "b" then 100 / 255 else 1) * v + if n = "a" then 273 else 0))
        window := 24 * P.window } : PairJob).setup true infos = calcAll P.setup true infos := by
  subst hP
  refine pair_validation_units_partial (by norm_num) (-24) (fun n => if n = "b" then 100 / 255 else 1) (fun n => if n = "a" then 273 else 0) ?_ _
    (by norm_num [exJob]) (by simp [exJob]) (by simp [exJob]) ⟨⟨3, none, none, true, true⟩, none, some 0⟩ "cdf_match" (by decide) rfl true infos
  intro n
  split <;> norm_num

example (dfs' : ℕ → Except Exc (List (ℕ × DF ℕ ℚ ℚ))) (ref : DF ℕ ℚ ℚ) :=
  mask_units (a := (24 : ℚ)) (by norm_num) 12 (fun _ v => v / 100) ⟨[(0, [5]), (1, [10])], 0, dfs', fun dfs ref n => oneMatcher (1 / 24) none dfs ref n 2⟩ (hour := 1 / 24)
    (window := none) (by norm_num) rfl 7 ref 0

end Verif.Validation
