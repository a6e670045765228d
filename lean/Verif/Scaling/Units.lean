import Verif.Scaling.Props
import Verif.Cdf.Units

/-!
C95, scaling: the scaled data do not depend on the units of the source and are in the units of the reference - for single arrays and for the columns
of a frame, each in units of its own. `linreg` breaks this for a negatively related source with an offset (negation).
-/

set_option linter.unusedSectionVars false

noncomputable section

namespace Verif.Scaling

/-! ### Specification -/

/-- an array in other units -/
def inUnits (a b : ℝ) (l : Arr) : Arr := l.map (Option.map (fun v => a * v + b))

/-- The scaling method follows units: whatever the units of source and reference (positive gains), the result (or exception) is the same, expressed
in the units of the reference. -/
def FollowsUnits (f : Method) : Prop :=
  ∀ (a b c d : ℝ) (src ref : Arr), 0 < a → 0 < c → f (inUnits a b src) (inUnits c d ref) = (f src ref).map (inUnits c d)

/-! ### Arrays -/

theorem allSome_units (a b : ℝ) (l : Arr) : allSome (inUnits a b l) = (allSome l).map (List.map (fun v => a * v + b)) := by
  have h1 : (inUnits a b l).all Option.isSome = l.all Option.isSome := by
    unfold inUnits; rw [List.all_map]; congr 1; funext o; cases o <;> rfl
  have h2 : (inUnits a b l).filterMap id = (l.filterMap id).map (fun v => a * v + b) := by
    unfold inUnits
    clear h1
    induction l with
    | nil => rfl
    | cons o l ih => cases o <;> simp_all
  unfold allSome
  rw [h1, h2]
  split <;> rfl

theorem npMean_units (a b : ℝ) (l : List ℝ) (h : l ≠ []) : npMean (l.map (fun v => a * v + b)) = a * npMean l + b := mean_affine l h a b

theorem npStd_units {a : ℝ} (ha : 0 < a) (b : ℝ) (l : List ℝ) : npStd (l.map (fun v => a * v + b)) = a * npStd l := by
  by_cases h : l = []
  · subst h; simp [npStd, npMean]
  · rw [npStd_eq, npStd_eq, pvar_affine l h, Real.sqrt_mul (sq_nonneg a), Real.sqrt_sq ha.le]

theorem none_units (c d : ℝ) (l l' : Arr) (h : l.length = l'.length) :
    l.map (fun _ => (none : Option ℝ)) = inUnits c d (l'.map (fun _ => none)) := by
  unfold inUnits
  rw [List.map_map]
  apply List.ext_getElem?
  intro k
  simp only [List.getElem?_map, Function.comp]
  by_cases hk : k < l.length
  · rw [List.getElem?_eq_getElem hk, List.getElem?_eq_getElem (by omega)]; rfl
  · rw [List.getElem?_eq_none (by omega), List.getElem?_eq_none (by omega)]; rfl

theorem length_units (a b : ℝ) (l : Arr) : (inUnits a b l).length = l.length := by unfold inUnits; simp

/-- C95, `mean_std` -/
theorem mean_std_units : FollowsUnits (fun s r => .ok (meanStd s r)) := by
  intro a b c d src ref ha hc
  simp only [Except.map]
  congr 1
  unfold meanStd
  rw [allSome_units, allSome_units]
  cases hs : allSome src with
  | none => exact none_units c d _ _ (length_units a b src)
  | some s =>
    cases hr : allSome ref with
    | none => exact none_units c d _ _ (length_units a b src)
    | some r =>
      simp only [Option.map_some, npStd_units ha, npStd_units hc, mul_eq_zero, ha.ne', false_or, List.map_eq_nil_iff]
      by_cases h : npStd s = 0 ∨ r = []
      · rw [if_pos h, if_pos h]; exact none_units c d _ _ (length_units a b src)
      · rw [if_neg h, if_neg h]
        push Not at h
        have hsne : s ≠ [] := by rintro rfl; exact h.1 (by simp [npStd, npMean])
        unfold inUnits
        rw [List.map_map, List.map_map]
        apply List.map_congr_left
        intro v _
        simp only [Function.comp, Option.map_some, npMean_units a b s hsne, npMean_units c d r h.2]
        have h1 := h.1
        have h2 := ha.ne'
        congr 1
        field_simp
        ring

theorem foldl_min_units {a : ℝ} (ha : 0 < a) (b : ℝ) (l : List ℝ) (m : ℝ) :
    (l.map (fun v => a * v + b)).foldl min (a * m + b) = a * l.foldl min m + b := by
  induction l generalizing m with
  | nil => rfl
  | cons v l ih =>
    simp only [List.map_cons, List.foldl_cons]
    rw [← ih, min_add_add_right, ← mul_min_of_nonneg _ _ ha.le]

theorem foldl_max_units {a : ℝ} (ha : 0 < a) (b : ℝ) (l : List ℝ) (m : ℝ) :
    (l.map (fun v => a * v + b)).foldl max (a * m + b) = a * l.foldl max m + b := by
  induction l generalizing m with
  | nil => rfl
  | cons v l ih =>
    simp only [List.map_cons, List.foldl_cons]
    rw [← ih, max_add_add_right, ← mul_max_of_nonneg _ _ ha.le]

theorem npMin_units {a : ℝ} (ha : 0 < a) (b : ℝ) (l : List ℝ) : npMin (l.map (fun v => a * v + b)) = (npMin l).map (fun v => a * v + b) := by
  cases l with
  | nil => rfl
  | cons v l => simp only [List.map_cons, npMin, foldl_min_units ha, Option.map_some]

theorem npMax_units {a : ℝ} (ha : 0 < a) (b : ℝ) (l : List ℝ) : npMax (l.map (fun v => a * v + b)) = (npMax l).map (fun v => a * v + b) := by
  cases l with
  | nil => rfl
  | cons v l => simp only [List.map_cons, npMax, foldl_max_units ha, Option.map_some]

/-- C95, `min_max` -/
theorem min_max_units : FollowsUnits minMax := by
  intro a b c d src ref ha hc
  have hnil : ∀ (a b : ℝ) (l : Arr), inUnits a b l = [] ↔ l = [] := by intro a b l; simp [inUnits]
  unfold minMax
  simp only [hnil]
  by_cases he : src = [] ∨ ref = []
  · rw [if_pos he, if_pos he]; rfl
  · rw [if_neg he, if_neg he, allSome_units, allSome_units]
    cases hs : allSome src with
    | none => simp only [Option.map_none, Except.map]; rw [none_units c d _ _ (length_units a b src)]
    | some s =>
      cases hr : allSome ref with
      | none => simp only [Option.map_some, Option.map_none, Except.map]; rw [none_units c d _ _ (length_units a b src)]
      | some r =>
        simp only [Option.map_some, npMin_units ha, npMin_units hc, npMax_units ha, npMax_units hc]
        cases npMin s with
        | none => rfl
        | some u =>
          cases npMax s with
          | none => rfl
          | some v =>
            cases npMin r with
            | none => rfl
            | some p =>
              cases npMax r with
              | none => rfl
              | some q =>
                simp only [Option.map_some]
                have e : a * v + b - (a * u + b) = a * (v - u) := by ring
                simp only [e, mul_eq_zero, ha.ne', false_or]
                by_cases h0 : v - u = 0
                · rw [if_pos h0, if_pos h0]
                  simp only [Except.map]
                  rw [none_units c d _ _ (length_units a b src)]
                · rw [if_neg h0, if_neg h0]
                  simp only [Except.map]
                  congr 1
                  unfold inUnits
                  rw [List.map_map, List.map_map]
                  apply List.map_congr_left
                  intro w _
                  simp only [Function.comp, Option.map_some]
                  have h2 := ha.ne'
                  congr 1
                  field_simp
                  ring

/-- C95, `cdf_match` without limits (with limits see `Cdf.cdf_match_units`), for all numbers of bins, percentiles and options -/
theorem cdf_match_follows_units (P : Cdf.Params ℝ) : FollowsUnits (cdfMatch ⟨P, none, none⟩) := by
  intro a b c d src ref ha hc
  have h := Cdf.cdf_match_units ha hc b d P none none src ref
  simp only [Option.map_none] at h
  unfold cdfMatch inUnits
  simp only
  rw [h]
  cases Cdf.cdfMatch P none none src ref <;> rfl

/-! ### Linear regression -/

theorem zip_units (a b c d : ℝ) (s r : List ℝ) (ms mr : ℝ) :
    (List.zipWith (fun v w => (v - (a * ms + b)) * (w - (c * mr + d))) (s.map (fun v => a * v + b)) (r.map (fun v => c * v + d))).sum =
      a * c * (List.zipWith (fun v w => (v - ms) * (w - mr)) s r).sum := by
  induction s generalizing r with
  | nil => simp
  | cons v s ih =>
    cases r with
    | nil => simp
    | cons w r => simp only [List.map_cons, List.zipWith_cons_cons, List.sum_cons, ih]; ring

theorem square_units (a b : ℝ) (s : List ℝ) (ms : ℝ) :
    ((s.map (fun v => a * v + b)).map (fun v => (v - (a * ms + b)) * (v - (a * ms + b)))).sum =
      a ^ 2 * (s.map (fun v => (v - ms) * (v - ms))).sum := by
  induction s with
  | nil => simp
  | cons v s ih => simp only [List.map_cons, List.sum_cons, ih]; ring

/-- the regression line in other units -/
theorem linregParams_units {a c : ℝ} (ha : 0 < a) (b d : ℝ) (src ref : Arr) :
    linregParams (inUnits a b src) (inUnits c d ref) =
      (linregParams src ref).map (Option.map (fun p => (c / a * p.1, c * p.2 + d - c / a * p.1 * b))) := by
  have hnil : ∀ (a b : ℝ) (l : Arr), inUnits a b l = [] ↔ l = [] := by intro a b l; simp [inUnits]
  have hall : ∀ s : List ℝ, (∀ v ∈ s.map (fun v => a * v + b), ∀ w ∈ s.map (fun v => a * v + b), v = w) ↔ ∀ v ∈ s, ∀ w ∈ s, v = w := by
    intro s
    constructor
    · intro h v hv w hw
      have := h _ (List.mem_map_of_mem hv) _ (List.mem_map_of_mem hw)
      exact mul_left_cancel₀ ha.ne' (by linarith)
    · intro h v hv w hw
      obtain ⟨v', hv', rfl⟩ := List.mem_map.mp hv
      obtain ⟨w', hw', rfl⟩ := List.mem_map.mp hw
      rw [h v' hv' w' hw']
  unfold linregParams
  simp only [hnil, length_units]
  by_cases he : src = [] ∨ ref = [] ∨ src.length ≠ ref.length
  · rw [if_pos he, if_pos he]; rfl
  · rw [if_neg he, if_neg he, allSome_units, allSome_units]
    push Not at he
    cases hs : allSome src with
    | none => cases hr : allSome ref <;> rfl
    | some s =>
      have hsl : s.length = src.length := by
        unfold allSome at hs
        split at hs
        · rename_i h
          obtain rfl := Option.some.inj hs
          clear hs he hall
          induction src with
          | nil => rfl
          | cons o l ih =>
            simp only [List.all_cons, Bool.and_eq_true] at h
            cases o with
            | none => simp at h
            | some v => exact congrArg (· + 1) (ih h.2)
        · cases hs
      cases hr : allSome ref with
      | none =>
        simp only [Option.map_some, Option.map_none, hall, List.length_map]
        split <;> rfl
      | some r =>
        have hrl : r ≠ [] := by
          unfold allSome at hr
          split at hr
          · rename_i h
            obtain rfl := Option.some.inj hr
            intro hn
            cases href : ref with
            | nil => exact he.2.1 href
            | cons o l =>
              rw [href] at h hn
              simp only [List.all_cons, Bool.and_eq_true] at h
              cases o with
              | none => simp at h
              | some v => simp at hn
          · cases hr
        have hsne : s ≠ [] := by
          intro hn
          rw [hn] at hsl
          exact he.1 (List.length_eq_zero_iff.mp hsl.symm)
        simp only [Option.map_some, hall, List.length_map]
        split
        · split <;> rfl
        · rw [npMean_units a b s hsne, npMean_units c d r hrl, zip_units, square_units]
          simp only [Except.map, Option.map_some]
          have h2 := ha.ne'
          congr 2
          generalize (List.zipWith (fun v w => (v - npMean s) * (w - npMean r)) s r).sum = N
          generalize (s.map (fun v => (v - npMean s) * (v - npMean s))).sum = D
          have e : a * c * N / (a ^ 2 * D) = c / a * (N / D) := by
            rw [sq, mul_assoc, mul_assoc, mul_div_mul_left _ _ h2, mul_div_mul_comm]
          rw [e]
          refine Prod.ext rfl ?_
          simp only
          field_simp
          ring

/-- C95, `linreg`: holds if the regression line does not fall, or the source is converted without an offset. What is missing: see
`linreg_units_wrong`. -/
theorem linreg_units_partial (a b c d : ℝ) (src ref : Arr) (ha : 0 < a) (hc : 0 < c)
    (h : b = 0 ∨ ∀ p, linregParams src ref = .ok (some p) → 0 ≤ p.1) :
    linreg (inUnits a b src) (inUnits c d ref) = (linreg src ref).map (inUnits c d) := by
  unfold linreg
  rw [linregParams_units ha]
  cases hp : linregParams src ref with
  | error e => rfl
  | ok p =>
    simp only [bind, Except.bind, Except.map]
    congr 1
    cases p with
    | none =>
      exact none_units c d _ _ (length_units a b src)
    | some p =>
      simp only [Option.map_some, linregStoredParams]
      unfold inUnits
      rw [List.map_map, List.map_map]
      apply List.map_congr_left
      intro o _
      cases o with
      | none => rfl
      | some v =>
        simp only [Function.comp, Option.map_some]
        have h2 := ha.ne'
        have hca : 0 < c / a := div_pos hc ha
        congr 1
        rw [abs_mul, abs_of_pos hca]
        rcases h with rfl | h
        · field_simp
          ring
        · rw [abs_of_nonneg (h p hp)]
          field_simp
          ring

/-- fractions and percent -/
example := linreg_units_partial 100 0 100 0 [some 1, some 2, some 4] [some 2, some 3, some 1] (by norm_num) (by norm_num) (Or.inl rfl)

/-- C95 is false for `linreg`: a falling relation and a source in °C or in K give different results. -/
theorem linreg_units_wrong : ∃ src ref : Arr, linreg (inUnits 1 273 src) ref ≠ linreg src ref := by
  refine ⟨[some 0, some 2], [some 2, some 0], ?_⟩
  have h1 : linregParams [some 0, some 2] [some 2, some 0] = .ok (some (-1, 2)) := by
    unfold linregParams
    rw [if_neg (by simp)]
    have : ∀ a b : ℝ, allSome [some a, some b] = some [a, b] := fun a b => allSome_map [a, b]
    simp only [this]
    rw [if_neg (by norm_num)]
    norm_num [npMean]
  have h2 := linregParams_units (a := 1) (c := 1) one_pos 273 0 [some 0, some 2] [some 2, some 0]
  have e : inUnits 1 0 [some 2, some 0] = [some 2, some 0] := by simp [inUnits]
  rw [e, h1] at h2
  unfold linreg
  rw [h1, h2]
  simp only [bind, Except.bind, Except.map, Option.map_some, linregStoredParams, inUnits, List.map_cons, List.map_nil]
  intro h
  injection h with h
  norm_num at h

/-! ### Frames -/

theorem mapM_except_map {α β γ : Type} (f : α → Except Err β) (g : α → Except Err γ) (k : β → γ) (l : List α)
    (h : ∀ x ∈ l, g x = (f x).map k) : l.mapM g = (l.mapM f).map (List.map k) := by
  induction l with
  | nil => rfl
  | cons x l ih =>
    rw [List.mapM_cons, List.mapM_cons, ih (fun y hy => h y (List.mem_cons_of_mem _ hy)), h x List.mem_cons_self]
    simp only [bind, Except.bind, pure, Except.pure]
    cases f x with
    | error e => rfl
    | ok y =>
      simp only [Except.map]
      cases l.mapM f <;> rfl

theorem mapM_map {α α' β : Type} (f : α' → Except Err β) (m : α → α') (l : List α) : (l.map m).mapM f = l.mapM (fun x => f (m x)) := by
  induction l with
  | nil => rfl
  | cons x l ih => rw [List.map_cons, List.mapM_cons, List.mapM_cons, ih]

/-- `scale` for a method `f'` that gives the results of `f` in the units of the reference column -/
theorem scale_units_at (f f' : Method) (gain offset : String → ℝ) (hg : ∀ n, 0 < gain n) (df : Frame) (i : ℕ) (ref : String × Arr)
    (hi : df[i]? = some ref)
    (hf : ∀ (a b : ℝ) (src : Arr), 0 < a →
      f' (inUnits a b src) (inUnits (gain ref.1) (offset ref.1) ref.2) = (f src ref.2).map (inUnits (gain ref.1) (offset ref.1))) :
    scale (.ok f') (df.map (fun c => (c.1, inUnits (gain c.1) (offset c.1) c.2))) i =
      (scale (.ok f) df i).map (List.map (fun c => (c.1, inUnits (gain ref.1) (offset ref.1) c.2))) := by
  unfold scale
  simp only [bind, Except.bind, List.getElem?_map, hi, Option.map_some]
  have hrows : nRows (df.map (fun c => (c.1, inUnits (gain c.1) (offset c.1) c.2))) = nRows df := by
    unfold nRows
    cases df with
    | nil => rfl
    | cons c l => simp [length_units]
  have hfil : (df.map (fun c => (c.1, inUnits (gain c.1) (offset c.1) c.2))).filter (fun c => decide (c.1 ≠ ref.1)) =
      (df.filter (fun c => decide (c.1 ≠ ref.1))).map (fun c => (c.1, inUnits (gain c.1) (offset c.1) c.2)) := by
    rw [List.filter_map]; rfl
  rw [hfil, hrows, mapM_map]
  have hm := mapM_except_map (fun c : String × Arr => (do
      let r ← f c.2 ref.2
      let r ← checked (nRows df) r
      .ok (c.1, r) : Except Err (String × Arr)))
    (fun c => (do
      let r ← f' (inUnits (gain c.1) (offset c.1) c.2) (inUnits (gain ref.1) (offset ref.1) ref.2)
      let r ← checked (nRows df) r
      .ok (c.1, r) : Except Err (String × Arr)))
    (fun c => (c.1, inUnits (gain ref.1) (offset ref.1) c.2)) (df.filter (fun c => decide (c.1 ≠ ref.1))) (by
      intro c _
      rw [hf _ _ _ (hg _)]
      simp only [bind, Except.bind]
      cases f c.2 ref.2 with
      | error e => rfl
      | ok r =>
        simp only [Except.map, checked, length_units]
        by_cases hl : r.length = nRows df
        · simp only [if_pos hl]
        · simp only [if_neg hl])
  simp only [bind, Except.bind] at hm
  rw [hm]
  generalize (df.filter (fun c => decide (c.1 ≠ ref.1))).mapM (m := Except Err) _ = q
  cases q with
  | error e => rfl
  | ok l =>
    simp only [Except.map]
    congr 1
    rw [List.map_insertIdx]

/-- C95, `scale`: a frame with every column in units of its own (`gain`, `offset` by column name, gains positive): the scaled frame, or the exception,
is the same with all columns in the units of the reference column. -/
theorem scale_units (f : Method) (hf : FollowsUnits f) (gain offset : String → ℝ) (hg : ∀ n, 0 < gain n) (df : Frame) (i : ℕ)
    (ref : String × Arr) (hi : df[i]? = some ref) :
    scale (.ok f) (df.map (fun c => (c.1, inUnits (gain c.1) (offset c.1) c.2))) i =
      (scale (.ok f) df i).map (List.map (fun c => (c.1, inUnits (gain ref.1) (offset ref.1) c.2))) :=
  scale_units_at f f gain offset hg df i ref hi (fun a b src ha => hf a b _ _ src _ ha (hg _))

/-- C95: the methods by name, all but `linreg` -/
theorem scale_by_name_units (P : Cdf.Params ℝ) (method : String) (f : Method) (hm : scalingFunction ⟨P, none, none⟩ method = .ok f)
    (hl : method ≠ "linreg") : FollowsUnits f := by
  unfold scalingFunction at hm
  rw [if_neg hl] at hm
  split at hm
  · obtain rfl := Except.ok.inj hm; exact mean_std_units
  split at hm
  · obtain rfl := Except.ok.inj hm; exact min_max_units
  split at hm
  · obtain rfl := Except.ok.inj hm; exact cdf_match_follows_units P
  split at hm
  · obtain rfl := Except.ok.inj hm; exact cdf_match_follows_units P
  · cases hm

/-- the limits of `cdf_match` in other units. Specification. -/
def Kwargs.inUnits (kw : Kwargs) (c d : ℝ) : Kwargs := ⟨kw.params, kw.maxVal.map (fun v => c * v + d), kw.minVal.map (fun v => c * v + d)⟩

/-- C95 with limits: `cdf_match` with limits that are given in the units of the reference -/
theorem cdf_match_limits_units (kw : Kwargs) {a c : ℝ} (ha : 0 < a) (hc : 0 < c) (b d : ℝ) (src ref : Arr) :
    cdfMatch (kw.inUnits c d) (inUnits a b src) (inUnits c d ref) = (cdfMatch kw src ref).map (inUnits c d) := by
  have h := Cdf.cdf_match_units ha hc b d kw.params kw.maxVal kw.minVal src ref
  unfold cdfMatch inUnits Kwargs.inUnits
  rw [h]
  cases Cdf.cdfMatch kw.params kw.maxVal kw.minVal src ref <;> rfl

/-- C95: the methods by name, all but `linreg`, with limits in the units of the reference. The exception for an unknown name is the same. -/
theorem by_name_limits_units (kw : Kwargs) (method : String) (hl : method ≠ "linreg") (c d : ℝ) (hc : 0 < c) :
    (∃ e, scalingFunction kw method = .error e ∧ scalingFunction (kw.inUnits c d) method = .error e) ∨
    ∃ f f', scalingFunction kw method = .ok f ∧ scalingFunction (kw.inUnits c d) method = .ok f' ∧
      ∀ (a b : ℝ) (src ref : Arr), 0 < a → f' (inUnits a b src) (inUnits c d ref) = (f src ref).map (inUnits c d) := by
  unfold scalingFunction
  rw [if_neg hl, if_neg hl]
  by_cases h1 : method = "mean_std"
  · rw [if_pos h1, if_pos h1]
    exact .inr ⟨_, _, rfl, rfl, fun a b src ref ha => mean_std_units a b c d src ref ha hc⟩
  rw [if_neg h1, if_neg h1]
  by_cases h2 : method = "min_max"
  · rw [if_pos h2, if_pos h2]
    exact .inr ⟨_, _, rfl, rfl, fun a b src ref ha => min_max_units a b c d src ref ha hc⟩
  rw [if_neg h2, if_neg h2]
  by_cases h3 : method = "cdf_match"
  · rw [if_pos h3, if_pos h3]
    exact .inr ⟨_, _, rfl, rfl, fun a b src ref ha => cdf_match_limits_units kw ha hc b d src ref⟩
  rw [if_neg h3, if_neg h3]
  by_cases h4 : method = "cdf_beta_match"
  · rw [if_pos h4, if_pos h4]
    exact .inr ⟨_, _, rfl, rfl, fun a b src ref ha => cdf_match_limits_units kw ha hc b d src ref⟩
  rw [if_neg h4, if_neg h4]
  exact .inl ⟨_, rfl, rfl⟩

/-- C95, `scale` by the name of the method, limits in the units of the reference: the frame, or the exception, is the same in the units of the
reference column. -/
theorem scale_limits_units (kw : Kwargs) (method : String) (hl : method ≠ "linreg") (gain offset : String → ℝ) (hg : ∀ n, 0 < gain n) (df : Frame)
    (i : ℕ) (ref : String × Arr) (hi : df[i]? = some ref) :
    scale (scalingFunction (kw.inUnits (gain ref.1) (offset ref.1)) method) (df.map (fun c => (c.1, inUnits (gain c.1) (offset c.1) c.2))) i =
      (scale (scalingFunction kw method) df i).map (List.map (fun c => (c.1, inUnits (gain ref.1) (offset ref.1) c.2))) := by
  rcases by_name_limits_units kw method hl (gain ref.1) (offset ref.1) (hg _) with ⟨e, h1, h2⟩ | ⟨f, f', h1, h2, h⟩
  · rw [h1, h2]; rfl
  · rw [h1, h2]
    exact scale_units_at f f' gain offset hg df i ref hi (fun a b src ha => h a b src ref.2 ha)

/-- concrete case: porosity as upper limit, the reference in percent instead of fractions, the source in other units of its own -/
example (P : Cdf.Params ℝ) (x y : Arr) :
    cdfMatch ⟨P, some 45, some 0⟩ (inUnits (5 / 9) (-(160 / 9)) x) (inUnits 100 0 y) =
      (cdfMatch ⟨P, some (9 / 20), some 0⟩ x y).map (inUnits 100 0) := by
  have h := cdf_match_limits_units ⟨P, some (9 / 20), some 0⟩ (a := 5 / 9) (c := 100) (by norm_num) (by norm_num) (-(160 / 9)) 0 x y
  norm_num [Kwargs.inUnits] at h
  exact h

/-- concrete case: a frame of two columns, the second one the reference; the first in percent instead of fractions -/
example (P : Cdf.Params ℝ) (x y : Arr) :
    scale (.ok (cdfMatch ⟨P, none, none⟩)) [("a", inUnits 100 0 x), ("b", inUnits 1 0 y)] 1 =
      (scale (.ok (cdfMatch ⟨P, none, none⟩)) [("a", x), ("b", y)] 1).map (List.map (fun c => (c.1, inUnits 1 0 c.2))) := by
  have h := scale_units _ (cdf_match_follows_units P) (fun n => if n = "a" then 100 else 1) (fun _ => 0)
    (by intro n; split <;> norm_num) [("a", x), ("b", y)] 1 ("b", y) rfl
  simpa using h

end Verif.Scaling
