import Verif.Calculators.Props
import Verif.Pairwise.Props
import Verif.Pairwise.Ci
import Verif.Moments.Props

/-! C55: the values of `PairwiseIntercomparisonMetrics` are those of the metric functions. -/

set_option linter.unusedSectionVars false
set_option synthInstance.maxSize 1000

namespace Verif.Calculators

open Verif.Pairwise Verif.Moments

/-- the complete rows of a frame with two columns -/
def completePairs (rows : List (ℕ × List (Option ℝ))) : Pairs :=
  rows.filterMap (fun r => match r.2 with
    | [some a, some b] => some (a, b)
    | _ => none)

theorem dropna_pairs (data : Frame ℝ) (hw : ∀ r ∈ data.rows, r.2.length = 2) :
    (dropna data).length = (completePairs data.rows).length ∧ (dropna data).mapM firstTwo = some (completePairs data.rows) := by
  unfold dropna completePairs
  revert hw
  generalize data.rows = rows
  intro hw
  induction rows with
  | nil => exact ⟨rfl, rfl⟩
  | cons r rows ih =>
    obtain ⟨i1, i2⟩ := ih (fun r hr => hw r (by simp [hr]))
    obtain ⟨month, vals⟩ := r
    have hl := hw (month, vals) (by simp)
    match vals, hl with
    | [some a, some b], _ =>
      simp only [List.filter_cons, List.all_cons, Option.isSome_some, List.all_nil, Bool.and_self, if_true, List.map_cons, List.filterMap_cons,
        List.length_cons, i1, List.mapM_cons, i2]
      exact ⟨trivial, rfl⟩
    | [none, some b], _ => exact ⟨by simpa using i1, by simpa using i2⟩
    | [some a, none], _ => exact ⟨by simpa using i1, by simpa using i2⟩
    | [none, none], _ => exact ⟨by simpa using i1, by simpa using i2⟩

/-- the pairs as a row each -/
def missingPairwise (o : PairOptions) : Dict ℝ :=
  (pairwiseNames o).map (fun m => (key m, Val.num none)) ++ [(key "n_obs", .int 0)]

theorem pairwiseTemplate_eq (o : PairOptions) (mt : Option (Dict ℝ)) :
    pairwiseTemplate o mt = .ok (update (metadataTemplate mt) (missingPairwise o)) := by
  unfold pairwiseTemplate
  have : (metricTemplate (pairwiseNames o ++ ["n_obs"]) : Except Err (Dict ℝ)) = .ok (missingPairwise o) := by
    unfold metricTemplate missingPairwise
    rw [if_pos (by obtain ⟨a, b, c, d⟩ := o; revert a b c d; decide)]
    rw [List.map_append]
    have h : ∀ m ∈ pairwiseNames o, m ≠ "n_obs" := by obtain ⟨a, b, c, d⟩ := o; revert a b c d; decide
    congr 2
    apply List.map_congr_left
    intro m hm
    rw [if_neg (h m hm)]
  rw [this]
  rfl

theorem missingPairwise_keys (o : PairOptions) :
    (missingPairwise o).map Prod.fst = (pairwiseNames o ++ ["n_obs"]).map key := by
  unfold missingPairwise
  rw [List.map_append, List.map_append, List.map_map]
  rfl

theorem pairwiseKeys_nodup (o : PairOptions) : ((pairwiseNames o ++ ["n_obs"]).map key).Nodup := by
  obtain ⟨a, b, c, d⟩ := o
  revert a b c d
  decide +kernel

theorem pairwiseKeys_fresh (o : PairOptions) : ∀ k ∈ (pairwiseNames o ++ ["n_obs"]).map key, k ∉ reserved := by
  obtain ⟨a, b, c, d⟩ := o
  revert a b c d
  decide +kernel

/-- the names in the order of the assignments -/
def writtenNames (o : PairOptions) : List String :=
  ["BIAS", "mse_corr", "mse_var", "mse_bias", "mse", "RSS", "RMSD", "urmsd", "R", "p_R"]
      ++ (if o.spearman then ["rho", "p_rho"] else []) ++ (if o.kendall then ["tau", "p_tau"] else [])
      ++ (if o.analytical then ["BIAS_ci_lower", "BIAS_ci_upper", "urmsd_ci_lower", "urmsd_ci_upper", "R_ci_lower", "R_ci_upper"]
        ++ (if o.spearman then ["rho_ci_lower", "rho_ci_upper"] else []) ++ (if o.kendall then ["tau_ci_lower", "tau_ci_upper"] else []) else [])
      ++ (if o.bootstrap then ["mse_var_ci_lower", "mse_var_ci_upper", "mse_corr_ci_lower", "mse_corr_ci_upper", "mse_bias_ci_lower",
        "mse_bias_ci_upper", "mse_ci_lower", "mse_ci_upper", "RMSD_ci_lower", "RMSD_ci_upper"] else [])

theorem written_nodup (o : PairOptions) : (key "n_obs" :: ((writtenNames o).map key ++ [key "status"])).Nodup := by
  obtain ⟨a, b, c, d⟩ := o
  revert a b c d
  decide +kernel

theorem written_known (o : PairOptions) :
    ∀ k ∈ key "n_obs" :: ((writtenNames o).map key ++ [key "status"]), k = key "status" ∨ k ∈ (pairwiseNames o ++ ["n_obs"]).map key := by
  obtain ⟨a, b, c, d⟩ := o
  revert a b c d
  decide +kernel

theorem rss_never_written (o : PairOptions) :
    key "RSS_ci_lower" ∉ key "n_obs" :: ((writtenNames o).map key ++ [key "status"]) ∧
    key "RSS_ci_upper" ∉ key "n_obs" :: ((writtenNames o).map key ++ [key "status"]) := by
  obtain ⟨a, b, c, d⟩ := o
  revert a b c d
  decide +kernel

theorem rss_listed (o : PairOptions) (h : o.bootstrap = true) : "RSS_ci_lower" ∈ pairwiseNames o ∧ "RSS_ci_upper" ∈ pairwiseNames o := by
  obtain ⟨a, b, c, d⟩ := o
  simp only at h
  subst h
  revert a b c
  decide +kernel

/-- a value with its p-value -/
noncomputable def withP (value p : String) (r : Option (ℝ × ℝ)) : Dict ℝ := [(key value, .num (r.map Prod.fst)), (key p, .num (r.map Prod.snd))]

/-- the bounds of an interval -/
noncomputable def bounds (lower upper : String) (r : Option (ℝ × ℝ)) : Dict ℝ :=
  [(key lower, .num (r.map Prod.fst)), (key upper, .num (r.map Prod.snd))]

/-- the p-value of a correlation coefficient `r` of `n` pairs (two-sided t-test by means of the regularised incomplete beta function) -/
noncomputable def pearsonP (betainc : ℝ → ℝ → ℝ → ℝ) (n r : ℝ) : ℝ :=
  if |r| = 1 then 0 else betainc ((n - 2) / 2) (1 / 2) (min ((n - 2) / (n - 2 + r ^ 2 * (n - 2) / (1 - r ^ 2))) 1)

theorem pearsonr_p (betainc : ℝ → ℝ → ℝ → ℝ) (vx vy c : ℝ) (n : ℕ) :
    (pearsonrFromMoments betainc vx vy c (n : ℤ)).map Prod.snd =
      ((pearsonrFromMoments betainc vx vy c (n : ℤ)).map Prod.fst).map (pearsonP betainc n) := by
  unfold pearsonrFromMoments
  split
  · rfl
  · simp only
    split
    · rename_i h
      simp only [Option.map_some, pearsonP, if_pos h]
    · rename_i h
      simp only [Option.map_some, pearsonP, if_neg h, Int.cast_natCast]
      congr 4
      congr 1
      generalize max (-1) (min (c / Real.sqrt (vx * vy)) 1) = r
      rw [show (1 - r) * (1 + r) = 1 - r ^ 2 by ring]
      ring

/-- What a user expects to find in the result for the complete pairs `l`: the values of the functions of `pytesmo.metrics`. `boot` are the
bootstrapped intervals. -/
noncomputable def expectedPairwise (F : PairFuncs) (o : PairOptions) (boot : (Pairs → ℝ) → ℝ × ℝ) (l : Pairs) : Dict ℝ :=
  [(key "R", .num (pearson l)), (key "p_R", .num ((pearson l).map (pearsonP F.betainc l.length))), (key "BIAS", .num (some (bias l))), (key "RMSD", .num (some (rmsd l 0))),
   (key "mse", .num (some (msd l))), (key "RSS", .num (some (RSS l))), (key "mse_corr", .num (some (mseCorr l))),
   (key "mse_bias", .num (some (mseBias l))), (key "urmsd", .num (some (ubrmsd l 0))), (key "mse_var", .num (some (mseVar l)))]
  ++ (if o.spearman then withP "rho" "p_rho" (F.spearman l) else [])
  ++ (if o.kendall then withP "tau" "p_tau" (F.kendall l) else [])
  ++ (if o.analytical then
      bounds "BIAS_ci_lower" "BIAS_ci_upper" (some (biasCi F.tppf l (bias l) 0.05))
      ++ bounds "urmsd_ci_lower" "urmsd_ci_upper" (some (ubrmsdCi F.chi2ppf l (ubrmsd l 0) 0.05))
      ++ bounds "R_ci_lower" "R_ci_upper" ((pearson l).map (fun r => pearsonCi F.normppf l.length r 0.05))
      ++ (if o.spearman then bounds "rho_ci_lower" "rho_ci_upper" ((F.spearman l).map (fun r => spearmanCi F.normppf l.length r.1 0.05)) else [])
      ++ (if o.kendall then bounds "tau_ci_lower" "tau_ci_upper" ((F.kendall l).map (fun r => kendallCi F.normppf l.length r.1 0.05)) else [])
    else [])
  ++ (if o.bootstrap then
      bounds "mse_var_ci_lower" "mse_var_ci_upper" (some (boot mseVar)) ++ bounds "mse_corr_ci_lower" "mse_corr_ci_upper" (some (boot mseCorr))
      ++ bounds "mse_bias_ci_lower" "mse_bias_ci_upper" (some (boot mseBias))
      ++ bounds "RMSD_ci_lower" "RMSD_ci_upper" (some (boot (fun l => rmsd l 0)))
      ++ bounds "mse_ci_lower" "mse_ci_upper" (some (boot msd)) ++ bounds "RSS_ci_lower" "RSS_ci_upper" none
    else [])
  ++ [(key "n_obs", .int l.length)]

theorem expectedPairwise_keys (F : PairFuncs) (o : PairOptions) (boot : (Pairs → ℝ) → ℝ × ℝ) (l : Pairs) :
    (expectedPairwise F o boot l).map Prod.fst = (pairwiseNames o ++ ["n_obs"]).map key := by
  obtain ⟨a, b, c, d⟩ := o
  cases a <;> cases b <;> cases c <;> cases d <;> rfl

/-- the values the mixin calculates from the moments -/
theorem from_moments (F : PairFuncs) (l : Pairs) (h2 : 2 ≤ l.length) :
    let m := momentsWelford l
    m.mx - m.my = bias l ∧ mseCorrFromMoments m = mseCorr l ∧ mseVarFromMoments m = mseVar l ∧ mseBiasFromMoments m = mseBias l ∧
    max (mseCorrFromMoments m + mseVarFromMoments m + mseBiasFromMoments m) 0 = msd l ∧
    msd l * (l.length : ℝ) = RSS l ∧ Real.sqrt (msd l) = rmsd l 0 ∧ Real.sqrt (msd l - mseBias l) = ubrmsd l 0 ∧
    (pearsonrFromMoments F.betainc m.varx m.vary m.cov (l.length : ℤ)).map Prod.fst = pearson l ∧
    biasCiFromMoments F.tppf 0.05 m (l.length : ℝ) = biasCi F.tppf l (bias l) 0.05 := by
  have hne : l ≠ [] := by rintro rfl; simp at h2
  have hn := len_pos (K := ℝ) l hne
  obtain ⟨a1, a2, a3, a4, a5, a6, a7, a8, -⟩ := mse_decomposition_exact l hne
  obtain ⟨c1, c2, c3, c4, c5, c6, -⟩ := difference_metrics_consistent l hne
  have hm := moments_welford_correct l hne
  have hb : mseBiasFromMoments (momentsWelford l) = mseBias l := a4
  have hsum : mseCorrFromMoments (momentsWelford l) + mseVarFromMoments (momentsWelford l) + mseBiasFromMoments (momentsWelford l) = msd l := by
    rw [c1, ← a2]; rfl
  have hmsd : 0 ≤ msd l := by rw [← c3]; positivity
  have hu : msd l - mseBias l = ubrmsd l 0 ^ 2 := by
    have : mseBias l = bias l ^ 2 := rfl
    rw [this, ← c3, c5]; ring
  have hunn : 0 ≤ ubrmsd l 0 := by
    unfold ubrmsd; rw [if_neg (by simp)]; exact Real.sqrt_nonneg _
  refine ⟨?_, rfl, rfl, hb, ?_, ?_, ?_, ?_, ?_, ?_⟩
  · rw [hm, c6]
  · rw [hsum]; exact max_eq_left hmsd
  · rw [c2]; exact div_mul_cancel₀ _ hn.ne'
  · rfl
  · rw [hu, Real.sqrt_sq hunn]
  · have := (pearsonr_from_moments_correct F.betainc l 1 one_pos (l.length : ℤ)).1
    rw [one_mul, one_mul, one_mul] at this
    rw [hm]; exact this
  · exact bias_ci_from_moments_eq F.tppf l h2 0.05

theorem set_eq_setAll (d : Dict ℝ) (kv : Key × Val ℝ) : set d kv = setAll d [kv] := (setAll_one d kv).symm

/-- the bootstrapped intervals in the order of the assignments -/
noncomputable def writtenBoot (o : PairOptions) (boot : (Pairs → ℝ) → ℝ × ℝ) : Dict ℝ :=
  if o.bootstrap then ciWrites "mse_var" (some (boot mseVar)) ++ (ciWrites "mse_corr" (some (boot mseCorr)) ++
      (ciWrites "mse_bias" (some (boot mseBias)) ++ (ciWrites "mse" (some (boot msd)) ++ (ciWrites "RMSD" (some (boot (fun l => rmsd l 0))) ++ []))))
    else []

/-- the values in the order of the assignments -/
noncomputable def written (F : PairFuncs) (o : PairOptions) (R : Option (ℝ × ℝ)) (boot : (Pairs → ℝ) → ℝ × ℝ) (l : Pairs) : Dict ℝ :=
  [(key "BIAS", .num (some (bias l))), (key "mse_corr", .num (some (mseCorr l))), (key "mse_var", .num (some (mseVar l))),
      (key "mse_bias", .num (some (mseBias l))), (key "mse", .num (some (msd l))), (key "RSS", .num (some (RSS l))),
      (key "RMSD", .num (some (rmsd l 0))), (key "urmsd", .num (some (ubrmsd l 0)))]
    ++ statWrites "R" "p_R" R
    ++ (if o.spearman then statWrites "rho" "p_rho" (F.spearman l) else [])
    ++ (if o.kendall then statWrites "tau" "p_tau" (F.kendall l) else [])
    ++ (if o.analytical then
        ciWrites "BIAS" (some (biasCi F.tppf l (bias l) 0.05)) ++ ciWrites "urmsd" (some (ubrmsdCi F.chi2ppf l (ubrmsd l 0) 0.05))
        ++ ciWrites "R" (R.map (fun r => pearsonCi F.normppf l.length r.1 0.05))
        ++ (if o.spearman then ciWrites "rho" ((F.spearman l).map (fun r => spearmanCi F.normppf l.length r.1 0.05)) else [])
        ++ (if o.kendall then ciWrites "tau" ((F.kendall l).map (fun r => kendallCi F.normppf l.length r.1 0.05)) else [])
      else [])
    ++ writtenBoot o boot

theorem written_names (F : PairFuncs) (o : PairOptions) (R : Option (ℝ × ℝ)) (boot : (Pairs → ℝ) → ℝ × ℝ) (l : Pairs) :
    (written F o R boot l).map Prod.fst = (writtenNames o).map key := by
  obtain ⟨a, b, c, d⟩ := o
  cases a <;> cases b <;> cases c <;> cases d <;> rfl

theorem expected_written (F : PairFuncs) (o : PairOptions) (R : Option (ℝ × ℝ)) (boot : (Pairs → ℝ) → ℝ × ℝ) (l : Pairs)
    (hb9 : pearson l = R.map Prod.fst) (hp : R.map Prod.snd = (R.map Prod.fst).map (pearsonP F.betainc l.length)) : ∀ e ∈ expectedPairwise F o boot l,
      e ∈ written F o R boot l ∨ e ∈ [(key "n_obs", Val.int (l.length : ℤ))] ∨
      ((e = (key "RSS_ci_lower", .num none) ∨ e = (key "RSS_ci_upper", .num none)) ∧ o.bootstrap = true ∧ e ∈ missingPairwise o) := by
  intro e he
  have hRci : (pearson l).map (fun r => pearsonCi F.normppf (l.length : ℝ) r 0.05) =
      R.map (fun r => pearsonCi F.normppf (l.length : ℝ) r.1 0.05) := by rw [hb9, Option.map_map]; rfl
  unfold expectedPairwise at he
  rw [hRci, hb9, ← hp] at he
  unfold written
  rcases List.mem_append.mp he with he | he
  swap
  · exact Or.inr (Or.inl he)
  rcases List.mem_append.mp he with he | he
  swap
  · cases hs : o.bootstrap with
    | false => simp [hs] at he
    | true =>
      rw [hs, if_pos rfl] at he
      rcases List.mem_append.mp he with he | he
      · left
        apply List.mem_append_right
        unfold writtenBoot
        rw [hs, if_pos rfl]
        rcases List.mem_append.mp he with he | he
        · rcases List.mem_append.mp he with he | he
          · rcases List.mem_append.mp he with he | he
            · rcases List.mem_append.mp he with he | he
              · exact List.mem_append_left _ he
              · exact List.mem_append_right _ (List.mem_append_left _ he)
            · exact List.mem_append_right _ (List.mem_append_right _ (List.mem_append_left _ he))
          · exact List.mem_append_right _ (List.mem_append_right _ (List.mem_append_right _ (List.mem_append_right _ (List.mem_append_left _ he))))
        · exact List.mem_append_right _ (List.mem_append_right _ (List.mem_append_right _ (List.mem_append_left _ he)))
      · right; right
        simp only [bounds, List.mem_cons, List.not_mem_nil, or_false] at he
        rcases he with rfl | rfl
        · exact ⟨Or.inl rfl, rfl, List.mem_append_left _ (List.mem_map.mpr ⟨_, (rss_listed o hs).1, rfl⟩)⟩
        · exact ⟨Or.inr rfl, rfl, List.mem_append_left _ (List.mem_map.mpr ⟨_, (rss_listed o hs).2, rfl⟩)⟩
  left
  apply List.mem_append_left
  rcases List.mem_append.mp he with he | he
  swap
  · apply List.mem_append_right
    cases hs : o.analytical with
    | false => simp [hs] at he
    | true =>
      rw [hs, if_pos rfl] at he
      rw [if_pos rfl]
      exact he
  apply List.mem_append_left
  rcases List.mem_append.mp he with he | he
  swap
  · exact List.mem_append_right _ he
  apply List.mem_append_left
  rcases List.mem_append.mp he with he | he
  swap
  · exact List.mem_append_right _ he
  apply List.mem_append_left
  simp only [List.mem_cons, List.not_mem_nil, or_false] at he
  rcases he with rfl | rfl | rfl | rfl | rfl | rfl | rfl | rfl | rfl | rfl <;> simp [statWrites]

/-- **C55.** With at least `min_obs` (and two) complete rows, `PairwiseIntercomparisonMetrics` reports for the two columns exactly the values
the functions of `pytesmo.metrics` have on the complete rows, for every choice of options; status OK. (`RSS_ci_lower` and `RSS_ci_upper` are
missing, they are never calculated.) -/
theorem pairwise_result (F : PairFuncs) (o : PairOptions) (minObs : ℕ) (mt : Option (Dict ℝ)) (data : Frame ℝ) (info : Info ℝ)
    (hf : FieldsOk (mt.getD []) ((pairwiseNames o ++ ["n_obs"]).map key)) (hp : Provides info (mt.getD []))
    (hw : ∀ r ∈ data.rows, r.2.length = 2) (l : Pairs) (hl : l = completePairs data.rows) (h2 : 2 ≤ l.length) (hn : minObs ≤ l.length)
    (boot : (Pairs → ℝ) → ℝ × ℝ) (hboot : o.bootstrap = true → ∀ f, F.boot f l = .ok (boot f)) :
    ∃ T d, pairwiseTemplate o mt = .ok T ∧ pairwiseCalc F o minObs T mt data info = .ok d ∧
      Reports (mt.getD []) info (.int 0) (expectedPairwise F o boot l) d := by
  have hk := missingPairwise_keys o
  have hnd : ((missingPairwise o).map Prod.fst).Nodup := by rw [hk]; exact pairwiseKeys_nodup o
  have hfr : ∀ k ∈ (missingPairwise o).map Prod.fst, k ∉ reserved := by rw [hk]; exact pairwiseKeys_fresh o
  have hf' : FieldsOk (mt.getD []) ((missingPairwise o).map Prod.fst) := by rw [hk]; exact hf
  obtain ⟨d0, m1, m2⟩ := metadataCalc_ok mt (missingPairwise o) hnd hfr hf' info hp
  obtain ⟨b1, b2, b3, b4, b5, b6, b7, b8, b9, b10⟩ := from_moments F l h2
  obtain ⟨n1, n2⟩ := dropna_pairs data hw
  rw [← hl] at n1 n2
  set R := pearsonrFromMoments F.betainc (momentsWelford l).varx (momentsWelford l).vary (momentsWelford l).cov (l.length : ℤ) with hR
  set ws := written F o R boot l with hws
  have hwrites : pairwiseWrites F o l (momentsWelford l) = .ok ws := by
    unfold pairwiseWrites
    simp only [← hR]
    rw [b5, b2, b3, b4, b6, b7, b8, b1, b10]
    have hb : bootPart F o l = .ok (writtenBoot o boot) := by
      unfold bootPart writtenBoot
      cases ho : o.bootstrap with
      | false => rfl
      | true =>
        simp only [if_true, bootWrites, bind, Except.bind, hboot ho]
        rfl
    rw [hb]
    rfl
  have hwsk : ws.map Prod.fst = (writtenNames o).map key := written_names F o R boot l
  set all : Dict ℝ := [(key "n_obs", .int l.length)] ++ (ws ++ [(key "status", .int ok)]) with hall
  have hallk' : all.map Prod.fst = key "n_obs" :: ((writtenNames o).map key ++ [key "status"]) := by
    rw [hall, List.map_append, List.map_append, hwsk]
    rfl
  have hallk : (all.map Prod.fst).Nodup := by rw [hallk']; exact written_nodup o
  have hmem : ∀ e ∈ expectedPairwise F o boot l, e ∈ all ∨ (e.1 ∉ all.map Prod.fst ∧ e ∈ missingPairwise o) := by
    intro e he
    rw [hallk']
    rcases expected_written F o R boot l b9.symm (pearsonr_p _ _ _ _ _) e he with h | h | ⟨h1, h2, h3⟩
    · left
      rw [hall]
      exact List.mem_append_right _ (List.mem_append_left _ h)
    · left
      rw [hall]
      exact List.mem_append_left _ h
    · right
      rcases h1 with h1 | h1
      · rw [h1] at h3 ⊢
        exact ⟨(rss_never_written o).1, h3⟩
      · rw [h1] at h3 ⊢
        exact ⟨(rss_never_written o).2, h3⟩
  obtain ⟨d, e1, e2⟩ := setAll_reports _ info _ (missingPairwise o) hfr hf' d0 m2 (ws := all) (s' := .int 0) (vals := expectedPairwise F o boot l)
    (by
      intro w hw
      rw [hk]
      exact written_known o w.1 (hallk' ▸ List.mem_map.mpr ⟨w, hw, rfl⟩))
    (by
      rw [lookup_reverse all hallk, lookup_of_nodup all hallk (key "status", .int ok) (by simp [hall])]
      rfl)
    (by rw [expectedPairwise_keys, hk])
    (by
      intro e he
      rw [lookup_reverse all hallk]
      rcases hmem e he with h | ⟨h, h'⟩
      · rw [lookup_of_nodup all hallk e h]; rfl
      · rw [(lookup_none_iff all e.1).mpr h, Option.none_or]
        exact lookup_of_nodup _ hnd e h')
  refine ⟨_, d, pairwiseTemplate_eq o mt, ?_, e2⟩
  rw [hall, setAll_append] at e1
  unfold pairwiseCalc
  rw [m1]
  show ((set d0 (key "n_obs", .int (dropna data).length)).bind _) = _
  rw [n1, set_eq_setAll, ← e1]
  apply congrArg
  funext a
  show (if _ then _ else _) = _
  rw [if_neg (by omega), n2, setAll_append]
  show (pairwiseWrites F o l (momentsWelford l)).bind _ = _
  rw [hwrites]
  show (setAll a ws).bind _ = _
  apply congrArg
  funext b
  rw [setAll_one]

/-- **C54.** With fewer than `min_obs` complete rows: status INSUFFICIENT_DATA, the number of complete rows, and no metrics. -/
theorem pairwise_insufficient (F : PairFuncs) (o : PairOptions) (minObs : ℕ) (mt : Option (Dict ℝ)) (data : Frame ℝ) (info : Info ℝ)
    (hf : FieldsOk (mt.getD []) ((pairwiseNames o ++ ["n_obs"]).map key)) (hp : Provides info (mt.getD []))
    (hn : data.rows.countP (fun r => r.2.all Option.isSome) < minObs) :
    ∃ T d, pairwiseTemplate o mt = .ok T ∧ pairwiseCalc F o minObs T mt data info = .ok d ∧
      Reports (mt.getD []) info (.int 1) ((pairwiseNames o).map (fun m => (key m, Val.num none)) ++
        [(key "n_obs", .int (data.rows.countP (fun r => r.2.all Option.isSome)))]) d := by
  have hk := missingPairwise_keys o
  have hnd : ((missingPairwise o).map Prod.fst).Nodup := by rw [hk]; exact pairwiseKeys_nodup o
  have hfr : ∀ k ∈ (missingPairwise o).map Prod.fst, k ∉ reserved := by rw [hk]; exact pairwiseKeys_fresh o
  have hf' : FieldsOk (mt.getD []) ((missingPairwise o).map Prod.fst) := by rw [hk]; exact hf
  have hlen : (dropna data).length = data.rows.countP (fun r => r.2.all Option.isSome) := by
    unfold dropna
    rw [List.length_map, List.countP_eq_length_filter]
  obtain ⟨d0, m1, m2⟩ := metadataCalc_ok mt (missingPairwise o) hnd hfr hf' info hp
  set n := data.rows.countP (fun r => r.2.all Option.isSome) with hndef
  have hno : ∀ m ∈ pairwiseNames o, key m ≠ key "n_obs" ∧ key m ≠ key "status" := by
    obtain ⟨a, b, c, d⟩ := o; clear * -; revert a b c d; decide +kernel
  obtain ⟨d, e1, e2⟩ := setAll_reports _ info _ (missingPairwise o) hfr hf' d0 m2
    (ws := [(key "n_obs", .int n)] ++ [(key "status", .int insufficientData)]) (s' := .int 1)
    (vals := (pairwiseNames o).map (fun m => (key m, Val.num none)) ++ [(key "n_obs", .int n)])
    (by
      intro w hw
      rw [hk]
      simp only [List.cons_append, List.nil_append, List.mem_cons, List.not_mem_nil, or_false] at hw
      rcases hw with rfl | rfl
      · right; simp
      · left; rfl)
    rfl
    (by unfold missingPairwise; simp)
    (by
      intro e he
      rcases List.mem_append.mp he with h | h
      · obtain ⟨m, hm, rfl⟩ := List.mem_map.mp h
        have h1 : List.lookup (key m) ([(key "n_obs", Val.int (n : ℤ))] ++ [(key "status", Val.int insufficientData)] : Dict ℝ).reverse = none := by
          rw [lookup_none_iff]
          simp [(hno m hm).1, (hno m hm).2]
        rw [h1, Option.none_or]
        exact lookup_of_nodup _ hnd (key m, .num none) (List.mem_append_left _ h)
      · rw [List.mem_singleton] at h
        subst h
        rfl)
  refine ⟨_, d, pairwiseTemplate_eq o mt, ?_, e2⟩
  rw [setAll_append] at e1
  unfold pairwiseCalc
  rw [m1]
  show ((set d0 (key "n_obs", .int (dropna data).length)).bind _) = _
  rw [hlen, set_eq_setAll, ← e1]
  apply congrArg
  funext a
  show (if _ then _ else _) = _
  rw [if_pos hn, set_eq_setAll]

/-- **C54 fails** when the bootstrap raises, e.g. for fewer rows than `bootstrap_min_obs` (100 by default) although there are at least `min_obs`
(10 by default): the error is not caught and there is no result at all. -/
theorem pairwise_bootstrap_error (F : PairFuncs) (o : PairOptions) (minObs : ℕ) (mt : Option (Dict ℝ)) (data : Frame ℝ) (info : Info ℝ)
    (hf : FieldsOk (mt.getD []) ((pairwiseNames o ++ ["n_obs"]).map key)) (hp : Provides info (mt.getD []))
    (hw : ∀ r ∈ data.rows, r.2.length = 2) (l : Pairs) (hl : l = completePairs data.rows) (hn : minObs ≤ l.length)
    (hb : o.bootstrap = true) (e : Err) (hboot : F.boot mseVar l = .error e) :
    ∃ T, pairwiseTemplate o mt = .ok T ∧ pairwiseCalc F o minObs T mt data info = .error e := by
  have hk := missingPairwise_keys o
  have hnd : ((missingPairwise o).map Prod.fst).Nodup := by rw [hk]; exact pairwiseKeys_nodup o
  have hfr : ∀ k ∈ (missingPairwise o).map Prod.fst, k ∉ reserved := by rw [hk]; exact pairwiseKeys_fresh o
  have hf' : FieldsOk (mt.getD []) ((missingPairwise o).map Prod.fst) := by rw [hk]; exact hf
  obtain ⟨d0, m1, m2⟩ := metadataCalc_ok mt (missingPairwise o) hnd hfr hf' info hp
  obtain ⟨n1, n2⟩ := dropna_pairs data hw
  rw [← hl] at n1 n2
  refine ⟨_, pairwiseTemplate_eq o mt, ?_⟩
  unfold pairwiseCalc
  rw [m1]
  show ((set d0 (key "n_obs", .int (dropna data).length)).bind _) = _
  rw [n1, set_ok d0 _ (by rw [m2.keys, hk]; right; right; simp)]
  show (if _ then _ else _) = _
  rw [if_neg (by omega), n2]
  have : pairwiseWrites F o l (momentsWelford l) = .error e := by
    have hb' : bootPart F o l = .error e := by
      unfold bootPart
      rw [hb, if_pos rfl]
      simp only [bootWrites, bind, Except.bind]
      rw [show bootMetric "mse_var" = mseVar from rfl, hboot]
    unfold pairwiseWrites
    rw [hb']
    rfl
  show (pairwiseWrites F o l (momentsWelford l)).bind _ = _
  rw [this]
  rfl

/-- three complete rows and two with missing values -/
def pairFrame : Frame ℝ := ⟨["a".toList, "b".toList],
  [(1, [some 1, some 2]), (1, [none, some 2]), (2, [some 3, some 5]), (2, [some 4, none]), (3, [some 6, some 4])]⟩

/-- `pairwise_result` applies with `min_obs = 3`, `pairwise_insufficient` with `min_obs = 4`. -/
example : (∀ r ∈ pairFrame.rows, r.2.length = 2) ∧ completePairs pairFrame.rows = [(1, 2), (3, 5), (6, 4)] ∧
    pairFrame.rows.countP (fun r => r.2.all Option.isSome) = 3 := by
  refine ⟨?_, rfl, rfl⟩
  intro r hr
  simp only [pairFrame, List.mem_cons, List.not_mem_nil, or_false] at hr
  rcases hr with rfl | rfl | rfl | rfl | rfl <;> rfl

end Verif.Calculators
