import Verif.Validation.More

/-! The entries of a result table at a location that does not fail. -/

set_option linter.unusedSectionVars false
set_option synthInstance.maxSize 1000

namespace Verif.Validation

variable {α : Type} [LinearOrder α] {T V W Info : Type}
variable (S : Setup α T V W Info) (F : Key α → List Field) (names : ℕ → List (Key α))

theorem hasValue_unique {S : Setup α T V W Info} {F : Key α → List Field} (H : GoodCalculators S F) {key : Key α} (hE : Expected S key) {m : Metrics W}
    (hm : IsRow (F key) m) {f : Field} {w w' : W} (h : HasValue m f w) (h' : HasValue m f w') : w = w' := by
  have hn : (m.map Prod.fst).Nodup := by rw [hm.1]; exact H.fieldsNodup key hE
  have e1 := lookup_of_mem m hn h
  have e2 := lookup_of_mem m hn h'
  rw [e1] at e2
  simpa using e2

/-- the columns of a table belong to the jobs, one entry per location -/
theorem calc_columns (H : GoodCalculators S F) (hM : NeverAllMasked S) (infos : List Info)
    (out : List (Key α × List (Field × List W))) (h : calcAll S false infos = .ok out) (key : Key α)
    (tbl : List (Field × List W)) (hk : (key, tbl) ∈ out) :
    Expected S key ∧ tbl.map Prod.fst = F key ∧
    ∀ f col, (f, col) ∈ tbl → List.Forall₂ (fun i w => ∃ r m, processOne S false i = .ok r ∧ r.lookup key = some [m] ∧ HasValue m f w) infos col := by
  have hne : infos ≠ [] := by
    rintro rfl
    have : out = [] := by
      have h' : (Except.ok ([] : List (Key α × List (Field × List W))) : Except Exc _) = .ok out := h
      exact (Except.ok.inj h').symm
    rw [this] at hk; simp at hk
  obtain ⟨out', h1, -, h3, h4⟩ := calc_table S F H false infos hne (fun i => (processOne_total S F H i).choose)
    (fun i _ => (processOne_total S F H i).choose_spec)
    (fun i _ => processOne_shape S F H hM false i _ (processOne_total S F H i).choose_spec)
  rw [h] at h1
  obtain rfl := Except.ok.inj h1
  refine ⟨(h3 key).mp (List.mem_map.mpr ⟨_, hk, rfl⟩), (h4 key tbl hk).1, ?_⟩
  intro f col hf
  refine ((h4 key tbl hk).2 _ col hf).imp ?_
  rintro i w ⟨m, h5, h6⟩
  exact ⟨_, m, (processOne_total S F H i).choose_spec, h5, h6⟩

/-- The row of a location that does not fail is what the calculator returns for the data of the result. -/
theorem processOne_value (H : GoodCalculators S F) (hN : AreNames S names) (info : Info) (hff : firstFailure S names info = none)
    (r : Results (Key α) (Metrics W)) (h : processOne S false info = .ok r) (key : Key α) (hE : Expected S key) (m : Metrics W)
    (hl : r.lookup key = some [m]) (dfs dfs' dfs'' : List (α × DF α T V)) (h1 : S.getData info = .ok dfs) (h2 : dfs ≠ [])
    (h3 : masked S info dfs = .ok (some dfs')) (h4 : onlyColumns S dfs' = .ok dfs'') (c) (hc : c ∈ S.calcs) (hck : c.1.2 = key.length)
    (M : List (List α × MFrame α T V)) (h5 : S.matcher dfs'' S.temporalRef c.1.1 c.1.2 = .ok M) (data : Frame α T V)
    (h6 : dataForKey S M key = .ok data) (h7 : data.index ≠ []) (d : Frame α T V) (h8 : scaled S info key data = .ok d)
    (m' : Metrics W) (h9 : c.2 (renamed S key d) info = .ok m') : m = m' := by
  unfold processOne at h
  cases ha : attempt S false info with
  | error e =>
    have := (attempt_failure S F names H hN info _).mp ⟨e, ha, rfl⟩
    rw [hff] at this
    cases this
  | ok r' =>
    rw [ha] at h
    obtain rfl := Except.ok.inj h
    unfold attempt at ha
    rw [h1] at ha
    simp only at ha
    rw [if_neg (by rwa [List.length_eq_zero_iff])] at ha
    unfold performValidation at ha
    simp only [bind, Except.bind, h3, h4] at ha
    cases hm : matchAll S dfs'' with
    | error e => rw [hm] at ha; cases ha
    | ok matched =>
      rw [hm] at ha
      simp only at ha
      have hmm : S.calcs.mapM (fun c => S.matcher dfs'' S.temporalRef c.1.1 c.1.2) = .ok matched := by
        unfold matchAll at hm
        split at hm
        · rename_i l hl
          rw [hl, Except.ok.inj hm]
        · cases hm
      have hlen := mapM_length _ _ _ hmm
      obtain ⟨-, hall⟩ := perform_shape S F names H hN false info matched hlen r' ha
      obtain ⟨n, hn, rfl⟩ := List.getElem_of_mem hc
      have hn' : n < matched.length := by omega
      have hzip : (S.calcs[n], matched[n]) ∈ S.calcs.zip matched := by
        rw [List.mem_iff_getElem]
        exact ⟨n, by rw [List.length_zip]; omega, by simp⟩
      have hmat : S.matcher dfs'' S.temporalRef S.calcs[n].1.1 S.calcs[n].1.2 = .ok matched[n] := by
        have := mapM_except_ok hmm
        rw [List.forall₂_iff_get] at this
        exact this.2 n hn hn'
      rw [h5] at hmat
      obtain hMe := Except.ok.inj hmat
      have hkey : key ∈ names S.calcs[n].1.2 := by
        obtain ⟨c', hc', hA, -⟩ := hE
        rw [hck]
        have : c'.1.2 = key.length := by obtain ⟨ref, hA⟩ := hA; exact hA.2.1.symm
        rw [← this]
        exact ((hN _ (H.kPos _ hc')).2.2 key).mpr hA
      obtain ⟨o, ho, hlo⟩ := hall _ hzip key hkey
      have hskip : ¬(S.onlyWithReference && !decide (S.reference ∈ dsNames key)) = true := by
        obtain ⟨-, -, -, href⟩ := hE
        cases hw : S.onlyWithReference with
        | false => simp
        | true => simp [href hw]
      simp only [← hMe] at ho
      unfold performKey at ho
      simp only [bind, Except.bind, h6] at ho
      rw [if_neg hskip, if_neg (by rwa [List.length_eq_zero_iff])] at ho
      simp only [h8, h9] at ho
      obtain rfl := Except.ok.inj ho
      rw [hl] at hlo
      simpa using hlo

/-- The entry of a result at a location whose data reach the calculator. -/
theorem calc_value (H : GoodCalculators S F) (hM : NeverAllMasked S) (hN : AreNames S names) (infos : List Info)
    (out : List (Key α × List (Field × List W))) (h : calcAll S false infos = .ok out) (key : Key α)
    (tbl : List (Field × List W)) (hk : (key, tbl) ∈ out) (n : ℕ) (info : Info) (hi : infos[n]? = some info)
    (hff : firstFailure S names info = none) (dfs dfs' dfs'' : List (α × DF α T V)) (h1 : S.getData info = .ok dfs) (h2 : dfs ≠ [])
    (h3 : masked S info dfs = .ok (some dfs')) (h4 : onlyColumns S dfs' = .ok dfs'') (c) (hc : c ∈ S.calcs) (hck : c.1.2 = key.length)
    (M : List (List α × MFrame α T V)) (h5 : S.matcher dfs'' S.temporalRef c.1.1 c.1.2 = .ok M) (data : Frame α T V)
    (h6 : dataForKey S M key = .ok data) (h7 : data.index ≠ []) (d : Frame α T V) (h8 : scaled S info key data = .ok d)
    (m : Metrics W) (h9 : c.2 (renamed S key d) info = .ok m) (f : Field) (w : W) (hw : HasValue m f w) :
    ∃ col, (f, col) ∈ tbl ∧ col[n]? = some w := by
  obtain ⟨hE, hF, hcols⟩ := calc_columns S F H hM infos out h key tbl hk
  have hrow := H.row c hc key hE hck.symm _ _ _ (.inr ⟨_, _, _, h6, h7, h8, rfl⟩) h9
  have hf : f ∈ tbl.map Prod.fst := by
    rw [hF, ← hrow.1]
    exact List.mem_map.mpr ⟨_, hw, rfl⟩
  obtain ⟨⟨f', col⟩, hmem, rfl⟩ := List.mem_map.mp hf
  refine ⟨col, hmem, ?_⟩
  have hcol := hcols f' col hmem
  obtain ⟨hlt, hget⟩ := List.getElem?_eq_some_iff.mp hi
  rw [List.forall₂_iff_get] at hcol
  have hlt' : n < col.length := by rw [← hcol.1]; exact hlt
  obtain ⟨r, m', k1, k2, k3⟩ := hcol.2 n hlt hlt'
  simp only [List.get_eq_getElem, hget] at k1 k3
  have := processOne_value S F names H hN info hff r k1 key hE m' k2 dfs dfs' dfs'' h1 h2 h3 h4 c hc hck M h5 data h6 h7 d h8 m h9
  subst this
  rw [List.getElem?_eq_getElem hlt', hasValue_unique H hE hrow hw k3]

/-- The status at a location that fails as a whole or has no data for the result. -/
theorem calc_status_value (H : GoodCalculators S F) (hM : NeverAllMasked S) (hN : AreNames S names) (infos : List Info)
    (out : List (Key α × List (Field × List W))) (h : calcAll S false infos = .ok out) (key : Key α)
    (tbl : List (Field × List W)) (hk : (key, tbl) ∈ out) (n : ℕ) (info : Info) (hi : infos[n]? = some info) (w : W)
    (hw : ∀ w', ((∃ code, firstFailure S names info = some code ∧ w' = S.ofCode code) ∨
      (firstFailure S names info = none ∧ KeyStatus S info key w')) → w' = w) :
    ∃ col, (.plain "status", col) ∈ tbl ∧ col[n]? = some w := by
  obtain ⟨hE, hF, -⟩ := calc_columns S F H hM infos out h key tbl hk
  have hf : Field.plain "status" ∈ tbl.map Prod.fst := by
    rw [hF]
    exact H.status key hE
  obtain ⟨⟨f', col⟩, hmem, hf'⟩ := List.mem_map.mp hf
  simp only at hf'
  subst hf'
  refine ⟨col, hmem, ?_⟩
  have hcol := calc_status_partial S F names H hM hN infos out h key tbl hk col hmem
  obtain ⟨hlt, hget⟩ := List.getElem?_eq_some_iff.mp hi
  rw [List.forall₂_iff_get] at hcol
  have hlt' : n < col.length := by rw [← hcol.1]; exact hlt
  have := hcol.2 n hlt hlt'
  simp only [List.get_eq_getElem, hget] at this
  rw [List.getElem?_eq_getElem hlt', hw _ this]

end Verif.Validation
