import Verif.Calculators.Inter
import Verif.Calculators.TcMetrics

/-! Errors and wrong labels of the calculators with named pairs (C57): names with `_and_`, missing metadata. -/

namespace Verif.Calculators

variable {K : Type}

/-- **C57, negation.** For all columns: the pair of `r` and `x_and_y` is stored under the name of the pair `r`, `x`. -/
theorem and_same_key (lut : List (Name × Name)) (r x y : Name) (hr : Free sepAnd r) (hx : Free sepAnd x) (hy : Free sepAnd y) :
    pairKey lut (pyJoin sepAnd [r, x ++ sepAnd ++ y]) = pairKey lut (pyJoin sepAnd [r, x]) := by
  have h3 : pySplit sepAnd (pyJoin sepAnd [r, x ++ sepAnd ++ y]) = [r, x, y] := by
    have : pyJoin sepAnd [r, x ++ sepAnd ++ y] = pyJoin sepAnd [r, x, y] := by simp [pyJoin]
    rw [this]
    exact split_join sepAnd sepAnd_ne [r, x, y] (by simp) (by simp [hr, hx, hy])
  have h2 : pySplit sepAnd (pyJoin sepAnd [r, x]) = [r, x] := split_join sepAnd sepAnd_ne [r, x] (by simp) (by simp [hr, hx])
  unfold pairKey
  rw [h3, h2]
  rfl

/-- **C57, negation.** A first part that is not the name of a column is a KeyError. -/
theorem and_key_error (lut : List (Name × Name)) (r x y : Name) (hr : Free sepAnd r) (hx : Free sepAnd x) (hy : Free sepAnd y) (n : Name)
    (hrl : lut.lookup r = some n) (h : lut.lookup x = none) : pairKey lut (pyJoin sepAnd [r, x ++ sepAnd ++ y]) = .error .keyError := by
  rw [and_same_key lut r x y hr hx hy]
  have h2 : pySplit sepAnd (pyJoin sepAnd [r, x]) = [r, x] := split_join sepAnd sepAnd_ne [r, x] (by simp) (by simp [hr, hx])
  unfold pairKey
  rw [h2]
  show (lutGet lut r).bind (fun a => (lutGet lut x).bind _) = _
  unfold lutGet
  rw [hrl, h]
  rfl

example := and_key_error [("a".toList, "A".toList)] "a".toList "b".toList "c".toList (by decide) (by decide) (by decide) "A".toList rfl rfl

/-- three data sets, the name of the third column starts with that of the second -/
def andRun : Except Err (Dict ℚ) := do
  let T ← interTemplate ["REF".toList, "A".toList, "B".toList] ["ref".toList, "k1".toList, "k1_and_x".toList] "ref".toList false true true none
  interCalc interFuncs ["REF".toList, "A".toList, "B".toList] ["ref".toList, "k1".toList, "k1_and_x".toList] "ref".toList false true true 2 T none
    ⟨["ref".toList, "k1".toList, "k1_and_x".toList], [(1, [some 1, some 2, some 3]), (2, [some 4, some 5, some 8])]⟩ ⟨3, 10, 50, none⟩

/-- **C57, negation.** The calculator runs without an error, returns the values of the pair REF, B under the name REF, A, and has no entry for the pair REF, B. -/
theorem inter_and_overwrites : andRun.toOption.map (fun d => (d.lookup (resultName "R" "REF".toList "A".toList), d.lookup (resultName "R" "REF".toList "B".toList))) =
    some (some (.num (some (1 + (1 + 4) * 10 + (3 + 8) * 100))), none) := by decide +kernel

/-- **C57.** Missing metadata: `TCMetrics` raises an IndexError before anything is calculated, the other calculators their own exception. -/
theorem no_metadata (F : NamedFuncs K) (ds others : List Name) (nonref calcTau : Bool) (minObs : ℕ) (T : Dict K) (e : Key × Val K) (mt : Dict K) (data : Frame K) (info : Info K)
    (hT : key "gpi" ∈ T.map Prod.fst ∧ key "lon" ∈ T.map Prod.fst ∧ key "lat" ∈ T.map Prod.fst) (h : info.md = none) :
    metadataCalc T (some (e :: mt)) info = .error .noMetadata ∧ tcmCalc F ds others nonref calcTau minObs T (some (e :: mt)) data info = .error .indexError := by
  have k : metadataCalc T (some (e :: mt)) info = .error .noMetadata := by
    unfold metadataCalc
    obtain ⟨a, b, c⟩ := hT
    have s1 : set T (key "gpi", .int info.gpi) = .ok (put T (key "gpi") (.int info.gpi)) := set_ok T _ a
    have n1 := keys_put_mem T (key "gpi") (.int info.gpi) a
    have s2 : set (put T (key "gpi") (.int info.gpi)) (key "lon", .num (some info.lon)) = _ := set_ok _ _ (by rw [n1]; exact b)
    have n2 := keys_put_mem (put T (key "gpi") (.int info.gpi)) (key "lon") (.num (some info.lon)) (by rw [n1]; exact b)
    have s3 : set (put (put T (key "gpi") (.int info.gpi)) (key "lon") (.num (some info.lon))) (key "lat", .num (some info.lat)) = _ :=
      set_ok _ _ (by rw [n2, n1]; exact c)
    have : setAll T [(key "gpi", .int info.gpi), (key "lon", .num (some info.lon)), (key "lat", .num (some info.lat))] =
        .ok (put (put (put T (key "gpi") (.int info.gpi)) (key "lon") (.num (some info.lon))) (key "lat") (.num (some info.lat))) := by
      show (set T _).bind _ = _
      rw [s1]
      show (set _ _).bind _ = _
      rw [s2]
      show (set _ _).bind _ = _
      rw [s3]
      rfl
    rw [this]
    show (setField info _ e).bind _ = _
    unfold setField
    rw [h]
    rfl
  refine ⟨k, ?_⟩
  have k2 : metadataCalcTc T (some (e :: mt)) info = .error .indexError := by
    unfold metadataCalcTc
    rw [k]
  unfold tcmCalc
  show (metadataCalcTc T (some (e :: mt)) info).bind _ = _
  rw [k2]
  rfl

example := no_metadata interFuncs ["REF".toList, "A".toList] ["k1".toList] false true 2
  (metadataTemplate (some [(key "network", .int 0)])) (key "network", .int 0) [] interFrame ⟨3, 10, 50, none⟩ (by decide +kernel) rfl

end Verif.Calculators
