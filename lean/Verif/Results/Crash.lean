import Verif.Results.Props

/-!
# C92: storing of results is interrupted

Model of `PointDataResults.add_metrics_results` and `add_result` (`src/pytesmo/validation_framework/results_manager.py:235-341`) as sequences of single
writes to the file, which an exception or a keyboard interrupt can end after any of them; leaving the `with` block (424) closes the file. That
the writes, all carried out, give what `Verif.Results.addMetrics` and `addResult` give, is proved below.

Simplification: variables along the locations share one unlimited dimension, so that `_row_size` gets fill values when `idx` is written. Fill values are 0
here, which is what they count for in the sums of lines 221 and 353 (as long as there is another value).
-/

set_option linter.unusedSectionVars false
set_option synthInstance.maxSize 1000

namespace Verif.Results

variable {V : Type}

/-! ### Model -/

/-- one write to the file. Used for results_manager.py:225-233, 279-286, results_manager.py:272-286. -/
inductive Step (V : Type)
  /-- `self["idx"][s:] = np.arange(s, s + n)` (275) -/
  | idx (s n : ℕ)
  /-- `self["_row_size"][s:] = 0` (276) -/
  | rowZero (s n : ℕ)
  /-- `self["_row_size"][i] = m` (224) -/
  | rowSet (i m : ℕ)
  /-- creation of a variable (pynetcf `write_var`) -/
  | create (x : String) (dim : Dim)
  /-- `self[x][s:] = data` -/
  | write (x : String) (s : ℕ) (data : List V)

/-- the file after one write. Used for results_manager.py:327-341. -/
def apply (f : File V) : Step V → File V
  | .idx s n => ⟨f.idx.take s ++ (List.range n).map (s + ·), f.rowSize ++ List.replicate (s + n - f.rowSize.length) 0, f.vars⟩
  | .rowZero s n => ⟨f.idx, f.rowSize.take s ++ List.replicate n 0, f.vars⟩
  | .rowSet i m => ⟨f.idx, f.rowSize.set i m, f.vars⟩
  | .create x dim => if x ∈ f.vars.map Prod.fst then f else ⟨f.idx, f.rowSize, f.vars ++ [(x, dim, [])]⟩
  | .write x s data => ⟨f.idx, f.rowSize, setVar f.vars x s data⟩

/-- the file after some writes. Used for results_manager.py:327-341. -/
def run (f : File V) (l : List (Step V)) : File V := l.foldl apply f

/-- results_manager.py:225-233, 279-286: the writes for the variables; `known` are the names of the variables in the file -/
def varSteps (dim : Dim) (s : ℕ) : List String → List (String × List V) → List (Step V)
  | _, [] => []
  | known, e :: es =>
    if e.1 ∈ known then .write e.1 s e.2 :: varSteps dim s known es
    else .create e.1 dim :: .write e.1 0 e.2 :: varSteps dim s (known ++ [e.1]) es

/-- results_manager.py:272-286: the writes of `add_metrics_results` -/
def metricsSteps (f : File V) (lons lats : List V) (results : List (Name × List V)) : List (Step V) :=
  [.idx (nextIndex f.idx) lons.length, .rowZero (nextIndex f.idx) lons.length, .write "lon" (nextIndex f.idx) lons,
    .write "lat" (nextIndex f.idx) lats] ++
  varSteps .loc (nextIndex f.idx) (f.vars.map Prod.fst) (results.map (fun r => (varName r.1, r.2)))

/-- results_manager.py:221-233: the writes of `add_ts_results` -/
def tsSteps (f : File V) (i : ℕ) (times : List V) (results : List (String × List V)) : List (Step V) :=
  [.write "time" (f.rowSize.take i).sum times, .rowSet i times.length] ++ varSteps .obs (f.rowSize.take i).sum (f.vars.map Prod.fst) results

/-- results_manager.py:327-341: the writes of `add_result` -/
def resultSteps (ts : List Name) (f : File V) (r : Rec V) : List (Step V) :=
  metricsSteps f [r.lon] [r.lat] (metricsOf ts r) ++
  (if tsOf ts r = [] then []
   else tsSteps (run f (metricsSteps f [r.lon] [r.lat] (metricsOf ts r))) (nextIndex f.idx) (r.times.getD [])
      ((tsOf ts r).map (fun d => (varName d.1, d.2))))

/-- results_manager.py:290-341: the file after `add_result` was interrupted after `k` writes -/
def interrupted (ts : List Name) (f : File V) (r : Rec V) (k : ℕ) : File V := run f ((resultSteps ts f r).take k)

/-- results_manager.py:235-286: the file after `add_metrics_results` was interrupted after `k` writes -/
def interruptedBatch (f : File V) (lons lats : List V) (results : List (Name × List V)) (k : ℕ) : File V :=
  run f ((metricsSteps f lons lats results).take k)

/-! ### All writes together -/

theorem run_append (f : File V) (a b : List (Step V)) : run f (a ++ b) = run (run f a) b := List.foldl_append

theorem setVar_absent (vars : List (String × Dim × List (Option V))) (x : String) (s : ℕ) (d : List V) (h : x ∉ vars.map Prod.fst) :
    setVar vars x s d = vars := by
  unfold setVar
  conv_rhs => rw [← List.map_id vars]
  apply List.map_congr_left
  intro v hv
  rw [if_neg (fun hc => h (List.mem_map.mpr ⟨v, hv, hc⟩))]
  rfl

theorem names_setVar (vars : List (String × Dim × List (Option V))) (x : String) (s : ℕ) (d : List V) :
    (setVar vars x s d).map Prod.fst = vars.map Prod.fst := by
  unfold setVar
  rw [List.map_map]
  apply List.map_congr_left
  intro v _
  simp only [Function.comp_apply]
  split <;> rfl

theorem run_varSteps (dim : Dim) (s : ℕ) (es : List (String × List V)) (f : File V) :
    run f (varSteps dim s (f.vars.map Prod.fst) es) = ⟨f.idx, f.rowSize, es.foldl (putVar dim s) f.vars⟩ := by
  induction es generalizing f with
  | nil => rfl
  | cons e es ih =>
    unfold varSteps
    split
    · rename_i h
      show run (apply f (.write e.1 s e.2)) _ = _
      have := ih (apply f (.write e.1 s e.2))
      simp only [apply, names_setVar] at this ⊢
      rw [this, List.foldl_cons]
      unfold putVar
      rw [if_pos h]
    · rename_i h
      have hnew : apply (apply f (.create e.1 dim)) (.write e.1 0 e.2) = ⟨f.idx, f.rowSize, f.vars ++ [(e.1, dim, writeAt [] 0 e.2)]⟩ := by
        simp only [apply, if_neg h]
        congr 1
        have : setVar (f.vars ++ [(e.1, dim, [])]) e.1 0 e.2 = setVar f.vars e.1 0 e.2 ++ setVar [(e.1, dim, [])] e.1 0 e.2 := by
          unfold setVar; rw [List.map_append]
        rw [this, setVar_absent _ _ _ _ h]
        simp [setVar]
      show run (apply (apply f (.create e.1 dim)) (.write e.1 0 e.2)) _ = _
      rw [hnew]
      have := ih ⟨f.idx, f.rowSize, f.vars ++ [(e.1, dim, writeAt [] 0 e.2)]⟩
      simp only [List.map_append, List.map_cons, List.map_nil] at this
      rw [this, List.foldl_cons]
      unfold putVar
      rw [if_neg h]

/-- the locations are numbered from 0, and each has a number of rows -/
structure Counted (f : File V) : Prop where
  idx : f.idx = List.range f.idx.length
  rows : f.rowSize.length = f.idx.length

theorem Counted.next {f : File V} (h : Counted f) : nextIndex f.idx = f.idx.length := by
  unfold nextIndex
  rw [h.idx]
  cases f.idx.length with
  | zero => rfl
  | succ n => rw [List.range_succ, List.getLast?_concat]; simp

theorem run_metricsSteps (f : File V) (h : Counted f) (lons lats : List V) (results : List (Name × List V)) :
    run f (metricsSteps f lons lats results) = ⟨f.idx ++ (List.range lons.length).map (f.idx.length + ·), f.rowSize ++ List.replicate lons.length 0,
      (results.map (fun r => (varName r.1, r.2))).foldl (putVar .loc f.idx.length) (setVar (setVar f.vars "lon" f.idx.length lons) "lat" f.idx.length lats)⟩ := by
  unfold metricsSteps
  rw [run_append, h.next]
  have hf : run f [.idx f.idx.length lons.length, .rowZero f.idx.length lons.length, .write "lon" f.idx.length lons, .write "lat" f.idx.length lats] =
      ⟨f.idx ++ (List.range lons.length).map (f.idx.length + ·), f.rowSize ++ List.replicate lons.length 0,
        setVar (setVar f.vars "lon" f.idx.length lons) "lat" f.idx.length lats⟩ := by
    simp only [run, List.foldl_cons, List.foldl_nil, apply]
    congr 1
    · rw [List.take_of_length_le le_rfl]
    · rw [List.take_append_of_le_length (by rw [h.rows]), List.take_of_length_le (by rw [h.rows])]
  rw [hf]
  have := run_varSteps .loc f.idx.length (results.map (fun r => (varName r.1, r.2)))
    (⟨f.idx ++ (List.range lons.length).map (f.idx.length + ·), f.rowSize ++ List.replicate lons.length 0,
        setVar (setVar f.vars "lon" f.idx.length lons) "lat" f.idx.length lats⟩ : File V)
  simp only [names_setVar] at this
  exact this

/-- `add_metrics_results` is its writes -/
theorem addMetrics_run (f : File V) (h : Counted f) (lons lats : List V) (results : List (Name × List V)) (f' : File V) (new : List ℕ)
    (hok : addMetrics f lons lats results = .ok (f', new)) :
    run f (metricsSteps f lons lats results) = f' ∧ new = (List.range lons.length).map (f.idx.length + ·) := by
  rw [run_metricsSteps f h]
  unfold addMetrics at hok
  simp only at hok
  split at hok
  · simp only [Except.ok.injEq, Prod.mk.injEq] at hok
    obtain ⟨h1, h2⟩ := hok
    rw [← h1, ← h2, h.next]
    refine ⟨?_, rfl⟩
    congr 1
    · rw [List.take_of_length_le le_rfl]
    · rw [List.take_of_length_le (by rw [h.rows])]
      congr 1
      rw [List.map_map]
      exact (List.eq_replicate_iff.mpr ⟨by simp, by simp⟩).symm
    · rw [List.foldl_map]
  · exact absurd hok (by simp)

/-- `add_result` is its writes -/
theorem addResult_run (ts : List Name) (f : File V) (h : Counted f) (r : Rec V) (f' : File V) (hok : addResult ts f r = .ok f') :
    run f (resultSteps ts f r) = f' := by
  unfold resultSteps
  rw [run_append]
  unfold addResult at hok
  have hcase : (do
      let (f', new) ← addMetrics f [r.lon] [r.lat] (metricsOf ts r)
      match tsOf ts r with
      | [] => .ok f'
      | _ :: _ =>
        match new with
        | [i] => .ok (addTs f' i (r.times.getD []) ((tsOf ts r).map (fun d => (varName d.1, d.2))))
        | _ => .error .assertion : Except Err (File V)) = .ok f' := by
    cases hts : tsOf ts r with
    | nil => cases ht : r.times <;> rw [hts, ht] at hok <;> exact hok
    | cons d ds =>
      cases ht : r.times with
      | none => rw [hts, ht] at hok; simp at hok
      | some t => rw [hts, ht] at hok; exact hok
  clear hok
  simp only [bind, Except.bind] at hcase
  cases hadd : addMetrics f [r.lon] [r.lat] (metricsOf ts r) with
  | error e => rw [hadd] at hcase; simp at hcase
  | ok p =>
    obtain ⟨f1, new⟩ := p
    obtain ⟨h1, h2⟩ := addMetrics_run f h _ _ _ f1 new hadd
    rw [hadd] at hcase
    simp only at hcase
    rw [h1, h.next]
    cases hts : tsOf ts r with
    | nil =>
      rw [hts] at hcase
      simp only [Except.ok.injEq] at hcase
      rw [if_pos rfl]
      exact hcase
    | cons d ds =>
      rw [hts] at hcase
      rw [if_neg (by simp)]
      simp only [List.length_singleton, List.range_one, List.map_cons, List.map_nil, Nat.add_zero] at h2
      rw [h2] at hcase
      simp only [Except.ok.injEq] at hcase
      rw [← hcase]
      unfold tsSteps addTs
      rw [run_append]
      have hf : run f1 [.write "time" (f1.rowSize.take f.idx.length).sum (r.times.getD []), .rowSet f.idx.length (r.times.getD []).length] =
          ⟨f1.idx, f1.rowSize.set f.idx.length (r.times.getD []).length, setVar f1.vars "time" (f1.rowSize.take f.idx.length).sum (r.times.getD [])⟩ := rfl
      rw [hf]
      have := run_varSteps .obs (f1.rowSize.take f.idx.length).sum ((d :: ds).map (fun d => (varName d.1, d.2)))
        (⟨f1.idx, f1.rowSize.set f.idx.length (r.times.getD []).length, setVar f1.vars "time" (f1.rowSize.take f.idx.length).sum (r.times.getD [])⟩ : File V)
      simp only [names_setVar] at this
      exact this

end Verif.Results
