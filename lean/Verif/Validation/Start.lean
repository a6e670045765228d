import Verif.Validation.More

/-! C121: `start_validation` as a whole: variables missing in the setup code, failing jobs, failing writes, and what is printed. -/

namespace Verif.Validation

/-- what `start_validation` raises. Used for start_validation.py:53-57. -/
inductive StartErr (E W : Type)
  /-- `len(None)`: start_validation.py:49 -/
  | typeError
  /-- a job failed in all attempts: raised when its result is taken from the asynchronous map -/
  | job (e : E)
  /-- `netcdf_results_manager` raised -/
  | write (w : W)
  deriving DecidableEq

/-- what can be observed after the call: the stored results, the lines printed per job (job and remaining jobs), whether the message about `jobs` and about
`save_path` was printed, whether the engines were cleared, the exception -/
structure StartOut (J E W S : Type) where
  store : S
  log : List (J × ℤ)
  noJobs : Bool
  noPath : Bool
  cleared : Bool
  raised : Option (StartErr E W)
  deriving DecidableEq

variable {J R E W S : Type}

/-- start_validation.py:53-57. A write may store a part of the result before it raises. `none`: the loop waits for a job. -/
def takeResults (write : S → R → S × Option W) : List (Option (Except E R) × J) → S → ℤ → Option (S × List (J × ℤ) × Option (StartErr E W))
  | [], st, _ => some (st, [], none)
  | (none, _) :: _, _, _ => none
  | (some (.error e), _) :: _, st, _ => some (st, [], some (.job e))
  | (some (.ok r), j) :: l, st, n =>
    match write st r with
    | (st', some w) => some (st', [], some (.write w))
    | (st', none) => (takeResults write l st' (n - 1)).map (fun x => (x.1, (j, n - 1) :: x.2.1, x.2.2))

/-- start_validation.py:22-59. `jobs` and `hasPath`: the variables of the setup code, if defined; `schedule`: the order in which jobs complete. -/
def start (f : J → ℕ → Except E R) (write : S → R → S × Option W) (jobs : Option (List J)) (hasPath : Bool) (schedule : List ℕ) (st : S) :
    Option (StartOut J E W S) :=
  match jobs with
  | none => some ⟨st, [], true, !hasPath, false, some .typeError⟩
  | some js =>
    if hasPath then
      (takeResults write ((schedule.foldl (complete f js) (js.map (fun _ => none))).zip js) st js.length).map
        (fun x => ⟨x.1, x.2.1, false, false, x.2.2.isNone, x.2.2⟩)
    else some ⟨st, [], false, true, true, none⟩

/-! ### Specification -/

/-- `r` is the result of job `j`: the first of at most three attempts that does not fail -/
def Succeeds (f : J → ℕ → Except E R) (j : J) (r : R) : Prop := ∃ a ≤ 2, f j a = .ok r ∧ ∀ b < a, ∃ e, f j b = .error e

/-- job `j` failed three times, `e` is the exception of the third -/
def Fails (f : J → ℕ → Except E R) (j : J) (e : E) : Prop := (∃ e', f j 0 = .error e') ∧ (∃ e', f j 1 = .error e') ∧ f j 2 = .error e

theorem retried_ok (f : J → ℕ → Except E R) (j : J) (r : R) (h : Succeeds f j r) : retried (f j) 2 = .ok r := by
  obtain ⟨a, ha, h1, h2⟩ := h
  interval_cases a
  · simp [retried, h1]
  · obtain ⟨e, he⟩ := h2 0 (by omega)
    simp [retried, h1, he]
  · obtain ⟨e, he⟩ := h2 0 (by omega)
    obtain ⟨e', he'⟩ := h2 1 (by omega)
    simp [retried, h1, he, he']

theorem retried_error (f : J → ℕ → Except E R) (j : J) (e : E) (h : Fails f j e) : retried (f j) 2 = .error e := by
  obtain ⟨⟨e0, h0⟩, ⟨e1, h1⟩, h2⟩ := h
  simp [retried, h0, h1, h2]

/-- what a run of jobs with results `rs` leaves behind if all writes succeed -/
inductive Stored (write : S → R → S × Option W) : S → List R → S → Prop
  | nil (st) : Stored write st [] st
  | cons (st r st' rs st'') : write st r = (st', none) → Stored write st' rs st'' → Stored write st (r :: rs) st''

theorem slots_complete (f : J → ℕ → Except E R) (jobs : List J) (schedule : List ℕ) (h : ∀ i, i < jobs.length → i ∈ schedule) :
    schedule.foldl (complete f jobs) (jobs.map (fun _ => none)) = jobs.map (fun j => some (retried (f j) 2)) := by
  apply List.ext_getElem?
  intro k
  by_cases hk : k < jobs.length
  · rw [slots_spec f jobs schedule _ (by simp) k hk, if_pos (h k hk)]
    simp [hk]
  · rw [List.getElem?_eq_none, List.getElem?_eq_none]
    · simp; omega
    · have : ∀ (l : List ℕ) (s : List (Option (Except E R))), (l.foldl (complete f jobs) s).length = s.length := by
        intro l
        induction l with
        | nil => intro s; rfl
        | cons i l ih => intro s; rw [List.foldl_cons, ih, complete_length]
      rw [this]; simp; omega

theorem take_cons (write : S → R → S × Option W) (r : R) (j : J) (l : List (Option (Except E R) × J)) (st st1 : S) (n : ℤ) (hw : write st r = (st1, none)) :
    takeResults write ((some (.ok r), j) :: l) st n = (takeResults write l st1 (n - 1)).map (fun x => (x.1, (j, n - 1) :: x.2.1, x.2.2)) := by
  simp only [takeResults, hw]

/-- the jobs `done` succeed and are stored, then the loop is at the jobs `rest` -/
theorem take_done (f : J → ℕ → Except E R) (write : S → R → S × Option W) (done : List J) (rs : List R) (hok : List.Forall₂ (Succeeds f) done rs) (rest : List J)
    (st st' : S) (hst : Stored write st rs st') (n : ℤ) :
    takeResults write (((done ++ rest).map (fun j => some (retried (f j) 2))).zip (done ++ rest)) st n =
      (takeResults write ((rest.map (fun j => some (retried (f j) 2))).zip rest) st' (n - done.length)).map
        (fun x => (x.1, done.zipIdx.map (fun j => (j.1, n - 1 - j.2)) ++ x.2.1, x.2.2)) := by
  induction hok generalizing st n with
  | nil =>
    cases hst
    simp
  | @cons j r done rs h1 _ ih =>
    cases hst with
    | cons _ _ st1 _ _ hw hs =>
      rw [List.cons_append, List.map_cons, List.zip_cons_cons, retried_ok f j r h1]
      rw [take_cons write r j _ st st1 n hw, ih st1 hs (n - 1), Option.map_map]
      have e1 : n - 1 - (done.length : ℤ) = n - ((j :: done).length : ℤ) := by push_cast [List.length_cons]; ring
      rw [e1]
      congr 1
      funext x
      simp only [Function.comp_apply, Prod.mk.injEq, List.zipIdx_cons, List.map_cons, List.cons_append, List.cons.injEq, true_and, and_true]
      refine ⟨by simp, ?_⟩
      congr 1
      rw [List.zipIdx_succ, List.map_map]
      refine List.map_congr_left fun v _ => ?_
      simp only [Function.comp_apply, Prod.mk.injEq, true_and]
      push_cast
      ring

/-- **C121.** Without the variable `jobs` the call raises TypeError (after printing the message), calculates and stores nothing, and does not clear the engines. -/
theorem start_no_jobs (f : J → ℕ → Except E R) (write : S → R → S × Option W) (hasPath : Bool) (schedule : List ℕ) (st : S) :
    start f write none hasPath schedule st = some ⟨st, [], true, !hasPath, false, some .typeError⟩ := rfl

/-- **C121.** Without the variable `save_path` nothing is calculated or stored and no exception is raised, whatever the jobs are. -/
theorem start_no_path (f : J → ℕ → Except E R) (write : S → R → S × Option W) (jobs : List J) (schedule : List ℕ) (st : S) :
    start f write (some jobs) false schedule st = some ⟨st, [], false, true, true, none⟩ := rfl

/-- **C121.** All jobs succeed within three attempts and all writes succeed: whatever the order in which the jobs complete, the results are stored in the order of
the jobs, every job is printed once with the number of jobs still to be stored, and the engines are cleared. -/
theorem start_success_partial (f : J → ℕ → Except E R) (write : S → R → S × Option W) (jobs : List J) (schedule : List ℕ) (h : ∀ i, i < jobs.length → i ∈ schedule)
    (rs : List R) (hok : List.Forall₂ (Succeeds f) jobs rs) (st st' : S) (hst : Stored write st rs st') :
    start f write (some jobs) true schedule st =
      some ⟨st', jobs.zipIdx.map (fun j => (j.1, (jobs.length : ℤ) - 1 - j.2)), false, false, true, none⟩ := by
  unfold start
  simp only [if_true]
  have := take_done f write jobs rs hok [] st st' hst jobs.length
  rw [List.append_nil] at this
  rw [slots_complete f jobs schedule h, this]
  simp [takeResults]

/-- **C121.** The first job that fails three times: the results of the jobs before are stored, those behind are not although they may have been calculated, the
exception is raised and the engines are not cleared. -/
theorem start_job_fails (f : J → ℕ → Except E R) (write : S → R → S × Option W) (done rest : List J) (j : J) (e : E) (schedule : List ℕ)
    (h : ∀ i, i < (done ++ j :: rest).length → i ∈ schedule) (rs : List R) (hok : List.Forall₂ (Succeeds f) done rs) (hj : Fails f j e) (st st' : S)
    (hst : Stored write st rs st') :
    start f write (some (done ++ j :: rest)) true schedule st =
      some ⟨st', done.zipIdx.map (fun j => (j.1, ((done ++ j.1 :: rest).length : ℤ) - 1 - j.2)), false, false, false, some (.job e)⟩ := by
  unfold start
  simp only [if_true]
  rw [slots_complete f _ schedule h, take_done f write done rs hok (j :: rest) st st' hst]
  rw [List.map_cons, List.zip_cons_cons, retried_error f j e hj]
  simp [takeResults]

/-- **C121.** The first result that cannot be stored: the results before are stored, and what this write left behind; nothing of the jobs behind. -/
theorem start_write_fails (f : J → ℕ → Except E R) (write : S → R → S × Option W) (done rest : List J) (j : J) (r : R) (w : W) (schedule : List ℕ)
    (h : ∀ i, i < (done ++ j :: rest).length → i ∈ schedule) (rs : List R) (hok : List.Forall₂ (Succeeds f) done rs) (hj : Succeeds f j r) (st st' st'' : S)
    (hst : Stored write st rs st') (hw : write st' r = (st'', some w)) :
    start f write (some (done ++ j :: rest)) true schedule st =
      some ⟨st'', done.zipIdx.map (fun j => (j.1, ((done ++ j.1 :: rest).length : ℤ) - 1 - j.2)), false, false, false, some (.write w)⟩ := by
  unfold start
  simp only [if_true]
  rw [slots_complete f _ schedule h, take_done f write done rs hok (j :: rest) st st' hst]
  rw [List.map_cons, List.zip_cons_cons, retried_ok f j r hj]
  simp [takeResults, hw]

/-- **C121.** If a job never completes the call does not return, unless an earlier job or write fails. -/
theorem start_waits (f : J → ℕ → Except E R) (write : S → R → S × Option W) (done rest : List J) (j : J) (schedule : List ℕ)
    (h : ∀ i, i < done.length → i ∈ schedule) (hj : done.length ∉ schedule) (rs : List R) (hok : List.Forall₂ (Succeeds f) done rs) (st st' : S)
    (hst : Stored write st rs st') :
    start f write (some (done ++ j :: rest)) true schedule st = none := by
  unfold start
  simp only [if_true, Option.map_eq_none_iff]
  have key : ∀ (l : List (Option (Except E R))), (∀ i (hi : i < done.length), l[i]? = some (some (retried (f done[i]) 2))) → l[done.length]? = some none →
      takeResults write (l.zip (done ++ j :: rest)) st (((done ++ j :: rest).length : ℕ) : ℤ) = none := by
    generalize (((done ++ j :: rest).length : ℕ) : ℤ) = n
    clear h hj
    induction hok generalizing st n with
    | nil =>
      intro l _ h2
      cases l with
      | nil => simp at h2
      | cons a l =>
        have : a = none := by simpa using h2
        subst this
        rfl
    | @cons j' r done rs h1 _ ih =>
      intro l g1 g2
      cases hst with
      | cons _ _ st1 _ _ hw hs =>
        cases l with
        | nil => simp at g2
        | cons a l =>
          have ha : a = some (retried (f j') 2) := by
            have := g1 0 (by simp)
            rw [List.getElem?_cons_zero, Option.some.injEq] at this
            exact this
          subst ha
          rw [List.cons_append, List.zip_cons_cons, retried_ok f j' r h1]
          rw [take_cons write r j' _ st st1 n hw, Option.map_eq_none_iff]
          refine ih st1 hs (n - 1) l (fun i hi => ?_) (by simpa using g2)
          have := g1 (i + 1) (by simp; omega)
          simpa using this
  refine key _ (fun i hi => ?_) ?_
  · rw [slots_spec f _ schedule _ (by simp) i (by simp; omega), if_pos (h i hi)]
    simp [List.getElem_append_left hi]
  · rw [slots_spec f _ schedule _ (by simp) done.length (by simp), if_neg hj]
    simp

/-! ### A concrete run: three jobs, the second needs a second attempt, the third cannot be stored -/

def exStartJob (j a : ℕ) : Except String ℕ := if j = 20 ∧ a = 0 then .error "lost" else .ok (j + 1)
def exWrite (s : List ℕ) (r : ℕ) : List ℕ × Option String := if r = 31 then (s ++ [0], some "disk full") else (s ++ [r], none)

theorem exSucceeds : Succeeds exStartJob 20 21 :=
  ⟨1, by decide, rfl, fun b hb => ⟨"lost", by
    obtain rfl : b = 0 := by omega
    rfl⟩⟩

example := start_write_fails exStartJob exWrite [10, 20] [40] 30 31 "disk full" [3, 2, 0, 1] (by decide) [11, 21]
  (.cons ⟨0, by decide, rfl, by omega⟩ (.cons exSucceeds .nil)) ⟨0, by decide, rfl, by omega⟩ [] [11, 21] [11, 21, 0]
  (.cons _ _ [11] _ _ rfl (.cons _ _ [11, 21] _ _ rfl (.nil _))) rfl

example : start exStartJob exWrite (some [10, 20, 30, 40]) true [3, 2, 0, 1] [] =
    some ⟨[11, 21, 0], [(10, 3), (20, 2)], false, false, false, some (.write "disk full")⟩ := by decide +kernel
example : start exStartJob exWrite (some [10, 20]) true [1, 0] [] = some ⟨[11, 21], [(10, 1), (20, 0)], false, false, true, none⟩ := by decide +kernel
example : start exStartJob exWrite (some [10, 20, 40]) true [2, 0] [] = none := by decide +kernel

end Verif.Validation
