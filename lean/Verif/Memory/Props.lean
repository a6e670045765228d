import Verif.Memory.Model
import Verif.Rolling.Lemmas

/-!
C132: which calls of the compiled routines stay inside of the arrays they are given.
-/

set_option linter.unusedSectionVars false

namespace Verif.Memory

open Verif.Pairwise (Pairs num)

theorem rd_ok {α : Type} (a : List α) (d : α) (j : ℤ) (h0 : 0 ≤ j) (h1 : j < a.length) : rd a j = some (a.getD j.toNat d) := by
  have h : j.toNat < a.length := by omega
  simp [rd, h0, List.getElem?_eq_getElem h, List.getD_eq_getElem?_getD]

theorem rd_out {α : Type} (a : List α) (j : ℤ) (h : j < 0 ∨ (a.length : ℤ) ≤ j) : rd a j = none := by
  unfold rd
  split
  · rw [List.getElem?_eq_none_iff]; omega
  · rfl

theorem mem_rangeZ (a b j : ℤ) : j ∈ rangeZ a b ↔ a ≤ j ∧ j < b := by
  unfold rangeZ
  rw [List.mem_map]
  constructor
  · rintro ⟨k, hk, rfl⟩
    rw [List.mem_range] at hk
    omega
  · rintro ⟨h1, h2⟩
    exact ⟨(j - a).toNat, List.mem_range.2 (by omega), by omega⟩

theorem rangeZ_nat (a b : ℕ) : rangeZ (a : ℤ) (b : ℤ) = (Rolling.rangeAB a b).map (fun k : ℕ => (k : ℤ)) := by
  unfold rangeZ Rolling.rangeAB
  rw [List.range'_eq_map_range, List.map_map]
  have : ((b : ℤ) - (a : ℤ)).toNat = b - a := by omega
  rw [this]
  apply List.map_congr_left
  intro k _
  simp

theorem rangeZ_zero (n : ℕ) : rangeZ 0 (n : ℤ) = (List.range n).map (fun k : ℕ => (k : ℤ)) := by
  unfold rangeZ
  simp

theorem over_ok {σ α β : Type} (x : List α) (y : List β) (dx : α) (dy : β) (f : σ → α × β → σ) (js : List ℤ)
    (h : ∀ j ∈ js, 0 ≤ j ∧ j < x.length ∧ j < y.length) (s : σ) :
    over x y f s js = some ((js.map (fun j => (x.getD j.toNat dx, y.getD j.toNat dy))).foldl f s) := by
  induction js generalizing s with
  | nil => rfl
  | cons j js ih =>
    obtain ⟨h0, h1, h2⟩ := h j (by simp)
    rw [over, rd_ok x dx j h0 h1, rd_ok y dy j h0 h2]
    exact ih (fun k hk => h k (List.mem_cons_of_mem _ hk)) _

theorem over_out {σ α β : Type} (x : List α) (y : List β) (f : σ → α × β → σ) (js : List ℤ) (j : ℤ) (hj : j ∈ js)
    (h : j < 0 ∨ (x.length : ℤ) ≤ j ∨ (y.length : ℤ) ≤ j) (s : σ) : over x y f s js = none := by
  induction js generalizing s with
  | nil => cases hj
  | cons k js ih =>
    rw [over]
    rcases List.mem_cons.1 hj with rfl | hj
    · rcases h with h | h | h
      · rw [rd_out x j (.inl h)]
      · rw [rd_out x j (.inr h)]
      · rw [rd_out y j (.inr h)]
        split
        · rename_i _ _ _ h2; cases h2
        · rfl
    · split
      · exact ih hj _
      · rfl

theorem pairs_zip (x y : List ℝ) (h : x.length ≤ y.length) :
    (rangeZ 0 x.length).map (fun j => (x.getD j.toNat 0, y.getD j.toNat 0)) = x.zip y := by
  rw [rangeZ_zero, List.map_map]
  apply List.ext_getElem
  · simp [h]
  · intro i h1 h2
    have hx : i < x.length := by simpa using h1
    have hy : i < y.length := by omega
    simp [List.getD_eq_getElem?_getD, hx, hy]

theorem over_zip {σ : Type} (x y : List ℝ) (h : x.length ≤ y.length) (f : σ → ℝ × ℝ → σ) (s : σ) :
    over x y f s (rangeZ 0 x.length) = some ((x.zip y).foldl f s) := by
  rw [over_ok x y 0 0 f _ _ s, pairs_zip x y h]
  intro j hj
  rw [mem_rangeZ] at hj
  omega

theorem over_short {σ : Type} (x y : List ℝ) (h : y.length < x.length) (f : σ → ℝ × ℝ → σ) (s : σ) :
    over x y f s (rangeZ 0 x.length) = none :=
  over_out x y f _ (y.length : ℤ) ((mem_rangeZ _ _ _).2 ⟨by omega, by omega⟩) (.inr (.inr le_rfl)) s

/-- **C132 (two series).** If the second series is at least as long as the first, the compiled metrics stay inside of both arrays and
are the metrics of the first series and as many values of the second one; further values of the second series are ignored. -/
theorem metrics_safe (x y : List ℝ) (h : x.length ≤ y.length) :
    bias x y = some (Pairwise.bias (x.zip (y.take x.length))) ∧ RSS x y = some (Pairwise.RSS (x.zip (y.take x.length))) ∧
      moments x y = some (Moments.momentsWelford (x.zip (y.take x.length))) ∧
      ubrmsd x y = some (Pairwise.ubrmsd0 (x.zip (y.take x.length))) := by
  have hz : x.zip (y.take x.length) = x.zip y := by
    apply List.ext_getElem
    · simp
    · intro i h1 h2; simp
  have hn : ((x.zip y).length : ℝ) = (x.length : ℝ) := by rw [List.length_zip, Nat.min_eq_left h]
  rw [hz]
  refine ⟨?_, ?_, ?_, ?_⟩
  · unfold bias Pairwise.bias Pairwise.num
    rw [over_zip x y h, hn]; rfl
  · unfold RSS Pairwise.RSS
    rw [over_zip x y h]
  · unfold moments Moments.momentsWelford
    rw [over_zip x y h, hn]; rfl
  · unfold ubrmsd Pairwise.ubrmsd0 Pairwise.num
    rw [over_zip x y h]
    simp only
    rw [over_zip x y h, hn]; rfl

/-- **C132, negation (two series).** If the second series is shorter, every one of them reads memory behind its end. -/
theorem metrics_unsafe (x y : List ℝ) (h : y.length < x.length) :
    bias x y = none ∧ RSS x y = none ∧ moments x y = none ∧ ubrmsd x y = none := by
  refine ⟨?_, ?_, ?_, ?_⟩
  · unfold bias; rw [over_short x y h]; rfl
  · unfold RSS; rw [over_short x y h]
  · unfold moments; rw [over_short x y h]; rfl
  · unfold ubrmsd; rw [over_short x y h]

/-! ### Filters -/

section
variable {K : Type} [Field K] [LinearOrder K]

theorem accumulate_ok (nan limit t0 : K) (data : List (Option K)) (jd : List K) (js : List ℤ)
    (h : ∀ j ∈ js, 0 ≤ j ∧ j < data.length ∧ j < jd.length) (s : K × ℕ) :
    accumulate nan limit t0 data jd js s =
      some (Filters.accumulate nan limit t0 (js.map (fun j => (jd.getD j.toNat 0, data.getD j.toNat none))) s) := by
  induction js generalizing s with
  | nil => rfl
  | cons j js ih =>
    obtain ⟨h0, h1, h2⟩ := h j (by simp)
    have ih' := ih (fun k hk => h k (List.mem_cons_of_mem _ hk))
    rw [accumulate, rd_ok data none j h0 h1]
    simp only [List.map_cons, Filters.accumulate]
    cases Filters.usable nan (data.getD j.toNat none) with
    | none => exact ih' s
    | some v =>
      simp only
      rw [rd_ok jd 0 j h0 h2]
      simp only
      split
      · exact ih' _
      · rfl

theorem obs_getD (data : List (Option K)) (jd : List K) (h : jd.length ≤ data.length) (i : ℕ) (hi : i < jd.length) :
    (jd.zip data)[i]'(by rw [List.length_zip]; omega) = (jd.getD i 0, data.getD i none) := by
  have h2 : i < data.length := by omega
  simp [List.getD_eq_getElem?_getD, hi, h2]

theorem obs_drop (data : List (Option K)) (jd : List K) (h : jd.length ≤ data.length) (i : ℕ) :
    (rangeZ (i : ℤ) (jd.length : ℤ)).map (fun j => (jd.getD j.toNat 0, data.getD j.toNat none)) = (jd.zip data).drop i := by
  rw [rangeZ_nat, List.map_map]
  apply List.ext_getElem
  · simp [Rolling.rangeAB, h]
  · intro k h1 h2
    have hk : i + k < jd.length := by simp [Rolling.rangeAB] at h1; omega
    rw [List.getElem_drop, obs_getD data jd h _ hk]
    have : ((i : ℤ) + (k : ℤ)).toNat = i + k := by omega
    simp [Rolling.rangeAB, this]

theorem obs_take (data : List (Option K)) (jd : List K) (h : jd.length ≤ data.length) (i : ℕ) (hi : i ≤ jd.length) :
    (rangeZ 0 (i : ℤ)).reverse.map (fun j => (jd.getD j.toNat 0, data.getD j.toNat none)) = ((jd.zip data).take i).reverse := by
  rw [rangeZ_zero, List.map_reverse, List.map_map]
  congr 1
  apply List.ext_getElem
  · simp; omega
  · intro k h1 h2
    have hk : k < jd.length := by simp at h1; omega
    rw [List.getElem_take, obs_getD data jd h _ hk]
    simp

theorem wr_ok {α : Type} (l r : List α) (a v : α) : wr (l ++ a :: r) (l.length : ℤ) v = some (l ++ v :: r) := by
  unfold wr
  rw [if_pos ⟨by omega, by simp⟩]
  simp

/-- one round of the boxcar filter on arrays that are long enough -/
theorem boxcarRound_ok (nan limit : K) (fillna : Bool) (minObs : ℤ) (data : List (Option K)) (jd : List K)
    (h : jd.length ≤ data.length) (i : ℕ) (o : K × Option K) (after : List (K × Option K)) (hd : (jd.zip data).drop i = o :: after)
    (done rest : List (Option K)) (hdone : done.length = i) :
    boxcarRound nan limit fillna minObs data jd (done ++ none :: rest) (i : ℤ) =
      some (done ++ (if (Filters.usable nan o.2).isSome || fillna then
        Filters.average minObs (Filters.accumulate nan limit o.1 ((jd.zip data).take i).reverse
          (Filters.accumulate nan limit o.1 (o :: after) (0, 0))) else none) :: rest) := by
  have hi : i < jd.length := by
    by_contra hc
    rw [List.drop_eq_nil_of_le (by rw [List.length_zip]; omega)] at hd
    cases hd
  have ho : o = (jd.getD i 0, data.getD i none) := by
    rw [← obs_getD data jd h i hi]
    have : (jd.zip data).drop i = (jd.zip data)[i]'(by rw [List.length_zip]; omega) :: (jd.zip data).drop (i + 1) :=
      List.drop_eq_getElem_cons _
    rw [this] at hd
    exact (List.cons.inj hd).1.symm
  unfold boxcarRound
  rw [rd_ok data none (i : ℤ) (by omega) (by omega), rd_ok jd 0 (i : ℤ) (by omega) (by omega)]
  have h1 : data.getD ((i : ℤ).toNat) none = o.2 := by rw [ho]; simp
  have h2 : jd.getD ((i : ℤ).toNat) 0 = o.1 := by rw [ho]; simp
  simp only [h1, h2]
  split
  · rw [accumulate_ok nan limit o.1 data jd _ (fun j hj => by rw [mem_rangeZ] at hj; omega), obs_drop data jd h, hd]
    simp only
    rw [accumulate_ok nan limit o.1 data jd _ (fun j hj => by rw [List.mem_reverse, mem_rangeZ] at hj; omega),
      obs_take data jd h i hi.le]
    simp only
    split
    · rw [← hdone, wr_ok]
    · rename_i hm
      unfold Filters.average
      rw [if_neg hm]
  · rfl

theorem boxcar_loop_ok (nan limit : K) (fillna : Bool) (minObs : ℤ) (data : List (Option K)) (jd : List K)
    (h : jd.length ≤ data.length) (k i : ℕ) (hk : k + i = jd.length) (done : List (Option K)) (hdone : done.length = i) :
    (rangeZ (i : ℤ) (jd.length : ℤ)).foldlM (boxcarRound nan limit fillna minObs data jd)
        (done ++ List.replicate (data.length - i) none) =
      some (done ++ Filters.boxcarLoop nan limit fillna minObs ((jd.zip data).take i).reverse ((jd.zip data).drop i) ++
        List.replicate (data.length - jd.length) none) := by
  induction k generalizing i done with
  | zero =>
    have hi : i = jd.length := by omega
    subst hi
    rw [List.drop_eq_nil_of_le (by rw [List.length_zip]; omega)]
    simp [rangeZ, Filters.boxcarLoop]
  | succ k ih =>
    have hi : i < jd.length := by omega
    have hr : rangeZ (i : ℤ) (jd.length : ℤ) = (i : ℤ) :: rangeZ ((i + 1 : ℕ) : ℤ) (jd.length : ℤ) := by
      rw [rangeZ_nat, rangeZ_nat]
      unfold Rolling.rangeAB
      have : jd.length - i = (jd.length - (i + 1)) + 1 := by omega
      rw [this, List.range'_succ]
      rfl
    have hz : i < (jd.zip data).length := by rw [List.length_zip]; omega
    have hd : (jd.zip data).drop i = (jd.zip data)[i] :: (jd.zip data).drop (i + 1) := List.drop_eq_getElem_cons _
    have hrep : List.replicate (data.length - i) (none : Option K) = none :: List.replicate (data.length - (i + 1)) none := by
      have : data.length - i = (data.length - (i + 1)) + 1 := by omega
      rw [this, List.replicate_succ]
    rw [hr, List.foldlM_cons, hrep, boxcarRound_ok nan limit fillna minObs data jd h i _ _ hd done _ hdone]
    simp only [Option.bind_eq_bind, Option.bind_some]
    rw [hd, Filters.boxcarLoop]
    have happ : ∀ (v : Option K) (l : List (Option K)), done ++ v :: l = (done ++ [v]) ++ l := by intro v l; simp
    rw [happ, ih (i + 1) (by omega) _ (by simp [hdone])]
    rw [List.take_succ_eq_append_getElem hz, List.reverse_append]
    simp

theorem boxcarRound_out (nan limit : K) (fillna : Bool) (minObs : ℤ) (data : List (Option K)) (jd : List K) (out : List (Option K))
    (i : ℤ) (hi : (data.length : ℤ) ≤ i) : boxcarRound nan limit fillna minObs data jd out i = none := by
  unfold boxcarRound
  rw [rd_out data i (.inr hi)]

theorem foldlM_none {σ α : Type} (f : σ → α → Option σ) (l : List α) (a : α) (ha : a ∈ l) (h : ∀ s, f s a = none) (s : σ) :
    l.foldlM f s = none := by
  induction l generalizing s with
  | nil => cases ha
  | cons b l ih =>
    rw [List.foldlM_cons]
    rcases List.mem_cons.1 ha with rfl | ha
    · rw [h]; rfl
    · cases f s b with
      | none => rfl
      | some t => exact ih ha t

/-- **C132 (boxcar filter).** If there are no more dates than values, the filter stays inside of its arrays; its result is the filtered
series of the values with a date, followed by NaN for the values without one. -/
theorem boxcar_safe (data : List (Option K)) (jd : List K) (window nan : K) (fillna : Bool) (minObs : ℤ)
    (h : jd.length ≤ data.length) :
    boxcar data jd window nan fillna minObs = some (Filters.boxcarFilter (jd.zip data) window nan fillna minObs ++
      List.replicate (data.length - jd.length) none) := by
  have := boxcar_loop_ok nan (window / 2) fillna minObs data jd h jd.length 0 (by omega) [] rfl
  unfold boxcar Filters.boxcarFilter
  simpa using this

/-- **C132, negation (boxcar filter).** With more dates than values it reads memory behind the end of the values. -/
theorem boxcar_unsafe (data : List (Option K)) (jd : List K) (window nan : K) (fillna : Bool) (minObs : ℤ)
    (h : data.length < jd.length) : boxcar data jd window nan fillna minObs = none :=
  foldlM_none _ _ (data.length : ℤ) ((mem_rangeZ _ _ _).2 ⟨by omega, by omega⟩) (fun _ => boxcarRound_out _ _ _ _ _ _ _ _ le_rfl) _

end

theorem exp_loop_ok (ctime : ℤ) (nan : ℝ) (data : List (Option ℝ)) (jd : List ℝ) (h : jd.length ≤ data.length) (k i : ℕ)
    (hk : k + i = jd.length) (s : Option Filters.ExpState) (done : List (Option ℝ)) (hdone : done.length = i) :
    ((rangeZ (i : ℤ) (jd.length : ℤ)).foldlM (expRound ctime nan data jd) (s, done ++ List.replicate (data.length - i) none)).map Prod.snd =
      some (done ++ Filters.expLoop ctime nan s ((jd.zip data).drop i) ++ List.replicate (data.length - jd.length) none) := by
  induction k generalizing i s done with
  | zero =>
    have hi : i = jd.length := by omega
    subst hi
    rw [List.drop_eq_nil_of_le (by rw [List.length_zip]; omega)]
    simp [rangeZ, Filters.expLoop]
  | succ k ih =>
    have hi : i < jd.length := by omega
    have hr : rangeZ (i : ℤ) (jd.length : ℤ) = (i : ℤ) :: rangeZ ((i + 1 : ℕ) : ℤ) (jd.length : ℤ) := by
      rw [rangeZ_nat, rangeZ_nat]
      unfold Rolling.rangeAB
      have : jd.length - i = (jd.length - (i + 1)) + 1 := by omega
      rw [this, List.range'_succ]
      rfl
    have hz : i < (jd.zip data).length := by rw [List.length_zip]; omega
    have hd : (jd.zip data).drop i = (jd.getD i 0, data.getD i none) :: (jd.zip data).drop (i + 1) := by
      rw [← obs_getD data jd h i hi]; exact List.drop_eq_getElem_cons _
    have hrep : List.replicate (data.length - i) (none : Option ℝ) = none :: List.replicate (data.length - (i + 1)) none := by
      have : data.length - i = (data.length - (i + 1)) + 1 := by omega
      rw [this, List.replicate_succ]
    have hround : expRound ctime nan data jd (s, done ++ none :: List.replicate (data.length - (i + 1)) none) (i : ℤ) =
        some ((Filters.expStep ctime nan s (jd.getD i 0, data.getD i none)).1,
          done ++ (Filters.expStep ctime nan s (jd.getD i 0, data.getD i none)).2 :: List.replicate (data.length - (i + 1)) none) := by
      unfold expRound
      rw [rd_ok data none (i : ℤ) (by omega) (by omega), rd_ok jd 0 (i : ℤ) (by omega) (by omega)]
      simp only [Int.toNat_natCast]
      cases hu : Filters.usable nan (data.getD i none) with
      | none => simp only [Filters.expStep, hu]
      | some v =>
        simp only
        rw [← hdone, wr_ok]
        rfl
    rw [hr, List.foldlM_cons, hrep, hround]
    simp only [Option.bind_eq_bind, Option.bind_some]
    rw [hd, Filters.expLoop]
    have happ : ∀ (v : Option ℝ) (l : List (Option ℝ)), done ++ v :: l = (done ++ [v]) ++ l := by intro v l; simp
    rw [happ, ih (i + 1) (by omega) _ _ (by simp [hdone])]
    simp

/-- **C132 (exponential filter).** As for the boxcar filter. -/
theorem exp_safe (data : List (Option ℝ)) (jd : List ℝ) (ctime : ℤ) (nan : ℝ) (h : jd.length ≤ data.length) :
    expFilter data jd ctime nan = some (Filters.expFilter (jd.zip data) ctime nan ++ List.replicate (data.length - jd.length) none) := by
  have := exp_loop_ok ctime nan data jd h jd.length 0 (by omega) none [] rfl
  unfold expFilter Filters.expFilter
  simpa using this

/-- **C132, negation (exponential filter).** With more dates than values it reads memory behind the end of the values. -/
theorem exp_unsafe (data : List (Option ℝ)) (jd : List ℝ) (ctime : ℤ) (nan : ℝ) (h : data.length < jd.length) :
    expFilter data jd ctime nan = none := by
  unfold expFilter
  rw [foldlM_none _ _ (data.length : ℤ) ((mem_rangeZ _ _ _).2 ⟨by omega, by omega⟩)]
  · rfl
  · intro s
    unfold expRound
    rw [rd_out data _ (.inr le_rfl)]

/-! ### Rolling metrics -/

theorem scan_ok (ts : List ℝ) (c : ℝ → Prop) (f : ℤ → ℤ) (p : ℕ → Prop) [DecidablePred p] (hp : ∀ j, p j ↔ c (ts.getD j 0)) (l : List ℕ)
    (hl : ∀ j ∈ l, j < ts.length) (v : ℕ) :
    scan ts c f (f (v : ℤ)) (l.map (fun k : ℕ => (k : ℤ))) = some (f ((Rolling.scan p v l : ℕ) : ℤ)) := by
  induction l generalizing v with
  | nil => rfl
  | cons j l ih =>
    have hj : j < ts.length := hl j (by simp)
    rw [List.map_cons, scan, rd_ok ts 0 (j : ℤ) (by omega) (by omega), Rolling.scan]
    simp only [Int.toNat_natCast]
    by_cases h : c (ts.getD j 0)
    · rw [if_pos h, if_pos ((hp j).2 h)]
    · rw [if_neg h, if_neg (fun h' => h ((hp j).1 h'))]
      exact ih (fun k hk => hl k (List.mem_cons_of_mem _ hk)) j

theorem scan_mem (p : ℕ → Prop) [DecidablePred p] (v : ℕ) (l : List ℕ) : Rolling.scan p v l = v ∨ Rolling.scan p v l ∈ l := by
  induction l generalizing v with
  | nil => exact .inl rfl
  | cons j l ih =>
    rw [Rolling.scan]
    split
    · exact .inr (by simp)
    · rcases ih j with h | h
      · rw [h]; exact .inr (by simp)
      · exact .inr (List.mem_cons_of_mem _ h)

theorem scan_found (p : ℕ → Prop) [DecidablePred p] (v : ℕ) (l : List ℕ) (m : ℕ) (hm : m ∈ l) (h : p m) : p (Rolling.scan p v l) ∧ Rolling.scan p v l ∈ l := by
  induction l generalizing v with
  | nil => cases hm
  | cons j l ih =>
    rw [Rolling.scan]
    split
    · rename_i hj; exact ⟨hj, by simp⟩
    · rename_i hj
      rcases List.mem_cons.1 hm with rfl | hm
      · exact absurd h hj
      · exact ⟨(ih j hm).1, List.mem_cons_of_mem _ (ih j hm).2⟩

theorem mem_rangeAB (a b j : ℕ) : j ∈ Rolling.rangeAB a b ↔ a ≤ j ∧ j < b := by
  unfold Rolling.rangeAB
  rw [List.mem_range']
  constructor
  · rintro ⟨k, hk, rfl⟩; omega
  · rintro ⟨h1, h2⟩; exact ⟨j - a, by omega, by omega⟩

/-- the index computation with integers is that with natural numbers -/
theorem bounds_eq (ts : List ℝ) (w : ℝ) (center : Bool) (i lo hi : ℕ) (hi0 : i < ts.length) (hpos : center = true → i ≠ 0 → 1 ≤ hi) :
    bounds ts w center (i : ℤ) (lo : ℤ) ((hi : ℤ) - 1) =
      some (((Rolling.bounds (fun j => ts.getD j 0) ts.length w center i lo hi).1 : ℤ),
        ((Rolling.bounds (fun j => ts.getD j 0) ts.length w center i lo hi).2 : ℤ) - 1) := by
  classical
  unfold bounds
  simp only
  rw [rd_ok ts 0 (i : ℤ) (by omega) (by omega)]
  simp only [Int.toNat_natCast]
  cases center with
  | false =>
    simp only [Bool.false_eq_true, if_false]
    rw [rangeZ_nat]
    have := scan_ok ts (fun t => t > ts.getD i 0 - w) id (fun j => ts.getD j 0 > ts.getD i 0 - w) (fun _ => Iff.rfl)
      (Rolling.rangeAB lo ts.length) (fun j hj => ((mem_rangeAB _ _ _).1 hj).2) lo
    simp only [id] at this
    rw [this]
    unfold Rolling.bounds
    simp only [Bool.false_eq_true, if_false, Option.map_some]
    congr 2
    push_cast
    ring
  | true =>
    simp only [if_true]
    rw [rangeZ_nat]
    have := scan_ok ts (fun t => t ≥ ts.getD i 0 - w) id (fun j => ts.getD j 0 ≥ ts.getD i 0 - w) (fun _ => Iff.rfl)
      (Rolling.rangeAB lo ts.length) (fun j hj => ((mem_rangeAB _ _ _).1 hj).2) lo
    simp only [id] at this
    rw [this]
    have hlast : ((ts.length : ℤ) - 1) = ((ts.length - 1 : ℕ) : ℤ) := by omega
    rw [hlast, rd_ok ts 0 _ (by omega) (by omega)]
    simp only [Int.toNat_natCast]
    unfold Rolling.bounds
    simp only [if_true]
    by_cases hw : ts.getD (ts.length - 1) 0 > ts.getD i 0 + w
    · rw [if_pos hw, if_pos hw]
      have hup : (if (i : ℤ) = 0 then (1 : ℤ) else (hi : ℤ) - 1) = ((if i = 0 then 1 else hi - 1 : ℕ) : ℤ) := by
        by_cases h0 : i = 0
        · simp [h0]
        · have := hpos rfl h0
          rw [if_neg (by exact_mod_cast h0), if_neg h0]
          omega
      rw [hup, rangeZ_nat]
      have h2 := scan_ok ts (fun t => t > ts.getD i 0 + w) (fun j => j - 1) (fun j => ts.getD j 0 > ts.getD i 0 + w) (fun _ => Iff.rfl)
        (Rolling.rangeAB (if i = 0 then 1 else hi - 1) ts.length) (fun j hj => ((mem_rangeAB _ _ _).1 hj).2)
        ((if i = 0 then 1 else hi - 1) + 1)
      have h3 : (((if i = 0 then 1 else hi - 1) + 1 : ℕ) : ℤ) - 1 = ((if i = 0 then 1 else hi - 1 : ℕ) : ℤ) := by push_cast; ring
      rw [h3] at h2
      rw [h2]
      rfl
    · rw [if_neg hw, if_neg hw, ← hlast]

/-- What holds of the bounds before round `i` of the loop: the lower one is inside of the array, and (centred windows) the upper one is
at least `i - 1`, and exactly that only if the next time stamp is out of reach. -/
def Good (ts : List ℝ) (w : ℝ) (center : Bool) (i lo hi : ℕ) : Prop :=
  lo < ts.length ∧ hi ≤ ts.length ∧ i ≤ hi ∧
    (center = true → i ≠ 0 → hi = i → i < ts.length → ts.getD i 0 > ts.getD (i - 1) 0 + w)

theorem good_step (ts : List ℝ) (w : ℝ) (center : Bool) (hw : center = true → 0 ≤ w) (i lo hi : ℕ) (hi0 : i < ts.length)
    (h : Good ts w center i lo hi) :
    Good ts w center (i + 1) (Rolling.bounds (fun j => ts.getD j 0) ts.length w center i lo hi).1
      (Rolling.bounds (fun j => ts.getD j 0) ts.length w center i lo hi).2 := by
  classical
  obtain ⟨h1, h2, h3, h4⟩ := h
  have hlow : ∀ (p : ℕ → Prop) [DecidablePred p], Rolling.scan p lo (Rolling.rangeAB lo ts.length) < ts.length := by
    intro p _
    rcases scan_mem p lo (Rolling.rangeAB lo ts.length) with h | h
    · rw [h]; exact h1
    · exact ((mem_rangeAB _ _ _).1 h).2
  cases center with
  | false =>
    unfold Rolling.bounds
    simp only [Bool.false_eq_true, if_false]
    exact ⟨hlow _, by omega, le_rfl, by simp⟩
  | true =>
    have hw0 := hw rfl
    unfold Rolling.bounds
    simp only [if_true]
    refine ⟨hlow _, ?_⟩
    by_cases hl : ts.getD (ts.length - 1) 0 > ts.getD i 0 + w
    · rw [if_pos hl]
      set up := (if i = 0 then 1 else hi - 1) with hup
      have hn : up < ts.length := by
        rw [hup]
        split
        · rename_i h0
          by_contra hc
          have : ts.length = 1 := by omega
          rw [this, h0] at hl
          simp only [Nat.sub_self] at hl
          linarith
        · omega
      obtain ⟨hp, hm⟩ := scan_found (fun j => ts.getD j 0 > ts.getD i 0 + w) (up + 1) (Rolling.rangeAB up ts.length) (ts.length - 1)
        ((mem_rangeAB _ _ _).2 ⟨by omega, by omega⟩) hl
      set r := Rolling.scan (fun j => ts.getD j 0 > ts.getD i 0 + w) (up + 1) (Rolling.rangeAB up ts.length) with hr
      obtain ⟨m1, m2⟩ := (mem_rangeAB _ _ _).1 hm
      have hir : i + 1 ≤ r := by
        by_contra hc
        have hr2 : r ≠ i := by rintro h; rw [h] at hp; linarith
        have h0 : i ≠ 0 := by
          intro h0
          rw [hup, if_pos h0] at m1
          omega
        rw [hup, if_neg h0] at m1
        have hri : r = i - 1 := by omega
        have hhi : hi = i := by omega
        have := h4 rfl h0 hhi hi0
        rw [hri] at hp
        linarith
      refine ⟨by omega, hir, fun _ _ h _ => ?_⟩
      rw [h] at hp
      simpa using hp
    · rw [if_neg hl]
      exact ⟨le_rfl, by omega, fun _ _ h h' => by omega⟩

theorem over_seg (x y : List ℝ) (f : Moments.State ℝ × ℝ → ℝ × ℝ → Moments.State ℝ × ℝ) (s : Moments.State ℝ × ℝ) (a b : ℕ)
    (hx : b ≤ x.length) (hy : b ≤ y.length) :
    over x y f s (rangeZ (a : ℤ) (b : ℤ)) = some (((Rolling.rangeAB a b).map (fun j => (x.getD j 0, y.getD j 0))).foldl f s) := by
  rw [over_ok x y 0 0 f _ (fun j hj => by rw [mem_rangeZ] at hj; omega), rangeZ_nat, List.map_map]
  rfl

theorem loop_safe (betainc : ℝ → ℝ → ℝ → ℝ) (ts x y : List ℝ) (w : ℝ) (center : Bool) (minPeriods : ℤ) (hw : center = true → 0 ≤ w)
    (hx : ts.length ≤ x.length) (hy : ts.length ≤ y.length) (k i : ℕ) (hk : k + i = ts.length) (s : Rolling.State)
    (hg : i < ts.length → Good ts w center i s.lower s.hi) :
    loop betainc ts x y w center minPeriods ⟨s.lower, (s.hi : ℤ) - 1, s.m, s.msd⟩ (rangeZ (i : ℤ) (ts.length : ℤ)) =
      some (Rolling.loop betainc (fun j => ts.getD j 0) (fun j => (x.getD j 0, y.getD j 0)) ts.length w center minPeriods s
        (List.range' i k)) := by
  induction k generalizing i s with
  | zero =>
    have : i = ts.length := by omega
    subst this
    simp [rangeZ, loop, Rolling.loop]
  | succ k ih =>
    have hi : i < ts.length := by omega
    obtain ⟨g1, g2, g3, g4⟩ := hg hi
    have hr : rangeZ (i : ℤ) (ts.length : ℤ) = (i : ℤ) :: rangeZ ((i + 1 : ℕ) : ℤ) (ts.length : ℤ) := by
      rw [rangeZ_nat, rangeZ_nat]
      unfold Rolling.rangeAB
      have : ts.length - i = (ts.length - (i + 1)) + 1 := by omega
      rw [this, List.range'_succ]
      rfl
    have hnext := good_step ts w center hw i s.lower s.hi hi (hg hi)
    rw [hr, List.range'_succ, loop, Rolling.loop]
    have hround : round betainc ts x y w center minPeriods ⟨s.lower, (s.hi : ℤ) - 1, s.m, s.msd⟩ (i : ℤ) =
        some (let r := Rolling.round betainc (fun j => ts.getD j 0) (fun j => (x.getD j 0, y.getD j 0)) ts.length w center minPeriods s i
          (⟨r.1.lower, (r.1.hi : ℤ) - 1, r.1.m, r.1.msd⟩, r.2)) := by
      unfold round Rolling.round
      simp only
      rw [bounds_eq ts w center i s.lower s.hi hi (fun _ h0 => by omega)]
      simp only
      obtain ⟨n1, n2, -, -⟩ := hnext
      rw [sub_add_cancel, sub_add_cancel, over_seg x y _ _ _ _ (n2.trans hx) (n2.trans hy)]
      simp only
      rw [over_seg x y _ _ _ _ (n1.le.trans hx) (n1.le.trans hy)]
      simp only
      have hnum : ∀ a b : ℤ, a - 1 - b + 1 = a - b := by intro a b; ring
      rw [hnum]
    rw [hround]
    simp only
    rw [ih (i + 1) (by omega) _ (fun _ => hnext)]
    rfl

/-- **C132 (rolling metrics).** For all time stamps, in whatever order, with windows before the observation of any size or centred
windows of any size that is not negative: if there are at least as many values as time stamps, the routine stays inside of its arrays
and computes what the model of C08 computes. -/
theorem rolling_safe (betainc : ℝ → ℝ → ℝ → ℝ) (ts x y : List ℝ) (w : ℝ) (center : Bool) (minPeriods : ℤ) (hw : center = true → 0 ≤ w)
    (hx : ts.length ≤ x.length) (hy : ts.length ≤ y.length) :
    rolling betainc ts x y w center minPeriods = some (Rolling.rollingPrRmsd betainc (fun j => ts.getD j 0)
      (fun j => (x.getD j 0, y.getD j 0)) ts.length w center minPeriods) := by
  have := loop_safe betainc ts x y w center minPeriods hw hx hy ts.length 0 (by omega) Rolling.init
    (fun h => ⟨h, by simp [Rolling.init], by simp [Rolling.init], fun _ h0 => absurd rfl h0⟩)
  unfold rolling Rolling.rollingPrRmsd
  rw [List.range_eq_range']
  simpa [Rolling.init] using this

/-- **C132, negation (rolling metrics).** A centred window of negative size: one observation is enough to read behind the arrays. -/
theorem rolling_unsafe (betainc : ℝ → ℝ → ℝ → ℝ) (t a b w : ℝ) (hw : w < 0) (minPeriods : ℤ) :
    rolling betainc [t] [a] [b] w true minPeriods = none := by
  have hb : bounds [t] w true 0 0 (-1) = some (0, 1) := by
    have h2 : t > t + w := by linarith
    unfold bounds
    have hr : rangeZ 0 1 = [0] := rfl
    have hr1 : rangeZ 1 1 = [] := rfl
    simp only [List.length_cons, List.length_nil, Nat.zero_add, Nat.cast_one, sub_self, if_true]
    have hrd : rd [t] 0 = some t := rfl
    rw [hrd]
    simp only [hr, hr1, scan, hrd, h2, if_true, Option.map_some, id, ite_self]
  have hr : rangeZ 0 (([t].length : ℕ) : ℤ) = [0] := rfl
  unfold rolling
  rw [hr, loop, round]
  simp only
  rw [hb]
  simp only
  rw [over_out [a] [b] _ _ 1 ((mem_rangeZ _ _ _).2 ⟨by norm_num, by norm_num⟩) (.inr (.inl (by simp)))]

/-- the hypotheses are met by unsorted time stamps -/
example (betainc : ℝ → ℝ → ℝ → ℝ) :
    ∃ l, rolling betainc [5, 6, 4, 3, 2, 10] [1, 2, 3, 4, 5, 6] [2, 2, 3, 3, 4, 4] 0 true 2 = some l :=
  ⟨_, rolling_safe betainc _ _ _ 0 true 2 (fun _ => le_rfl) (by simp) (by simp)⟩

/-- a second series with a value too many: it is ignored; with a value too few memory is read -/
example : bias [1, 2] [1, 1, 7] = some (1 / 2) ∧ bias [1, 2, 3] [1, 1] = none := by
  constructor
  · rw [(metrics_safe [1, 2] [1, 1, 7] (by simp)).1]
    norm_num [Pairwise.bias, Pairwise.num]
  · exact (metrics_unsafe [1, 2, 3] [1, 1] (by simp)).1

/-- three values and two dates: the value without date is NaN in the result; two values and three dates: memory is read -/
example : boxcar [some (2 : ℚ), some 4, some 6] [0, 1] 2 (-999999) false 1 = some [some 3, some 3, none] ∧
    boxcar [some (2 : ℚ), some 4] [0, 1, 2] 2 (-999999) false 1 = none := by decide +kernel

end Verif.Memory
