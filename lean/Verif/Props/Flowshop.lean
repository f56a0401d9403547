import Verif.Spec.Combinatorial
import Verif.Model.Combinatorial
import Mathlib.Data.Rat.Defs
import Mathlib.Algebra.Order.Ring.Rat
import Mathlib.Data.List.GetD
import Mathlib.Tactic.Linarith

/-! # C105: the flow-shop problem evaluates the makespan of the best schedule of a job sequence -/

set_option linter.unusedSimpArgs false
set_option linter.unusedVariables false
set_option linter.unusedSectionVars false

namespace Props

open Model Spec

variable {α : Type*} [AddCommGroup α] [LinearOrder α] [IsOrderedAddMonoid α]

/-- A processing-time matrix for `n` jobs and a sequence of `n` jobs. -/
structure JobSeq (R : List (List α)) (n : ℕ) (x : List ℕ) : Prop where
  machines : 0 < R.length
  jobs : 0 < n
  rows : ∀ row ∈ R, row.length = n
  len : x.length = n
  inRange : ∀ k ∈ x, k < n

/-- The processing time of the `j`-th job of the sequence on machine `i`. -/
def procTime (R : List (List α)) (x : List ℕ) (i j : ℕ) : α := (R.getD i []).getD (x.getD j 0) 0

theorem matAt_proc {R : List (List α)} {n : ℕ} {x : List ℕ} (h : JobSeq R n x) {i j : ℕ} (hi : i < R.length) (hj : j < n) :
    x[j]? = some (x.getD j 0) ∧ matAt R i (x.getD j 0) = some (procTime R x i j) := by
  have hjx : j < x.length := by rw [h.len]; exact hj
  have hk : x.getD j 0 < n := by rw [List.getD_eq_getElem _ _ hjx]; exact h.inRange _ (List.getElem_mem _)
  have hr : (R[i]).length = n := h.rows _ (List.getElem_mem _)
  constructor
  · rw [List.getD_eq_getElem _ _ hjx, List.getElem?_eq_getElem hjx]
  · unfold matAt procTime
    rw [List.getElem?_eq_getElem hi, List.getD_eq_getElem _ _ hi, Option.bind_some]
    have : x.getD j 0 < (R[i]).length := by omega
    rw [List.getElem?_eq_getElem this, List.getD_eq_getElem _ _ this]

/-- The recursion of the start times. -/
def startTime (p : ℕ → ℕ → α) : ℕ → ℕ → α
  | 0, 0 => 0
  | i + 1, 0 => startTime p i 0 + p i 0
  | 0, j + 1 => startTime p 0 j + p 0 j
  | i + 1, j + 1 => max (startTime p (i + 1) j + p (i + 1) j) (startTime p i (j + 1) + p i (j + 1))

theorem foldlM_build {β : Type*} (s : ℕ → β) (step : List β → ℕ → Option (List β)) (n : ℕ)
    (h : ∀ i < n, step ((List.range (i + 1)).map s) i = some ((List.range (i + 1)).map s ++ [s (i + 1)])) :
    (List.range n).foldlM step [s 0] = some ((List.range (n + 1)).map s) := by
  induction n with
  | zero => simp
  | succ n ih =>
    rw [List.range_succ, List.foldlM_append, ih fun i hi => h i (by omega)]
    have := h n (by omega)
    simp only [List.foldlM_cons, List.foldlM_nil, Option.bind_eq_bind, Option.bind_some, this, Option.pure_def]
    rw [List.range_succ (n := n + 1), List.map_append]
    rfl

theorem range_map_get {β : Type*} (s : ℕ → β) {n i : ℕ} (hi : i < n) : ((List.range n).map s)[i]? = some (s i) := by
  simp [hi]

theorem machineTimes_eq {R : List (List α)} {n : ℕ} {x : List ℕ} (h : JobSeq R n x) :
    machineTimes R n x = some ((List.range n).map fun j => (List.range R.length).map fun i => startTime (procTime R x) i j) := by
  have hm := h.machines
  have hn := h.jobs
  set p := procTime R x with hp
  have hml : R.length - 1 + 1 = R.length := by omega
  have hfirst : fsFirst R (x.getD 0 0) = some ((List.range R.length).map fun i => startTime p i 0) := by
    unfold fsFirst
    have := foldlM_build (fun i => startTime p i 0) (fun (col : List α) (i : ℕ) =>
      col[i]?.bind fun t => (matAt R i (x.getD 0 0)).map fun p => col ++ [t + p]) (R.length - 1) ?_
    · rw [hml] at this; simpa [startTime] using this
    · intro i hi
      rw [range_map_get _ (by omega), (matAt_proc h (by omega : i < R.length) hn).2]
      simp [startTime, hp]
  unfold machineTimes
  rw [if_neg (by omega), (matAt_proc h hm hn).1, Option.bind_some, hfirst, Option.bind_some]
  have := foldlM_build (fun j => (List.range R.length).map fun i => startTime p i j) (fun (cols : List (List α)) (j : ℕ) =>
      x[j]?.bind fun kp => x[j + 1]?.bind fun k => cols[j]?.bind fun prev => (fsNext R kp k prev).map fun c => cols ++ [c]) (n - 1) ?_
  · rw [show n - 1 + 1 = n by omega] at this
    exact this
  · intro j hj
    have hj1 : j + 1 < n := by omega
    rw [(matAt_proc h hm (by omega : j < n)).1, (matAt_proc h hm hj1).1, range_map_get _ (by omega)]
    simp only [Option.bind_some]
    have hnext : fsNext R (x.getD j 0) (x.getD (j + 1) 0) ((List.range R.length).map fun i => startTime p i j) =
        some ((List.range R.length).map fun i => startTime p i (j + 1)) := by
      unfold fsNext
      rw [range_map_get _ hm, (matAt_proc h hm (by omega : j < n)).2]
      simp only [Option.bind_some]
      have := foldlM_build (fun i => startTime p i (j + 1)) (fun (col : List α) (i : ℕ) =>
        ((List.range R.length).map fun i => startTime p i j)[i + 1]?.bind fun a => (matAt R (i + 1) (x.getD j 0)).bind fun pa =>
          col[i]?.bind fun b => (matAt R i (x.getD (j + 1) 0)).map fun pb => col ++ [max (a + pa) (b + pb)]) (R.length - 1) ?_
      · rw [hml] at this; rw [startTime.eq_def p 0 (j + 1)] at this; exact this
      · intro i hi
        rw [range_map_get _ (by omega), range_map_get _ (by omega), (matAt_proc h (by omega : i + 1 < R.length) (by omega : j < n)).2,
          (matAt_proc h (by omega : i < R.length) hj1).2]
        simp [startTime, hp]
    rw [hnext]
    rfl

theorem startTime_job (p : ℕ → ℕ → α) (i j : ℕ) : startTime p i j + p i j ≤ startTime p (i + 1) j := by
  cases j with
  | zero => exact le_of_eq (by rw [startTime])
  | succ j => rw [startTime.eq_def p (i + 1) (j + 1)]; exact le_max_right _ _

theorem startTime_machine (p : ℕ → ℕ → α) (i j : ℕ) : startTime p i j + p i j ≤ startTime p i (j + 1) := by
  cases i with
  | zero => exact le_of_eq (by rw [startTime])
  | succ i => rw [startTime.eq_def p (i + 1) (j + 1)]; exact le_max_left _ _

theorem startTime_le {m n : ℕ} {p s : ℕ → ℕ → α} (hs : Schedule m n p s) (i j : ℕ) (hi : i < m) (hj : j < n) :
    startTime p i j ≤ s i j := by
  induction j generalizing i with
  | zero =>
    induction i with
    | zero => rw [startTime]; exact hs.nonneg 0 0 hi hj
    | succ i ih =>
      rw [startTime]
      exact le_trans (by gcongr; exact ih (by omega)) (hs.job i 0 hi hj)
  | succ j ih =>
    induction i with
    | zero =>
      rw [startTime]
      exact le_trans (by gcongr; exact ih 0 hi (by omega)) (hs.machine 0 j hi hj)
    | succ i ih2 =>
      rw [startTime]
      refine max_le ?_ ?_
      · exact le_trans (by gcongr; exact ih (i + 1) hi (by omega)) (hs.machine (i + 1) j hi hj)
      · exact le_trans (by gcongr; exact ih2 (by omega)) (hs.job i (j + 1) hi hj)

theorem walk_le (p : ℕ → ℕ → α) {i j : ℕ} {v : α} (h : Walk p 0 0 i j v) : v ≤ startTime p i j + p i j := by
  induction h with
  | start => rw [startTime]; simp
  | @right i j v hw ih => exact add_le_add_left (le_trans ih (startTime_machine p i j)) _
  | @down i j v hw ih => exact add_le_add_left (le_trans ih (startTime_job p i j)) _

theorem walk_exists (p : ℕ → ℕ → α) (i j : ℕ) : Walk p 0 0 i j (startTime p i j + p i j) := by
  induction j generalizing i with
  | zero =>
    induction i with
    | zero => rw [startTime, zero_add]; exact .start
    | succ i ih => rw [startTime]; exact .down ih
  | succ j ih =>
    induction i with
    | zero => rw [startTime]; exact .right (ih 0)
    | succ i ih2 =>
      rw [startTime]
      rcases le_total (startTime p (i + 1) j + p (i + 1) j) (startTime p i (j + 1) + p i (j + 1)) with h | h
      · rw [max_eq_right h]; exact .down ih2
      · rw [max_eq_left h]; exact .right (ih (i + 1))

theorem makespan_eq {R : List (List α)} {n : ℕ} {x : List ℕ} (h : JobSeq R n x) :
    makespan R n x = some (startTime (procTime R x) (R.length - 1) (n - 1) + procTime R x (R.length - 1) (n - 1)) := by
  have hm := h.machines
  have hn := h.jobs
  unfold makespan
  rw [machineTimes_eq h, Option.bind_some, List.getLast?_eq_getElem?, List.length_map, List.length_range, range_map_get _ (by omega),
    Option.bind_some, List.getLast?_eq_getElem?, List.length_map, List.length_range, range_map_get _ (by omega), Option.bind_some,
    List.getLast?_eq_getElem?, h.len, (matAt_proc h (by omega : R.length - 1 < R.length) (by omega : n - 1 < n)).1, Option.bind_some,
    (matAt_proc h (by omega : R.length - 1 < R.length) (by omega : n - 1 < n)).2]
  rfl

/-- **C105 (valid).** The start times returned by `get_machine_times` form a schedule of the job sequence: nothing starts before
time 0, no machine works on two jobs at a time, and no job starts on a machine before it has left the previous one. -/
theorem C105_valid (R : List (List α)) (n : ℕ) (x : List ℕ) (h : JobSeq R n x)
    (hp : ∀ row ∈ R, ∀ v ∈ row, 0 ≤ v) :
    ∃ cols, machineTimes R n x = some cols ∧ cols.length = n ∧ (∀ c ∈ cols, c.length = R.length) ∧
      Schedule R.length n (procTime R x) fun i j => (cols.getD j []).getD i 0 := by
  refine ⟨_, machineTimes_eq h, by simp, by simp, ?_⟩
  have e : ∀ i j, i < R.length → j < n →
      (((List.range n).map fun j => (List.range R.length).map fun i => startTime (procTime R x) i j).getD j []).getD i 0 =
        startTime (procTime R x) i j := by
    intro i j hi hj
    rw [List.getD_eq_getElem?_getD, List.getD_eq_getElem?_getD (l := (List.range n).map _), range_map_get _ hj]
    simp only [Option.getD_some]
    rw [range_map_get _ hi]; rfl
  have h0 : ∀ i j, i < R.length → j < n → 0 ≤ procTime R x i j := by
    intro i j hi hj
    have hjx : j < x.length := by rw [h.len]; exact hj
    have hk : x.getD j 0 < n := by rw [List.getD_eq_getElem _ _ hjx]; exact h.inRange _ (List.getElem_mem _)
    have hr : (R[i]).length = n := h.rows _ (List.getElem_mem _)
    unfold procTime
    rw [List.getD_eq_getElem _ _ hi, List.getD_eq_getElem _ _ (by omega : x.getD j 0 < (R[i]).length)]
    exact hp _ (List.getElem_mem _) _ (List.getElem_mem _)
  have hs : ∀ i j, i < R.length → j < n → 0 ≤ startTime (procTime R x) i j := by
    intro i j
    induction i with
    | zero =>
      induction j with
      | zero => intro _ _; rw [startTime]
      | succ j ih => intro hi hj; exact le_trans (add_nonneg (ih hi (by omega)) (h0 0 j hi (by omega))) (startTime_machine _ _ _)
    | succ i ih => intro hi hj; exact le_trans (add_nonneg (ih (by omega) hj) (h0 i j (by omega) hj)) (startTime_job _ _ _)
  constructor
  · intro i j hi hj; rw [e i j hi hj]; exact hs i j hi hj
  · intro i j hi hj
    rw [e i j hi (by omega), e i (j + 1) hi hj]; exact startTime_machine _ _ _
  · intro i j hi hj
    rw [e i j (by omega) hj, e (i + 1) j hi hj]; exact startTime_job _ _ _

/-- **C105 (earliest).** Every start time is the earliest possible one: no schedule of the same job sequence starts any operation
sooner. -/
theorem C105_earliest (R : List (List α)) (n : ℕ) (x : List ℕ) (h : JobSeq R n x) (cols : List (List α))
    (hc : machineTimes R n x = some cols) (s : ℕ → ℕ → α) (hs : Schedule R.length n (procTime R x) s)
    (i j : ℕ) (hi : i < R.length) (hj : j < n) : (cols.getD j []).getD i 0 ≤ s i j := by
  rw [machineTimes_eq h, Option.some.injEq] at hc
  subst hc
  rw [List.getD_eq_getElem?_getD, List.getD_eq_getElem?_getD (l := (List.range n).map _), range_map_get _ hj]
  simp only [Option.getD_some]
  rw [range_map_get _ hi]
  exact startTime_le hs i j hi hj

/-- **C105 (makespan).** The objective value is the smallest number `c` such that some schedule of the job sequence has finished
everything by time `c` (processing times must not be negative). -/
theorem C105_makespan (R : List (List α)) (n : ℕ) (x : List ℕ) (h : JobSeq R n x) (hp : ∀ row ∈ R, ∀ v ∈ row, 0 ≤ v) :
    ∃ c, makespan R n x = some c ∧
      (∃ s, Schedule R.length n (procTime R x) s ∧ ∀ i j, i < R.length → j < n → s i j + procTime R x i j ≤ c) ∧
      ∀ s, Schedule R.length n (procTime R x) s → ∀ c', (∀ i j, i < R.length → j < n → s i j + procTime R x i j ≤ c') → c ≤ c' := by
  have hm := h.machines
  have hn := h.jobs
  refine ⟨_, makespan_eq h, ?_, ?_⟩
  · obtain ⟨cols, hc, -, -, hs⟩ := C105_valid R n x h hp
    have h0 : ∀ i j, i < R.length → j < n → 0 ≤ procTime R x i j := by
      intro i j hi hj
      have hjx : j < x.length := by rw [h.len]; exact hj
      have hk : x.getD j 0 < n := by rw [List.getD_eq_getElem _ _ hjx]; exact h.inRange _ (List.getElem_mem _)
      have hr : (R[i]).length = n := h.rows _ (List.getElem_mem _)
      unfold procTime
      rw [List.getD_eq_getElem _ _ hi, List.getD_eq_getElem _ _ (by omega : x.getD j 0 < (R[i]).length)]
      exact hp _ (List.getElem_mem _) _ (List.getElem_mem _)
    have hst : Schedule R.length n (procTime R x) (startTime (procTime R x)) := by
      refine ⟨fun i j hi hj => ?_, fun i j _ _ => startTime_machine _ _ _, fun i j _ _ => startTime_job _ _ _⟩
      have := hs.nonneg i j hi hj
      rw [machineTimes_eq h, Option.some.injEq] at hc
      subst hc
      rw [List.getD_eq_getElem?_getD, List.getD_eq_getElem?_getD (l := (List.range n).map _), range_map_get _ hj] at this
      simp only [Option.getD_some] at this
      rwa [range_map_get _ hi] at this
    refine ⟨_, hst, ?_⟩
    -- finish times grow along machines and jobs
    have mono_m : ∀ d i j, i + d < R.length → j < n → startTime (procTime R x) i j + procTime R x i j ≤
        startTime (procTime R x) (i + d) j + procTime R x (i + d) j := by
      intro d
      induction d with
      | zero => intro i j _ _; exact le_refl _
      | succ d ih =>
        intro i j hi hj
        refine le_trans (ih i j (by omega) hj) (le_trans (startTime_job _ _ _) ?_)
        exact le_add_of_nonneg_right (h0 _ _ (by omega) hj)
    have mono_j : ∀ d i j, i < R.length → j + d < n → startTime (procTime R x) i j + procTime R x i j ≤
        startTime (procTime R x) i (j + d) + procTime R x i (j + d) := by
      intro d
      induction d with
      | zero => intro i j _ _; exact le_refl _
      | succ d ih =>
        intro i j hi hj
        refine le_trans (ih i j hi (by omega)) (le_trans (startTime_machine _ _ _) ?_)
        exact le_add_of_nonneg_right (h0 _ _ hi (by omega))
    intro i j hi hj
    have a1 := mono_m (R.length - 1 - i) i j (by omega) hj
    have a2 := mono_j (n - 1 - j) (R.length - 1) j (by omega) (by omega)
    rw [show i + (R.length - 1 - i) = R.length - 1 by omega] at a1
    rw [show j + (n - 1 - j) = n - 1 by omega] at a2
    exact le_trans a1 a2
  · intro s hs c' hc'
    refine le_trans ?_ (hc' (R.length - 1) (n - 1) (by omega) (by omega))
    gcongr
    exact startTime_le hs _ _ (by omega) (by omega)

/-- **C105 (critical path).** The objective value is the length of a longest walk through the matrix of processing times from the
first job on the first machine to the last job on the last machine. -/
theorem C105_critical_path (R : List (List α)) (n : ℕ) (x : List ℕ) (h : JobSeq R n x) :
    ∃ c, makespan R n x = some c ∧ Walk (procTime R x) 0 0 (R.length - 1) (n - 1) c ∧
      ∀ v, Walk (procTime R x) 0 0 (R.length - 1) (n - 1) v → v ≤ c :=
  ⟨_, makespan_eq h, walk_exists _ _ _, fun _ hv => walk_le _ hv⟩

theorem walk_down_first {p : ℕ → ℕ → α} {a b i j : ℕ} {v : α} (h : Walk p (a + 1) b i j v) : Walk p a b i j (p a b + v) := by
  induction h with
  | start => exact .down .start
  | right _ ih => rw [← add_assoc]; exact .right ih
  | down _ ih => rw [← add_assoc]; exact .down ih

theorem walk_right_first {p : ℕ → ℕ → α} {a b i j : ℕ} {v : α} (h : Walk p a (b + 1) i j v) : Walk p a b i j (p a b + v) := by
  induction h with
  | start => exact .right .start
  | right _ ih => rw [← add_assoc]; exact .right ih
  | down _ ih => rw [← add_assoc]; exact .down ih

theorem walk_reverse {p q : ℕ → ℕ → α} {M N : ℕ} (hq : ∀ i j, i ≤ M → j ≤ N → q (M - i) (N - j) = p i j) {a b i j : ℕ} {v : α}
    (h : Walk p a b i j v) (hi : i ≤ M) (hj : j ≤ N) : Walk q (M - i) (N - j) (M - a) (N - b) v := by
  induction h with
  | start => rw [← hq a b hi hj]; exact .start
  | @right i j v _ ih =>
    have := ih hi (by omega)
    rw [show N - j = N - (j + 1) + 1 by omega] at this
    have := walk_right_first this
    rw [hq i (j + 1) hi hj, add_comm (p i (j + 1))] at this
    exact this
  | @down i j v _ ih =>
    have := ih (by omega) hj
    rw [show M - i = M - (i + 1) + 1 by omega] at this
    have := walk_down_first this
    rw [hq (i + 1) j hi hj, add_comm (p (i + 1) j)] at this
    exact this

/-- **C105 (reversal).** Running the sequence backwards through the machines in reverse order takes exactly as long. -/
theorem C105_reversal (R : List (List α)) (n : ℕ) (x : List ℕ) (h : JobSeq R n x) :
    makespan R.reverse n x.reverse = makespan R n x := by
  have h' : JobSeq R.reverse n x.reverse :=
    ⟨by simpa using h.machines, h.jobs, fun row hr => h.rows row (by simpa using hr), by simpa using h.len,
      fun k hk => h.inRange k (by simpa using hk)⟩
  have hm := h.machines
  have hn := h.jobs
  obtain ⟨c, hc, w, g⟩ := C105_critical_path R n x h
  obtain ⟨c', hc', w', g'⟩ := C105_critical_path R.reverse n x.reverse h'
  have rev : ∀ i j, i ≤ R.length - 1 → j ≤ n - 1 → procTime R.reverse x.reverse (R.length - 1 - i) (n - 1 - j) = procTime R x i j := by
    intro i j hi hj
    unfold procTime
    have e1 : R.reverse.getD (R.length - 1 - i) [] = R.getD i [] := by
      rw [List.getD_eq_getElem?_getD, List.getD_eq_getElem?_getD, List.getElem?_reverse (by omega),
        show R.length - 1 - (R.length - 1 - i) = i by omega]
    have e2 : x.reverse.getD (n - 1 - j) 0 = x.getD j 0 := by
      rw [List.getD_eq_getElem?_getD, List.getD_eq_getElem?_getD, List.getElem?_reverse (by rw [h.len]; omega), h.len,
        show n - 1 - (n - 1 - j) = j by omega]
    rw [e1, e2]
  have rev' : ∀ i j, i ≤ R.length - 1 → j ≤ n - 1 → procTime R x (R.length - 1 - i) (n - 1 - j) = procTime R.reverse x.reverse i j := by
    intro i j hi hj
    have := rev (R.length - 1 - i) (n - 1 - j) (by omega) (by omega)
    rw [show R.length - 1 - (R.length - 1 - i) = i by omega, show n - 1 - (n - 1 - j) = j by omega] at this
    exact this.symm
  have a := walk_reverse rev w (le_refl _) (le_refl _)
  simp only [Nat.sub_self, Nat.sub_zero] at a
  have b := walk_reverse rev' (by simpa using w') (le_refl _) (le_refl _)
  simp only [Nat.sub_self, Nat.sub_zero] at b
  rw [hc, hc', Option.some.injEq]
  refine le_antisymm (g _ b) (g' _ ?_)
  rw [List.length_reverse]; exact a

/-- **C105 (bounds).** The objective value is at least the total work of every machine, and at least the total work of every job. -/
theorem C105_lower_bounds (R : List (List α)) (n : ℕ) (x : List ℕ) (h : JobSeq R n x) (hp : ∀ row ∈ R, ∀ v ∈ row, 0 ≤ v) (c : α)
    (hc : makespan R n x = some c) :
    (∀ i < R.length, ((List.range n).map fun j => procTime R x i j).sum ≤ c) ∧
    ∀ j < n, ((List.range R.length).map fun i => procTime R x i j).sum ≤ c := by
  obtain ⟨c', hc', ⟨s, hs, hfin⟩, -⟩ := C105_makespan R n x h hp
  obtain rfl : c = c' := by rw [hc] at hc'; exact Option.some.inj hc'
  have hn := h.jobs
  have hm := h.machines
  constructor
  · intro i hi
    have : ∀ k, k < n → ((List.range (k + 1)).map fun j => procTime R x i j).sum ≤ s i k + procTime R x i k := by
      intro k
      induction k with
      | zero => intro hk; simpa using hs.nonneg i 0 hi hk
      | succ k ih =>
        intro hk
        rw [List.range_succ, List.map_append, List.sum_append]
        simp only [List.map_cons, List.map_nil, List.sum_cons, List.sum_nil, add_zero]
        gcongr
        exact le_trans (ih (by omega)) (hs.machine i k hi hk)
    have := this (n - 1) (by omega)
    rw [show n - 1 + 1 = n by omega] at this
    exact le_trans this (hfin _ _ hi (by omega))
  · intro j hj
    have : ∀ k, k < R.length → ((List.range (k + 1)).map fun i => procTime R x i j).sum ≤ s k j + procTime R x k j := by
      intro k
      induction k with
      | zero => intro hk; simpa using hs.nonneg 0 j hk hj
      | succ k ih =>
        intro hk
        rw [List.range_succ, List.map_append, List.sum_append]
        simp only [List.map_cons, List.map_nil, List.sum_cons, List.sum_nil, add_zero]
        gcongr
        exact le_trans (ih (by omega)) (hs.job k j hk hj)
    have := this (R.length - 1) (by omega)
    rw [show R.length - 1 + 1 = R.length by omega] at this
    exact le_trans this (hfin _ _ (by omega) hj)

/-- Two machines, three jobs. -/
def exShop : List (List ℚ) := [[3, 2, 4], [2, 5, 1]]

example : JobSeq exShop 3 [1, 0, 2] ∧ (∀ row ∈ exShop, ∀ v ∈ row, 0 ≤ v) ∧ makespan exShop 3 [1, 0, 2] = some 10 ∧
    machineTimes exShop 3 [1, 0, 2] = some [[0, 2], [2, 7], [5, 9]] := by
  refine ⟨⟨by decide, by decide, by decide, by decide, by decide⟩, by decide +kernel, by decide +kernel, by decide +kernel⟩

/-- **C105 (declared bounds, refuted).** The bounds declared for the variables are those of machine numbers: a sequence within the
bounds can raise, and a valid job sequence can violate them. -/
theorem C105_bounds_refuted :
    (∃ (R : List (List ℚ)) (n : ℕ) (x : List ℕ), (∀ row ∈ R, row.length = n) ∧ x.length = n ∧
      (∀ k ∈ x, (flowshopBounds R.length n).1 ≤ k ∧ k ≤ (flowshopBounds R.length n).2) ∧ makespan R n x = none) ∧
    ∃ (R : List (List ℚ)) (n : ℕ) (x : List ℕ), JobSeq R n x ∧ x.Nodup ∧ ∃ k ∈ x, (flowshopBounds R.length n).2 < k := by
  refine ⟨⟨exShop.map (List.take 2), 2, [0, 2], by decide, by decide, by decide, by decide +kernel⟩,
    ⟨[[3, 2, 4, 1]], 4, [1, 0, 2, 3], ⟨by decide, by decide, by decide, by decide, by decide⟩, by decide, 3, by decide, by decide⟩⟩

end Props
