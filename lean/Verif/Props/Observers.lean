import Verif.Model.Observers
import Mathlib.Tactic.Linarith
import Mathlib.Tactic.Ring
import Mathlib.Tactic.Positivity
import Mathlib.Tactic.FieldSimp
import Mathlib.Data.List.Basic

/-! # C92 (recorders and callbacks) and C93 (the clock of dynamic problems) -/

set_option linter.unusedSimpArgs false
set_option linter.unusedVariables false

namespace Props
open Model

variable {E : Type*}

/-! ## C92 -/

/-- The entries of a run that lie behind a multiple of `k` evaluations that had not been reached at the preceding iteration
(`prev` evaluations, `none` at the start). -/
def Crossings (k : ℕ) : Option ℕ → List (ℕ × E) → List E
  | _, [] => []
  | prev, (n, e) :: h => if prev = none ∨ prev.getD 0 / k < n / k then e :: Crossings k (some n) h else Crossings k (some n) h

/-- C92. A recorder without `nth_evals` stores one entry per iteration, in order. -/
theorem C92_every (s : RecState E) (h : List (ℕ × E)) : ∃ s', recRun none s h = some s' ∧ s'.data = s.data ++ h.map Prod.snd := by
  induction h generalizing s with
  | nil => exact ⟨s, rfl, by simp⟩
  | cons a h ih =>
    obtain ⟨n, e⟩ := a
    obtain ⟨s', h1, h2⟩ := ih ⟨s.data ++ [e], s.nextAt⟩
    exact ⟨s', by simpa [recRun, recNotify] using h1, by simp [h2]⟩

theorem recRun_crossings (k : ℕ) (hk : 0 < k) (h : List (ℕ × E)) : ∀ (s : RecState E) (p : ℕ), s.nextAt = (1 + p / k) * k →
    (∀ x ∈ h, p ≤ x.1) → (h.map Prod.fst).Pairwise (· ≤ ·) →
    ∃ s', recRun (some k) s h = some s' ∧ s'.data = s.data ++ Crossings k (some p) h := by
  induction h with
  | nil => intro s p _ _ _; exact ⟨s, rfl, by simp [Crossings]⟩
  | cons a h ih =>
    obtain ⟨n, e⟩ := a
    intro s p hs hp hm
    simp only [List.map_cons, List.pairwise_cons] at hm
    have hpn : p ≤ n := hp (n, e) (by simp)
    have hdiv : p / k ≤ n / k := Nat.div_le_div_right hpn
    have hcond : s.nextAt ≤ n ↔ p / k < n / k := by
      rw [hs, ← Nat.le_div_iff_mul_le hk]; omega
    have hle : ∀ x ∈ h, n ≤ x.1 := fun x hx => hm.1 _ (List.mem_map_of_mem (f := Prod.fst) hx)
    by_cases hc : p / k < n / k
    · obtain ⟨s', h1, h2⟩ := ih ⟨s.data ++ [e], (1 + n / k) * k⟩ n rfl hle hm.2
      refine ⟨s', ?_, ?_⟩
      · simp only [recRun, recNotify, if_pos (hcond.2 hc), if_neg (by omega : ¬ k = 0), Option.bind_some]; exact h1
      · rw [h2]; simp [Crossings, hc]
    · have he : n / k = p / k := by omega
      obtain ⟨s', h1, h2⟩ := ih s n (by rw [hs, he]) hle hm.2
      refine ⟨s', ?_, ?_⟩
      · simp only [recRun, recNotify, if_neg (fun hh => hc (hcond.1 hh)), Option.bind_some]; exact h1
      · rw [h2]; simp [Crossings, hc]

/-- C92. A recorder with `nth_evals = k > 0`: in every run (the number of evaluations never decreases) exactly the first iteration
and every iteration that passes a multiple of `k` evaluations are stored, in order. -/
theorem C92_nth (k : ℕ) (hk : 0 < k) (h : List (ℕ × E)) (hm : (h.map Prod.fst).Pairwise (· ≤ ·)) :
    ∃ s', recRun (some k) recInit h = some s' ∧ s'.data = Crossings k none h := by
  cases h with
  | nil => exact ⟨recInit, rfl, rfl⟩
  | cons a h =>
    obtain ⟨n, e⟩ := a
    simp only [List.map_cons, List.pairwise_cons] at hm
    obtain ⟨s', h1, h2⟩ := recRun_crossings k hk h ⟨[e], (1 + n / k) * k⟩ n rfl
      (fun x hx => hm.1 _ (List.mem_map_of_mem (f := Prod.fst) hx)) hm.2
    refine ⟨s', ?_, ?_⟩
    · simp only [recRun, recNotify, recInit, Nat.zero_le, if_true, if_neg (by omega : ¬ k = 0), Option.bind_some, List.nil_append]
      exact h1
    · rw [h2]; simp [Crossings]

theorem crossings_length (k : ℕ) (h : List (ℕ × E)) : ∀ p, (∀ x ∈ h, p ≤ x.1) → (h.map Prod.fst).Pairwise (· ≤ ·) →
    ∀ N, (∀ x ∈ h, x.1 ≤ N) → (Crossings k (some p) h).length ≤ N / k - p / k := by
  induction h with
  | nil => intros; simp [Crossings]
  | cons a h ih =>
    obtain ⟨n, e⟩ := a
    intro p hp hm N hN
    simp only [List.map_cons, List.pairwise_cons] at hm
    have h1 := ih n (fun x hx => hm.1 _ (List.mem_map_of_mem (f := Prod.fst) hx)) hm.2 N fun x hx => hN x (by simp [hx])
    have h2 : n / k ≤ N / k := Nat.div_le_div_right (hN (n, e) (by simp))
    have h3 : p / k ≤ n / k := Nat.div_le_div_right (hp (n, e) (by simp))
    rw [Crossings, Option.getD_some]
    by_cases hc : p / k < n / k
    · rw [if_pos (Or.inr hc), List.length_cons]; omega
    · rw [if_neg (by rintro (h | h); exacts [absurd h (by simp), hc h])]; omega

/-- C92. Never more than one entry per `k` evaluations: a run of at most `N` evaluations has at most `N / k + 1` entries. -/
theorem C92_bound (k : ℕ) (hk : 0 < k) (h : List (ℕ × E)) (hm : (h.map Prod.fst).Pairwise (· ≤ ·)) (N : ℕ)
    (hN : ∀ x ∈ h, x.1 ≤ N) (s' : RecState E) (hs : recRun (some k) recInit h = some s') : s'.data.length ≤ N / k + 1 := by
  obtain ⟨s'', h1, h2⟩ := C92_nth k hk h hm
  rw [h1] at hs; cases hs
  rw [h2]
  cases h with
  | nil => simp [Crossings]
  | cons a h =>
    obtain ⟨n, e⟩ := a
    simp only [List.map_cons, List.pairwise_cons] at hm
    have := crossings_length k h n (fun x hx => hm.1 _ (List.mem_map_of_mem (f := Prod.fst) hx)) hm.2 N fun x hx => hN x (by simp [hx])
    simp only [Crossings, true_or, if_true, List.length_cons]
    exact Nat.succ_le_succ (this.trans (Nat.sub_le _ _))

/-- C92. `nth_evals = 0` raises at the first iteration. -/
theorem C92_zero (n : ℕ) (e : E) (h : List (ℕ × E)) : recRun (some 0) recInit ((n, e) :: h) = none := by
  simp [recRun, recNotify, recInit]

example : recRun (some 100) recInit [(40, 'a'), (80, 'b'), (120, 'c'), (160, 'd'), (200, 'e'), (450, 'f'), (490, 'g')] =
    some ⟨['a', 'c', 'e', 'f'], 500⟩ := by decide

theorem npMin_spec {K : Type*} [LinearOrder K] (l : List K) : (npMin l = none ↔ l = []) ∧
    ∀ m, npMin l = some m → m ∈ l ∧ ∀ x ∈ l, m ≤ x := by
  cases l with
  | nil => simp [npMin]
  | cons a l =>
    refine ⟨by simp [npMin], ?_⟩
    intro m hm
    simp only [npMin, Option.some.injEq] at hm
    have gen : ∀ (l : List K) (a : K), (l.foldl min a = a ∨ l.foldl min a ∈ l) ∧ l.foldl min a ≤ a ∧ ∀ x ∈ l, l.foldl min a ≤ x := by
      intro l
      induction l with
      | nil => intro a; simp
      | cons b l ih =>
        intro a
        obtain ⟨h1, h2, h3⟩ := ih (min a b)
        simp only [List.foldl_cons]
        refine ⟨?_, h2.trans (min_le_left _ _), ?_⟩
        · rcases h1 with h1 | h1
          · rcases min_choice a b with h | h
            · left; rw [h1, h]
            · right; rw [h1, h]; simp
          · right; simp [h1]
        · intro x hx
          rcases List.mem_cons.1 hx with rfl | hx
          · exact h2.trans (min_le_right _ _)
          · exact h3 x hx
    obtain ⟨h1, h2, h3⟩ := gen l a
    subst hm
    refine ⟨?_, ?_⟩
    · rcases h1 with h1 | h1
      · rw [h1]; simp
      · simp [h1]
    · intro x hx
      rcases List.mem_cons.1 hx with rfl | hx
      · exact h2
      · exact h3 x hx

variable {K : Type*} [Field K] [LinearOrder K] [IsStrictOrderedRing K]

/-- C92. The entry of the single-objective recorder: `cv` is the least constraint violation of the reported optimum; `f` is infinite
exactly if none of its individuals is feasible and otherwise the least objective value of the feasible ones; the gap to a Pareto
front with least value `m` is `f - m`, and infinite if there is no front or no feasible individual. -/
theorem C92_single (opt : List (OptRow K)) (pf : Option (List K)) (cv : K) (f gap : WithTop K)
    (h : singleSave opt pf = some (cv, f, gap)) :
    ((∃ o ∈ opt, o.cv = cv) ∧ ∀ o ∈ opt, cv ≤ o.cv) ∧
    (f = ⊤ ↔ ∀ o ∈ opt, o.feas = false) ∧
    (∀ v : K, f = v → (∃ o ∈ opt, o.feas = true ∧ o.f = v) ∧ ∀ o ∈ opt, o.feas = true → v ≤ o.f) ∧
    (pf = none → gap = ⊤) ∧ (f = ⊤ → gap = ⊤) ∧
    ∀ p, pf = some p → ∃ m, (m ∈ p ∧ ∀ x ∈ p, m ≤ x) ∧ ∀ v : K, f = v → gap = ((v - m : K) : WithTop K) := by
  unfold singleSave at h
  rw [Option.bind_eq_some_iff] at h
  obtain ⟨cv', hcv, h⟩ := h
  obtain ⟨hm1, hm2⟩ := (npMin_spec _).2 _ hcv
  set mf := npMin ((opt.filter OptRow.feas).map OptRow.f) with hmf
  set f' : WithTop K := orInf mf with hf'
  have hcvf : cv' = cv ∧ f' = f := by
    cases pf with
    | none => simp only [Option.some.injEq, Prod.mk.injEq] at h; exact ⟨h.1, h.2.1⟩
    | some p =>
      simp only [Option.map_eq_some_iff, Prod.mk.injEq] at h
      obtain ⟨m, _, h1, h2, _⟩ := h; exact ⟨h1, h2⟩
  obtain ⟨rfl, hff⟩ := hcvf
  refine ⟨⟨?_, ?_⟩, ?_, ?_, ?_, ?_, ?_⟩
  · obtain ⟨o, ho, he⟩ := List.mem_map.1 hm1; exact ⟨o, ho, he⟩
  · intro o ho; exact hm2 _ (List.mem_map_of_mem (f := OptRow.cv) ho)
  · rw [← hff, hf']
    cases hq : mf with
    | none =>
      have := (npMin_spec _).1.1 (hmf.symm.trans hq)
      simp only [List.map_eq_nil_iff, List.filter_eq_nil_iff, Bool.not_eq_true] at this
      simpa [orInf] using this
    | some v =>
      obtain ⟨h1, _⟩ := (npMin_spec _).2 _ (hmf.symm.trans hq)
      obtain ⟨o, ho, he⟩ := List.mem_map.1 h1
      rw [List.mem_filter] at ho
      simp only [orInf, WithTop.coe_ne_top, false_iff]
      intro hh; rw [hh o ho.1] at ho; exact absurd ho.2 (by simp)
  · intro v hv
    rw [← hff, hf'] at hv
    cases hq : mf with
    | none => rw [hq] at hv; exact absurd hv (by simp [orInf])
    | some w =>
      rw [hq] at hv
      have hwv : w = v := by simpa [orInf] using hv
      subst hwv
      obtain ⟨h1, h2⟩ := (npMin_spec _).2 _ (hmf.symm.trans hq)
      obtain ⟨o, ho, he⟩ := List.mem_map.1 h1
      rw [List.mem_filter] at ho
      exact ⟨⟨o, ho.1, ho.2, he⟩, fun o ho hof => h2 _ (List.mem_map_of_mem (f := OptRow.f) (List.mem_filter.2 ⟨ho, hof⟩))⟩
  · rintro rfl
    simp only [Option.some.injEq, Prod.mk.injEq] at h; exact h.2.2.symm
  · intro ht
    cases pf with
    | none => simp only [Option.some.injEq, Prod.mk.injEq] at h; exact h.2.2.symm
    | some p =>
      simp only [Option.map_eq_some_iff, Prod.mk.injEq] at h
      obtain ⟨m, _, _, _, h3⟩ := h
      rw [← h3, hff, ht]; rfl
  · rintro p rfl
    simp only [Option.map_eq_some_iff, Prod.mk.injEq] at h
    obtain ⟨m, hm, _, _, h3⟩ := h
    refine ⟨m, (npMin_spec _).2 _ hm, ?_⟩
    intro v hv
    rw [← h3, hff, hv]; rfl

example : singleSave [⟨true, 0, 3⟩, ⟨false, 1, 1⟩, ⟨true, 0, 2⟩] (some [1, 5]) = some ((0 : ℚ), ((2 : ℚ) : WithTop ℚ), ((1 : ℚ) : WithTop ℚ)) := by
  decide +kernel

/-- C92. A callback passed to a run of `n ≥ 1` iterations is initialised once, before everything else, and then notified and updated
once per iteration. -/
theorem C92_callback (n : ℕ) : (cbCall^[n + 1] cbInit).log = CbEvent.initialize :: (List.replicate (n + 1) [CbEvent.notify, CbEvent.update]).flatten := by
  have gen : ∀ n, cbCall^[n + 1] cbInit = ⟨true, CbEvent.initialize :: (List.replicate (n + 1) [CbEvent.notify, CbEvent.update]).flatten⟩ := by
    intro n
    induction n with
    | zero => rfl
    | succ n ih =>
      rw [Function.iterate_succ_apply', ih]
      simp only [cbCall, if_true, List.replicate_succ' (n := n + 1), List.flatten_append]
      simp
  rw [gen]

/-- C92 is false for a callback that is a member of a `CallbackCollection`: whatever the members are and however many iterations the
run has, none of them is ever initialised or notified (they are only updated), so that for example a recorder in a collection stores
nothing. -/
theorem C92_collection_refuted (members : List CbState) (n : ℕ) (i : ℕ) (m : CbState) (hm : members[i]? = some m) :
    ∃ m', (collectionCall^[n] members)[i]? = some m' ∧ m'.log = m.log ++ List.replicate n .update := by
  induction n with
  | zero => exact ⟨m, hm, by simp⟩
  | succ n ih =>
    obtain ⟨m', h1, h2⟩ := ih
    refine ⟨memberUpdate m', ?_, ?_⟩
    · rw [Function.iterate_succ_apply']
      simp [collectionCall, h1]
    · simp [memberUpdate, h2, List.replicate_succ']

example : (collectionCall^[2] [cbInit, cbInit]) = [⟨false, [.update, .update]⟩, ⟨false, [.update, .update]⟩] ∧
    (cbCall^[2] cbInit).log = [.initialize, .notify, .update, .notify, .update] := by decide

/-! ## C93 -/

variable {Fr : Type*}

/-- The elapsed ticks of a sequence of calls. -/
def ticks : List DynOp → ℕ
  | [] => 0
  | .tic e :: l => e + ticks l
  | .setTime _ :: l => ticks l
  | .front :: l => ticks l

/-- No time is set explicitly. -/
def NoSet (ops : List DynOp) : Prop := ∀ t, DynOp.setTime t ∉ ops

theorem dynRun_spec (nt taut : ℕ) (pfAt : ℚ → Fr) (ops : List DynOp) : ∀ (s : DynState Fr), s.time = none →
    (∀ f, s.cache = some f → f = pfAt (dynTime nt taut s)) → NoSet ops →
    (dynRun nt taut pfAt s ops).time = none ∧ (dynRun nt taut pfAt s ops).tau = s.tau + ticks ops ∧
    ∀ f, (dynRun nt taut pfAt s ops).cache = some f → f = pfAt (dynTime nt taut (dynRun nt taut pfAt s ops)) := by
  induction ops with
  | nil => intro s ht hc _; exact ⟨ht, by simp [dynRun, ticks], hc⟩
  | cons o ops ih =>
    intro s ht hc hn
    have hn' : NoSet ops := fun t h => hn t (by simp [h])
    cases o with
    | tic e =>
      obtain ⟨h1, h2, h3⟩ := ih ⟨s.tau + e, s.time, none⟩ ht (by simp) hn'
      refine ⟨h1, ?_, h3⟩
      simp only [dynRun, dynStep, ticks]; rw [h2]; simp only; omega
    | setTime t => exact absurd (by simp) (hn t)
    | front =>
      simp only [dynRun, dynStep, ticks]
      cases hq : s.cache with
      | some f => exact ih s ht hc hn'
      | none =>
        obtain ⟨h1, h2, h3⟩ := ih ⟨s.tau, s.time, some (pfAt (dynTime nt taut s))⟩ ht (by
          intro f hf; simp only [Option.some.injEq] at hf; rw [← hf]; rfl) hn'
        exact ⟨h1, h2, h3⟩

/-- C93. After any calls that do not set the time, the time of the problem is the number of completed periods of `taut` ticks
divided by `nt`. -/
theorem C93_time (nt taut tau0 : ℕ) (pfAt : ℚ → Fr) (ops : List DynOp) (hn : NoSet ops) :
    dynTime nt taut (dynRun nt taut pfAt ⟨tau0, none, none⟩ ops) = (((tau0 + ticks ops) / taut : ℕ) : ℚ) / nt := by
  obtain ⟨h1, h2, _⟩ := dynRun_spec nt taut pfAt ops ⟨tau0, none, none⟩ rfl (by simp) hn
  simp only [dynTime, h1, h2, Option.getD_none]
  ring

/-- C93. Time never runs backwards, and it stands still exactly as long as no period of `taut` ticks is completed. -/
theorem C93_steps (nt taut tau0 : ℕ) (hnt : 0 < nt) (pfAt : ℚ → Fr) (a b : List DynOp) (ha : NoSet a) (hb : NoSet b) :
    dynTime nt taut (dynRun nt taut pfAt ⟨tau0, none, none⟩ a) ≤ dynTime nt taut (dynRun nt taut pfAt ⟨tau0, none, none⟩ (a ++ b)) ∧
    (dynTime nt taut (dynRun nt taut pfAt ⟨tau0, none, none⟩ a) = dynTime nt taut (dynRun nt taut pfAt ⟨tau0, none, none⟩ (a ++ b)) ↔
      (tau0 + ticks a) / taut = (tau0 + ticks a + ticks b) / taut) := by
  have hab : NoSet (a ++ b) := fun t h => by
    rcases List.mem_append.1 h with h | h
    · exact ha t h
    · exact hb t h
  have ht : ticks (a ++ b) = ticks a + ticks b := by
    clear ha hab
    induction a with
    | nil => simp [ticks]
    | cons o a ih => cases o <;> simp [ticks, ih] <;> omega
  rw [C93_time nt taut tau0 pfAt a ha, C93_time nt taut tau0 pfAt _ hab, ht, ← Nat.add_assoc]
  have hq : (0 : ℚ) < nt := by exact_mod_cast hnt
  constructor
  · apply div_le_div_of_nonneg_right _ hq.le
    exact_mod_cast Nat.div_le_div_right (by omega)
  · rw [div_left_inj' hq.ne']
    exact_mod_cast Iff.rfl

/-- C93. After any calls that do not set the time explicitly, `pareto_front()` returns the front of the current time. -/
theorem C93_front (nt taut tau0 : ℕ) (pfAt : ℚ → Fr) (ops : List DynOp) (hn : NoSet ops) :
    (dynStep nt taut pfAt (dynRun nt taut pfAt ⟨tau0, none, none⟩ ops) .front).2 =
      some (pfAt ((((tau0 + ticks ops) / taut : ℕ) : ℚ) / nt)) := by
  obtain ⟨_, _, h3⟩ := dynRun_spec nt taut pfAt ops ⟨tau0, none, none⟩ rfl (by simp) hn
  rw [← C93_time nt taut tau0 pfAt ops hn]
  simp only [dynStep]
  cases hq : (dynRun nt taut pfAt ⟨tau0, none, none⟩ ops).cache with
  | some f => simp only [Option.some.injEq]; exact h3 f hq
  | none => rfl

/-- C93 is false if the time is set explicitly: a front computed before is returned for the new time. -/
theorem C93_set_time_refuted (nt taut tau0 : ℕ) (pfAt : ℚ → Fr) (t : ℚ) :
    (dynStep nt taut pfAt (dynRun nt taut pfAt ⟨tau0, none, none⟩ [.front, .setTime t]) .front).2 =
      some (pfAt (((tau0 / taut : ℕ) : ℚ) / nt)) := by
  have := C93_time nt taut tau0 pfAt [] (by intro t; simp)
  simp only [dynRun, ticks, Nat.add_zero] at this
  simp [dynRun, dynStep, this]

/-- C93. Once a time has been set, ticks do not change it. -/
theorem C93_frozen (nt taut : ℕ) (pfAt : ℚ → Fr) (s : DynState Fr) (t : ℚ) (ops : List DynOp) (hn : NoSet ops) :
    dynTime nt taut (dynRun nt taut pfAt s (.setTime t :: ops)) = t := by
  have gen : ∀ (ops : List DynOp) (s : DynState Fr), s.time = some t → NoSet ops → (dynRun nt taut pfAt s ops).time = some t := by
    intro ops
    induction ops with
    | nil => intro s hs _; exact hs
    | cons o ops ih =>
      intro s hs hn
      have hn' : NoSet ops := fun t h => hn t (by simp [h])
      cases o with
      | tic e => exact ih _ hs hn'
      | setTime t => exact absurd (by simp) (hn t)
      | front =>
        simp only [dynRun, dynStep]
        cases s.cache with
        | some f => exact ih _ hs hn'
        | none => exact ih _ hs hn'
  simp only [dynRun, dynStep]
  simp only [dynTime]
  rw [gen ops _ rfl hn]; rfl

example : NoSet [.tic 1, .front, .tic 3, .front] ∧
    (dynStep 10 2 (fun t => t) (dynRun 10 2 (fun t : ℚ => t) ⟨1, none, none⟩ [.tic 1, .front, .tic 3, .front]) .front).2 = some (1 / 5 : ℚ) := by
  refine ⟨fun t => by simp, by decide +kernel⟩

end Props
