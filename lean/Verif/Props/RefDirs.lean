import Verif.Model.RefDirs
import Mathlib.Data.List.Nodup
import Mathlib.Tactic.FieldSimp
import Mathlib.Tactic.Ring
import Mathlib.Tactic.Linarith
import Mathlib.Tactic.Positivity
import Mathlib.Algebra.Order.Field.Rat
import Mathlib.Algebra.Order.BigOperators.Group.List

/-! # C29, C30 (Das-Dennis reference directions) -/

set_option linter.unusedSectionVars false
set_option linter.unusedSimpArgs false

namespace Props
open Model

theorem ddRec_mem (p : ℕ) : ∀ (rest beta : ℕ) (pre v : List ℚ), v ∈ ddRec p rest beta pre ↔
    ∃ ks : List ℕ, ks.length = rest + 1 ∧ ks.sum = beta ∧ v = pre ++ ks.map fun k : ℕ => (k : ℚ) / p := by
  intro rest
  induction rest with
  | zero =>
    intro beta pre v
    simp only [ddRec, List.mem_singleton]
    constructor
    · rintro rfl
      exact ⟨[beta], rfl, by simp, by simp⟩
    · rintro ⟨ks, h1, h2, rfl⟩
      match ks, h1 with
      | [k], _ =>
        simp only [List.sum_cons, List.sum_nil, Nat.add_zero] at h2
        simp [h2]
  | succ rest ih =>
    intro beta pre v
    simp only [ddRec, List.mem_flatMap, List.mem_range, ih]
    constructor
    · rintro ⟨i, hi, ks, h1, h2, rfl⟩
      exact ⟨i :: ks, by simp [h1], by simp [h2]; omega, by simp⟩
    · rintro ⟨ks, h1, h2, rfl⟩
      match ks, h1 with
      | i :: ks, h1 =>
        simp only [List.sum_cons] at h2
        exact ⟨i, by omega, ks, by simpa using h1, by omega, by simp⟩

theorem ddRec_length (p : ℕ) : ∀ (rest beta : ℕ) (pre : List ℚ),
    (ddRec p rest beta pre).length = (rest + beta).choose rest := by
  intro rest
  induction rest with
  | zero => intro beta pre; simp [ddRec]
  | succ rest ih =>
    intro beta
    induction beta with
    | zero => intro pre; simp [ddRec, ih]
    | succ beta ihb =>
      intro pre
      have hb := ihb pre
      simp only [ddRec, List.length_flatMap, ih] at hb ⊢
      rw [List.range_succ_eq_map, List.map_cons, List.sum_cons, List.map_map]
      have : (List.map ((fun i => (rest + (beta + 1 - i)).choose rest) ∘ Nat.succ) (List.range (beta + 1))).sum =
          (rest + 1 + beta).choose (rest + 1) := by
        rw [← hb]
        congr 1
        apply List.map_congr_left
        intro i _
        simp only [Function.comp]
        congr 2; omega
      rw [this]
      have e1 : rest + 1 + (beta + 1) = (rest + (beta + 1)) + 1 := by omega
      have e2 : rest + 1 + beta = rest + (beta + 1) := by omega
      rw [e1, Nat.choose_succ_succ, e2]
      simp

theorem ddRec_sorted (p : ℕ) (hp : 0 < p) : ∀ (rest beta : ℕ) (pre : List ℚ),
    (ddRec p rest beta pre).Pairwise (· < ·) := by
  intro rest
  induction rest with
  | zero => intro beta pre; simp [ddRec]
  | succ rest ih =>
    intro beta pre
    simp only [ddRec]
    rw [List.pairwise_flatMap]
    refine ⟨fun i _ => ih _ _, ?_⟩
    refine List.pairwise_lt_range.imp ?_
    intro i j hij x hx y hy
    obtain ⟨ks, _, _, rfl⟩ := (ddRec_mem ..).1 hx
    obtain ⟨ls, _, _, rfl⟩ := (ddRec_mem ..).1 hy
    rw [List.append_assoc, List.append_assoc]
    apply List.append_left_lt
    simp only [List.singleton_append]
    apply List.Lex.rel
    have : (0 : ℚ) < p := by exact_mod_cast hp
    have h : (i : ℚ) < j := by exact_mod_cast hij
    exact (div_lt_div_iff_of_pos_right this).2 h

/-- A point of the simplex lattice: `n` coordinates, non-negative multiples of `1/p`, summing to one. -/
def LatticePoint (p n : ℕ) (v : List ℚ) : Prop :=
  v.length = n ∧ (∀ x ∈ v, ∃ k : ℕ, x = (k : ℚ) / p) ∧ v.sum = 1

theorem sum_map_div (p : ℕ) (ks : List ℕ) : (ks.map fun k : ℕ => (k : ℚ) / p).sum = (ks.sum : ℚ) / p := by
  induction ks with
  | nil => simp
  | cons k ks ih => simp only [List.map_cons, List.sum_cons, ih, Nat.cast_add]; ring

/-- C29. `das_dennis(p, n)` lists the points of the simplex lattice, each exactly once, and there are
`C(n+p-1, p)` of them, the number announced by `get_number_of_uniform_points`. They come in lexicographic order. -/
theorem C29_das_dennis (p n : ℕ) (hp : 0 < p) (hn : 0 < n) :
    (∀ v, v ∈ dasDennis p n ↔ LatticePoint p n v) ∧ (dasDennis p n).Nodup ∧
    (dasDennis p n).length = (n + p - 1).choose p ∧ numUniform p n = (n + p - 1).choose p ∧
    (dasDennis p n).Pairwise (· < ·) := by
  have hp' : ¬ p = 0 := by omega
  have hpq : (p : ℚ) ≠ 0 := by exact_mod_cast hp'
  have he : dasDennis p n = ddRec p (n - 1) p [] := by rw [dasDennis, if_neg hp']
  rw [he]
  have hs := ddRec_sorted p hp (n - 1) p []
  refine ⟨?_, hs.imp fun h => ne_of_lt h, ?_, rfl, hs⟩
  · intro v
    rw [ddRec_mem]
    constructor
    · rintro ⟨ks, h1, h2, rfl⟩
      refine ⟨by simp [h1]; omega, ?_, ?_⟩
      · intro x hx
        simp only [List.nil_append, List.mem_map] at hx
        obtain ⟨k, _, rfl⟩ := hx
        exact ⟨k, rfl⟩
      · simp only [List.nil_append, sum_map_div, h2]
        field_simp
    · rintro ⟨h1, h2, h3⟩
      have : ∃ ks : List ℕ, v = ks.map fun k : ℕ => (k : ℚ) / p := by
        clear h1 h3
        induction v with
        | nil => exact ⟨[], rfl⟩
        | cons x v ih =>
          obtain ⟨k, hk⟩ := h2 x (List.mem_cons_self ..)
          obtain ⟨ks, hks⟩ := ih fun y hy => h2 y (List.mem_cons_of_mem _ hy)
          exact ⟨k :: ks, by rw [List.map_cons, ← hks, hk]⟩
      obtain ⟨ks, rfl⟩ := this
      refine ⟨ks, by simpa using h1.trans (by omega), ?_, by simp⟩
      rw [sum_map_div, div_eq_one_iff_eq hpq] at h3
      exact_mod_cast h3
  · rw [ddRec_length]
    have : n - 1 + p = n + p - 1 := by omega
    rw [this, ← Nat.choose_symm (n := n + p - 1) (k := p) (by omega)]
    congr 1; omega

example : dasDennis 2 3 = [[0, 0, 1], [0, 1/2, 1/2], [0, 1, 0], [1/2, 0, 1/2], [1/2, 1/2, 0], [1, 0, 0]] ∧
    numUniform 2 3 = 6 := by decide +kernel

/-- C29. No partitions: the centre of the simplex. -/
theorem C29_das_dennis_zero (n : ℕ) (hn : 0 < n) :
    dasDennis 0 n = [List.replicate n (1 / (n : ℚ))] ∧ (List.replicate n (1 / (n : ℚ))).sum = 1 ∧ numUniform 0 n = 1 := by
  have : (n : ℚ) ≠ 0 := by exact_mod_cast (by omega : n ≠ 0)
  refine ⟨by simp [dasDennis], ?_, by simp [numUniform]⟩
  rw [List.sum_replicate, nsmul_eq_mul]
  field_simp

example : dasDennis 0 4 = [[1/4, 1/4, 1/4, 1/4]] := by decide +kernel

theorem scalePoint_sum (s : ℚ) (x : List ℚ) (hx : x ≠ []) (h : x.sum = 1) : (scalePoint s x).sum = 1 := by
  have hl : (x.length : ℚ) ≠ 0 := by
    have := List.length_pos_of_ne_nil hx
    exact_mod_cast (by omega : x.length ≠ 0)
  have key : ∀ (c : ℚ) (l : List ℚ), (l.map fun v => v * s + c).sum = l.sum * s + l.length * c := by
    intro c l
    induction l with
    | nil => simp
    | cons a l ih => simp only [List.map_cons, List.sum_cons, ih, List.length_cons, Nat.cast_add, Nat.cast_one]; ring
  rw [scalePoint, key, h]
  field_simp
  ring

/-- C29. The uniform factory with a scaling `s` in `[0, 1]`: the points stay on the simplex (non-negative, sum one), there
are as many, and with `lexsort` (the default) they come in lexicographic order. -/
theorem C29_factory (p n : ℕ) (hp : 0 < p) (hn : 1 < n) (scaling : Option ℚ)
    (hs : ∀ s, scaling = some s → 0 ≤ s ∧ s ≤ 1) (lex : Bool) :
    (uniformDo p n scaling lex).length = numUniform p n ∧
    (∀ v ∈ uniformDo p n scaling lex, v.length = n ∧ (∀ x ∈ v, 0 ≤ x) ∧ v.sum = 1) ∧
    (lex = true → (uniformDo p n scaling lex).Pairwise (· ≤ ·)) ∧
    (scaling = none → uniformDo p n scaling lex = dasDennis p n) := by
  obtain ⟨h1, h2, h3, h4, h5⟩ := C29_das_dennis p n hp (by omega)
  have hn1 : ¬ n = 1 := by omega
  have hpos : ∀ v ∈ dasDennis p n, v.length = n ∧ (∀ x ∈ v, 0 ≤ x) ∧ v.sum = 1 := by
    intro v hv
    obtain ⟨a, b, c⟩ := (h1 v).1 hv
    refine ⟨a, fun x hx => ?_, c⟩
    obtain ⟨k, rfl⟩ := b x hx
    positivity
  set r := (match scaling with | some s => (dasDennis p n).map (scalePoint s) | none => dasDennis p n) with hr
  have hrl : r.length = numUniform p n := by
    cases scaling with
    | none => rw [hr, h4]; exact h3
    | some s => rw [hr, h4]; simpa using h3
  have hrp : ∀ v ∈ r, v.length = n ∧ (∀ x ∈ v, 0 ≤ x) ∧ v.sum = 1 := by
    cases scaling with
    | none => exact hpos
    | some s =>
      obtain ⟨s0, s1⟩ := hs s rfl
      intro v hv
      obtain ⟨w, hw, rfl⟩ := List.mem_map.1 hv
      obtain ⟨a, b, c⟩ := hpos w hw
      refine ⟨by simp [scalePoint, a], ?_, scalePoint_sum s w (by rintro rfl; simp at a; omega) c⟩
      intro x hx
      obtain ⟨y, hy, rfl⟩ := List.mem_map.1 hx
      have hy0 := b y hy
      have : (0 : ℚ) ≤ (1 - s) / w.length := div_nonneg (by linarith) (by positivity)
      nlinarith [mul_nonneg hy0 s0]
  have hu : uniformDo p n scaling lex = if lex then r.insertionSort (· ≤ ·) else r := by
    unfold uniformDo
    rw [if_neg hn1]
    cases scaling <;> rfl
  rw [hu]
  cases lex with
  | false =>
    refine ⟨by simpa using hrl, by simpa using hrp, by simp, ?_⟩
    rintro rfl; simp [hr]
  | true =>
    simp only [if_true]
    refine ⟨by rw [List.length_insertionSort]; exact hrl, fun v hv => hrp v ((List.perm_insertionSort _ r).mem_iff.1 hv),
      fun _ => List.pairwise_insertionSort _ r, ?_⟩
    rintro rfl
    exact List.Pairwise.insertionSort_eq (h5.imp fun h => le_of_lt h)

example : uniformDo 2 2 (some (1/2)) true = [[1/4, 3/4], [1/2, 1/2], [3/4, 1/4]] := by decide +kernel

/-! ### The iterator -/

/-- The points still to come. -/
def ddPending (p nDim : ℕ) (stack : DDStack) : List (List ℚ) :=
  stack.flatMap fun e => (ddRec p (nDim - 1 - e.1.length) e.2 e.1).reverse

def ddValid (nDim : ℕ) (stack : DDStack) : Prop := ∀ e ∈ stack, e.1.length < nDim

def ddCost : ℕ → ℕ → ℕ
  | 0, _ => 1
  | rest + 1, beta => 1 + ((List.range (beta + 1)).map fun i => ddCost rest (beta - i)).sum

def ddStackCost (nDim : ℕ) (stack : DDStack) : ℕ := (stack.map fun e => ddCost (nDim - 1 - e.1.length) e.2).sum

theorem ddCost_pos (rest beta : ℕ) : 0 < ddCost rest beta := by
  cases rest <;> simp only [ddCost] <;> omega

theorem foldl_push {γ : Type*} (f : ℕ → γ) (l : List ℕ) (rest : List γ) :
    l.foldl (fun st i => f i :: st) rest = (l.map f).reverse ++ rest := by
  induction l generalizing rest with
  | nil => rfl
  | cons a l ih => simp [ih]

/-- Scaling of a point, if any. -/
def scaleOpt (scaling : Option ℚ) (v : List ℚ) : List ℚ :=
  match scaling with
  | some s => scalePoint s v
  | none => v

theorem ddTraverse_spec (p nDim : ℕ) (scaling : Option ℚ) : ∀ (fuel : ℕ) (limit : Option ℕ) (stack : DDStack),
    ddValid nDim stack → ddStackCost nDim stack ≤ fuel →
    ∃ st out, ddTraverse p nDim scaling fuel limit stack = some (st, out) ∧ ddValid nDim st ∧
      ddStackCost nDim st ≤ ddStackCost nDim stack ∧
      (limit = none → st = [] ∧ out = (ddPending p nDim stack).map (scaleOpt scaling)) ∧
      (∀ k, limit = some k → out = ((ddPending p nDim stack).take k).map (scaleOpt scaling) ∧
        ddPending p nDim st = (ddPending p nDim stack).drop k) := by
  intro fuel
  induction fuel with
  | zero =>
    intro limit stack hv hc
    have : stack = [] := by
      cases stack with
      | nil => rfl
      | cons e rest =>
        simp only [ddStackCost, List.map_cons, List.sum_cons] at hc
        have := ddCost_pos (nDim - 1 - e.1.length) e.2
        omega
    subst this
    exact ⟨[], [], by simp [ddTraverse], hv, le_rfl, fun _ => ⟨rfl, rfl⟩, fun k _ => by simp [ddPending]⟩
  | succ fuel ih =>
    intro limit stack hv hc
    unfold ddTraverse
    by_cases hl : limit = some 0
    · rw [if_pos hl]
      exact ⟨stack, [], rfl, hv, le_rfl, by simp [hl], fun k hk => by rw [hl] at hk; cases hk; simp⟩
    · rw [if_neg hl]
      match stack, hv, hc with
      | [], hv, hc =>
        exact ⟨[], [], rfl, hv, le_rfl, fun _ => ⟨rfl, rfl⟩, fun k _ => by simp [ddPending]⟩
      | (point, beta) :: rest, hv, hc =>
        have hpt : point.length < nDim := hv _ (List.mem_cons_self ..)
        have hvr : ddValid nDim rest := fun e he => hv e (List.mem_cons_of_mem _ he)
        have hcc : ddStackCost nDim ((point, beta) :: rest) =
            ddCost (nDim - 1 - point.length) beta + ddStackCost nDim rest := by simp [ddStackCost]
        rw [hcc] at hc
        have hpend : ddPending p nDim ((point, beta) :: rest) =
            (ddRec p (nDim - 1 - point.length) beta point).reverse ++ ddPending p nDim rest := by simp [ddPending]
        simp only
        by_cases hlast : point.length + 1 = nDim
        · rw [if_pos hlast]
          have h0 : nDim - 1 - point.length = 0 := by omega
          have hcost := ddCost_pos (nDim - 1 - point.length) beta
          obtain ⟨st, out, e1, e2, e3, e4, e5⟩ := ih (limit.map (· - 1)) rest hvr (by omega)
          refine ⟨st, scaleOpt scaling (point ++ [(beta : ℚ) / p]) :: out, by rw [e1]; rfl, e2, by rw [hcc]; omega, ?_, ?_⟩
          · rintro rfl
            obtain ⟨f1, f2⟩ := e4 rfl
            refine ⟨f1, ?_⟩
            rw [hpend, h0, f2]
            simp [ddRec]
          · rintro k rfl
            obtain ⟨k, rfl⟩ : ∃ k', k = k' + 1 := ⟨k - 1, by
              have : k ≠ 0 := fun h => hl (by rw [h])
              omega⟩
            obtain ⟨f1, f2⟩ := e5 k (by simp)
            rw [hpend, h0]
            simp only [ddRec, List.reverse_singleton, List.singleton_append, List.take_succ_cons, List.drop_succ_cons,
              List.map_cons]
            exact ⟨by rw [f1], f2⟩
        · rw [if_neg hlast]
          rw [foldl_push]
          obtain ⟨r, hr⟩ : ∃ r, nDim - 1 - point.length = r + 1 := ⟨nDim - 1 - point.length - 1, by omega⟩
          set new := (List.map (fun i : ℕ => (point ++ [(i : ℚ) / p], beta - i)) (List.range (beta + 1))).reverse ++ rest
            with hnew
          have hnl : ∀ i : ℕ, nDim - 1 - (point ++ [(i : ℚ) / p]).length = r := by intro i; simp; omega
          have hvn : ddValid nDim new := by
            intro e he
            rcases List.mem_append.1 he with he | he
            · obtain ⟨i, _, rfl⟩ := List.mem_map.1 (List.mem_reverse.1 he)
              simp only [List.length_append, List.length_singleton]
              omega
            · exact hvr e he
          have hcn : ddStackCost nDim new + 1 = ddCost (nDim - 1 - point.length) beta + ddStackCost nDim rest := by
            simp only [hnew, ddStackCost, List.map_append, List.sum_append, hr, ddCost]
            rw [List.map_reverse, List.sum_reverse, List.map_map]
            have : (List.map ((fun e : List ℚ × ℕ => ddCost (nDim - 1 - e.1.length) e.2) ∘
                fun i : ℕ => (point ++ [(i : ℚ) / p], beta - i)) (List.range (beta + 1))) =
                (List.range (beta + 1)).map fun i => ddCost r (beta - i) := by
              apply List.map_congr_left
              intro i _
              simp only [Function.comp, hnl]
            rw [this]; omega
          have hpn : ddPending p nDim new = ddPending p nDim ((point, beta) :: rest) := by
            rw [hpend, hr]
            simp only [hnew, ddPending, List.flatMap_append, ddRec]
            congr 1
            rw [List.reverse_flatMap, ← List.map_reverse, List.flatMap_map]
            congr 1
            funext i
            simp only [hnl, Function.comp]
          obtain ⟨st, out, e1, e2, e3, e4, e5⟩ := ih limit new hvn (by omega)
          refine ⟨st, out, e1, e2, by rw [hcc]; omega, ?_, ?_⟩
          · rw [← hpn]; exact e4
          · rw [← hpn]; exact e5

/-- The stack after any sequence of calls `next(k₁), next(k₂), ...` on a new iterator, and what they returned. -/
def ddCalls (p nDim : ℕ) (scaling : Option ℚ) (fuel : ℕ) : List ℕ → DDStack → Option (DDStack × List (List (List ℚ)))
  | [], st => some (st, [])
  | k :: ks, st =>
    match ddNext p nDim scaling fuel (some k) st with
    | none => none
    | some (st', out) => (ddCalls p nDim scaling fuel ks st').map fun r => (r.1, out :: r.2)

theorem ddPending_init (p n : ℕ) (hp : 0 < p) : ddPending p n (ddInit p) = (dasDennis p n).reverse := by
  simp [ddPending, ddInit, dasDennis, Nat.pos_iff_ne_zero.1 hp]

/-- C29. The iterator `DasDennis`: after any sequence of calls `next(k₁), ..., next(kₗ)`, the points returned are, in order,
the first `k₁ + ... + kₗ` points of `das_dennis(p, n)` read from the end (scaled if asked); a final `next()` returns exactly
the remaining ones; `has_next` is false exactly when none remain. -/
theorem C29_iterator (p n : ℕ) (hp : 0 < p) (hn : 0 < n) (scaling : Option ℚ) (ks : List ℕ) (fuel : ℕ)
    (hf : ddStackCost n (ddInit p) ≤ fuel) :
    ∃ st outs, ddCalls p n scaling fuel ks (ddInit p) = some (st, outs) ∧ outs.length = ks.length ∧
      outs.flatten = (((dasDennis p n).reverse).take ks.sum).map (scaleOpt scaling) ∧
      (st = [] ↔ (dasDennis p n).length ≤ ks.sum) ∧
      ddNext p n scaling fuel none st = some ([], (((dasDennis p n).reverse).drop ks.sum).map (scaleOpt scaling)) := by
  have hp' : ¬ p = 0 := by omega
  have key : ∀ (ks : List ℕ) (stack : DDStack), ddValid n stack → ddStackCost n stack ≤ fuel →
      ∃ st outs, ddCalls p n scaling fuel ks stack = some (st, outs) ∧ outs.length = ks.length ∧
        outs.flatten = ((ddPending p n stack).take ks.sum).map (scaleOpt scaling) ∧
        ddPending p n st = (ddPending p n stack).drop ks.sum ∧ ddValid n st ∧ ddStackCost n st ≤ fuel := by
    intro ks
    induction ks with
    | nil => intro stack hv hc; exact ⟨stack, [], rfl, rfl, by simp, by simp, hv, hc⟩
    | cons k ks ih =>
      intro stack hv hc
      obtain ⟨st, out, e1, e2, e3, _, e5⟩ := ddTraverse_spec p n scaling fuel (some k) stack hv hc
      obtain ⟨f1, f2⟩ := e5 k rfl
      obtain ⟨st', outs, g1, g2, g3, g4, g5, g6⟩ := ih st e2 (le_trans e3 hc)
      refine ⟨st', out :: outs, by simp only [ddCalls, ddNext, if_neg hp', e1, g1, Option.map_some], by simp [g2], ?_, ?_, g5, g6⟩
      · rw [List.flatten_cons, g3, f1, f2, ← List.map_append, List.sum_cons, List.take_add]
      · rw [g4, f2, List.drop_drop, List.sum_cons]
  have hv0 : ddValid n (ddInit p) := by
    intro e he
    simp only [ddInit, List.mem_singleton] at he
    subst he
    simpa using hn
  obtain ⟨st, outs, h1, h2, h3, h4, h5, h6⟩ := key ks (ddInit p) hv0 hf
  rw [ddPending_init p n hp] at h3 h4
  refine ⟨st, outs, h1, h2, h3, ?_, ?_⟩
  · constructor
    · rintro rfl
      simp only [ddPending, List.flatMap_nil] at h4
      have := List.drop_eq_nil_iff.1 h4.symm
      simpa using this
    · intro hle
      have : ddPending p n st = [] := by rw [h4]; exact List.drop_eq_nil_of_le (by simpa using hle)
      cases st with
      | nil => rfl
      | cons e rest =>
        exfalso
        simp only [ddPending, List.flatMap_cons, List.append_eq_nil_iff, List.reverse_eq_nil_iff] at this
        have hl := congrArg List.length this.1
        rw [ddRec_length] at hl
        have := Nat.choose_pos (n := n - 1 - e.1.length + e.2) (k := n - 1 - e.1.length) (by omega)
        simp at hl
        omega
  · obtain ⟨st', out, e1, _, _, e4, _⟩ := ddTraverse_spec p n scaling fuel none st h5 h6
    obtain ⟨rfl, rfl⟩ := e4 rfl
    rw [ddNext, if_neg hp', e1, h4]

example : ddStackCost 2 (ddInit 3) = 5 ∧ ddCalls 3 2 none 5 [1, 2] (ddInit 3) =
    some ([([0], 3)], [[[1, 0]], [[2/3, 1/3], [1/3, 2/3]]]) := by decide +kernel

/-- C29 is false for the iterator with no partitions: `next` returns no point and `has_next` stays true, while `das_dennis`
has one point. -/
theorem C29_iterator_zero (n : ℕ) (scaling : Option ℚ) (fuel : ℕ) (limit : Option ℕ) :
    ddNext 0 n scaling fuel limit (ddInit 0) = some (ddInit 0, []) ∧ ddInit 0 ≠ [] ∧ (dasDennis 0 n).length = 1 := by
  simp [ddNext, ddInit, dasDennis]

/-! ### The number of partitions -/

theorem numUniform_lt_succ (n : ℕ) (hn : 2 ≤ n) (p : ℕ) : numUniform p n < numUniform (p + 1) n := by
  unfold numUniform
  have : n + (p + 1) - 1 = (n + p - 1) + 1 := by omega
  rw [this, Nat.choose_succ_succ']
  have := Nat.choose_pos (n := n + p - 1) (k := p + 1) (by omega)
  omega

theorem numUniform_strictMono (n : ℕ) (hn : 2 ≤ n) : StrictMono fun p => numUniform p n :=
  strictMono_nat_of_lt_succ (numUniform_lt_succ n hn)

theorem numUniform_zero (n : ℕ) : numUniform 0 n = 1 := by simp [numUniform]

theorem numUniform_ge (n : ℕ) (hn : 2 ≤ n) (p : ℕ) : p + 1 ≤ numUniform p n := by
  induction p with
  | zero => rw [numUniform_zero]
  | succ p ih => have := numUniform_lt_succ n hn p; omega

theorem partitionLoop_spec (k n : ℕ) (hn : 2 ≤ n) : ∀ (fuel p : ℕ), 1 ≤ p → k + 1 ≤ fuel + p →
    (p = 1 ∨ numUniform (p - 1) n ≤ k) → 0 < fuel →
    ∃ q, nPartitionLoop k n fuel p = some q ∧ (q = 0 ∨ numUniform q n ≤ k) ∧ k < numUniform (q + 1) n := by
  intro fuel
  induction fuel with
  | zero => intro p _ _ _ h; omega
  | succ fuel ih =>
    intro p hp hf hprev _
    unfold nPartitionLoop
    split_ifs with h
    · by_cases hf0 : fuel = 0
      · have := numUniform_ge n hn p
        omega
      · exact ih (p + 1) (by omega) (by omega) (Or.inr (by simpa using h)) (by omega)
    · refine ⟨p - 1, rfl, ?_, by rw [Nat.sub_add_cancel hp]; omega⟩
      rcases hprev with rfl | hprev
      · exact Or.inl rfl
      · exact Or.inr hprev

/-- C30. For at least two objectives and at least one point, `get_partition_closest_to_points` returns the largest number
of partitions whose points do not exceed the request. -/
theorem C30_closest (fuel k n : ℕ) (hn : 2 ≤ n) (hk : 1 ≤ k) (hf : k < fuel) :
    ∃ p, partitionClosest fuel k n = some p ∧ numUniform p n ≤ k ∧ ∀ q, numUniform q n ≤ k → q ≤ p := by
  obtain ⟨p, h1, h2, h3⟩ := partitionLoop_spec k n hn fuel 1 le_rfl (by omega) (Or.inl rfl) (by omega)
  refine ⟨p, by rw [partitionClosest, if_neg (by omega)]; exact h1, ?_, ?_⟩
  · rcases h2 with rfl | h2
    · rw [numUniform_zero]; exact hk
    · exact h2
  · intro q hq
    by_contra hlt
    have : numUniform (p + 1) n ≤ numUniform q n := (numUniform_strictMono n hn).monotone (by omega)
    omega

example : partitionClosest 101 100 3 = some 12 ∧ numUniform 12 3 = 91 ∧ numUniform 13 3 = 105 := by decide

/-- C30. With one objective the answer is zero; with a request of zero points as well, although one point results. -/
theorem C30_degenerate (fuel k n : ℕ) (hn : 2 ≤ n) (hf : 0 < fuel) :
    partitionClosest fuel k 1 = some 0 ∧ partitionClosest fuel 0 n = some 0 ∧ numUniform 0 n = 1 := by
  refine ⟨by simp [partitionClosest], ?_, numUniform_zero n⟩
  rw [partitionClosest, if_neg (by omega)]
  obtain ⟨f, rfl⟩ : ∃ f, fuel = f + 1 := ⟨fuel - 1, by omega⟩
  have := numUniform_ge n hn 1
  rw [nPartitionLoop, if_neg (by omega)]

example : partitionClosest 1 0 3 = some 0 := by decide

/-- C30. The uniform factory accepts a number of points exactly when some number of partitions gives it, and then creates
exactly that many points. -/
theorem C30_factory (fuel k n : ℕ) (hn : 2 ≤ n) (hk : 1 ≤ k) (hf : k < fuel) :
    ((∃ p, uniformPartitions fuel n (some k) none = some p) ↔ ∃ p, numUniform p n = k) ∧
    ∀ p, uniformPartitions fuel n (some k) none = some p → (uniformDo p n none true).length = k := by
  obtain ⟨p, h1, h2, h3⟩ := C30_closest fuel k n hn hk hf
  have hu : uniformPartitions fuel n (some k) none = if numUniform p n ≠ k then none else some p := by
    simp only [uniformPartitions, h1]
  constructor
  · constructor
    · rintro ⟨q, hq⟩
      rw [hu] at hq
      split_ifs at hq with h
      exact ⟨p, not_not.1 h⟩
    · rintro ⟨q, hq⟩
      have hqp := h3 q hq.le
      have : numUniform q n ≤ numUniform p n := (numUniform_strictMono n hn).monotone hqp
      exact ⟨p, by rw [hu, if_neg]; omega⟩
  · intro q hq
    rw [hu] at hq
    split_ifs at hq with h
    obtain rfl := Option.some.inj hq
    have hpk : numUniform p n = k := not_not.1 h
    rcases Nat.eq_zero_or_pos p with rfl | hp
    · rw [numUniform_zero] at hpk
      have : ¬ n = 1 := by omega
      simp [uniformDo, this, dasDennis, ← hpk]
    · rw [(C29_factory p n hp (by omega) none (by simp) true).1, hpk]

example : uniformPartitions 20 3 (some 15) none = some 4 ∧ uniformPartitions 20 3 (some 16) none = none := by decide

end Props
