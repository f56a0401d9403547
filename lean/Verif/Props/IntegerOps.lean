import Verif.Model.IntegerOps
import Verif.Props.SBX
import Verif.Props.RealMutation
import Verif.Props.Repair

/-!
# C142: integer variables
-/

set_option linter.unusedSimpArgs false
set_option linter.unusedVariables false

namespace Props
open Model

variable {n : ℕ}

/-- An array of integers within the bounds. -/
def IntIn (xl xu : Fin n → ℤ) (a : TypedX n) : Prop := a.ty = .int ∧ ∀ j, ∃ z : ℤ, a.x j = z ∧ xl j ≤ z ∧ z ≤ xu j

/-- The parameters and random numbers of `SBX` are in their ranges. -/
def SbxRanges {r : ℕ} (c : SbxCfg r) (d : SbxDraw r n) : Prop := (∀ i, 0 ≤ c.eta i) ∧ 0 ≤ c.eps ∧ ∀ i j, 0 ≤ d.rand i j ∧ d.rand i j < 1

theorem truncZ_int (z : ℤ) : truncZ (z : ℝ) = z := by
  simp only [truncZ, Int.floor_intCast, Int.ceil_intCast, ite_self]

theorem castVal_int_id (ty : NumTy) (z : ℤ) : castVal ty (z : ℝ) = z := by
  cases ty with
  | float => rfl
  | int => simp only [castVal, truncZ_int]

theorem npAround_spec (x : ℝ) : |x - (npAround x : ℤ)| ≤ 1 / 2 ∧ (∀ z : ℤ, x = z → npAround x = z) ∧ ∀ l u : ℤ, (l : ℝ) ≤ x → x ≤ u → l ≤ npAround x ∧ npAround x ≤ u := by
  have h := C46_rounding (K := ℝ) (fun (_ : Fin 1) (_ : Fin 1) => x) 0 0
  exact ⟨h.1, h.2.1, h.2.2.2⟩

theorem roundingOp_do (pop : List (TypedX n)) (hf : ∀ a ∈ pop, a.ty = .float) :
    repairDo (roundingOp n) pop = pop.map fun a => ⟨.int, fun j => ((npAround (a.x j) : ℤ) : ℝ)⟩ := by
  cases pop with
  | nil => simp [repairDo, roundingOp]
  | cons a l =>
    have hs : stackTy (a :: l) = .float := by
      have hn : ¬ (((a :: l).all fun a => decide (a.ty = .int)) = true) := by simp [hf a (by simp)]
      exact if_neg hn
    simp only [repairDo, roundingOp, Option.getD_none, hs, castVal, List.map_map]
    rfl

/-- Rounding a float array within integer bounds gives integers within the bounds. -/
theorem round_intIn (xl xu : Fin n → ℤ) (x : Fin n → ℝ) (h : ∀ j, (xl j : ℝ) ≤ x j ∧ x j ≤ xu j) : IntIn xl xu ⟨.int, fun j => ((npAround (x j) : ℤ) : ℝ)⟩ :=
  ⟨rfl, fun j => ⟨npAround (x j), rfl, (npAround_spec (x j)).2.2 _ _ (h j).1 (h j).2⟩⟩

theorem typedCrossover_float {r nOff : ℕ} (body : (Fin 2 → Fin r → Fin n → ℝ) → Fin nOff → Fin r → Fin n → ℝ) (cross : Fin r → Bool) (sel : Fin r → Fin nOff → Fin 2)
    (P : Fin 2 → Fin r → TypedX n) :
    typedCrossover (some .float) body cross sel P =
      (List.finRange nOff).flatMap fun o => (List.finRange r).map fun k =>
        ⟨.float, fun j => if cross k then body (fun p k j => (P p k).x j) o k j else (P (sel k o) k).x j⟩ := by
  simp only [typedCrossover, Option.getD_some, castVal]

/-- What `SBX` with `vtype=float` and `RoundingRepair` returns. -/
theorem sbxCall_eq {r : ℕ} (xl xu : Fin n → ℝ) (c : SbxCfg r) (d : SbxDraw r n) (P : Fin 2 → Fin r → TypedX n) :
    sbxCall (some .float) (some (roundingOp n)) xl xu c d P =
      (List.finRange 2).flatMap fun o => (List.finRange r).map fun k =>
        ⟨.int, fun j => ((npAround (if d.cross k then sbxBody xl xu c d (fun p k j => (P p k).x j) o k j else (P (d.sel k o) k).x j) : ℤ) : ℝ)⟩ := by
  simp only [sbxCall, operatorCall]
  rw [roundingOp_do]
  · simp only [typedCrossover_float, List.map_flatMap, List.map_map, castX, castVal, Function.comp_def]
  · intro a ha
    obtain ⟨b, -, rfl⟩ := List.mem_map.1 ha
    rfl

/-- **C142** (crossover). `SBX(vtype=float, repair=RoundingRepair())`, the default for integer variables, applied to parents that are integer arrays within integer bounds: two
offspring per mating, all integer arrays within the bounds; offspring `o` of mating `k` has in every variable the integer nearest to the value of the real crossover, and is
one of the parents if the mating is not crossed. -/
theorem C142_crossover {r : ℕ} (xl xu : Fin n → ℤ) (c : SbxCfg r) (d : SbxDraw r n) (P : Fin 2 → Fin r → TypedX n) (hr : SbxRanges c d) (hP : ∀ p k, IntIn xl xu (P p k)) :
    let l := sbxCall (some .float) (some (roundingOp n)) (fun j => xl j) (fun j => xu j) c d P
    l.length = 2 * r ∧ (∀ a ∈ l, IntIn xl xu a) ∧
    ∀ (o : Fin 2) (k : Fin r), ∃ a ∈ l,
      (d.cross k = true → ∀ j, |sbxBody (fun j => xl j) (fun j => xu j) c d (fun p k j => (P p k).x j) o k j - a.x j| ≤ 1 / 2) ∧
      (d.cross k = false → a = P (d.sel k o) k) := by
  intro l
  have hl : l = _ := sbxCall_eq _ _ c d P
  have hb : ∀ p k j, (xl j : ℝ) ≤ (P p k).x j ∧ (P p k).x j ≤ xu j := by
    intro p k j
    obtain ⟨z, hz, h1, h2⟩ := (hP p k).2 j
    rw [hz]
    exact ⟨by exact_mod_cast h1, by exact_mod_cast h2⟩
  have hin : ∀ o k j, (xl j : ℝ) ≤ sbxBody (fun j => (xl j : ℝ)) (fun j => (xu j : ℝ)) c d (fun p k j => (P p k).x j) o k j ∧
      sbxBody (fun j => (xl j : ℝ)) (fun j => (xu j : ℝ)) c d (fun p k j => (P p k).x j) o k j ≤ xu j := by
    intro o k j
    have hok : SbxOk (fun p k j => (P p k).x j) (fun j => (xl j : ℝ)) (fun j => (xu j : ℝ)) c.eta c.eps d.rand := by
      constructor
      · exact hb
      · exact hr.1
      · exact hr.2.1
      · exact hr.2.2
    have := C48_in_bounds _ _ _ c.eta c.probVar (fun i => if c.probExch i < d.v i then 0 else c.probBin i) c.eps d.u d.rand d.w hok o k j
    exact ⟨this.1, this.2.1⟩
  refine ⟨?_, ?_, ?_⟩
  · rw [hl]
    simp [List.length_flatMap, List.finRange, two_mul]
  · intro a ha
    rw [hl] at ha
    obtain ⟨o, -, ha⟩ := List.mem_flatMap.1 ha
    obtain ⟨k, -, rfl⟩ := List.mem_map.1 ha
    apply round_intIn
    intro j
    split
    · exact hin o k j
    · exact hb _ _ j
  · intro o k
    refine ⟨_, by rw [hl]; exact List.mem_flatMap.2 ⟨o, List.mem_finRange _, List.mem_map.2 ⟨k, List.mem_finRange _, rfl⟩⟩, ?_, ?_⟩
    · intro hc j
      simp only [hc, if_true]
      exact (npAround_spec _).1
    · intro hc
      simp only [hc, Bool.false_eq_true, if_false]
      obtain ⟨ht, hz⟩ := hP (d.sel k o) k
      rcases hPk : P (d.sel k o) k with ⟨ty, x⟩
      rw [hPk] at ht hz
      simp only at ht hz
      subst ht
      congr 1
      funext j
      obtain ⟨z, hz, -⟩ := hz j
      show ((npAround (x j) : ℤ) : ℝ) = x j
      rw [hz, (npAround_spec (z : ℝ)).2.1 z rfl]

theorem typedMutation_length (pop : List (TypedX n)) (body) (accept) : (typedMutation pop body accept).length = pop.length := by
  simp [typedMutation]

/-- **C142** (mutation). `PM(vtype=float, repair=RoundingRepair())` applied to integer arrays within integer bounds: as many individuals in the same order, all integer arrays
within the bounds; individuals that are not accepted keep their values, the others have the integers nearest to the values of the real mutation. -/
theorem C142_mutation (xl xu : Fin n → ℤ) (eta : ℕ → ℝ) (mask : ℕ → Fin n → Bool) (rand : ℕ → Fin n → ℝ) (accept : ℕ → Bool) (pop : List (TypedX n))
    (he : ∀ i, 0 ≤ eta i) (hr : ∀ i j, 0 ≤ rand i j ∧ rand i j ≤ 1) (hP : ∀ a ∈ pop, IntIn xl xu a) :
    let l := pmCall (some .float) (some (roundingOp n)) (fun j => xl j) (fun j => xu j) eta mask rand accept pop
    l.length = pop.length ∧ (∀ a ∈ l, IntIn xl xu a) ∧
    ∀ (i : ℕ) (h : i < pop.length), ∃ a, l[i]? = some a ∧
      (accept i = false → a = pop[i]) ∧
      (accept i = true → ∀ j, mask i j = false → a.x j = (pop[i]).x j) ∧
      (accept i = true → ∀ j, mask i j = true → xl j ≠ xu j → |pmValue (xl j) (xu j) (eta i) (rand i j) ((pop[i]).x j) - a.x j| ≤ 1 / 2) := by
  intro l
  have hX : ∀ (i : Fin pop.length) j, (xl j : ℝ) ≤ (pop.get i).x j ∧ (pop.get i).x j ≤ xu j := by
    intro i j
    obtain ⟨z, hz, h1, h2⟩ := (hP (pop.get i) (List.get_mem ..)).2 j
    rw [hz]
    exact ⟨by exact_mod_cast h1, by exact_mod_cast h2⟩
  let M : Fin pop.length → Fin n → ℝ :=
    mutPm (fun i => (pop.get i).x) (fun j => (xl j : ℝ)) (fun j => (xu j : ℝ)) (fun i => eta i) (fun i => mask i) (fun i => rand i)
  have hM : ∀ i j, _ := fun i j => C49_pm (fun i => (pop.get i).x) (fun j => (xl j : ℝ)) (fun j => (xu j : ℝ)) (fun i => eta i) (fun i => mask i) (fun i => rand i) hX
    (fun i => he i) (fun i j => hr i j) i j
  have hl : l = (List.finRange pop.length).map fun i => ⟨.int, fun j => ((npAround (if accept i then M i j else (pop.get i).x j) : ℤ) : ℝ)⟩ := by
    show pmCall _ _ _ _ _ _ _ _ _ = _
    simp only [pmCall, operatorCall]
    rw [roundingOp_do]
    · simp only [typedMutation, List.map_map]
      apply List.map_congr_left
      intro i _
      by_cases ha : accept i = true
      · simp [ha, castX, castVal, M]
      · simp [ha, castX, castVal, M]
    · intro a ha
      obtain ⟨b, -, rfl⟩ := List.mem_map.1 ha
      rfl
  refine ⟨by rw [hl]; simp, ?_, ?_⟩
  · intro a ha
    rw [hl] at ha
    obtain ⟨i, -, rfl⟩ := List.mem_map.1 ha
    apply round_intIn
    intro j
    split
    · exact ⟨(hM i j).1, (hM i j).2.1⟩
    · exact hX i j
  · intro i h
    have keep : ∀ j, ((npAround ((pop[i]).x j) : ℤ) : ℝ) = (pop[i]).x j := by
      intro j
      obtain ⟨z, hz, -⟩ := (hP pop[i] (List.getElem_mem h)).2 j
      rw [hz, (npAround_spec (z : ℝ)).2.1 z rfl]
    refine ⟨⟨.int, fun j => ((npAround (if accept i then M ⟨i, h⟩ j else (pop[i]).x j) : ℤ) : ℝ)⟩, ?_, ?_, ?_, ?_⟩
    · rw [hl]
      simp [List.getElem?_map, List.getElem?_eq_getElem, h]
    · intro ha
      simp only [ha, Bool.false_eq_true, if_false, keep]
      obtain ⟨ht, -⟩ := hP pop[i] (List.getElem_mem h)
      rw [← ht]
    · intro ha j hm
      simp only [ha, if_true]
      have : M ⟨i, h⟩ j = (pop[i]).x j := (hM ⟨i, h⟩ j).2.2.1 (Or.inl hm)
      rw [this, keep]
    · intro ha j hm hb
      simp only [ha, if_true]
      have : M ⟨i, h⟩ j = pmValue (xl j) (xu j) (eta i) (rand i j) ((pop[i]).x j) :=
        (hM ⟨i, h⟩ j).2.2.2.1 hm (by simpa using hb)
      rw [this]
      exact (npAround_spec _).1

/-- The populations of a genetic algorithm with `IntegerRandomSampling`, `SBX(vtype=float, repair=RoundingRepair())` and `PM(vtype=float, repair=RoundingRepair())`: any selection of
parents, any survivors. -/
inductive IntReach (xl xu : Fin n → ℤ) : List (TypedX n) → Prop
  | start {m : ℕ} (draw : Fin m → Fin n → ℤ → ℤ → ℤ) (hd : ∀ i j lo hi, lo < hi → lo ≤ draw i j lo hi ∧ draw i j lo hi < hi) : IntReach xl xu (integerSample xl xu draw)
  | step {pop next : List (TypedX n)} {r : ℕ} (h : IntReach xl xu pop) (c : SbxCfg r) (d : SbxDraw r n) (hr : SbxRanges c d) (P : Fin 2 → Fin r → TypedX n) (hP : ∀ p k, P p k ∈ pop)
      (eta : ℕ → ℝ) (mask : ℕ → Fin n → Bool) (rand : ℕ → Fin n → ℝ) (accept : ℕ → Bool) (he : ∀ i, 0 ≤ eta i) (hrand : ∀ i j, 0 ≤ rand i j ∧ rand i j ≤ 1)
      (hn : ∀ a ∈ next, a ∈ pop ∨ a ∈ pmCall (some .float) (some (roundingOp n)) (fun j => (xl j : ℝ)) (fun j => (xu j : ℝ)) eta mask rand accept
        (sbxCall (some .float) (some (roundingOp n)) (fun j => (xl j : ℝ)) (fun j => (xu j : ℝ)) c d P)) : IntReach xl xu next

/-- **C142** (run). In every generation of such a run, for all random numbers, parents and survivors, every individual is an array of integers within the bounds. -/
theorem C142_run (xl xu : Fin n → ℤ) (hb : ∀ j, xl j ≤ xu j) (pop : List (TypedX n)) (h : IntReach xl xu pop) : ∀ a ∈ pop, IntIn xl xu a := by
  induction h with
  | start draw hd =>
    intro a ha
    obtain ⟨i, -, rfl⟩ := List.mem_map.1 ha
    refine ⟨rfl, fun j => ⟨_, rfl, ?_⟩⟩
    have := hd i j (xl j) (xu j + 1) (by have := hb j; omega)
    simp only [integerSampling]
    omega
  | step _ c d hr P hP eta mask rand accept he hrand hn ih =>
    intro a ha
    rcases hn a ha with h | h
    · exact ih a h
    · exact (C142_mutation xl xu eta mask rand accept _ he hrand (C142_crossover xl xu c d P hr fun p k => ih _ (hP p k)).2.1).2.1 a h

theorem truncZ_bounds (x : ℝ) (l u : ℤ) (h1 : (l : ℝ) ≤ x) (h2 : x ≤ u) : l ≤ truncZ x ∧ truncZ x ≤ u := by
  simp only [truncZ]
  split
  · refine ⟨Int.le_floor.2 h1, ?_⟩
    have : ((⌊x⌋ : ℤ) : ℝ) ≤ u := le_trans (Int.floor_le x) h2
    exact_mod_cast this
  · refine ⟨?_, Int.ceil_le.2 h2⟩
    have : (l : ℝ) ≤ (⌈x⌉ : ℤ) := le_trans h1 (Int.le_ceil x)
    exact_mod_cast this

/-- **C142** (vtype=int). Converting with `vtype=int` instead of rounding also gives integers within the bounds, but cut off: with nonnegative bounds the upper bound is reached only
if the operator yields it exactly. -/
theorem C142_cut (xl xu : Fin n → ℤ) (a : TypedX n) (h : ∀ j, (xl j : ℝ) ≤ a.x j ∧ a.x j ≤ xu j) :
    IntIn xl xu (castX .int a) ∧ ∀ j, 0 ≤ xl j → (castX .int a).x j ≤ a.x j ∧ ((castX .int a).x j = xu j → a.x j = xu j) := by
  refine ⟨⟨rfl, fun j => ⟨truncZ (a.x j), rfl, truncZ_bounds _ _ _ (h j).1 (h j).2⟩⟩, ?_⟩
  intro j h0
  have hpos : 0 ≤ a.x j := le_trans (by exact_mod_cast h0) (h j).1
  have hle : (castX .int a).x j ≤ a.x j := by
    simp only [castX, castVal, truncZ, if_pos hpos]
    exact Int.floor_le _
  refine ⟨hle, fun he => le_antisymm (h j).2 ?_⟩
  rw [← he]; exact hle

/-- One variable, two parents, one mating. -/
noncomputable def intPair (a b : ℝ) : Fin 2 → Fin 1 → TypedX 1 := fun p _ => ⟨.int, fun _ => if p = 0 then a else b⟩

/-- Random numbers with spread 0. -/
def spread0 : SbxDraw 1 1 := ⟨fun _ => 0, fun _ _ => 0, fun _ _ => 0, fun _ _ => 0, fun _ => true, fun _ o => o⟩

noncomputable def sbxStd : SbxCfg 1 := ⟨fun _ => 15, fun _ => 1 / 2, fun _ => 1, fun _ => 1 / 2, 1 / 10 ^ 14⟩

theorem spread0_value (o : Fin 2) (k j : Fin 1) : sbxBody (fun _ => 0) (fun _ => 10) sbxStd spread0 (fun p k j => (intPair 3 4 p k).x j) o k j = 7 / 2 := by
  have hok : SbxOk (fun p k j => (intPair 3 4 p k).x j) (fun _ : Fin 1 => (0 : ℝ)) (fun _ => 10) sbxStd.eta sbxStd.eps spread0.rand := by
    constructor
    · intro p k j; fin_cases p <;> simp [intPair] <;> norm_num
    · intro i; simp [sbxStd]
    · simp [sbxStd]
    · intro i j; simp [spread0]
  have h := (C48_in_bounds _ _ _ sbxStd.eta sbxStd.probVar (fun i => if sbxStd.probExch i < spread0.v i then 0 else sbxStd.probBin i) sbxStd.eps spread0.u spread0.rand spread0.w hok o k j).2.2
  have hs := (C48_spread 0 10 15 3 4 0 0 (by norm_num) le_rfl le_rfl (by norm_num) (by norm_num) (by norm_num) (by norm_num)).2.2.1
  simp only [sbxBody]
  rw [h]
  have e : (3 + 4 : ℝ) / 2 = 7 / 2 := by norm_num
  rw [e] at hs
  simp [sbxRaw, sbxCross, sbxStd, spread0, intPair, sbxEntry, hs]
  norm_num [hs]

/-- **C142** (vtype omitted, refuted). `SBX(repair=RoundingRepair())` without `vtype=float` does not round: the offspring array has the number type of the parents, so the values are
cut off before the repair sees them. For the parents 3 and 4 with the crossover value 3.5 both offspring are 3; with `vtype=float` both are 4. -/
theorem C142_untyped_refuted :
    (sbxCall none (some (roundingOp 1)) (fun _ => 0) (fun _ => 10) sbxStd spread0 (intPair 3 4)).map (fun a => a.x 0) = [3, 3] ∧
    (sbxCall (some .float) (some (roundingOp 1)) (fun _ => 0) (fun _ => 10) sbxStd spread0 (intPair 3 4)).map (fun a => a.x 0) = [4, 4] := by
  have hf : List.finRange 2 = [0, 1] := rfl
  have hf1 : List.finRange 1 = [0] := rfl
  constructor
  · have hv : ∀ o : Fin 2, castVal .int (sbxBody (fun _ => 0) (fun _ => 10) sbxStd spread0 (fun p k j => castVal .int ((intPair 3 4 p k).x j)) o 0 0) = 3 := by
      intro o
      have e : (fun (p : Fin 2) (k j : Fin 1) => castVal .int ((intPair 3 4 p k).x j)) = fun p k j => (intPair 3 4 p k).x j := by
        funext p k j
        fin_cases p
        · simpa [intPair] using castVal_int_id .int 3
        · simpa [intPair] using castVal_int_id .int 4
      rw [e, spread0_value]
      have : ⌊(7 / 2 : ℝ)⌋ = 3 := by rw [Int.floor_eq_iff]; norm_num
      simp only [castVal, truncZ]
      rw [if_pos (by norm_num), this]
      norm_num
    have ht : stackTy [intPair 3 4 0 0, intPair 3 4 1 0] = .int := by simp [stackTy, intPair]
    have hr : ((npAround (castVal .int (3 : ℝ)) : ℤ) : ℝ) = 3 := by
      have e := castVal_int_id .int 3
      push_cast at e
      rw [e]
      have := (npAround_spec 3).2.1 3 (by norm_num)
      rw [this]; norm_num
    simp only [sbxCall, operatorCall, typedCrossover, hf, hf1, Option.getD_none, List.flatMap_cons, List.flatMap_nil, List.append_nil, List.map_cons, List.map_nil, ht,
      repairDo, roundingOp, spread0, if_true, List.cons_append, List.nil_append]
    simp only [spread0] at hv
    simp only [stackTy, List.all_cons, List.all_nil, decide_true, Bool.and_self, if_true, hv, hr]
  · rw [sbxCall_eq]
    have hr : ((npAround (7 / 2 : ℝ) : ℤ) : ℝ) = 4 := by
      have : ⌊(7 / 2 : ℝ)⌋ = 3 := by rw [Int.floor_eq_iff]; norm_num
      simp only [npAround, this]
      norm_num
      decide
    simp only [hf, hf1, List.flatMap_cons, List.flatMap_nil, List.append_nil, List.map_cons, List.map_nil, List.cons_append, List.nil_append]
    have hc : spread0.cross 0 = true := rfl
    simp only [hc, if_true, spread0_value, hr]

/-- **C142** (repair omitted, refuted). `PM()` without the repair turns integer individuals into float individuals with fractional values: for the value 1 in [0, 2] and the random
number 1/4 with `eta = 0` the result is 1/2. -/
theorem C142_unrepaired_refuted :
    let l := pmCall none none (fun _ : Fin 1 => 0) (fun _ => 2) (fun _ => 0) (fun _ _ => true) (fun _ _ => 1 / 4) (fun _ => true) [⟨.int, fun _ => 1⟩]
    l.map (fun a => (a.ty, a.x 0)) = [(.float, 1 / 2)] := by
  intro l
  have hX : ∀ (i : Fin 1) (j : Fin 1), (0 : ℝ) ≤ (fun (_ : Fin 1) (_ : Fin 1) => (1 : ℝ)) i j ∧ (fun (_ : Fin 1) (_ : Fin 1) => (1 : ℝ)) i j ≤ 2 := by
    intro i j; norm_num
  have h := (C49_pm (fun (_ : Fin 1) (_ : Fin 1) => (1 : ℝ)) (fun _ => 0) (fun _ => 2) (fun _ => 0) (fun _ _ => true) (fun _ _ => 1 / 4) hX (by simp) (by intro i j; norm_num) 0 0).2.2.2.1 rfl
    (by norm_num)
  have hv : pmValue 0 2 0 (1 / 4) 1 = 1 / 2 := by
    simp only [pmValue, pmDeltaq]
    rw [if_pos (by norm_num)]
    norm_num
  rw [hv] at h
  have hl : l.length = 1 := by simp [l, pmCall, operatorCall, typedMutation]
  have h0 : l = [⟨.float, mutPm (fun (_ : Fin 1) (_ : Fin 1) => (1 : ℝ)) (fun _ => 0) (fun _ => 2) (fun _ => 0) (fun _ _ => true) (fun _ _ => 1 / 4) 0⟩] := by
    have hf1 : List.finRange 1 = [0] := rfl
    simp only [l, pmCall, operatorCall, typedMutation, List.length_cons, List.length_nil, Nat.zero_add, hf1, List.map_cons, List.map_nil, if_true]
    congr 3
    funext i
    fin_cases i
    rfl
  rw [h0]
  simp only [List.map_cons, List.map_nil, h]

/-- **C142** (fractional bounds, refuted). With bounds that are not integers rounding leaves them: 2/5 within [2/5, 1] becomes 0. -/
theorem C142_fractional_refuted :
    (repairDo (roundingOp 1) [⟨.float, fun _ => 2 / 5⟩]).map (fun a => a.x 0) = [0] := by
  rw [roundingOp_do _ (by simp)]
  have : ⌊(2 / 5 : ℝ)⌋ = 0 := by rw [Int.floor_eq_iff]; norm_num
  simp only [List.map_cons, List.map_nil, npAround, this]
  norm_num

/-- **C142** (repairs). `NoRepair` changes no value, `TypeRepair` gives every individual the wanted type, and floats keep their value under `TypeRepair(float)`. -/
theorem C142_repairs (pop : List (TypedX n)) (hw : ∀ a ∈ pop, a.ty = .int → ∀ j, ∃ z : ℤ, a.x j = z) (ty : NumTy) :
    (repairDo (noRepairOp n) pop).map (·.x) = pop.map (·.x) ∧
    (∀ a ∈ repairDo (typeRepairOp n ty) pop, a.ty = ty) ∧ (repairDo (typeRepairOp n ty) pop).length = pop.length ∧
    (repairDo (typeRepairOp n .float) pop).map (·.x) = pop.map (·.x) := by
  refine ⟨?_, ?_, ?_, ?_⟩
  · simp only [repairDo, noRepairOp, Option.getD_none, List.map_map]
    apply List.map_congr_left
    intro a ha
    funext j
    show castVal (stackTy pop) (a.x j) = a.x j
    by_cases h : stackTy pop = .int
    · rw [h]
      have hall : (pop.all fun a => a.ty = .int) = true := by
        by_contra hc
        simp only [stackTy, if_neg hc] at h
        cases h
      have := List.all_eq_true.1 hall a ha
      obtain ⟨z, hz⟩ := hw a ha (by simpa using this) j
      rw [hz, castVal_int_id]
    · cases hs : stackTy pop with
      | int => exact absurd hs h
      | float => rfl
  · intro a ha
    simp only [repairDo, typeRepairOp] at ha
    obtain ⟨x, -, rfl⟩ := List.mem_map.1 ha
    rfl
  · simp [repairDo, typeRepairOp]
  · simp [repairDo, typeRepairOp, castVal, List.map_map, Function.comp_def]

/-- The hypotheses of `C142_run` hold for a population that has been through a generation. -/
example : ∃ pop : List (TypedX 1), pop ≠ [] ∧ IntReach (fun _ => 0) (fun _ => 10) pop := by
  refine ⟨integerSample (m := 2) (fun _ => 0) (fun _ => 10) (fun _ _ lo _ => lo), ?_, .start _ ?_⟩
  · simp [integerSample, List.finRange]
  · intro i j lo hi h; omega

example : ∃ l : List (TypedX 1), l.length = 2 ∧ IntReach (fun _ => 3) (fun _ => 4) l := by
  have h0 : IntReach (fun _ : Fin 1 => (3 : ℤ)) (fun _ => 4) (integerSample (m := 1) (fun _ => 3) (fun _ => 4) (fun _ _ lo _ => lo)) :=
    .start _ (by intro i j lo hi h; omega)
  have hmem : (⟨.int, fun _ => ((3 : ℤ) : ℝ)⟩ : TypedX 1) ∈ integerSample (m := 1) (fun _ : Fin 1 => (3 : ℤ)) (fun _ => 4) (fun _ _ lo _ => lo) := by
    simp [integerSample, List.finRange, integerSampling]
  refine ⟨_, ?_, .step h0 sbxStd spread0 ?_ (fun _ _ => ⟨.int, fun _ => ((3 : ℤ) : ℝ)⟩) (fun _ _ => hmem) (fun _ => 20) (fun _ _ => true) (fun _ _ => 1 / 4) (fun _ => true) (by intro i; norm_num)
    (by intro i j; norm_num) (fun a ha => Or.inr ha)⟩
  · have hc := C142_crossover (fun _ : Fin 1 => (3 : ℤ)) (fun _ => 4) sbxStd spread0 (fun _ _ => ⟨.int, fun _ => ((3 : ℤ) : ℝ)⟩)
      ⟨by intro i; simp [sbxStd], by simp [sbxStd], by intro i j; simp [spread0]⟩ (fun _ _ => ⟨rfl, fun _ => ⟨3, rfl, le_rfl, by norm_num⟩⟩)
    rw [(C142_mutation _ _ (fun _ => 20) (fun _ _ => true) (fun _ _ => 1 / 4) (fun _ => true) _ (by intro i; norm_num) (by intro i j; norm_num) hc.2.1).1, hc.1]
  · exact ⟨by intro i; simp [sbxStd], by simp [sbxStd], by intro i j; simp [spread0]⟩

end Props
