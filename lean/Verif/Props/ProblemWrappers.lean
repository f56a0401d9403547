import Verif.Model.ProblemWrappers
import Verif.Props.Problem
import Verif.Props.Decomposition
import Mathlib.Data.Nat.Choose.Basic
import Mathlib.Data.Nat.Choose.Factorization
import Mathlib.Tactic.FieldSimp

/-! # C94 (problem wrappers) and C95 (binomial coefficients) -/

set_option linter.unusedSimpArgs false
set_option linter.unusedVariables false
set_option linter.unusedSectionVars false

namespace Props
open Model Lemmas

/-! ## C94: static values -/

section
variable {V E : Type*}

theorem keys_static (kw : List (OutKey × NArr V)) : keys (kw.map fun e => (e.1, UVal.arr e.2)) = kw.map Prod.fst := by
  simp [keys, List.map_map, Function.comp_def]

theorem kGet_static (kw : List (OutKey × NArr V)) (k : OutKey) :
    kGet (kw.map fun e => (e.1, UVal.arr e.2)) k = (kGet kw k).map UVal.arr := by
  induction kw with
  | nil => rfl
  | cons e kw ih =>
    obtain ⟨a, v⟩ := e
    by_cases h : a = k
    · simp [kGet, h]
    · simp [kGet, h, ih]

/-- C94. A static problem made from a vectorised problem: wherever it is evaluated (any points, any runner), each value given to the
constructor with the documented shape for that number of points is returned unchanged, and so is every value with another name;
nothing raises. -/
theorem C94_static (p : ProbCfg V) (inf : V) (isNan : V → Bool) (kw : List (OutKey × NArr V)) (hd : (kw.map Prod.fst).Nodup)
    (X : EvalArg E) (rows : List (List E)) (ret : Option (List OutKey)) (hX : IsRows p X rows) (hp : p.replaceNan = none)
    (hkw : ∀ k a s, kGet kw k = some a → defaultShape p rows.length k = some s → a.shape = s ∧ a.WF) :
    ∃ res, probEvaluate p inf isNan (staticEval false kw) X ret = some res ∧ ∀ k a, kGet kw k = some a → kGet res k = some a := by
  have hc : clean p isNan = id := clean_none p isNan hp
  have hkd : (keys (kw.map fun e => (e.1, UVal.arr e.2))).Nodup := by rw [keys_static]; exact hd
  have hsome : (probEvaluate p inf isNan (staticEval false kw) X ret).isSome := by
    rw [evaluate_rows p inf isNan _ X rows ret hX]
    simp only [staticEval, probDo, Bool.false_eq_true, if_false]
    apply tail_some _ _ _ _ _ _ _ (nodup_vectorized _ _)
    · intro k v hv
      rw [kGet_vectorized _ _ hkd, kGet_static] at hv
      obtain ⟨a, ha, rfl⟩ := Option.map_eq_some_iff.1 hv
      cases hs : defaultShape p rows.length k with
      | none => exact ⟨.arr a, by simp [formatValue, hs], by rw [finish_batch]; rfl⟩
      | some s =>
        obtain ⟨h1, h2⟩ := hkw k a s ha hs
        refine ⟨.arr ⟨s, a.data⟩, ?_, by rw [finish_batch]; rfl⟩
        have : a.data.length = s.prod := by rw [← h1]; exact h2
        simp [formatValue, hs, NArr.reshape, this]
    · intro k _ _; rw [finish_batch]; rfl
  obtain ⟨res, hres⟩ := Option.isSome_iff_exists.1 hsome
  refine ⟨res, hres, ?_⟩
  intro k a ha
  rw [evaluate_rows p inf isNan _ X rows ret hX] at hres
  simp only [staticEval, probDo, Bool.false_eq_true, if_false] at hres
  have ht := tail_spec p inf isNan false rows.length _ _ (nodup_vectorized _ _) res hres k
  rw [kGet_vectorized _ _ hkd, kGet_static, ha] at ht
  simp only [Option.map_some] at ht
  obtain ⟨v', hv', b, hb, hg⟩ := ht
  rw [hg]
  cases hs : defaultShape p rows.length k with
  | none =>
    simp only [formatValue, hs, Option.some.injEq] at hv'
    subst hv'
    rw [finish_batch, hc] at hb
    rw [← Option.some.inj hb]; simp
  | some s =>
    obtain ⟨h1, h2⟩ := hkw k a s ha hs
    have : a.data.length = s.prod := by rw [← h1]; exact h2
    simp only [formatValue, hs, NArr.reshape, this, if_true, Option.map_some, Option.some.injEq] at hv'
    subst hv'
    rw [finish_batch, hc] at hb
    rw [← Option.some.inj hb, ← h1]; simp

/-- C94. The values given to a static problem belong to a fixed number of points: evaluated at another number of points it raises. -/
theorem C94_static_size (p : ProbCfg V) (inf : V) (isNan : V → Bool) (kw : List (OutKey × NArr V)) (hd : (kw.map Prod.fst).Nodup)
    (X : EvalArg E) (rows : List (List E)) (ret : Option (List OutKey)) (hX : IsRows p X rows) (a : NArr V) (n : ℕ)
    (ha : kGet kw .F = some a) (hl : a.data.length = n * p.nObj) (hm : 0 < p.nObj) (hn : rows.length ≠ n) :
    probEvaluate p inf isNan (staticEval false kw) X ret = none := by
  rcases hq : probEvaluate p inf isNan (staticEval false kw) X ret with _ | res
  · rfl
  · exfalso
    have hkd : (keys (kw.map fun e => (e.1, UVal.arr e.2))).Nodup := by rw [keys_static]; exact hd
    rw [evaluate_rows p inf isNan _ X rows ret hX] at hq
    simp only [staticEval, probDo, Bool.false_eq_true, if_false] at hq
    have ht := tail_spec p inf isNan false rows.length _ _ (nodup_vectorized _ _) res hq .F
    rw [kGet_vectorized _ _ hkd, kGet_static, ha] at ht
    simp only [Option.map_some] at ht
    obtain ⟨v', hv', -⟩ := ht
    simp only [formatValue, defaultShape, NArr.reshape] at hv'
    split_ifs at hv' with hsz
    · rw [hl] at hsz
      simp only [List.prod_cons, List.prod_nil, mul_one] at hsz
      exact hn (Nat.eq_of_mul_eq_mul_right hm hsz).symm
    · simp at hv'

/-- C94 is false for a static problem made from an elementwise problem: the objective matrix of `n ≥ 2` points is set for every
single point and the evaluation of these `n` points always raises. -/
theorem C94_static_elementwise_refuted (p : ProbCfg V) (inf : V) (isNan : V → Bool) (X : EvalArg E) (rows : List (List E))
    (ret : Option (List OutKey)) (hX : IsRows p X rows) (a : NArr V) (hl : a.data.length = rows.length * p.nObj) (hm : 0 < p.nObj)
    (hn : 2 ≤ rows.length) : probEvaluate p inf isNan (staticEval true [(.F, a)]) X ret = none := by
  rcases hq : probEvaluate p inf isNan (staticEval true [(.F, a)]) X ret with _ | res
  · rfl
  · exfalso
    rw [evaluate_rows p inf isNan _ X rows ret hX] at hq
    obtain ⟨out, hnd, ht, -, hel⟩ := do_dict p inf isNan _ rows _ false res hq
    have hne : rows ≠ [] := by rintro rfl; simp at hn
    have ho := elementwise_out (fun _ => [(.F, a)]) rows _ (by simp) out (hel _ (by simp [staticEval])) .F _
      (filterMap_all _ rows .F (fun _ => a) (by simp [kGet]))
    rw [if_neg (by simpa using hne)] at ho
    obtain ⟨b, hb, hj⟩ := ho
    have hts := tail_spec p inf isNan false rows.length out _ hnd res ht .F
    simp only [hj] at hts
    obtain ⟨v', hv', -⟩ := hts
    obtain ⟨hdata, -⟩ := stack_some _ b hb (by simpa using hne)
    have hbl : b.data.length = rows.length * (rows.length * p.nObj) := by
      rw [hdata, flat_length (d := rows.length * p.nObj)]
      · simp
      · intro x hx
        simp only [List.map_map, List.mem_map, Function.comp] at hx
        obtain ⟨y, _, rfl⟩ := hx
        exact hl
    simp only [formatValue, defaultShape, NArr.reshape] at hv'
    split_ifs at hv' with hsz
    · rw [hbl] at hsz
      simp only [List.prod_cons, List.prod_nil, mul_one] at hsz
      have h0 : 0 < rows.length * p.nObj := Nat.mul_pos (by omega) hm
      have : rows.length = 1 := Nat.eq_of_mul_eq_mul_right h0 (by rw [hsz, one_mul])
      omega
    · simp at hv'

example : ∃ res, probEvaluate (E := ℚ) ⟨1, 2, 0, 0, none⟩ (0 : ℚ) (fun _ => false) (staticEval false [(.F, ⟨[2, 2], [1, 2, 3, 4]⟩)]) (.matrix [[5], [6]]) none =
    some res ∧ kGet res .F = some ⟨[2, 2], [1, 2, 3, 4]⟩ := ⟨_, rfl, rfl⟩

/-! ## C94: functional problems -/

/-- C94. A `FunctionalProblem`: at any points, row `i` of `F`, `G` and `H` is the list of the values of the objective, inequality and
equality functions at point `i`, and nothing raises. -/
theorem C94_functional (nVar : ℕ) (inf : V) (isNan : V → Bool) (objs ieq eq : List (List E → V)) (X : EvalArg E) (rows : List (List E))
    (ret : Option (List OutKey)) (hX : IsRows (functionalCfg nVar objs ieq eq) X rows) (hne : rows ≠ []) :
    ∃ res, probEvaluate (functionalCfg nVar objs ieq eq) inf isNan (.elementwise (functionalEval objs ieq eq)) X ret = some res ∧
      ∀ k fs, (k, fs) ∈ [(OutKey.F, objs), (OutKey.G, ieq), (OutKey.H, eq)] → ∃ a, kGet res k = some a ∧ a.shape = [rows.length, fs.length] ∧
        ∀ (i : ℕ) (hi : i < rows.length), a.row i = fs.map fun f => f rows[i] := by
  set p := functionalCfg nVar objs ieq eq with hp
  have hd : ∀ x ∈ rows, ((functionalEval objs ieq eq x).map Prod.fst).Nodup := by intro x _; simp [functionalEval]
  have hc : clean p isNan = id := clean_none p isNan rfl
  have hsome : (probEvaluate p inf isNan (.elementwise (functionalEval objs ieq eq)) X ret).isSome := by
    apply C55_elementwise_returns p inf isNan _ X rows ret hX hd
    · intro x _ k a ha
      simp only [functionalEval, kGet] at ha
      split_ifs at ha <;> first | (cases ha; simp [NArr.WF]) | (simp at ha)
    · intro k
      cases k with
      | F => exact Or.inr ⟨[objs.length], fun x _ => ⟨⟨[objs.length], objs.map fun f => f x⟩, by simp [functionalEval, kGet], rfl, fun s hs => by
          simp only [defaultShape, Option.some.injEq, List.cons.injEq] at hs; rw [← hs.2]; simp [hp, functionalCfg]⟩⟩
      | G => exact Or.inr ⟨[ieq.length], fun x _ => ⟨⟨[ieq.length], ieq.map fun f => f x⟩, by simp [functionalEval, kGet], rfl, fun s hs => by
          simp only [defaultShape, Option.some.injEq, List.cons.injEq] at hs; rw [← hs.2]; simp [hp, functionalCfg]⟩⟩
      | H => exact Or.inr ⟨[eq.length], fun x _ => ⟨⟨[eq.length], eq.map fun f => f x⟩, by simp [functionalEval, kGet], rfl, fun s hs => by
          simp only [defaultShape, Option.some.injEq, List.cons.injEq] at hs; rw [← hs.2]; simp [hp, functionalCfg]⟩⟩
      | _ => exact Or.inl fun x _ => by simp [functionalEval, kGet]
  obtain ⟨res, hres⟩ := Option.isSome_iff_exists.1 hsome
  refine ⟨res, hres, ?_⟩
  have key : ∀ (k : OutKey) (fs : List (List E → V)), (∀ x, kGet (functionalEval objs ieq eq x) k = some ⟨[fs.length], fs.map fun f => f x⟩) →
      defaultShape p rows.length k = some [rows.length, fs.length] →
      ∃ a, kGet res k = some a ∧ a.shape = [rows.length, fs.length] ∧ ∀ (i : ℕ) (hi : i < rows.length), a.row i = fs.map fun f => f rows[i] := by
    intro k fs hk hs
    obtain ⟨a, h1, -, h3, -, h5⟩ := C55_elementwise p inf isNan _ X rows ret hX hd res hres k (fun x => ⟨[fs.length], fs.map fun f => f x⟩)
      (fun x _ => hk x) (fun x _ => by simp [NArr.WF]) hne
    refine ⟨a, h1, h3 _ hs, ?_⟩
    intro i hi
    rw [h5 i hi, hc]; simp
  intro k fs hk
  simp only [List.mem_cons, Prod.mk.injEq, List.not_mem_nil, or_false] at hk
  rcases hk with ⟨rfl, rfl⟩ | ⟨rfl, rfl⟩ | ⟨rfl, rfl⟩
  · exact key _ _ (fun x => by simp [functionalEval, kGet]) rfl
  · exact key _ _ (fun x => by simp [functionalEval, kGet]) rfl
  · exact key _ _ (fun x => by simp [functionalEval, kGet]) rfl

example : ∃ res, probEvaluate (functionalCfg 2 [fun x : List ℚ => x.sum, fun x => x.headD 0] [fun x => x.length] []) 0 (fun _ => false)
    (.elementwise (functionalEval [fun x : List ℚ => x.sum, fun x => x.headD 0] [fun x => x.length] [])) (.matrix [[1, 2], [3, 4]]) none = some res ∧
    kGet res .F = some ⟨[2, 2], [3, 1, 7, 3]⟩ ∧ kGet res .G = some ⟨[2, 1], [2, 2]⟩ := by
  refine ⟨_, rfl, ?_, ?_⟩ <;> decide +kernel

end

/-! ## C94: scalarised problems -/

section
variable {K : Type*} [Field K] [LinearOrder K] [IsStrictOrderedRing K]

/-- C94. `MultiToSingleObjective` with a weight vector, for at least two points and at least two objectives: the only objective of
point `i` is the scalarisation of its objective vector, and the shape is the documented `(n, 1)`. -/
theorem C94_multi_to_single_partial (s : List K → List K → K) (w : List K) (m : ℕ) (F : List (List K)) (hm : 2 ≤ m) (hn : 2 ≤ F.length) :
    multiToSingle s (some (.vec w)) m F = some ⟨[F.length, 1], F.map fun f => s f w⟩ := by
  have h1 := (C32_auto F.length m 2 F [[], []] w rfl rfl hn (by omega) hm []).1
  have h2 := (C32_vectors (s := s) (.mat m F) (.vec w) [] w).2.1 rfl
  simp only [multiToSingle, Option.bind_some, h1, h2, Option.map_some, addAxis, DecompArg.rows, List.length_map]

/-- C94 is false for a single point (and, in the same way, for a problem with one objective): the array has three axes. -/
theorem C94_multi_to_single_refuted (s : List K → List K → K) (w f : List K) (m : ℕ) :
    multiToSingle s (some (.vec w)) m [f] = some ⟨[1, 1, 1], [s f w]⟩ := by
  simp [multiToSingle, decompAuto, DecompArg.is1d, decompDo, DecompArg.rows, rowwise, repeatRows, tileRows, reshapeMat, addAxis]

/-- C94. Without the argument `kwargs` every evaluation raises. -/
theorem C94_multi_to_single_none (s : List K → List K → K) (m : ℕ) (F : List (List K)) : multiToSingle s none m F = none := rfl

/-- C94. `decompose(problem, decomposition, weights)`: the objective of each point is its scalarisation, for vectorised problems (any
number of points) and for elementwise problems. -/
theorem C94_decompose (s : List K → List K → K) (w : List K) (m : ℕ) (F : List (List K)) (f : List K) :
    decomposeF s (.vec w) (.mat m F) = some (.vec (F.map fun f => s f w)) ∧ decomposeF s (.vec w) (.vec f) = some (.vec [s f w]) :=
  ⟨(C32_vectors (s := s) (.mat m F) (.vec w) [] w).2.1 rfl, (C32_vectors (s := s) (.vec f) (.vec w) [] w).2.1 rfl⟩

end

example : multiToSingle weightedSum (some (.vec [1, 2])) 2 [[1, 2], [3, 4], [(5 : ℚ), 6]] = some ⟨[3, 1], [5, 11, 17]⟩ := by
  rw [C94_multi_to_single_partial _ _ _ _ (by omega) (by decide)]
  simp [weightedSum]
  norm_num

/-! ## C94: normalised variables -/

/-- The intended meaning of `ZeroToOne`: the point of the original box that corresponds to the point `y` of the unit cube. -/
def fromUnit (l u y : List ℚ) : List ℚ := List.zipWith (fun (b : ℚ × ℚ) t => b.1 + t * (b.2 - b.1)) (l.zip u) y

theorem zeroToOne_one (l u y : ℚ) (h : l < u) : zeroToOnePoints (some [l]) (some [u]) [[y]] = some [[(y - l) / (u - l)]] := by
  have h1 : ¬ l = u := h.ne
  simp [zeroToOnePoints, normalizeM, toBound, ztoInit, dropEqual, boundOk, ztoForward, ztoFwd, storeAs, h1, h.le]

/-- C94 is false for `ZeroToOne`: for one variable with bounds `l < u`, the wrapped problem is evaluated at the intended point for
every point of the unit interval only if the bounds are already `0` and `1` (the wrapper normalises where it should undo the
normalisation). -/
theorem C94_zero_to_one_refuted (l u : ℚ) (h : l < u) :
    (∀ y, 0 ≤ y → y ≤ 1 → zeroToOnePoints (some [l]) (some [u]) [[y]] = some [fromUnit [l] [u] [y]]) ↔ l = 0 ∧ u = 1 := by
  have hd : u - l ≠ 0 := by linarith
  constructor
  · intro hall
    have h0 := hall 0 le_rfl (by norm_num)
    have h1 := hall 1 (by norm_num) le_rfl
    rw [zeroToOne_one l u _ h] at h0 h1
    simp only [fromUnit, List.zip_cons_cons, List.zip_nil_right, List.zipWith_cons_cons, List.zipWith_nil_right, Option.some.injEq,
      List.cons.injEq, and_true] at h0 h1
    rw [div_eq_iff hd] at h0 h1
    have hl : l * (u - l + 1) = 0 := by linarith
    have hl0 : l = 0 := by
      rcases mul_eq_zero.1 hl with h | h
      · exact h
      · linarith
    subst hl0
    refine ⟨rfl, ?_⟩
    have hu : (u - 1) * (u + 1) = 0 := by linarith
    rcases mul_eq_zero.1 hu with h | h <;> linarith
  · rintro ⟨rfl, rfl⟩ y _ _
    rw [zeroToOne_one 0 1 y (by norm_num)]
    simp [fromUnit]

example : zeroToOnePoints (some [0, 2]) (some [10, 4]) [[1, 1]] = some [[1 / 10, -1 / 2]] ∧ fromUnit [0, 2] [10, 4] [1, 1] = [10, 4] := by
  decide +kernel

/-! ## C95 -/

theorem binomLoop_spec (c : ℕ) : ∀ t n ntok ktok, c ≤ n → 0 < t →
    (binomLoop c t n ntok ktok).1 = ntok * n.descFactorial c ∧
    (binomLoop c t n ntok ktok).2 * (t - 1).factorial = ktok * (t - 1 + c).factorial := by
  induction c with
  | zero => intro t n a b _ _; simp [binomLoop]
  | succ c ih =>
    intro t n a b hc ht
    obtain ⟨h1, h2⟩ := ih (t + 1) (n - 1) (a * n) (b * t) (by omega) (by omega)
    simp only [binomLoop]
    constructor
    · rw [h1, mul_assoc]
      congr 1
      obtain ⟨m, rfl⟩ : ∃ m, n = m + 1 := ⟨n - 1, by omega⟩
      rw [Nat.succ_descFactorial_succ]; simp
    · simp only [Nat.add_sub_cancel] at h2
      obtain ⟨r, rfl⟩ : ∃ r, t = r + 1 := ⟨t - 1, by omega⟩
      simp only [Nat.add_sub_cancel] at h2 ⊢
      have hr : 0 < r + 1 := by omega
      apply Nat.eq_of_mul_eq_mul_left hr
      rw [Nat.factorial_succ] at h2
      calc (r + 1) * ((binomLoop c (r + 1 + 1) (n - 1) (a * n) (b * (r + 1))).2 * r.factorial)
          = (binomLoop c (r + 1 + 1) (n - 1) (a * n) (b * (r + 1))).2 * ((r + 1) * r.factorial) := by ring
        _ = b * (r + 1) * (r + 1 + c).factorial := h2
        _ = (r + 1) * (b * (r + (c + 1)).factorial) := by rw [show r + 1 + c = r + (c + 1) by omega]; ring

/-- C95. `binomial(n, k)` is the binomial coefficient for all natural `n` and `k`, and zero if `n` or `k` is negative. -/
theorem C95_binomial (n k : ℤ) : binomialZ n k = if 0 ≤ k ∧ 0 ≤ n then ((n.toNat.choose k.toNat : ℕ) : ℤ) else 0 := by
  unfold binomialZ
  by_cases h : 0 ≤ k ∧ k ≤ n
  · rw [if_pos h, if_pos ⟨h.1, h.1.trans h.2⟩]
    obtain ⟨N, rfl⟩ := Int.eq_ofNat_of_zero_le (h.1.trans h.2)
    obtain ⟨K, rfl⟩ := Int.eq_ofNat_of_zero_le h.1
    have hK : K ≤ N := by exact_mod_cast h.2
    simp only [Int.toNat_natCast]
    set c := min K (N - K) with hc
    obtain ⟨h1, h2⟩ := binomLoop_spec c 1 N 1 1 (by omega) (by omega)
    simp only [Nat.sub_self, Nat.factorial_zero, mul_one, one_mul, Nat.zero_add] at h1 h2
    rw [h1, h2, ← Nat.choose_eq_descFactorial_div_factorial]
    norm_cast
    rcases min_choice K (N - K) with hm | hm
    · rw [hc, hm]
    · rw [hc, hm, Nat.choose_symm hK]
  · rw [if_neg h]
    split_ifs with h2
    · rw [Nat.choose_eq_zero_of_lt (by omega)]; rfl
    · rfl

example : binomialZ 10 3 = 120 ∧ binomialZ 10 7 = 120 ∧ binomialZ 3 10 = 0 ∧ binomialZ (-1) 0 = 0 := by decide

end Props
