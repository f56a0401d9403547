import Verif.Lemmas.Problem
import Mathlib.Tactic.NormNum

/-!
# C55: evaluation of a problem
-/

set_option linter.unusedSimpArgs false
set_option linter.unusedVariables false

namespace Props

open Model Lemmas

variable {E V : Type*}

/-- Specification: NaN is replaced if the problem asks for it. -/
def clean (p : ProbCfg V) (isNan : V → Bool) (x : V) : V :=
  match p.replaceNan with
  | none => x
  | some r => if isNan x then r else x

theorem clean_none (p : ProbCfg V) (isNan : V → Bool) (h : p.replaceNan = none) : clean p isNan = id := by
  funext x; simp [clean, h]

theorem clean_some (p : ProbCfg V) (isNan : V → Bool) (r : V) (h : p.replaceNan = some r) :
    clean p isNan = fun x => if isNan x then r else x := by
  funext x; simp [clean, h]

theorem finish_batch (p : ProbCfg V) (isNan : V → Bool) (a : NArr V) :
    finishValue p isNan false (.arr a) = some ⟨a.shape, a.data.map (clean p isNan)⟩ := by
  cases h : p.replaceNan with
  | none => simp [finishValue, UVal.toArr, h, clean_none p isNan h]
  | some r => simp [finishValue, UVal.toArr, h, clean_some p isNan r h]

theorem finish_single (p : ProbCfg V) (isNan : V → Bool) (n : ℕ) (s : List ℕ) (data : List V) :
    finishValue p isNan true (.arr ⟨n :: s, data⟩) = if n = 0 then none else some ⟨s, (data.take s.prod).map (clean p isNan)⟩ := by
  by_cases hn : n = 0
  · simp [finishValue, UVal.toArr, hn]
  · cases h : p.replaceNan with
    | none => simp [finishValue, UVal.toArr, h, hn, clean_none p isNan h, NArr.row]
    | some r => simp [finishValue, UVal.toArr, h, hn, clean_some p isNan r h, NArr.row]

theorem flat_row {d : ℕ} (l : List (List V)) (h : ∀ x ∈ l, x.length = d) (i : ℕ) (hi : i < l.length) :
    (l.flatten.drop (i * d)).take d = l[i] := by
  induction l generalizing i with
  | nil => simp at hi
  | cons a l ih =>
    have ha : a.length = d := h a (List.mem_cons_self ..)
    cases i with
    | zero => simp [← ha]
    | succ i =>
      have : (i + 1) * d = a.length + i * d := by rw [ha]; ring
      rw [List.flatten_cons, this, List.drop_append]
      simp only [Nat.add_sub_cancel_left]
      rw [List.drop_eq_nil_of_le (by omega), List.nil_append]
      simpa using ih (fun x hx => h x (List.mem_cons_of_mem _ hx)) i (by simpa using hi)

theorem flat_length {d : ℕ} (l : List (List V)) (h : ∀ x ∈ l, x.length = d) : l.flatten.length = l.length * d := by
  induction l with
  | nil => simp
  | cons a l ih =>
    rw [List.flatten_cons, List.length_append, ih fun x hx => h x (List.mem_cons_of_mem _ hx), h a (List.mem_cons_self ..)]
    simp; ring

/-- The shape expected for a name starts with the number of points. -/
theorem shape_cons (p : ProbCfg V) (N : ℕ) (k : OutKey) (s : List ℕ) (h : defaultShape p N k = some s) : ∃ t, s = N :: t := by
  cases k <;> simp only [defaultShape, Option.some.injEq, reduceCtorEq] at h <;> subst h <;> exact ⟨_, rfl⟩

theorem formatValue_shape (p : ProbCfg V) (N : ℕ) (k : OutKey) (s : List ℕ) (hs : defaultShape p N k = some s) (v v' : UVal V)
    (h : formatValue p N k v = some v') : ∃ a, v' = .arr a ∧ a.shape = s ∧ a.data.length = s.prod := by
  simp only [formatValue, hs] at h
  cases v with
  | arr a =>
    simp only [Option.map_eq_some_iff] at h
    obtain ⟨b, hb, rfl⟩ := h
    simp only [NArr.reshape] at hb
    split at hb
    · rename_i hl
      simp only [Option.some.injEq] at hb
      subst hb
      exact ⟨_, rfl, rfl, hl⟩
    · simp at hb
  | list l =>
    simp only [Option.bind_eq_some_iff, Option.map_eq_some_iff] at h
    obtain ⟨c, -, b, hb, rfl⟩ := h
    simp only [NArr.reshape] at hb
    split at hb
    · rename_i hl
      simp only [Option.some.injEq] at hb
      subst hb
      exact ⟨_, rfl, rfl, hl⟩
    · simp at hb

theorem stack_some (l : List (NArr V)) (a : NArr V) (h : NArr.stack l = some a) (hne : l ≠ []) :
    a.data = (l.map NArr.data).flatten ∧ ∃ sh, a.shape = l.length :: sh ∧ ∀ b ∈ l, b.shape = sh := by
  cases l with
  | nil => exact absurd rfl hne
  | cons b rest =>
    simp only [NArr.stack] at h
    split at h
    · rename_i hall
      simp only [Option.some.injEq] at h
      subst h
      refine ⟨by simp [List.flatMap_def], b.shape, by simp, ?_⟩
      intro c hc
      rcases List.mem_cons.1 hc with rfl | hc
      · rfl
      · simpa using List.all_eq_true.1 hall c hc
    · simp at h

/-- The rows given to the evaluation: a matrix (with the right number of columns) or a list of points. -/
def IsRows (p : ProbCfg V) (X : EvalArg E) (rows : List (List E)) : Prop :=
  (X = .matrix rows ∧ ∀ x ∈ rows, x.length = p.nVar) ∨ X = .objects rows

theorem evaluate_rows (p : ProbCfg V) (inf : V) (isNan : V → Bool) (u : UserEval (List E) V) (X : EvalArg E) (rows : List (List E))
    (ret : Option (List OutKey)) (hX : IsRows p X rows) :
    probEvaluate p inf isNan u X ret = (probDo p inf u rows (ret.getD (defaultReturn p))).bind (finishDict p isNan false) := by
  rcases hX with ⟨rfl, h⟩ | rfl
  · simp only [probEvaluate]
    rw [if_pos]
    simpa using h
  · rfl

theorem do_dict (p : ProbCfg V) (inf : V) (isNan : V → Bool) (u : UserEval (List E) V) (rows : List (List E)) (ret : List OutKey)
    (single : Bool) (res : List (OutKey × NArr V)) (h : (probDo p inf u rows ret).bind (finishDict p isNan single) = some res) :
    ∃ out, (keys out).Nodup ∧ (formatDict p inf rows.length out ret).bind (finishDict p isNan single) = some res ∧
      (∀ f, u = .vectorized f → out = evalVectorized ret (f rows)) ∧
      (∀ f, u = .elementwise f → evalElementwise ret (rows.map f) = some out) := by
  cases u with
  | elementwise f =>
    simp only [probDo, runner] at h
    rw [Option.bind_assoc] at h
    obtain ⟨out, ho, h⟩ := Option.bind_eq_some_iff.1 h
    refine ⟨out, ?_, h, ?_, ?_⟩
    · obtain ⟨e1, -⟩ := stackOut_spec _ _ ho
      rw [e1]
      exact nodup_elems _ _ (nodup_emptyOut ret)
    · intro g hg; cases hg
    · intro g hg; cases hg; exact ho
  | vectorized f =>
    refine ⟨_, nodup_vectorized ret (f rows), h, ?_, ?_⟩
    · intro g hg; cases hg; rfl
    · intro g hg; cases hg

/-- **C55** (shapes). Whatever the evaluation function does, if `evaluate` returns, every requested value is there, and the
objectives, constraints and gradients have exactly the documented shape: one row per point and one column per objective or
constraint. -/
theorem C55_shape (p : ProbCfg V) (inf : V) (isNan : V → Bool) (u : UserEval (List E) V) (X : EvalArg E) (rows : List (List E))
    (ret : Option (List OutKey)) (hX : IsRows p X rows) (res : List (OutKey × NArr V)) (h : probEvaluate p inf isNan u X ret = some res) :
    (∀ k ∈ ret.getD (defaultReturn p), ∃ a, kGet res k = some a) ∧
    ∀ k s, defaultShape p rows.length k = some s → ∀ a, kGet res k = some a → a.shape = s ∧ a.data.length = s.prod := by
  rw [evaluate_rows p inf isNan u X rows ret hX] at h
  obtain ⟨out, hn, ht, -, -⟩ := do_dict p inf isNan u rows _ false res h
  constructor
  · intro k hk
    have := tail_spec p inf isNan false rows.length out _ hn res ht k
    cases ho : (kGet out k).join with
    | none =>
      simp only [ho, hk, if_true] at this
      obtain ⟨a, -, ha⟩ := this
      exact ⟨a, ha⟩
    | some v =>
      simp only [ho] at this
      obtain ⟨v', -, a, -, ha⟩ := this
      exact ⟨a, ha⟩
  · intro k s hs a ha
    have := tail_spec p inf isNan false rows.length out _ hn res ht k
    cases ho : (kGet out k).join with
    | none =>
      simp only [ho] at this
      by_cases hk : k ∈ ret.getD (defaultReturn p)
      · simp only [hk, if_true] at this
        obtain ⟨b, hb, hg⟩ := this
        rw [hg] at ha
        obtain rfl := Option.some.inj ha
        rw [finish_batch] at hb
        obtain rfl := Option.some.inj hb
        simp [missing, hs]
      · simp only [hk, if_false] at this
        rw [this] at ha
        simp at ha
    | some v =>
      simp only [ho] at this
      obtain ⟨v', hv', b, hb, hg⟩ := this
      rw [hg] at ha
      obtain rfl := Option.some.inj ha
      obtain ⟨c, rfl, hc1, hc2⟩ := formatValue_shape p _ k s hs v v' hv'
      rw [finish_batch] at hb
      obtain rfl := Option.some.inj hb
      simp [hc1, hc2]

/-- **C55** (documented shapes). The names and shapes of `C55_shape` written out, and the values returned by default: the
objectives, the inequality constraints if there are any, the equality constraints if there are any. -/
theorem C55_documented (p : ProbCfg V) (inf : V) (isNan : V → Bool) (u : UserEval (List E) V) (X : EvalArg E) (rows : List (List E))
    (hX : IsRows p X rows) (vals : List (NArr V)) (h : probEvaluateValues p inf isNan u X none = some vals) :
    ∃ F, vals.head? = some F ∧ F.shape = [rows.length, p.nObj] ∧ vals.length = 1 + (if 0 < p.nIeq then 1 else 0) + (if 0 < p.nEq then 1 else 0) ∧
      (0 < p.nIeq → ∃ G, vals[1]? = some G ∧ G.shape = [rows.length, p.nIeq]) ∧
      (0 < p.nEq → ∃ H, vals.getLast? = some H ∧ H.shape = [rows.length, p.nEq]) := by
  simp only [probEvaluateValues, Option.bind_eq_some_iff] at h
  obtain ⟨res, hres, h⟩ := h
  obtain ⟨-, hsh⟩ := C55_shape p inf isNan u X rows none hX res hres
  have hF := hsh .F _ rfl
  have hG := hsh .G _ rfl
  have hH := hsh .H _ rfl
  simp only [Option.getD_none] at h
  by_cases h1 : 0 < p.nIeq <;> by_cases h2 : 0 < p.nEq <;>
    simp [defaultReturn, h1, h2, List.mapM_cons, List.mapM_nil, Option.bind_eq_some_iff] at h
  · obtain ⟨F, eF, G, eG, H, eH, rfl⟩ := h
    exact ⟨F, rfl, (hF F eF).1, by simp [h1, h2], fun _ => ⟨G, rfl, (hG G eG).1⟩, fun _ => ⟨H, by simp, (hH H eH).1⟩⟩
  · obtain ⟨F, eF, G, eG, rfl⟩ := h
    exact ⟨F, rfl, (hF F eF).1, by simp [h1, h2], fun _ => ⟨G, rfl, (hG G eG).1⟩, fun h => absurd h h2⟩
  · obtain ⟨F, eF, H, eH, rfl⟩ := h
    exact ⟨F, rfl, (hF F eF).1, by simp [h1, h2], fun h => absurd h h1, fun _ => ⟨H, by simp, (hH H eH).1⟩⟩
  · obtain ⟨F, eF, rfl⟩ := h
    exact ⟨F, rfl, (hF F eF).1, by simp [h1, h2], fun h => absurd h h1, fun h => absurd h h2⟩

/-- **C55** (gradients). The documented shapes of the gradients. -/
theorem C55_gradient_shapes (p : ProbCfg V) (inf : V) (isNan : V → Bool) (u : UserEval (List E) V) (X : EvalArg E) (rows : List (List E))
    (ret : Option (List OutKey)) (hX : IsRows p X rows) (res : List (OutKey × NArr V)) (h : probEvaluate p inf isNan u X ret = some res) :
    (∀ a, kGet res .dF = some a → a.shape = [rows.length, p.nObj, p.nVar]) ∧
    (∀ a, kGet res .dG = some a → a.shape = [rows.length, p.nIeq, p.nVar]) ∧
    ∀ a, kGet res .dH = some a → a.shape = [rows.length, p.nEq, p.nVar] := by
  obtain ⟨-, hsh⟩ := C55_shape p inf isNan u X rows ret hX res h
  exact ⟨fun a ha => (hsh .dF _ rfl a ha).1, fun a ha => (hsh .dG _ rfl a ha).1, fun a ha => (hsh .dH _ rfl a ha).1⟩

/-- What the rows of a value are when every point set it. -/
theorem elementwise_out (f : List E → List (OutKey × NArr V)) (rows : List (List E)) (ret : List OutKey)
    (hd : ∀ x ∈ rows, ((f x).map Prod.fst).Nodup) (out : List (OutKey × Option (UVal V))) (ho : evalElementwise ret (rows.map f) = some out)
    (k : OutKey) : ∀ l, (rows.map f).filterMap (fun e => kGet e k) = l →
      if l = [] then (kGet out k).join = none else ∃ a, NArr.stack l = some a ∧ (kGet out k).join = some (.arr a) := by
  rintro l rfl
  obtain ⟨-, e2⟩ := stackOut_spec _ _ ho
  have h := e2 k
  have hkn : ∀ e ∈ rows.map f, (keys e).Nodup := by
    intro e he
    obtain ⟨x, hx, rfl⟩ := List.mem_map.1 he
    exact hd x hx
  rw [acc_elems _ _ hkn, kGet_emptyOut] at h
  have hj : ((if k ∈ ret then some none else none : Option (Option (List (NArr V)))).join) = none := by
    by_cases hk : k ∈ ret <;> simp [hk]
  rw [hj] at h
  by_cases hl : (rows.map f).filterMap (fun e => kGet e k) = []
  · rw [if_pos hl] at h ⊢
    exact h
  · rw [if_neg hl] at h ⊢
    simpa only [Option.getD_none, List.nil_append] using h

theorem filterMap_all (f : List E → List (OutKey × NArr V)) (rows : List (List E)) (k : OutKey) (v : List E → NArr V)
    (hv : ∀ x ∈ rows, kGet (f x) k = some (v x)) : (rows.map f).filterMap (fun e => kGet e k) = rows.map v := by
  rw [List.filterMap_map, ← List.filterMap_eq_map]
  apply List.filterMap_congr
  intro x hx
  simpa using hv x hx

/-- **C55** (elementwise). If the evaluation function sets a value for every point, row `i` of the result is what it set for point
`i` (with NaN replaced if asked for), for any number of points and whatever the runner does in between; for the objectives,
constraints and gradients the shape is the documented one, for other names the shape of the values. -/
theorem C55_elementwise (p : ProbCfg V) (inf : V) (isNan : V → Bool) (f : List E → List (OutKey × NArr V)) (X : EvalArg E)
    (rows : List (List E)) (ret : Option (List OutKey)) (hX : IsRows p X rows) (hd : ∀ x ∈ rows, ((f x).map Prod.fst).Nodup)
    (res : List (OutKey × NArr V)) (h : probEvaluate p inf isNan (.elementwise f) X ret = some res) (k : OutKey) (v : List E → NArr V)
    (hv : ∀ x ∈ rows, kGet (f x) k = some (v x)) (hwf : ∀ x ∈ rows, (v x).WF) (hne : rows ≠ []) :
    ∃ a, kGet res k = some a ∧ a.shape.head? = some rows.length ∧
      (∀ s, defaultShape p rows.length k = some s → a.shape = s) ∧
      (defaultShape p rows.length k = none → ∀ x ∈ rows, a.shape.tail = (v x).shape) ∧
      ∀ (i : ℕ) (hi : i < rows.length), a.row i = (v rows[i]).data.map (clean p isNan) := by
  rw [evaluate_rows p inf isNan _ X rows ret hX] at h
  obtain ⟨out, hn, ht, -, hel⟩ := do_dict p inf isNan _ rows _ false res h
  have ho := elementwise_out f rows _ hd out (hel f rfl) k _ (filterMap_all f rows k v hv)
  rw [if_neg (by simpa using hne)] at ho
  obtain ⟨b, hb, hj⟩ := ho
  have hts := tail_spec p inf isNan false rows.length out _ hn res ht k
  simp only [hj] at hts
  obtain ⟨v', hv', a, ha, hg⟩ := hts
  obtain ⟨hdata, sh, hsh, hall⟩ := stack_some _ b hb (by simpa using hne)
  rw [List.length_map] at hsh
  have hlen : ∀ y ∈ (rows.map v).map NArr.data, y.length = sh.prod := by
    intro y hy
    obtain ⟨w, hw, rfl⟩ := List.mem_map.1 hy
    have hw1 := hall w hw
    obtain ⟨x, hx, rfl⟩ := List.mem_map.1 hw
    rw [hwf x hx, hw1]
  have hN : 0 < rows.length := List.length_pos_iff.2 hne
  have hrow : ∀ (d : ℕ) (i : ℕ) (hi : i < rows.length), d = sh.prod →
      ((b.data.map (clean p isNan)).drop (i * d)).take d = (v rows[i]).data.map (clean p isNan) := by
    rintro d i hi rfl
    rw [← List.map_drop, ← List.map_take, hdata, flat_row _ hlen i (by simpa using hi)]
    simp
  refine ⟨a, hg, ?_⟩
  cases hs : defaultShape p rows.length k with
  | none =>
    simp only [formatValue, hs, Option.some.injEq] at hv'
    subst hv'
    rw [finish_batch] at ha
    obtain rfl := Option.some.inj ha
    refine ⟨by simp [hsh], by simp, ?_, ?_⟩
    · intro _ x hx
      rw [hsh, hall (v x) (List.mem_map_of_mem hx)]
      rfl
    · intro i hi
      exact hrow _ i hi (by simp [hsh])
  | some s =>
    obtain ⟨t, rfl⟩ := shape_cons p _ k s hs
    simp only [formatValue, hs, Option.map_eq_some_iff] at hv'
    obtain ⟨c, hc, rfl⟩ := hv'
    simp only [NArr.reshape] at hc
    split at hc
    · rename_i hsz
      obtain rfl := Option.some.inj hc
      rw [finish_batch] at ha
      obtain rfl := Option.some.inj ha
      refine ⟨by simp, by simp, by simp, ?_⟩
      intro i hi
      apply hrow _ i hi
      rw [hdata, flat_length _ hlen, List.length_map, List.length_map, List.prod_cons] at hsz
      simp only [List.tail_cons]
      exact (Nat.eq_of_mul_eq_mul_left hN hsz).symm
    · simp at hc

/-- **C55** (elementwise, no exception). If each point sets the same names, each with arrays of one shape that has the right
number of entries, `evaluate` returns. -/
theorem C55_elementwise_returns (p : ProbCfg V) (inf : V) (isNan : V → Bool) (f : List E → List (OutKey × NArr V)) (X : EvalArg E)
    (rows : List (List E)) (ret : Option (List OutKey)) (hX : IsRows p X rows) (hd : ∀ x ∈ rows, ((f x).map Prod.fst).Nodup)
    (hwf : ∀ x ∈ rows, ∀ k a, kGet (f x) k = some a → a.WF)
    (hsame : ∀ k, (∀ x ∈ rows, kGet (f x) k = none) ∨ ∃ sh, ∀ x ∈ rows, ∃ a, kGet (f x) k = some a ∧ a.shape = sh ∧
      ∀ s, defaultShape p rows.length k = some (rows.length :: s) → sh.prod = s.prod) :
    (probEvaluate p inf isNan (.elementwise f) X ret).isSome := by
  rw [evaluate_rows p inf isNan _ X rows ret hX]
  have hkn : ∀ e ∈ rows.map f, (keys e).Nodup := by
    intro e he
    obtain ⟨x, hx, rfl⟩ := List.mem_map.1 he
    exact hd x hx
  set ret' := ret.getD (defaultReturn p) with hret
  -- the lists of each key
  have hacc : ∀ k l, (kGet ((rows.map f).foldl appendElem (emptyOut ret')) k).join = some l →
      ∃ sh, l ≠ [] ∧ l.length = rows.length ∧ (∀ b ∈ l, b.shape = sh ∧ b.WF) ∧
        ∀ s, defaultShape p rows.length k = some (rows.length :: s) → sh.prod = s.prod := by
    intro k l hl
    rw [acc_elems _ _ hkn, kGet_emptyOut] at hl
    have hj : ((if k ∈ ret' then some none else none : Option (Option (List (NArr V)))).join) = none := by
      by_cases hk : k ∈ ret' <;> simp [hk]
    rw [hj] at hl
    split at hl
    · simp at hl
    rename_i hne
    simp only [Option.getD_none, List.nil_append, Option.some.injEq] at hl
    rcases hsame k with hall | ⟨sh, hall⟩
    · exfalso
      apply hne
      rw [List.filterMap_eq_nil_iff]
      intro e he
      obtain ⟨x, hx, rfl⟩ := List.mem_map.1 he
      exact hall x hx
    · refine ⟨sh, hl ▸ hne, ?_, ?_, ?_⟩
      · rw [← hl, List.filterMap_map]
        have : ∀ l' : List (List E), (∀ x ∈ l', x ∈ rows) → (l'.filterMap ((fun e => kGet e k) ∘ f)).length = l'.length := by
          intro l'
          induction l' with
          | nil => simp
          | cons x l' ih =>
            intro hm
            obtain ⟨a, ha, -, -⟩ := hall x (hm x (List.mem_cons_self ..))
            rw [List.filterMap_cons]
            simp only [Function.comp_apply, ha, List.length_cons]
            have := ih fun y hy => hm y (List.mem_cons_of_mem _ hy)
            simp only [Function.comp_def] at this
            rw [this]
        exact this rows fun _ h => h
      · intro b hb
        rw [← hl] at hb
        obtain ⟨e, he, hke⟩ := List.mem_filterMap.1 hb
        obtain ⟨x, hx, rfl⟩ := List.mem_map.1 he
        obtain ⟨a, ha, hsh, -⟩ := hall x hx
        rw [ha] at hke
        obtain rfl := Option.some.inj hke
        exact ⟨hsh, hwf x hx k a ha⟩
      · intro s hs
        have : rows ≠ [] := by
          rintro rfl
          simp at hne
        obtain ⟨x, hx⟩ := List.exists_mem_of_ne_nil rows this
        obtain ⟨a, -, -, h3⟩ := hall x hx
        exact h3 s hs
  have hstk : ∀ (l : List (NArr V)) sh, l ≠ [] → (∀ b ∈ l, b.shape = sh ∧ b.WF) →
      ∃ a, NArr.stack l = some a ∧ a.shape = l.length :: sh ∧ a.data.length = l.length * sh.prod := by
    intro l sh hne hall
    cases l with
    | nil => exact absurd rfl hne
    | cons b rest =>
      have h1 : rest.all (fun c => c.shape == b.shape) = true := by
        rw [List.all_eq_true]
        intro c hc
        rw [(hall c (List.mem_cons_of_mem _ hc)).1, (hall b (List.mem_cons_self ..)).1]
        simp
      refine ⟨⟨(b :: rest).length :: b.shape, (b :: rest).flatMap NArr.data⟩, by simp [NArr.stack, h1], ?_, ?_⟩
      · rw [(hall b (List.mem_cons_self ..)).1]
      · simp only [List.flatMap_def]
        rw [flat_length (d := sh.prod)]
        · simp
        · intro y hy
          obtain ⟨c, hc, rfl⟩ := List.mem_map.1 hy
          rw [(hall c hc).2, (hall c hc).1]
  have hsome : (evalElementwise ret' (rows.map f)).isSome := by
    apply stackOut_some _ (nodup_elems _ _ (nodup_emptyOut ret'))
    intro k l hl
    obtain ⟨sh, hne, -, hall, -⟩ := hacc k l hl
    obtain ⟨a, ha, -⟩ := hstk l sh hne hall
    simp [ha]
  obtain ⟨out, ho⟩ := Option.isSome_iff_exists.1 hsome
  simp only [probDo, runner]
  rw [Option.bind_assoc, ho, Option.bind_some]
  obtain ⟨e1, e2⟩ := stackOut_spec _ _ ho
  apply tail_some
  · rw [e1]; exact nodup_elems _ _ (nodup_emptyOut ret')
  · intro k v hv
    have hk := e2 k
    cases hl : (kGet ((rows.map f).foldl appendElem (emptyOut ret')) k).join with
    | none => simp only [hl] at hk; rw [hk] at hv; simp at hv
    | some l =>
      simp only [hl] at hk
      obtain ⟨a, ha, hj⟩ := hk
      rw [hj] at hv
      obtain rfl := Option.some.inj hv
      obtain ⟨sh, hne, hlen, hall, hprod⟩ := hacc k l hl
      obtain ⟨a', ha', hsh, hdl⟩ := hstk l sh hne hall
      rw [ha] at ha'
      obtain rfl := Option.some.inj ha'
      cases hs : defaultShape p rows.length k with
      | none => exact ⟨.arr a, by simp [formatValue, hs], by rw [finish_batch]; rfl⟩
      | some s =>
        obtain ⟨t, rfl⟩ := shape_cons p _ k s hs
        have : a.data.length = (rows.length :: t).prod := by
          rw [hdl, hlen, hprod t hs, List.prod_cons]
        exact ⟨.arr ⟨rows.length :: t, a.data⟩, by simp only [formatValue, hs, NArr.reshape, if_pos this, Option.map_some],
          by rw [finish_batch]; rfl⟩
  · intro k hk _
    rw [finish_batch]; rfl

/-- **C55** (batches). Evaluating points together or in two parts gives the same rows: `evaluate(xs ++ ys)` is `evaluate(xs)`
followed by `evaluate(ys)`. -/
theorem C55_batch (p : ProbCfg V) (inf : V) (isNan : V → Bool) (f : List E → List (OutKey × NArr V)) (xs ys : List (List E))
    (ret : Option (List OutKey)) (hd : ∀ x, ((f x).map Prod.fst).Nodup) (rx ry rxy : List (OutKey × NArr V))
    (hx : probEvaluate p inf isNan (.elementwise f) (.objects xs) ret = some rx)
    (hy : probEvaluate p inf isNan (.elementwise f) (.objects ys) ret = some ry)
    (hxy : probEvaluate p inf isNan (.elementwise f) (.objects (xs ++ ys)) ret = some rxy) (k : OutKey) (v : List E → NArr V)
    (hv : ∀ x, kGet (f x) k = some (v x)) (hwf : ∀ x, (v x).WF) (hnx : xs ≠ []) (hny : ys ≠ []) :
    ∃ a b c, kGet rx k = some a ∧ kGet ry k = some b ∧ kGet rxy k = some c ∧
      (∀ i, i < xs.length → c.row i = a.row i) ∧ ∀ i, i < ys.length → c.row (xs.length + i) = b.row i := by
  obtain ⟨a, ha, -, -, -, h1⟩ := C55_elementwise p inf isNan f _ xs ret (Or.inr rfl) (fun x _ => hd x) rx hx k v (fun x _ => hv x)
    (fun x _ => hwf x) hnx
  obtain ⟨b, hb, -, -, -, h2⟩ := C55_elementwise p inf isNan f _ ys ret (Or.inr rfl) (fun x _ => hd x) ry hy k v (fun x _ => hv x)
    (fun x _ => hwf x) hny
  obtain ⟨c, hc, -, -, -, h3⟩ := C55_elementwise p inf isNan f _ (xs ++ ys) ret (Or.inr rfl) (fun x _ => hd x) rxy hxy k v
    (fun x _ => hv x) (fun x _ => hwf x) (by simp [hnx])
  refine ⟨a, b, c, ha, hb, hc, ?_, ?_⟩
  · intro i hi
    rw [h1 i hi, h3 i (by simp; omega)]
    rw [List.getElem_append_left hi]
  · intro i hi
    rw [h2 i hi, h3 (xs.length + i) (by simp; omega)]
    rw [List.getElem_append_right (by omega)]
    simp

/-- **C55** (single point). `evaluate(x)` of one vector is the first row of `evaluate([x])`. -/
theorem C55_single (p : ProbCfg V) (inf : V) (isNan : V → Bool) (f : List E → List (OutKey × NArr V)) (x : List E)
    (ret : Option (List OutKey)) (hd : ((f x).map Prod.fst).Nodup) (res : List (OutKey × NArr V))
    (h : probEvaluate p inf isNan (.elementwise f) (.vector x) ret = some res) (k : OutKey) (v : NArr V)
    (hv : kGet (f x) k = some v) (hwf : v.WF) :
    x.length = p.nVar ∧ ∃ a, kGet res k = some a ∧ a.data = v.data.map (clean p isNan) ∧
      (∀ s, defaultShape p 1 k = some (1 :: s) → a.shape = s) ∧ (defaultShape p 1 k = none → a.shape = v.shape) := by
  simp only [probEvaluate] at h
  split at h
  swap
  · simp at h
  rename_i hlen
  refine ⟨by simpa using hlen, ?_⟩
  obtain ⟨out, hn, ht, -, hel⟩ := do_dict p inf isNan _ [x] _ true res h
  have ho := elementwise_out f [x] _ (by simpa using hd) out (hel f rfl) k [v] (by simp [hv])
  rw [if_neg (by simp)] at ho
  obtain ⟨b, hb, hj⟩ := ho
  have hts := tail_spec p inf isNan true [x].length out _ hn res ht k
  simp only [hj] at hts
  obtain ⟨v', hv', a, ha, hg⟩ := hts
  refine ⟨a, hg, ?_⟩
  simp only [NArr.stack, List.all_nil, if_true, List.length_singleton, List.flatMap_cons, List.flatMap_nil, List.append_nil,
    Option.some.injEq] at hb
  subst hb
  cases hs : defaultShape p 1 k with
  | none =>
    simp only [List.length_singleton, formatValue, hs, Option.some.injEq] at hv'
    subst hv'
    rw [finish_single, if_neg (by omega)] at ha
    obtain rfl := Option.some.inj ha
    refine ⟨?_, by simp, by simp⟩
    simp only
    rw [List.take_of_length_le (by rw [hwf])]
  | some s =>
    obtain ⟨t, rfl⟩ := shape_cons p _ k s hs
    simp only [List.length_singleton, formatValue, hs, Option.map_eq_some_iff] at hv'
    obtain ⟨c, hc, rfl⟩ := hv'
    simp only [NArr.reshape] at hc
    split at hc
    swap
    · simp at hc
    rename_i hsz
    obtain rfl := Option.some.inj hc
    rw [finish_single, if_neg (by omega)] at ha
    obtain rfl := Option.some.inj ha
    refine ⟨?_, by simp, by simp⟩
    simp only
    rw [List.take_of_length_le]
    simp only [List.prod_cons, one_mul] at hsz
    omega

/-- **C55** (vectorised). If the evaluation function sets a value to an array of the documented shape, or to a list of columns,
the result has these entries: row `i` of the array, or entry `i` of each column. -/
theorem C55_vectorized (p : ProbCfg V) (inf : V) (isNan : V → Bool) (f : List (List E) → List (OutKey × UVal V)) (X : EvalArg E)
    (rows : List (List E)) (ret : Option (List OutKey)) (hX : IsRows p X rows) (hd : ((f rows).map Prod.fst).Nodup)
    (res : List (OutKey × NArr V)) (h : probEvaluate p inf isNan (.vectorized f) X ret = some res) (k : OutKey) (s : List ℕ)
    (hs : defaultShape p rows.length k = some s) :
    (∀ a, kGet (f rows) k = some (.arr a) → a.shape = s → kGet res k = some ⟨s, a.data.map (clean p isNan)⟩) ∧
    (∀ cols, kGet (f rows) k = some (.list cols) → (∀ c ∈ cols, c.shape = [rows.length] ∧ c.WF) →
      ∃ a, kGet res k = some a ∧ a.shape = s ∧ ∀ i, i < rows.length → s.tail.prod = cols.length ∧ a.row i = (cols.flatMap fun c => c.data[i]?.toList).map (clean p isNan)) ∧
    (kGet (f rows) k = none → k ∈ ret.getD (defaultReturn p) →
      kGet res k = some ⟨s, (List.replicate s.prod inf).map (clean p isNan)⟩) := by
  rw [evaluate_rows p inf isNan _ X rows ret hX] at h
  obtain ⟨out, hn, ht, hvec, -⟩ := do_dict p inf isNan _ rows _ false res h
  have hget : (kGet out k).join = kGet (f rows) k := by
    rw [hvec f rfl]
    exact kGet_vectorized _ _ hd k
  have hts := tail_spec p inf isNan false rows.length out _ hn res ht k
  rw [hget] at hts
  refine ⟨?_, ?_, ?_⟩
  · intro a ha hsh
    simp only [ha] at hts
    obtain ⟨v', hv', b, hb, hg⟩ := hts
    obtain ⟨c, rfl, hc1, hc2⟩ := formatValue_shape p _ k s hs _ _ hv'
    simp only [formatValue, hs, NArr.reshape] at hv'
    split at hv'
    swap
    · simp at hv'
    simp only [Option.map_some, Option.some.injEq, UVal.arr.injEq] at hv'
    subst hv'
    rw [finish_batch] at hb
    obtain rfl := Option.some.inj hb
    exact hg
  · intro cols hcols hshape
    simp only [hcols] at hts
    obtain ⟨v', hv', b, hb, hg⟩ := hts
    simp only [formatValue, hs, Option.bind_eq_some_iff, Option.map_eq_some_iff] at hv'
    obtain ⟨c, hc, a, ha, rfl⟩ := hv'
    have hcol : cols.map NArr.asColumn = cols.map fun c => (⟨[rows.length, 1], c.data⟩ : NArr V) := by
      apply List.map_congr_left
      intro c hc
      simp [NArr.asColumn, (hshape c hc).1]
    simp only [NArr.columnStack, hcol] at hc
    cases cols with
    | nil => simp at hc
    | cons c0 cs =>
      simp only [List.map_cons] at hc
      split at hc
      swap
      · simp at hc
      simp only [Option.some.injEq] at hc
      simp only [NArr.reshape] at ha
      split at ha
      swap
      · simp at ha
      rename_i hsz
      obtain rfl := Option.some.inj ha
      rw [finish_batch] at hb
      obtain rfl := Option.some.inj hb
      have hdat : c.data = ((List.range rows.length).map fun i => (c0 :: cs).flatMap fun c => c.data[i]?.toList).flatten := by
        rw [← hc]
        simp only [List.headD_cons, List.flatMap_def]
        congr 1
        apply List.map_congr_left
        intro i hi
        rw [List.mem_range] at hi
        congr 1
        change List.map (fun b : NArr V => b.row i) (List.map (fun c : NArr V => (⟨[rows.length, 1], c.data⟩ : NArr V)) (c0 :: cs)) = _
        rw [List.map_map]
        apply List.map_congr_left
        intro d hd'
        have hl : d.data.length = rows.length := by
          have := (hshape d hd').2
          rw [NArr.WF, (hshape d hd').1] at this
          simpa using this
        simp only [NArr.row, List.tail_cons, List.prod_cons, List.prod_nil, mul_one, Function.comp_apply]
        rw [List.getElem?_eq_getElem (by omega)]
        simp only [Option.toList_some]
        rw [List.take_one, List.head?_drop, List.getElem?_eq_getElem (by omega)]
        rfl
      have hlen : ∀ y ∈ ((List.range rows.length).map fun i => (c0 :: cs).flatMap fun c => c.data[i]?.toList), y.length = (c0 :: cs).length := by
        intro y hy
        obtain ⟨i, hi, rfl⟩ := List.mem_map.1 hy
        rw [List.mem_range] at hi
        have : ∀ l : List (NArr V), (∀ c ∈ l, c ∈ c0 :: cs) → (l.flatMap fun c => c.data[i]?.toList).length = l.length := by
          intro l
          induction l with
          | nil => simp
          | cons d l ih =>
            intro hm
            have hd' := hm d (List.mem_cons_self ..)
            have hl : d.data.length = rows.length := by
              have := (hshape d hd').2
              rw [NArr.WF, (hshape d hd').1] at this
              simpa using this
            rw [List.flatMap_cons, List.length_append, ih fun c hc => hm c (List.mem_cons_of_mem _ hc)]
            rw [List.getElem?_eq_getElem (by omega)]
            simp; omega
        exact this _ fun _ h => h
      have hsz' : rows.length * (c0 :: cs).length = s.prod := by
        rw [← hsz, hdat, flat_length _ hlen]
        simp
      obtain ⟨t, rfl⟩ := shape_cons p _ k s hs
      simp only [List.prod_cons] at hsz'
      refine ⟨_, hg, rfl, ?_⟩
      intro i hi
      have hd : t.prod = (c0 :: cs).length := (Nat.eq_of_mul_eq_mul_left (by omega) hsz').symm
      refine ⟨hd, ?_⟩
      simp only [NArr.row, List.tail_cons, hd]
      rw [← List.map_drop, ← List.map_take, hdat, flat_row _ hlen i (by simpa using hi)]
      simp
  · intro hnone hk
    simp only [hnone, hk, if_true] at hts
    obtain ⟨a, ha, hg⟩ := hts
    rw [finish_batch] at ha
    obtain rfl := Option.some.inj ha
    simpa [missing, hs] using hg

/-- **C55** (wrong sizes). An array with the wrong number of entries is never accepted. -/
theorem C55_mismatch (p : ProbCfg V) (inf : V) (isNan : V → Bool) (f : List (List E) → List (OutKey × UVal V)) (X : EvalArg E)
    (rows : List (List E)) (ret : Option (List OutKey)) (hX : IsRows p X rows) (hd : ((f rows).map Prod.fst).Nodup) (k : OutKey) (s : List ℕ)
    (hs : defaultShape p rows.length k = some s) (a : NArr V) (ha : kGet (f rows) k = some (.arr a)) (hsz : a.data.length ≠ s.prod) :
    probEvaluate p inf isNan (.vectorized f) X ret = none := by
  cases h : probEvaluate p inf isNan (.vectorized f) X ret with
  | none => rfl
  | some res =>
    exfalso
    rw [evaluate_rows p inf isNan _ X rows ret hX] at h
    obtain ⟨out, hn, ht, hvec, -⟩ := do_dict p inf isNan _ rows _ false res h
    have hget : (kGet out k).join = kGet (f rows) k := by
      rw [hvec f rfl]
      exact kGet_vectorized _ _ hd k
    have hts := tail_spec p inf isNan false rows.length out _ hn res ht k
    rw [hget] at hts
    simp only [ha] at hts
    obtain ⟨v', hv', -⟩ := hts
    simp [formatValue, hs, NArr.reshape, hsz] at hv'

/-- **C55** (transposed values, refuted). The check of the shape only counts entries: an array with one row per objective instead
of one row per point is accepted, and its entries are attributed to the wrong points. -/
theorem C55_transposed_accepted :
    probEvaluate (E := ℕ) (⟨1, 2, 0, 0, none⟩ : ProbCfg ℕ) 99 (fun _ => false)
      (.vectorized fun xs => [(.F, .arr ⟨[2, xs.length], xs.flatten ++ xs.flatten.map (· + 10)⟩)]) (.matrix [[1], [2], [3]]) none =
    some [(.F, ⟨[3, 2], [1, 2, 3, 11, 12, 13]⟩)] := by decide

/-- **C55** (values set for some points only, refuted). With an elementwise function that sets two values for the first two of four
points and none for the others the result is accepted: the values are spread over all four points. -/
theorem C55_partial_accepted :
    probEvaluate (E := ℕ) (⟨1, 1, 0, 0, none⟩ : ProbCfg ℕ) 99 (fun _ => false)
      (.elementwise fun x => if x.sum < 3 then [(.F, ⟨[2], [x.sum, x.sum + 10]⟩)] else []) (.matrix [[1], [2], [3], [4]]) none =
    some [(.F, ⟨[4, 1], [1, 11, 2, 12]⟩)] := by decide

/-- A concrete problem with two objectives and one constraint, evaluated point by point and in one go. -/
example :
    probEvaluate (E := ℕ) (⟨2, 2, 1, 0, none⟩ : ProbCfg ℕ) 99 (fun _ => false)
      (.elementwise fun x => [(.F, ⟨[2], [x.sum, x.length]⟩), (.G, ⟨[], [x.sum + 1]⟩)]) (.matrix [[1, 2], [3, 4]]) none =
    some [(.F, ⟨[2, 2], [3, 2, 7, 2]⟩), (.G, ⟨[2, 1], [4, 8]⟩)] ∧
    probEvaluate (E := ℕ) (⟨2, 2, 1, 1, some 5⟩ : ProbCfg ℕ) 99 (fun n => n == 7)
      (.vectorized fun xs => [(.F, .list [⟨[xs.length], xs.map List.sum⟩, ⟨[xs.length], xs.map List.length⟩])]) (.matrix [[1, 2], [3, 4]]) none =
    some [(.F, ⟨[2, 2], [3, 2, 5, 2]⟩), (.G, ⟨[2, 1], [99, 99]⟩), (.H, ⟨[2, 1], [99, 99]⟩)] ∧
    probEvaluate (E := ℕ) (⟨2, 2, 1, 0, none⟩ : ProbCfg ℕ) 99 (fun _ => false)
      (.elementwise fun x => [(.F, ⟨[2], [x.sum, x.length]⟩), (.G, ⟨[], [x.sum + 1]⟩)]) (.vector [3, 4]) none =
    some [(.F, ⟨[2], [7, 2]⟩), (.G, ⟨[1], [8]⟩)] := by decide

end Props
