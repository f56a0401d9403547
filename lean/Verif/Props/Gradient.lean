import Verif.Model.Gradient
import Mathlib.Analysis.Calculus.Deriv.Basic
import Mathlib.Analysis.Calculus.Deriv.Comp
import Mathlib.Analysis.Calculus.Deriv.Mul
import Mathlib.Analysis.Calculus.Deriv.Pow
import Mathlib.Analysis.Calculus.Deriv.Add
import Mathlib.Analysis.Calculus.Deriv.Slope
import Mathlib.Analysis.Complex.RealDeriv
import Mathlib.Tactic.Ring
import Mathlib.Tactic.Linarith
import Mathlib.Tactic.FieldSimp

/-!
# C126: gradients of problems
-/

set_option linter.unusedSimpArgs false
set_option linter.unusedVariables false

namespace Props
open Model Finset Filter Topology

/-! ### Complex steps -/

/-- The problem evaluates every row on its own. -/
def RowWise {n m N : ℕ} (F : (Fin N → Fin n → ℂ) → Fin N → Fin m → ℂ) (f : (Fin n → ℂ) → Fin m → ℂ) : Prop := ∀ X i, F X i = f (X i)

theorem complexRows_update {n : ℕ} (x : Fin n → ℝ) (eps : ℝ) (k : Fin n) :
    complexRows x eps k = Function.update (fun l => (x l : ℂ)) k ((x k : ℂ) + eps * Complex.I) := by
  funext l
  unfold complexRows
  by_cases h : l = k
  · subst h
    have : (⟨0, eps⟩ : ℂ) = eps * Complex.I := by apply Complex.ext <;> simp
    simp [this]
  · rw [Function.update_of_ne h, if_neg (Ne.symm h)]; simp

/-- C126: for a function that is real on real points and has a complex partial derivative, what is returned tends to the partial derivative of the real function as the
step tends to zero; row `j`, column `k` belong to the function `j` and the variable `k`. -/
theorem C126_limit {n m : ℕ} (F : (Fin n → Fin n → ℂ) → Fin n → Fin m → ℂ) (f : (Fin n → ℂ) → Fin m → ℂ) (hF : RowWise F f) (g : (Fin n → ℝ) → Fin m → ℝ)
    (hreal : ∀ (y : Fin n → ℝ) j, f (fun l => (y l : ℂ)) j = (g y j : ℂ)) (x : Fin n → ℝ) (j : Fin m) (k : Fin n) (d : ℂ)
    (hd : HasDerivAt (fun z : ℂ => f (Function.update (fun l => (x l : ℂ)) k z) j) d (x k : ℂ)) :
    HasDerivAt (fun t : ℝ => g (Function.update x k t) j) d.re (x k) ∧ Tendsto (fun eps : ℝ => complexGrad F x eps j k) (𝓝[≠] 0) (𝓝 d.re) := by
  constructor
  · have h := hd.real_of_complex
    refine h.congr_of_eventuallyEq (Eventually.of_forall fun t => ?_)
    have : Function.update (fun l => (x l : ℂ)) k (t : ℂ) = fun l => ((Function.update x k t) l : ℂ) := by
      funext l
      by_cases hl : l = k
      · subst hl; simp
      · simp [Function.update_of_ne hl]
    show _ = (f (Function.update (fun l => (x l : ℂ)) k (t : ℂ)) j).re
    rw [this, hreal]; simp
  · -- along the imaginary axis
    set φ : ℂ → ℂ := fun z => f (Function.update (fun l => (x l : ℂ)) k z) j with hφ
    have hline : HasDerivAt (fun e : ℝ => φ ((x k : ℂ) + (e : ℂ) * Complex.I)) (d * Complex.I) 0 := by
      have h1 : HasDerivAt (fun e : ℝ => (x k : ℂ) + (e : ℂ) * Complex.I) Complex.I 0 := by
        have h0 : HasDerivAt (fun e : ℝ => (e : ℂ)) 1 0 := Complex.ofRealCLM.hasDerivAt (x := 0)
        have := (h0.mul_const Complex.I).const_add (x k : ℂ)
        simpa using this
      have h2 : HasDerivAt φ d ((x k : ℂ) + ((0 : ℝ) : ℂ) * Complex.I) := by simpa using hd
      exact h2.comp (0 : ℝ) h1
    have him : HasDerivAt (fun e : ℝ => (φ ((x k : ℂ) + (e : ℂ) * Complex.I)).im) (d * Complex.I).im 0 := by
      have := (Complex.imCLM.hasFDerivAt (x := φ ((x k : ℂ) + ((0 : ℝ) : ℂ) * Complex.I))).comp_hasDerivAt (0 : ℝ) hline
      exact this
    have hz : (φ ((x k : ℂ) + ((0 : ℝ) : ℂ) * Complex.I)).im = 0 := by
      have : φ (x k : ℂ) = (g x j : ℂ) := by
        rw [hφ]; show f (Function.update (fun l => (x l : ℂ)) k (x k : ℂ)) j = _
        rw [Function.update_eq_self k (fun l => (x l : ℂ))]; exact hreal x j
      rw [Complex.ofReal_zero, zero_mul, add_zero, this, Complex.ofReal_im]
    have hs := him.tendsto_slope_zero
    have hre : (d * Complex.I).im = d.re := by simp
    rw [hre] at hs
    refine hs.congr' ?_
    filter_upwards [self_mem_nhdsWithin] with e he
    have he' : e ≠ 0 := he
    rw [zero_add, hz, sub_zero, smul_eq_mul]
    unfold complexGrad
    rw [hF, complexRows_update]
    rw [show (f (Function.update (fun l => (x l : ℂ)) k ((x k : ℂ) + e * Complex.I)) j) = φ ((x k : ℂ) + e * Complex.I) from rfl]
    rw [Complex.div_ofReal_im, div_eq_inv_mul]

/-- C126: for functions that are quadratic in a variable the result is the partial derivative whatever the step. -/
theorem C126_quadratic {n m : ℕ} (F : (Fin n → Fin n → ℂ) → Fin n → Fin m → ℂ) (f : (Fin n → ℂ) → Fin m → ℂ) (hF : RowWise F f) (x : Fin n → ℝ) (j : Fin m) (k : Fin n)
    (a b c : ℝ) (hf : ∀ z : ℂ, f (Function.update (fun l => (x l : ℂ)) k z) j = a * z ^ 2 + b * z + c) (eps : ℝ) (he : eps ≠ 0) :
    complexGrad F x eps j k = 2 * a * x k + b := by
  unfold complexGrad
  rw [hF, complexRows_update, hf, Complex.div_ofReal_im]
  have : ((a : ℂ) * ((x k : ℂ) + eps * Complex.I) ^ 2 + b * ((x k : ℂ) + eps * Complex.I) + c).im = eps * (2 * a * x k + b) := by
    simp [pow_two, Complex.add_im, Complex.mul_im]; ring
  rw [this]; field_simp

/-- C126 is not exact in general: the error for a cube is the square of the step. -/
theorem C126_cubic (x eps : ℝ) (he : eps ≠ 0) : complexGrad (n := 1) (m := 1) (fun X i _ => X i 0 ^ 3) (fun _ => x) eps 0 0 = 3 * x ^ 2 - eps ^ 2 := by
  unfold complexGrad complexRows
  rw [Complex.div_ofReal_im]
  have : ((((x : ℝ) : ℂ) + (if (0 : Fin 1) = 0 then (1 : ℂ) else 0) * (⟨0, eps⟩ : ℂ)) ^ 3).im = eps * (3 * x ^ 2 - eps ^ 2) := by
    simp [pow_succ, Complex.add_im, Complex.mul_im]; ring
  rw [this]; field_simp

/-- C126 needs complex differentiability: whatever is real for complex arguments, such as the absolute value, has the gradient zero. -/
theorem C126_absolute_refuted :
    (∀ {n m : ℕ} (F : (Fin n → Fin n → ℂ) → Fin n → Fin m → ℂ), (∀ X i j, (F X i j).im = 0) → ∀ x eps j k, complexGrad F x eps j k = 0) ∧
    (HasDerivAt (fun t : ℝ => |t|) 1 1 ∧ ∀ eps, complexGrad (n := 1) (m := 1) (fun X i _ => ((‖X i 0‖ : ℝ) : ℂ)) (fun _ => 1) eps 0 0 = 0) := by
  have h : ∀ {n m : ℕ} (F : (Fin n → Fin n → ℂ) → Fin n → Fin m → ℂ), (∀ X i j, (F X i j).im = 0) → ∀ x eps j k, complexGrad F x eps j k = 0 := by
    intro n m F hF x eps j k
    unfold complexGrad
    rw [Complex.div_ofReal_im, hF, zero_div]
  refine ⟨h, ?_, fun eps => h _ (fun X i j => Complex.ofReal_im _) _ _ _ _⟩
  refine (hasDerivAt_id (1 : ℝ)).congr_of_eventuallyEq ?_
  filter_upwards [lt_mem_nhds (zero_lt_one : (0 : ℝ) < 1)] with t ht
  exact abs_of_pos ht

/-- The hypotheses of `C126_limit` are met by a product of two variables, which is not constant and has two different partial derivatives. -/
example : ∃ (F : (Fin 2 → Fin 2 → ℂ) → Fin 2 → Fin 1 → ℂ) (f : (Fin 2 → ℂ) → Fin 1 → ℂ) (g : (Fin 2 → ℝ) → Fin 1 → ℝ), RowWise F f ∧
    (∀ (y : Fin 2 → ℝ) j, f (fun l => (y l : ℂ)) j = (g y j : ℂ)) ∧
    HasDerivAt (fun z : ℂ => f (Function.update (fun l => ((fun i => if i = 0 then 3 else 5 : Fin 2 → ℝ) l : ℂ)) 0 z) 0) 5 3 := by
  refine ⟨fun X i _ => X i 0 * X i 1, fun y _ => y 0 * y 1, fun y _ => y 0 * y 1, fun X i => rfl, fun y j => by simp, ?_⟩
  have h : (fun z : ℂ => Function.update (fun l => ((fun i => if i = 0 then 3 else 5 : Fin 2 → ℝ) l : ℂ)) (0 : Fin 2) z 0 *
      Function.update (fun l => ((fun i => if i = 0 then 3 else 5 : Fin 2 → ℝ) l : ℂ)) (0 : Fin 2) z 1) = fun z => z * 5 := by
    funext z; simp [Function.update]
  show HasDerivAt (fun z : ℂ => Function.update (fun l => ((fun i => if i = 0 then 3 else 5 : Fin 2 → ℝ) l : ℂ)) (0 : Fin 2) z 0 *
      Function.update (fun l => ((fun i => if i = 0 then 3 else 5 : Fin 2 → ℝ) l : ℂ)) (0 : Fin 2) z 1) 5 3
  rw [h]
  simpa using (hasDerivAt_id (3 : ℂ)).mul_const 5

/-! ### The dictionary -/

section Dict
variable {V : Type*}

/-- One assignment `out["d" + name][i] = value`. -/
def cngUpd (grad : List Char → ℕ → V) (i : ℕ) (name : List Char) (out : List (List Char × List V)) : List (List Char × List V) :=
  out.map fun e => if e.1 == 'd' :: name then (e.1, e.2.set i (grad name i)) else e

theorem cngUpd_keys (grad : List Char → ℕ → V) (i : ℕ) (name : List Char) (out : List (List Char × List V)) : (cngUpd grad i name out).map (·.1) = out.map (·.1) := by
  unfold cngUpd
  rw [List.map_map]
  refine List.map_congr_left fun e _ => ?_
  simp only [Function.comp]
  split_ifs <;> rfl

theorem any_key (out : List (List Char × List V)) (k : List Char) : out.any (fun e => e.1 == k) = true ↔ k ∈ out.map (·.1) := by
  rw [List.any_eq_true, List.mem_map]
  constructor
  · rintro ⟨e, he, h⟩; exact ⟨e, he, by simpa using h⟩
  · rintro ⟨e, he, h⟩; exact ⟨e, he, by simpa using h⟩

theorem names_foldlM (grad : List Char → ℕ → V) (i : ℕ) (names : List (List Char)) (out : List (List Char × List V)) :
    (names.foldlM (fun out name => if out.any (fun e => e.1 == 'd' :: name) then some (cngUpd grad i name out) else none) out) =
      if ∀ name ∈ names, 'd' :: name ∈ out.map (·.1) then some (names.foldl (fun out name => cngUpd grad i name out) out) else none := by
  induction names generalizing out with
  | nil => simp
  | cons a l ih =>
    rw [List.foldlM_cons]
    by_cases h : out.any (fun e => e.1 == 'd' :: a) = true
    · rw [if_pos h]
      show List.foldlM _ (cngUpd grad i a out) l = _
      rw [ih, cngUpd_keys]
      have := (any_key out _).1 h
      by_cases h2 : ∀ name ∈ l, 'd' :: name ∈ out.map (·.1)
      · rw [if_pos h2, if_pos (by intro n hn; rcases List.mem_cons.1 hn with rfl | hn; exacts [this, h2 n hn])]; rfl
      · rw [if_neg h2, if_neg (fun h3 => h2 fun n hn => h3 n (List.mem_cons_of_mem _ hn))]
    · rw [if_neg h, if_neg (fun h3 => h ((any_key out _).2 (h3 a (by simp))))]; rfl

theorem names_keys (grad : List Char → ℕ → V) (i : ℕ) (names : List (List Char)) (out : List (List Char × List V)) :
    (names.foldl (fun out name => cngUpd grad i name out) out).map (·.1) = out.map (·.1) := by
  induction names generalizing out with
  | nil => rfl
  | cons a l ih => rw [List.foldl_cons, ih, cngUpd_keys]

theorem rows_foldlM (grad : List Char → ℕ → V) (names : List (List Char)) (rows : List ℕ) (out : List (List Char × List V)) :
    (rows.foldlM (fun out i => names.foldlM (fun out name => if out.any (fun e => e.1 == 'd' :: name) then some (cngUpd grad i name out) else none) out) out) =
      if rows = [] ∨ ∀ name ∈ names, 'd' :: name ∈ out.map (·.1) then
        some (rows.foldl (fun out i => names.foldl (fun out name => cngUpd grad i name out) out) out) else none := by
  induction rows generalizing out with
  | nil => simp
  | cons i rows ih =>
    rw [List.foldlM_cons, names_foldlM]
    by_cases h : ∀ name ∈ names, 'd' :: name ∈ out.map (·.1)
    · rw [if_pos h, if_pos (Or.inr h)]
      show List.foldlM _ _ rows = _
      rw [ih, names_keys, if_pos (Or.inr h)]; rfl
    · rw [if_neg h, if_neg (not_or.2 ⟨List.cons_ne_nil _ _, h⟩)]; rfl

/-- What happens to one entry. -/
theorem names_entry (grad : List Char → ℕ → V) (i : ℕ) (names : List (List Char)) (out : List (List Char × List V)) :
    names.foldl (fun out name => cngUpd grad i name out) out =
      out.map fun e => (e.1, if ∃ name ∈ names, e.1 = 'd' :: name then e.2.set i (grad e.1.tail i) else e.2) := by
  induction names generalizing out with
  | nil => simp
  | cons a l ih =>
    rw [List.foldl_cons, ih]
    unfold cngUpd
    rw [List.map_map]
    refine List.map_congr_left fun e _ => ?_
    simp only [Function.comp]
    by_cases ha : e.1 = 'd' :: a
    · rw [if_pos (by simp [ha])]
      simp only
      by_cases hl : ∃ name ∈ l, e.1 = 'd' :: name
      · rw [if_pos hl, if_pos ⟨a, by simp, ha⟩, ha]
        simp
      · rw [if_neg hl, if_pos ⟨a, by simp, ha⟩, ha]; simp
    · rw [if_neg (by simpa using ha)]
      by_cases hl : ∃ name ∈ l, e.1 = 'd' :: name
      · obtain ⟨nm, h1, h2⟩ := hl
        rw [if_pos ⟨nm, h1, h2⟩, if_pos ⟨nm, List.mem_cons_of_mem _ h1, h2⟩]
      · rw [if_neg hl, if_neg]
        rintro ⟨nm, h1, h2⟩
        rcases List.mem_cons.1 h1 with rfl | h1
        · exact ha h2
        · exact hl ⟨nm, h1, h2⟩

theorem set_all (g : ℕ → V) (l : List V) (N : ℕ) (h : l.length = N) (r : ℕ) (hr : r ≤ N) :
    (List.range r).foldl (fun l i => l.set i (g i)) l = (List.range r).map g ++ l.drop r := by
  induction r with
  | zero => simp
  | succ r ih =>
    rw [List.range_succ, List.foldl_append, ih (by omega)]
    simp only [List.foldl_cons, List.foldl_nil, List.map_append, List.map_cons, List.map_nil]
    rw [List.set_append_right _ _ (by simp)]
    simp only [List.length_map, List.length_range, Nat.sub_self]
    rw [List.drop_eq_getElem_cons (by omega : r < l.length)]
    rw [List.append_assoc]; rfl

theorem rows_entry (grad : List Char → ℕ → V) (names : List (List Char)) (rows : List ℕ) (out : List (List Char × List V)) :
    rows.foldl (fun out i => names.foldl (fun out name => cngUpd grad i name out) out) out =
      out.map fun e => (e.1, if ∃ name ∈ names, e.1 = 'd' :: name then rows.foldl (fun l i => l.set i (grad e.1.tail i)) e.2 else e.2) := by
  induction rows generalizing out with
  | nil => simp
  | cons i rows ih =>
    rw [List.foldl_cons, ih, names_entry, List.map_map]
    refine List.map_congr_left fun e _ => ?_
    simp only [Function.comp]
    split_ifs <;> rfl

theorem doKeys_mem (set ret : List (List Char)) (k : List Char) : k ∈ doKeys set ret ↔ k ∈ set ∨ k ∈ ret := by
  unfold doKeys
  rw [List.mem_append, List.mem_filter]
  by_cases h : k ∈ set
  · simp [h]
  · simp [h]

/-- C126: evaluating at least one point succeeds exactly if the gradient of every value is asked for (or set by the problem), of those asked for as well as of those
the problem sets without being asked; the gradients are then what complex steps give at every point, and all other values are those of the problem. -/
theorem C126_dictionary (N : ℕ) (hN : 0 < N) (set ret : List (List Char)) (val : List Char → List V) (grad : List Char → ℕ → V) (hval : ∀ k, (val k).length = N) :
    ((cngDo N set ret val grad).isSome = true ↔ ∀ name, (name ∈ set ∨ name ∈ ret ∧ name.head? ≠ some 'd') → 'd' :: name ∈ set ∨ 'd' :: name ∈ ret) ∧
    ∀ out, cngDo N set ret val grad = some out → (∀ k, k ∈ out.map (·.1) ↔ k ∈ set ∨ k ∈ ret) ∧
      ∀ e ∈ out, (∀ name, (name ∈ set ∨ name ∈ ret ∧ name.head? ≠ some 'd') → e.1 = 'd' :: name → e.2 = (List.range N).map (grad name)) ∧
        ((∀ name, (name ∈ set ∨ name ∈ ret ∧ name.head? ≠ some 'd') → e.1 ≠ 'd' :: name) → e.2 = val e.1) := by
  have hnames : ∀ name, name ∈ doKeys set (ret.filter fun k => !startsWithD k) ↔ (name ∈ set ∨ name ∈ ret ∧ name.head? ≠ some 'd') := by
    intro name
    rw [doKeys_mem, List.mem_filter]
    simp [startsWithD]
  have hkeys : ((doKeys set ret).map fun k => (k, val k)).map (·.1) = doKeys set ret := by rw [List.map_map]; simp [Function.comp_def]
  have hdo : cngDo N set ret val grad = if List.range N = [] ∨ ∀ name ∈ doKeys set (ret.filter fun k => !startsWithD k), 'd' :: name ∈ doKeys set ret then
      some ((doKeys set ret).map fun k => (k, if ∃ name ∈ doKeys set (ret.filter fun k => !startsWithD k), k = 'd' :: name then (List.range N).map (grad k.tail) else val k)) else none := by
    have h1 := rows_foldlM grad (doKeys set (ret.filter fun k => !startsWithD k)) (List.range N) ((doKeys set ret).map fun k => (k, val k))
    rw [hkeys, rows_entry, List.map_map] at h1
    unfold cngDo
    refine h1.trans ?_
    congr 2
    refine List.map_congr_left fun k _ => ?_
    simp only [Function.comp]
    rw [set_all (grad k.tail) (val k) N (hval k) N le_rfl, List.drop_eq_nil_of_le (by rw [hval]), List.append_nil]
  have hne : List.range N ≠ [] := by simp; omega
  constructor
  · rw [hdo]
    constructor
    · intro h name hname
      by_cases hc : List.range N = [] ∨ ∀ name ∈ doKeys set (ret.filter fun k => !startsWithD k), 'd' :: name ∈ doKeys set ret
      · rcases hc with hc | hc
        · exact absurd hc hne
        · exact (doKeys_mem _ _ _).1 (hc name ((hnames name).2 hname))
      · rw [if_neg hc] at h; cases h
    · intro h
      rw [if_pos (Or.inr fun name hn => (doKeys_mem _ _ _).2 (h name ((hnames name).1 hn)))]; rfl
  · intro out ho
    rw [hdo] at ho
    split_ifs at ho with hc
    have ho' := (Option.some.inj ho).symm
    subst ho'
    refine ⟨fun k => ?_, fun e he => ?_⟩
    · rw [List.map_map]; simp only [Function.comp_def, List.map_id']; exact doKeys_mem _ _ _
    · obtain ⟨k, hk, rfl⟩ := List.mem_map.1 he
      refine ⟨fun name hname hkn => ?_, fun h => ?_⟩
      · have hkn' : k = 'd' :: name := hkn
        simp only
        rw [if_pos ⟨name, (hnames name).2 hname, hkn'⟩, hkn']; rfl
      · simp only
        rw [if_neg]
        rintro ⟨name, h1, h2⟩
        exact h name ((hnames name).1 h1) h2

/-- The call of the tests succeeds, whichever of the values the problem sets. -/
example (set : List (List Char)) (hset : ∀ k ∈ set, k ∈ [['F'], ['G'], ['H']]) (val : List Char → List V) (grad : List Char → ℕ → V) (hval : ∀ k, (val k).length = 3) :
    (cngDo 3 set [['F'], ['d', 'F'], ['G'], ['d', 'G'], ['H'], ['d', 'H']] val grad).isSome = true := by
  rw [(C126_dictionary 3 (by omega) set _ val grad hval).1]
  intro name h
  rcases h with h | ⟨h, hd⟩
  · have := hset _ h
    simp only [List.mem_cons, List.not_mem_nil, or_false] at this
    rcases this with rfl | rfl | rfl <;> simp
  · simp only [List.mem_cons, List.not_mem_nil, or_false] at h
    rcases h with rfl | rfl | rfl | rfl | rfl | rfl <;> simp_all

/-- C126 is refuted for the evaluation a run does: a problem wrapped for gradients cannot be evaluated for its objectives alone, nor, if it has constraints, for
objectives with gradients. -/
theorem C126_plain_refuted (N : ℕ) (hN : 0 < N) (val : List Char → List V) (grad : List Char → ℕ → V) (hval : ∀ k, (val k).length = N) :
    cngDo N [['F']] [['F']] val grad = none ∧ cngDo N [['F'], ['G']] [['F'], ['d', 'F']] val grad = none := by
  constructor
  · rw [← Option.not_isSome_iff_eq_none, (C126_dictionary N hN _ _ val grad hval).1]
    intro h
    have := h ['F'] (by simp)
    simp at this
  · rw [← Option.not_isSome_iff_eq_none, (C126_dictionary N hN _ _ val grad hval).1]
    intro h
    have := h ['G'] (by simp)
    simp at this

end Dict

/-! ### Reverse mode -/

section Reverse
variable {N n m : ℕ}

/-- `X` with the entry `(i, q)` replaced. -/
def putAt (X : Fin N → Fin n → ℝ) (i : Fin N) (q : Fin n) (t : ℝ) : Fin N → Fin n → ℝ := Function.update X i (Function.update (X i) q t)

/-- The partial derivatives of the values of a batch, with respect to the entries of the batch. -/
def Partials (F : (Fin N → Fin n → ℝ) → Fin N → Fin m → ℝ) (X : Fin N → Fin n → ℝ) (D : Fin N → Fin m → Fin N → Fin n → ℝ) : Prop :=
  ∀ i' j i q, HasDerivAt (fun t => F (putAt X i q t) i' j) (D i' j i q) (X i q)

/-- Rows that do not depend on each other: only the derivatives with respect to the own row are not zero. -/
theorem partials_rowwise (F : (Fin N → Fin n → ℝ) → Fin N → Fin m → ℝ) (f : (Fin n → ℝ) → Fin m → ℝ) (hF : ∀ X i, F X i = f (X i)) (X : Fin N → Fin n → ℝ)
    (D : Fin N → Fin m → Fin N → Fin n → ℝ) (hD : Partials F X D) (i' : Fin N) (j : Fin m) (i : Fin N) (q : Fin n) (hi : i' ≠ i) : D i' j i q = 0 := by
  have h := hD i' j i q
  have e : (fun t => F (putAt X i q t) i' j) = fun _ => f (X i') j := by
    funext t; rw [hF]; unfold putAt; rw [Function.update_of_ne hi]
  rw [e] at h
  exact h.unique (hasDerivAt_const _ _)

/-- The single backward pass for a column of a batch. -/
theorem pullback_column (F : (Fin N → Fin n → ℝ) → Fin N → Fin m → ℝ) (f : (Fin n → ℝ) → Fin m → ℝ) (hF : ∀ X i, F X i = f (X i)) (X : Fin N → Fin n → ℝ)
    (D : Fin N → Fin m → Fin N → Fin n → ℝ) (hD : Partials F X D) (i : Fin N) (j : Fin m) (q : Fin n) : ∑ i', D i' j i q = D i j i q := by
  rw [Finset.sum_eq_single i (fun i' _ hi => partials_rowwise F f hF X D hD i' j i q hi) (fun h => absurd (Finset.mem_univ i) h)]

theorem own_row (F : (Fin N → Fin n → ℝ) → Fin N → Fin m → ℝ) (f : (Fin n → ℝ) → Fin m → ℝ) (hF : ∀ X i, F X i = f (X i)) (X : Fin N → Fin n → ℝ)
    (D : Fin N → Fin m → Fin N → Fin n → ℝ) (hD : Partials F X D) (i : Fin N) (j : Fin m) (q : Fin n) :
    HasDerivAt (fun t => f (Function.update (X i) q t) j) (D i j i q) (X i q) := by
  have h := hD i j i q
  refine h.congr_of_eventuallyEq (Eventually.of_forall fun t => ?_)
  show _ = F (putAt X i q t) i j
  rw [hF]; unfold putAt; rw [Function.update_self]

/-- C126: for a problem that evaluates every row on its own, the gradients of the whole batch obtained with one backward pass per value (autograd) are the partial
derivatives: entry `(i, j, q)` is that of the value `j` with respect to the variable `q` at the point `i`. -/
theorem C126_autograd (F : (Fin N → Fin n → ℝ) → Fin N → Fin m → ℝ) (f : (Fin n → ℝ) → Fin m → ℝ) (hF : ∀ X i, F X i = f (X i)) (X : Fin N → Fin n → ℝ)
    (D : Fin N → Fin m → Fin N → Fin n → ℝ) (hD : Partials F X D) (i : Fin N) (j : Fin m) (q : Fin n) :
    HasDerivAt (fun t => f (Function.update (X i) q t) j) (autogradJac (some D) i j q) (X i q) := by
  have e : autogradJac (some D) i j q = D i j i q := by
    unfold autogradJac pullback
    simp only [ite_mul, one_mul, zero_mul, Finset.sum_ite_eq', Finset.mem_univ, if_true]
    exact pullback_column F f hF X D hD i j q
  rw [e]; exact own_row F f hF X D hD i j q

/-- C126: a value that does not depend on the variables has the derivative that is returned, zero. -/
theorem C126_autograd_const (v : Fin N → Fin m → ℝ) (X : Fin N → Fin n → ℝ) (i' i : Fin N) (j : Fin m) (q : Fin n) :
    HasDerivAt (fun t => (fun _ => v : (Fin N → Fin n → ℝ) → Fin N → Fin m → ℝ) (putAt X i q t) i' j) (autogradJac (none : Option (Fin N → Fin m → Fin N → Fin n → ℝ)) i j q) (X i q) :=
  hasDerivAt_const _ _

/-- C126: one point at a time. -/
theorem C126_elementwise (f : (Fin n → ℝ) → Fin m → ℝ) (x : Fin n → ℝ) (D : Fin m → Fin n → ℝ) (hD : ∀ j q, HasDerivAt (fun t => f (Function.update x q t) j) (D j q) (x q))
    (j : Fin m) (q : Fin n) : HasDerivAt (fun t => f (Function.update x q t) j) (autogradElem D j q) (x q) := by
  have : autogradElem D j q = D j q := by unfold autogradElem; simp [ite_mul]
  rw [this]; exact hD j q

/-- C126: rows that depend on each other are added up: with one backward pass for all rows the result is the derivative of the sum over all rows. -/
theorem C126_batch_sum (F : (Fin N → Fin n → ℝ) → Fin N → Fin m → ℝ) (X : Fin N → Fin n → ℝ) (D : Fin N → Fin m → Fin N → Fin n → ℝ) (hD : Partials F X D)
    (i : Fin N) (j : Fin m) (q : Fin n) : HasDerivAt (fun t => ∑ i', F (putAt X i q t) i' j) (autogradJac (some D) i j q) (X i q) := by
  have e : autogradJac (some D) i j q = ∑ i', D i' j i q := by
    unfold autogradJac pullback
    simp only [ite_mul, one_mul, zero_mul, Finset.sum_ite_eq', Finset.mem_univ, if_true]
  rw [e]
  exact HasDerivAt.fun_sum fun i' _ => hD i' j i q

theorem jaxStart_succ (width : List ℕ) (k : ℕ) (hk : k < width.length) : jaxStart width (k + 1) = jaxStart width k + width.getD k 0 := by
  unfold jaxStart
  rw [List.take_add_one, List.sum_append, List.getElem?_eq_getElem hk]
  simp [List.getD_eq_getElem?_getD, List.getElem?_eq_getElem hk]

theorem jaxStart_mono (width : List ℕ) (a b : ℕ) (h : a ≤ b) (hb : b ≤ width.length) : jaxStart width a ≤ jaxStart width b := by
  induction b with
  | zero => rw [Nat.le_zero.1 h]
  | succ b ih =>
    rcases Nat.lt_or_ge a (b + 1) with h1 | h1
    · rw [jaxStart_succ width b (by omega)]
      have := ih (by omega) (by omega)
      omega
    · rw [Nat.le_antisymm h h1]

/-- The cotangents of different values are not mixed up. -/
theorem jaxCot_own (width : List ℕ) (k k' r r' : ℕ) (hk : k < width.length) (hk' : k' < width.length) (hr : r < width.getD k 0) (hr' : r' < width.getD k' 0) :
    jaxCot width k' (jaxStart width k + r) r' = if k' = k ∧ r' = r then 1 else 0 := by
  unfold jaxCot
  by_cases h : k' = k
  · subst h
    rw [if_pos ⟨by omega, by omega⟩]
    by_cases h2 : r' = r
    · subst h2; simp
    · rw [if_neg (by omega), if_neg (by simp [h2])]
  · rw [if_neg, if_neg (by simp [h])]
    rintro ⟨h1, h2⟩
    rcases Nat.lt_or_ge k' k with h3 | h3
    · have := jaxStart_mono width (k' + 1) k h3 (by omega)
      rw [jaxStart_succ width k' hk'] at this; omega
    · have := jaxStart_mono width (k + 1) k' (by omega) (by omega)
      rw [jaxStart_succ width k hk] at this; omega

/-- C126: the same for JAX, where the values of all names are differentiated at once: the gradient returned for the `k`-th name is that of the `k`-th name. -/
theorem C126_jax (width : List ℕ) (F : ℕ → (Fin N → Fin n → ℝ) → Fin N → ℕ → ℝ) (f : ℕ → (Fin n → ℝ) → ℕ → ℝ) (hF : ∀ k X i, F k X i = f k (X i)) (X : Fin N → Fin n → ℝ)
    (D : ℕ → Fin N → ℕ → Fin N → Fin n → ℝ) (hD : ∀ k < width.length, ∀ i', ∀ r < width.getD k 0, ∀ i q, HasDerivAt (fun t => F k (putAt X i q t) i' r) (D k i' r i q) (X i q))
    (k : ℕ) (hk : k < width.length) (r : ℕ) (hr : r < width.getD k 0) (i : Fin N) (q : Fin n) :
    HasDerivAt (fun t => f k (Function.update (X i) q t) r) (jaxJac width D k i r q) (X i q) := by
  have e : jaxJac width D k i r q = D k i r i q := by
    unfold jaxJac jaxAll
    have h1 : ∀ k' ∈ range width.length, (∑ i', ∑ r' ∈ range (width.getD k' 0), jaxCot width k' (jaxStart width k + r) r' * D k' i' r' i q) = if k' = k then D k i r i q else 0 := by
      intro k' hk'
      have hk'' := Finset.mem_range.1 hk'
      have h2 : ∀ i', (∑ r' ∈ range (width.getD k' 0), jaxCot width k' (jaxStart width k + r) r' * D k' i' r' i q) = if k' = k then D k i' r i q else 0 := by
        intro i'
        by_cases hkk : k' = k
        · subst hkk
          rw [Finset.sum_eq_single r]
          · rw [jaxCot_own width k' k' r r hk hk hr hr]; simp
          · intro r' hr' hne
            rw [jaxCot_own width k' k' r r' hk hk hr (Finset.mem_range.1 hr'), if_neg (by simp [hne]), zero_mul]
          · intro h; exact absurd (Finset.mem_range.2 hr) h
        · rw [if_neg hkk]
          refine Finset.sum_eq_zero fun r' hr' => ?_
          rw [jaxCot_own width k k' r r' hk hk'' hr (Finset.mem_range.1 hr'), if_neg (by simp [hkk]), zero_mul]
      rw [Finset.sum_congr rfl fun i' _ => h2 i']
      by_cases hkk : k' = k
      · simp only [hkk, if_true]
        rw [Finset.sum_eq_single i]
        · intro i' _ hi
          have h := hD k hk i' r hr i q
          have e : (fun t => F k (putAt X i q t) i' r) = fun _ => f k (X i') r := by
            funext t; rw [hF]; unfold putAt; rw [Function.update_of_ne hi]
          rw [e] at h
          exact h.unique (hasDerivAt_const _ _)
        · intro h; exact absurd (Finset.mem_univ i) h
      · simp [hkk]
    rw [Finset.sum_congr rfl h1, Finset.sum_ite_eq', if_pos (Finset.mem_range.2 hk)]
  rw [e]
  have h := hD k hk i r hr i q
  refine h.congr_of_eventuallyEq (Eventually.of_forall fun t => ?_)
  show _ = F k (putAt X i q t) i r
  rw [hF]; unfold putAt; rw [Function.update_self]

/-- The hypotheses are met by the sum of squares, which is evaluated row by row. -/
example : Partials (N := 2) (n := 1) (m := 1) (fun X i _ => X i 0 ^ 2) (fun i _ => i.val + 1) (fun i' _ i _ => if i' = i then 2 * (i.val + 1) else 0) := by
  intro i' j i q
  by_cases h : i' = i
  · subst h
    have hq : q = 0 := Subsingleton.elim _ _
    subst hq
    have e : (fun t : ℝ => (putAt (fun (i : Fin 2) (_ : Fin 1) => (i.val : ℝ) + 1) i' 0 t) i' 0 ^ 2) = fun t => t ^ 2 := by
      funext t; simp [putAt]
    show HasDerivAt (fun t : ℝ => (putAt (fun (i : Fin 2) (_ : Fin 1) => (i.val : ℝ) + 1) i' 0 t) i' 0 ^ 2) (if i' = i' then 2 * ((i'.val : ℝ) + 1) else 0) _
    rw [if_pos rfl]
    rw [e]
    simpa using hasDerivAt_pow 2 ((i'.val : ℝ) + 1)
  · have e : (fun t : ℝ => (putAt (fun (i : Fin 2) (_ : Fin 1) => (i.val : ℝ) + 1) i q t) i' 0 ^ 2) = fun _ => ((i'.val : ℝ) + 1) ^ 2 := by
      funext t; simp [putAt, Function.update_of_ne h]
    show HasDerivAt (fun t : ℝ => (putAt (fun (i : Fin 2) (_ : Fin 1) => (i.val : ℝ) + 1) i q t) i' 0 ^ 2) (if i' = i then 2 * ((i.val : ℝ) + 1) else 0) _
    rw [if_neg h, e]; exact hasDerivAt_const _ _

end Reverse

/-! ### The active library -/

/-- C126: after an evaluation that succeeds the problems use numpy again, and during it they used the library of the wrapper. -/
theorem C126_library {R : Type*} (name : Option GradLib) (run : GradLib → Option R) (s : GradLib) (r : R) (h : (autodiffDo name run s).2 = some r) :
    (autodiffDo name run s).1 = .numpy ∧ ∃ b, name = some b ∧ b ≠ .numpy ∧ run b = some r := by
  unfold autodiffDo gradActivate at *
  cases name with
  | none => simp at h
  | some b =>
    cases b with
    | numpy => simp at h
    | autograd => cases hr : run .autograd with
      | none => simp [hr] at h
      | some r' => simp [hr] at h ⊢; exact h
    | jax => cases hr : run .jax with
      | none => simp [hr] at h
      | some r' => simp [hr] at h ⊢; exact h

example : (autodiffDo (some .autograd) (fun _ => some 3) .numpy).2 = some 3 := rfl

/-- C126 is refuted for evaluations that fail: the library stays active and all problems evaluated later use it. -/
theorem C126_library_refuted {R : Type*} (s : GradLib) : (autodiffDo (some .autograd) (fun _ => (none : Option R)) s) = (.autograd, none) := rfl

end Props
