import Verif.Lemmas.Indicators
import Mathlib.Data.Fin.VecNotation
import Mathlib.Tactic.NormNum
import Mathlib.Tactic.FinCases
import Mathlib.Tactic.Ring
import Mathlib.Tactic.FieldSimp

/-!
# C59: GD, IGD, GD+ and IGD+

* the value is the mean distance to the closest point, in the right direction, in the units requested by `zero_to_one` /
  `norm_by_dist`;
* it is non-negative and zero exactly for a perfect match (equality for GD/IGD, weak domination for GD+/IGD+);
* IGD+ and GD+ never get worse when solutions improve, IGD and IGD+ never get worse when solutions are added;
* the value does not depend on the order of the solutions, and with `zero_to_one` not on the units of the objectives;
* refuted: GD and IGD respect domination; an empty set of solutions is reported as perfect.
-/

set_option linter.unusedSimpArgs false
set_option linter.unusedVariables false
set_option linter.unusedSectionVars false

namespace Props
open Model Spec Lemmas

variable {m : ℕ}

/-- What is assumed of the compiled package `moocore` (plain distances). -/
structure MooIgdContract (moo : Moocore m) : Prop where
  igd : ∀ F pf, F ≠ [] → pf ≠ [] → moo.igd F pf = invGenDist (euclid fun _ => 1) pf F
  igdPlus : ∀ F pf, F ≠ [] → pf ≠ [] → moo.igdPlus F pf = invGenDist (plusDist fun _ => 1) pf F

/-- The textbook value of each indicator for distances in units of `s`. -/
noncomputable def textbook (kind : DistKind) (s : Fin m → ℝ) (pf F : List (Fin m → ℝ)) : ℝ :=
  match kind with
  | .gd => genDist (euclid s) pf F
  | .igd => invGenDist (euclid s) pf F
  | .gdPlus => genDist (plusDist s) pf F
  | .igdPlus => invGenDist (plusDist s) pf F

/-- `lo` is the componentwise smallest and `hi` the largest value on the front. -/
def FrontRange (pf : List (Fin m → ℝ)) (lo hi : Fin m → ℝ) : Prop :=
  ∀ k, IsLeast {r | ∃ p ∈ pf, r = p k} (lo k) ∧ IsGreatest {r | ∃ p ∈ pf, r = p k} (hi k)

/-- `s` are the units requested by the arguments: the range from the ideal to the nadir point (given, or taken from the front) if
`zero_to_one` or `norm_by_dist` is set (with `zero_to_one` objectives without range keep their unit), else `1`. -/
def Units (a : DistArgs m) (s : Fin m → ℝ) : Prop :=
  ∃ lo hi : Fin m → ℝ, FrontRange a.pf lo hi ∧ ∀ k,
    s k = if a.zeroToOne then (if a.ideal.getD lo k = a.nadir.getD hi k then 1 else a.nadir.getD hi k - a.ideal.getD lo k)
      else if a.normByDist then a.nadir.getD hi k - a.ideal.getD lo k else 1

theorem frontRange_unique {pf : List (Fin m → ℝ)} {lo hi lo' hi' : Fin m → ℝ} (h : FrontRange pf lo hi)
    (h' : FrontRange pf lo' hi') : lo = lo' ∧ hi = hi' :=
  ⟨funext fun k => (h k).1.unique (h' k).1, funext fun k => (h k).2.unique (h' k).2⟩

theorem ptMin_isSome {pf : List (Fin m → ℝ)} (h : pf ≠ []) : ∃ lo, ptMin pf = some lo := by
  cases pf with
  | nil => exact absurd rfl h
  | cons p ps => exact ⟨_, rfl⟩

theorem ptMax_isSome {pf : List (Fin m → ℝ)} (h : pf ≠ []) : ∃ hi, ptMax pf = some hi := by
  cases pf with
  | nil => exact absurd rfl h
  | cons p ps => exact ⟨_, rfl⟩

theorem frontRange_of {pf : List (Fin m → ℝ)} {lo hi} (h1 : ptMin pf = some lo) (h2 : ptMax pf = some hi) :
    FrontRange pf lo hi := fun k => ⟨ptMin_spec h1 k, ptMax_spec h2 k⟩

/-- The constructor accepts exactly the non-empty fronts, with ideal ≤ nadir if `zero_to_one` is set. -/
theorem C59_accepts (a : DistArgs m) : (∃ I, distInit a = some I) ↔
    a.pf ≠ [] ∧ (a.zeroToOne = true → ∀ lo hi, FrontRange a.pf lo hi → ∀ k, a.ideal.getD lo k ≤ a.nadir.getD hi k) := by
  by_cases hpf : a.pf = []
  · simp [distInit, hpf, ptMin]
  obtain ⟨lo, hlo⟩ := ptMin_isSome hpf
  obtain ⟨hi, hhi⟩ := ptMax_isSome hpf
  have hr := frontRange_of hlo hhi
  simp only [distInit, hlo, hhi, Option.bind_some]
  by_cases hz : a.zeroToOne = true
  · rw [if_pos hz]
    constructor
    · rintro ⟨I, h⟩
      split_ifs at h with hle
      refine ⟨hpf, fun _ lo' hi' h' => ?_⟩
      obtain ⟨rfl, rfl⟩ := frontRange_unique hr h'
      exact hle
    · rintro ⟨_, h⟩
      rw [if_pos (h hz lo hi hr)]
      exact ⟨_, rfl⟩
  · rw [if_neg hz]
    simp [hpf, hz]

theorem indForward_shift {l u : Fin m → ℝ} (x y : Fin m → ℝ) (k : Fin m) :
    indForward (some (l, u)) x k - indForward (some (l, u)) y k = (x k - y k) / (if l k = u k then 1 else u k - l k) := by
  simp only [indForward]
  split_ifs with h
  · simp
  · rw [← sub_div]; congr 1; ring

theorem euclid_forward {l u : Fin m → ℝ} (x y : Fin m → ℝ) :
    euclid (fun _ => 1) (indForward (some (l, u)) x) (indForward (some (l, u)) y) =
      euclid (fun k => if l k = u k then 1 else u k - l k) x y := by
  unfold euclid
  simp only [div_one, indForward_shift]

theorem plusDist_forward {l u : Fin m → ℝ} (h : ∀ k, l k ≤ u k) (x y : Fin m → ℝ) :
    plusDist (fun _ => 1) (indForward (some (l, u)) x) (indForward (some (l, u)) y) =
      plusDist (fun k => if l k = u k then 1 else u k - l k) x y := by
  unfold plusDist
  congr 1
  apply Finset.sum_congr rfl
  intro k _
  simp only [div_one, indForward_shift]
  congr 1
  have hs : (0 : ℝ) < (if l k = u k then 1 else u k - l k) := by
    split_ifs with he
    · norm_num
    · have := lt_of_le_of_ne (h k) he; linarith
  rcases le_total (y k - x k) 0 with hc | hc
  · rw [max_eq_right hc, max_eq_right (div_nonpos_of_nonpos_of_nonneg hc hs.le)]; simp
  · rw [max_eq_left hc, max_eq_left (div_nonneg hc hs.le)]

theorem least_map {P Q : Type*} (f : P → ℝ) (g : Q → P) (S : List Q) : least f (S.map g) = least (fun q => f (g q)) S := by
  unfold least
  congr 1
  ext r
  simp

theorem invGenDist_map {d d' : (Fin m → ℝ) → (Fin m → ℝ) → ℝ} (g : (Fin m → ℝ) → (Fin m → ℝ))
    (h : ∀ x y, d (g x) (g y) = d' x y) (pf F : List (Fin m → ℝ)) :
    invGenDist d (pf.map g) (F.map g) = invGenDist d' pf F := by
  unfold invGenDist
  congr 1
  rw [List.map_map]
  apply List.map_congr_left
  intro z _
  simp only [Function.comp, least_map, h]

theorem genDist_map {d d' : (Fin m → ℝ) → (Fin m → ℝ) → ℝ} (g : (Fin m → ℝ) → (Fin m → ℝ))
    (h : ∀ x y, d (g x) (g y) = d' x y) (pf F : List (Fin m → ℝ)) :
    genDist d (pf.map g) (F.map g) = genDist d' pf F := by
  unfold genDist
  congr 1
  rw [List.map_map]
  apply List.map_congr_left
  intro z _
  simp only [Function.comp, least_map, h]

theorem distBase_true (dist : (Fin m → ℝ) → (Fin m → ℝ) → (Fin m → ℝ) → ℝ) (I : DistInd m) (F : List (Fin m → ℝ))
    (hF : F ≠ []) (hpf : I.pf ≠ []) : distBase dist true I F =
      some (invGenDist (dist (if I.normByDist then fun k => I.nadir k - I.ideal k else fun _ => 1)) I.pf F) := by
  unfold distBase
  simp only [vcdist_eq]
  rw [minAxis_true _ _ _ hF, Option.bind_some, npMean_eq (by simpa using hpf)]
  rfl

theorem distBase_false (dist : (Fin m → ℝ) → (Fin m → ℝ) → (Fin m → ℝ) → ℝ) (I : DistInd m) (F : List (Fin m → ℝ))
    (hF : F ≠ []) (hpf : I.pf ≠ []) : distBase dist false I F =
      some (genDist (dist (if I.normByDist then fun k => I.nadir k - I.ideal k else fun _ => 1)) I.pf F) := by
  unfold distBase
  simp only [vcdist_eq]
  rw [minAxis_false _ _ _ hpf, Option.bind_some, npMean_eq (by simpa using hF)]
  rfl

/-- **The value**: every indicator object built from the arguments `a` returns, for every non-empty set of solutions, the
textbook value in the requested units. -/
theorem C59_value (moo : Moocore m) (hmoo : MooIgdContract moo) (kind : DistKind) (a : DistArgs m) (I : DistInd m)
    (hI : distInit a = some I) (s : Fin m → ℝ) (hs : Units a s) (F : List (Fin m → ℝ)) (hF : F ≠ []) :
    distDo moo kind I F = some (textbook kind s a.pf F) := by
  have hacc := (C59_accepts a).1 ⟨I, hI⟩
  obtain ⟨hpf, hle⟩ := hacc
  obtain ⟨lo, hlo⟩ := ptMin_isSome hpf
  obtain ⟨hi, hhi⟩ := ptMax_isSome hpf
  have hr := frontRange_of hlo hhi
  obtain ⟨lo', hi', hr', hs⟩ := hs
  obtain ⟨rfl, rfl⟩ := frontRange_unique hr hr'
  have hFe : F.isEmpty = false := by simpa using hF
  simp only [distInit, hlo, hhi, Option.bind_some] at hI
  unfold distDo
  rw [hFe]
  simp only [Bool.false_eq_true, if_false]
  by_cases hz : a.zeroToOne = true
  · have hle := hle hz lo hi hr
    rw [if_pos hz, if_pos hle] at hI
    simp only [Option.some.injEq] at hI
    subst hI
    have hs' : s = fun k => if a.ideal.getD lo k = a.nadir.getD hi k then 1 else a.nadir.getD hi k - a.ideal.getD lo k := by
      funext k; rw [hs k, if_pos hz]
    have hn : (if a.normByDist then fun k => (fun _ => (1:ℝ)) k - (fun _ => (0:ℝ)) k else fun _ => (1:ℝ)) =
        fun (_ : Fin m) => (1:ℝ) := by
      split_ifs <;> simp
    have hpf' : a.pf.map (indForward (some (a.ideal.getD lo, a.nadir.getD hi))) ≠ [] := by simpa using hpf
    have hF' : F.map (indForward (some (a.ideal.getD lo, a.nadir.getD hi))) ≠ [] := by simpa using hF
    have e1 : ∀ x y, euclid (fun _ => 1) (indForward (some (a.ideal.getD lo, a.nadir.getD hi)) x)
        (indForward (some (a.ideal.getD lo, a.nadir.getD hi)) y) = euclid s x y := by
      intro x y; rw [euclid_forward, hs']
    have e2 : ∀ x y, plusDist (fun _ => 1) (indForward (some (a.ideal.getD lo, a.nadir.getD hi)) x)
        (indForward (some (a.ideal.getD lo, a.nadir.getD hi)) y) = plusDist s x y := by
      intro x y; rw [plusDist_forward hle, hs']
    cases kind <;> simp only [distDo', textbook]
    · rw [distBase_false _ _ _ hF' hpf', indEuclid_eq]
      simp only [hn]
      rw [genDist_map _ e1]
    · split_ifs with hb
      · rw [distBase_true _ _ _ hF' hpf', indEuclid_eq]
        simp only [hn]
        rw [invGenDist_map _ e1]
      · rw [hmoo.igd _ _ hF' hpf', invGenDist_map _ e1]
    · rw [distBase_false _ _ _ hF' hpf', indModified_eq]
      simp only [hn]
      rw [genDist_map _ e2]
    · split_ifs with hb
      · rw [distBase_true _ _ _ hF' hpf', indModified_eq]
        simp only [hn]
        rw [invGenDist_map _ e2]
      · rw [hmoo.igdPlus _ _ hF' hpf', invGenDist_map _ e2]
  · rw [if_neg hz] at hI
    simp only [Option.some.injEq] at hI
    subst hI
    have hs' : s = (if a.normByDist then fun k => a.nadir.getD hi k - a.ideal.getD lo k else fun _ => (1:ℝ)) := by
      funext k; rw [hs k, if_neg hz]; split_ifs <;> rfl
    have hid : F.map (indForward (none : Option ((Fin m → ℝ) × (Fin m → ℝ)))) = F := by
      conv_rhs => rw [← List.map_id F]
      exact List.map_congr_left fun x _ => rfl
    simp only [hid]
    cases kind <;> simp only [distDo', textbook]
    · rw [distBase_false _ _ _ hF hpf, indEuclid_eq, hs']
    · split_ifs with hb
      · rw [distBase_true _ _ _ hF hpf, indEuclid_eq, hs']
      · rw [hmoo.igd _ _ hF hpf, hs', if_neg hb]
    · rw [distBase_false _ _ _ hF hpf, indModified_eq, hs']
    · split_ifs with hb
      · rw [distBase_true _ _ _ hF hpf, indModified_eq, hs']
      · rw [hmoo.igdPlus _ _ hF hpf, hs', if_neg hb]

/-- Units always exist for an accepted object. -/
theorem units_exist (a : DistArgs m) (h : a.pf ≠ []) : ∃ s, Units a s := by
  obtain ⟨lo, hlo⟩ := ptMin_isSome h
  obtain ⟨hi, hhi⟩ := ptMax_isSome h
  exact ⟨_, lo, hi, frontRange_of hlo hhi, fun k => rfl⟩

/-- The units are positive, except if `norm_by_dist` is used with an ideal point that is not better than the nadir point in some
objective (the code then divides by zero or by a negative number). -/
def ProperUnits (a : DistArgs m) : Prop := ∀ s, Units a s → ∀ k, 0 < s k

/-- Units are proper whenever plain distances or `zero_to_one` are used. -/
theorem C59_proper_units (a : DistArgs m) (I : DistInd m) (hI : distInit a = some I)
    (h : a.zeroToOne = true ∨ a.normByDist = false) : ProperUnits a := by
  obtain ⟨hpf, hle⟩ := (C59_accepts a).1 ⟨I, hI⟩
  rintro s ⟨lo, hi, hr, hs⟩ k
  rw [hs k]
  by_cases hz : a.zeroToOne = true
  · rw [if_pos hz]
    split_ifs with he
    · norm_num
    · have := lt_of_le_of_ne (hle hz lo hi hr k) he
      linarith
  · rcases h with h | h
    · exact absurd h hz
    · rw [if_neg hz, h]; norm_num

section
variable (moo : Moocore m) (hmoo : MooIgdContract moo) (a : DistArgs m) (I : DistInd m) (hI : distInit a = some I)

include hmoo hI in
/-- No indicator is ever negative, and every set of solutions gets a value. -/
theorem C59_nonneg (kind : DistKind) (F : List (Fin m → ℝ)) : ∃ v, distDo moo kind I F = some v ∧ 0 ≤ v := by
  by_cases hF : F = []
  · subst hF; exact ⟨0, rfl, le_rfl⟩
  obtain ⟨s, hs⟩ := units_exist a ((C59_accepts a).1 ⟨I, hI⟩).1
  refine ⟨_, C59_value moo hmoo kind a I hI s hs F hF, ?_⟩
  cases kind <;> simp only [textbook, genDist, invGenDist] <;>
    (apply avg_nonneg; intro x hx; obtain ⟨y, _, rfl⟩ := List.mem_map.1 hx; apply least_nonneg; intro z)
  · exact euclid_nonneg _ _ _
  · exact euclid_nonneg _ _ _
  · exact plusDist_nonneg _ _ _
  · exact plusDist_nonneg _ _ _

theorem invGenDist_zero_iff {d : (Fin m → ℝ) → (Fin m → ℝ) → ℝ} (hd : ∀ x y, 0 ≤ d x y) {pf F : List (Fin m → ℝ)}
    (hpf : pf ≠ []) (hF : F ≠ []) : invGenDist d pf F = 0 ↔ ∀ z ∈ pf, ∃ a ∈ F, d z a = 0 := by
  unfold invGenDist
  rw [avg_eq_zero_iff (by simpa using hpf)]
  · simp only [List.mem_map, forall_exists_index, and_imp, forall_apply_eq_imp_iff₂]
    exact forall₂_congr fun z _ => least_zero_iff hF fun a => hd z a
  · intro x hx; obtain ⟨y, _, rfl⟩ := List.mem_map.1 hx; exact least_nonneg _ fun a => hd y a

theorem genDist_zero_iff {d : (Fin m → ℝ) → (Fin m → ℝ) → ℝ} (hd : ∀ x y, 0 ≤ d x y) {pf F : List (Fin m → ℝ)}
    (hpf : pf ≠ []) (hF : F ≠ []) : genDist d pf F = 0 ↔ ∀ a ∈ F, ∃ z ∈ pf, d z a = 0 := by
  unfold genDist
  rw [avg_eq_zero_iff (by simpa using hF)]
  · simp only [List.mem_map, forall_exists_index, and_imp, forall_apply_eq_imp_iff₂]
    exact forall₂_congr fun z _ => least_zero_iff hpf fun a => hd a z
  · intro x hx; obtain ⟨y, _, rfl⟩ := List.mem_map.1 hx; exact least_nonneg _ fun a => hd a y

include hmoo hI in
/-- **Zero means a perfect match**: GD — every solution is on the front; IGD — every reference point was found; GD+ — every
solution is at least as good as a reference point; IGD+ — every reference point is weakly dominated by a solution. -/
theorem C59_zero_iff (hu : ProperUnits a) (F : List (Fin m → ℝ)) (hF : F ≠ []) :
    (distDo moo .gd I F = some 0 ↔ ∀ f ∈ F, f ∈ a.pf) ∧
    (distDo moo .igd I F = some 0 ↔ ∀ z ∈ a.pf, z ∈ F) ∧
    (distDo moo .gdPlus I F = some 0 ↔ ∀ f ∈ F, ∃ z ∈ a.pf, WeaklyDominates f z) ∧
    (distDo moo .igdPlus I F = some 0 ↔ Covers F a.pf) := by
  have hpf := ((C59_accepts a).1 ⟨I, hI⟩).1
  obtain ⟨s, hs⟩ := units_exist a hpf
  have hp := hu s hs
  refine ⟨?_, ?_, ?_, ?_⟩ <;> rw [C59_value moo hmoo _ a I hI s hs F hF, Option.some.injEq] <;> simp only [textbook]
  · rw [genDist_zero_iff (euclid_nonneg s) hpf hF]
    simp only [euclid_eq_zero_iff hp]
    exact forall₂_congr fun f _ => ⟨fun ⟨z, hz, e⟩ => e ▸ hz, fun h => ⟨f, h, rfl⟩⟩
  · rw [invGenDist_zero_iff (euclid_nonneg s) hpf hF]
    simp only [euclid_eq_zero_iff hp]
    exact forall₂_congr fun f _ => ⟨fun ⟨z, hz, e⟩ => e ▸ hz, fun h => ⟨f, h, rfl⟩⟩
  · rw [genDist_zero_iff (plusDist_nonneg s) hpf hF]
    simp only [plusDist_eq_zero_iff hp]
  · rw [invGenDist_zero_iff (plusDist_nonneg s) hpf hF]
    simp only [plusDist_eq_zero_iff hp, Covers]

include hmoo hI in
/-- **IGD+ respects domination**: if every solution of `B` is weakly dominated by a solution of `A`, then `A` is not worse. -/
theorem C59_igdplus_compliant (hu : ProperUnits a) (A B : List (Fin m → ℝ)) (hA : A ≠ []) (hB : B ≠ [])
    (h : Covers A B) (va vb : ℝ) (ha : distDo moo .igdPlus I A = some va) (hb : distDo moo .igdPlus I B = some vb) :
    va ≤ vb := by
  obtain ⟨s, hs⟩ := units_exist a ((C59_accepts a).1 ⟨I, hI⟩).1
  have hp := hu s hs
  rw [C59_value moo hmoo _ a I hI s hs _ hA, Option.some.injEq] at ha
  rw [C59_value moo hmoo _ a I hI s hs _ hB, Option.some.injEq] at hb
  subst ha hb
  simp only [textbook, invGenDist]
  apply avg_map_le
  intro z _
  apply least_le_of_forall hB
  intro b hb
  obtain ⟨x, hx, hd⟩ := h b hb
  exact ⟨x, hx, plusDist_mono hp hd⟩

include hmoo hI in
/-- **GD+ respects improvements**: replacing every solution by one that weakly dominates it does not make it worse. -/
theorem C59_gdplus_compliant (hu : ProperUnits a) (A B : List (Fin m → ℝ)) (h : List.Forall₂ WeaklyDominates A B)
    (va vb : ℝ) (ha : distDo moo .gdPlus I A = some va) (hb : distDo moo .gdPlus I B = some vb) : va ≤ vb := by
  have hpf := ((C59_accepts a).1 ⟨I, hI⟩).1
  by_cases hA : A = []
  · subst hA
    obtain rfl := List.forall₂_nil_left_iff.1 h
    simp only [ha, Option.some.injEq] at hb
    exact hb.le
  have hB : B ≠ [] := by rintro rfl; exact hA (List.forall₂_nil_right_iff.1 h)
  obtain ⟨s, hs⟩ := units_exist a hpf
  have hp := hu s hs
  rw [C59_value moo hmoo _ a I hI s hs _ hA, Option.some.injEq] at ha
  rw [C59_value moo hmoo _ a I hI s hs _ hB, Option.some.injEq] at hb
  subst ha hb
  simp only [textbook, genDist, avg, List.length_map, h.length_eq]
  apply div_le_div_of_nonneg_right _ (Nat.cast_nonneg _)
  clear hA hB
  induction h with
  | nil => simp
  | cons hd _ ih =>
    simp only [List.map_cons, List.sum_cons]
    apply add_le_add _ ih
    apply least_le_of_forall hpf
    intro z hz
    exact ⟨z, hz, plusDist_mono hp hd⟩

include hmoo hI in
/-- **Finding more solutions never hurts** IGD and IGD+. -/
theorem C59_add_solutions (kind : DistKind) (hk : kind = .igd ∨ kind = .igdPlus) (A B : List (Fin m → ℝ)) (hA : A ≠ [])
    (hsub : ∀ x ∈ A, x ∈ B) (va vb : ℝ) (ha : distDo moo kind I A = some va) (hb : distDo moo kind I B = some vb) :
    vb ≤ va := by
  obtain ⟨s, hs⟩ := units_exist a ((C59_accepts a).1 ⟨I, hI⟩).1
  have hB : B ≠ [] := by
    obtain ⟨x, hx⟩ := List.exists_mem_of_ne_nil A hA
    exact List.ne_nil_of_mem (hsub x hx)
  rw [C59_value moo hmoo _ a I hI s hs _ hA, Option.some.injEq] at ha
  rw [C59_value moo hmoo _ a I hI s hs _ hB, Option.some.injEq] at hb
  subst ha hb
  rcases hk with rfl | rfl <;> simp only [textbook, invGenDist] <;>
    exact avg_map_le _ _ _ fun z _ => least_le_of_forall hA fun x hx => ⟨x, hsub x hx, le_rfl⟩

theorem least_congr {P : Type*} (f : P → ℝ) {S T : List P} (h : ∀ x, x ∈ S ↔ x ∈ T) : least f S = least f T := by
  unfold least; simp only [h]

include hmoo hI in
/-- The order of the solutions does not matter. -/
theorem C59_order (kind : DistKind) (F F' : List (Fin m → ℝ)) (h : F.Perm F') : distDo moo kind I F = distDo moo kind I F' := by
  by_cases hF : F = []
  · subst hF; rw [List.nil_perm.1 h]
  have hF' : F' ≠ [] := by rintro rfl; exact hF (List.perm_nil.1 h)
  obtain ⟨s, hs⟩ := units_exist a ((C59_accepts a).1 ⟨I, hI⟩).1
  rw [C59_value moo hmoo _ a I hI s hs _ hF, C59_value moo hmoo _ a I hI s hs _ hF']
  have hsum : ∀ g : (Fin m → ℝ) → ℝ, avg (F.map g) = avg (F'.map g) := by
    intro g; unfold avg; rw [(h.map g).sum_eq]; simp [h.length_eq]
  cases kind <;> simp only [textbook, genDist, invGenDist, hsum] <;>
    (congr 2; apply List.map_congr_left; intro z _; exact least_congr _ fun x => h.mem_iff)

include hmoo hI in
/-- GD+ ≤ GD and IGD+ ≤ IGD. -/
theorem C59_plus_le (hu : ProperUnits a) (F : List (Fin m → ℝ)) (g gp i ip : ℝ) (h1 : distDo moo .gd I F = some g)
    (h2 : distDo moo .gdPlus I F = some gp) (h3 : distDo moo .igd I F = some i) (h4 : distDo moo .igdPlus I F = some ip) :
    gp ≤ g ∧ ip ≤ i := by
  have hpf := ((C59_accepts a).1 ⟨I, hI⟩).1
  by_cases hF : F = []
  · subst hF
    simp only [distDo, List.isEmpty_nil, if_true, Option.some.injEq] at h1 h2 h3 h4
    subst h1 h2 h3 h4; simp
  obtain ⟨s, hs⟩ := units_exist a hpf
  have hp := hu s hs
  rw [C59_value moo hmoo _ a I hI s hs _ hF, Option.some.injEq] at h1 h2 h3 h4
  subst h1 h2 h3 h4
  simp only [textbook, genDist, invGenDist]
  exact ⟨avg_map_le _ _ _ fun f _ => least_le_of_forall hpf fun z hz => ⟨z, hz, plusDist_le_euclid hp z f⟩,
    avg_map_le _ _ _ fun z _ => least_le_of_forall hF fun f hf => ⟨f, hf, plusDist_le_euclid hp z f⟩⟩

end

/-! ### independence of the units -/

/-- A change of units: every objective is scaled by a positive factor and shifted. -/
def rescale (c t : Fin m → ℝ) (x : Fin m → ℝ) : Fin m → ℝ := fun k => c k * x k + t k

theorem frontRange_rescale {pf : List (Fin m → ℝ)} {lo hi c t : Fin m → ℝ} (hc : ∀ k, 0 < c k) (h : FrontRange pf lo hi) :
    FrontRange (pf.map (rescale c t)) (rescale c t lo) (rescale c t hi) := by
  intro k
  obtain ⟨⟨⟨p, hp, e1⟩, h1⟩, ⟨⟨q, hq, e2⟩, h2⟩⟩ := h k
  have hck := hc k
  refine ⟨⟨⟨_, List.mem_map_of_mem hp, by simp [rescale, e1]⟩, ?_⟩, ⟨⟨_, List.mem_map_of_mem hq, by simp [rescale, e2]⟩, ?_⟩⟩
  · rintro r ⟨x, hx, rfl⟩
    obtain ⟨y, hy, rfl⟩ := List.mem_map.1 hx
    have := h1 ⟨y, hy, rfl⟩
    simp only [rescale]
    have := mul_le_mul_of_nonneg_left this hck.le
    linarith
  · rintro r ⟨x, hx, rfl⟩
    obtain ⟨y, hy, rfl⟩ := List.mem_map.1 hx
    have := h2 ⟨y, hy, rfl⟩
    simp only [rescale]
    have := mul_le_mul_of_nonneg_left this hck.le
    linarith

/-- **Units do not matter** with `zero_to_one`: rescaling (positively) and shifting the objectives of the front and of the solutions
leaves every indicator unchanged, provided the front has a range in every objective. -/
theorem C59_unit_free (moo : Moocore m) (hmoo : MooIgdContract moo) (kind : DistKind) (pf : List (Fin m → ℝ))
    (c t : Fin m → ℝ) (hc : ∀ k, 0 < c k) (hrange : ∀ k, ∃ p ∈ pf, ∃ q ∈ pf, p k ≠ q k)
    (I I' : DistInd m) (hI : distInit { pf := pf, zeroToOne := true } = some I)
    (hI' : distInit { pf := pf.map (rescale c t), zeroToOne := true } = some I') (F : List (Fin m → ℝ)) :
    distDo moo kind I' (F.map (rescale c t)) = distDo moo kind I F := by
  by_cases hF : F = []
  · subst hF; rfl
  have hpf := ((C59_accepts _).1 ⟨I, hI⟩).1
  obtain ⟨s, hs⟩ := units_exist { pf := pf, zeroToOne := true } hpf
  obtain ⟨s', hs'⟩ := units_exist { pf := pf.map (rescale c t), zeroToOne := true } (by simpa using hpf)
  rw [C59_value moo hmoo _ _ I hI s hs _ hF, C59_value moo hmoo _ _ I' hI' s' hs' _ (by simpa using hF)]
  obtain ⟨lo, hi, hr, hs⟩ := hs
  obtain ⟨lo', hi', hr', hs'⟩ := hs'
  obtain ⟨rfl, rfl⟩ := frontRange_unique (frontRange_rescale hc hr) hr'
  have hne : ∀ k, lo k ≠ hi k := by
    intro k he
    obtain ⟨p, hp, q, hq, hpq⟩ := hrange k
    have a1 := (hr k).1.2 ⟨p, hp, rfl⟩
    have a2 := (hr k).2.2 ⟨p, hp, rfl⟩
    have a3 := (hr k).1.2 ⟨q, hq, rfl⟩
    have a4 := (hr k).2.2 ⟨q, hq, rfl⟩
    exact hpq (by linarith)
  have hss : ∀ k, s' k = c k * s k := by
    intro k
    have hck := (hc k).ne'
    have hne' : ¬ c k * lo k + t k = c k * hi k + t k := by simpa [hck] using hne k
    have r1 : s' k = c k * hi k + t k - (c k * lo k + t k) := (hs' k).trans ((if_pos rfl).trans (if_neg hne'))
    have r2 : s k = hi k - lo k := (hs k).trans ((if_pos rfl).trans (if_neg (hne k)))
    rw [r1, r2]
    ring
  have hs0 : ∀ k, s k ≠ 0 := by
    intro k
    rw [hs k]
    simp only [if_true, Option.getD_none]
    rw [if_neg (hne k)]
    exact sub_ne_zero.2 (hne k).symm
  have e1 : ∀ x y, euclid s' (rescale c t x) (rescale c t y) = euclid s x y := by
    intro x y
    unfold euclid
    congr 1
    apply Finset.sum_congr rfl
    intro k _
    have := (hc k).ne'
    have := hs0 k
    rw [hss k]
    congr 1
    simp only [rescale]
    field_simp
    ring
  have e2 : ∀ x y, plusDist s' (rescale c t x) (rescale c t y) = plusDist s x y := by
    intro x y
    unfold plusDist
    congr 1
    apply Finset.sum_congr rfl
    intro k _
    have h1 := (hc k).ne'
    have h2 := hs0 k
    rw [hss k]
    congr 1
    have : max (rescale c t y k - rescale c t x k) 0 = c k * max (y k - x k) 0 := by
      rw [mul_max_of_nonneg _ _ (hc k).le]
      simp only [rescale]; ring_nf
    rw [this]
    field_simp
  cases kind <;> simp only [textbook]
  · rw [genDist_map _ e1]
  · rw [invGenDist_map _ e1]
  · rw [genDist_map _ e2]
  · rw [invGenDist_map _ e2]

/-! ### witnesses -/

/-- A package that fulfils the contract (its own textbook definition). -/
noncomputable def textbookMoo : Moocore m :=
  ⟨fun F pf => invGenDist (euclid fun _ => 1) pf F, fun F pf => invGenDist (plusDist fun _ => 1) pf F, fun _ _ => 0, fun _ _ => 0⟩

theorem textbookMoo_contract : MooIgdContract (textbookMoo : Moocore m) := ⟨fun _ _ _ _ => rfl, fun _ _ _ _ => rfl⟩

theorem least_single {P : Type*} (f : P → ℝ) (x : P) : least f [x] = f x := by
  have := min?_eq_least f [x] (by simp)
  simpa using this.symm

theorem euclid_one_fst (x y c : ℝ) : euclid (fun _ : Fin 2 => 1) ![x, c] ![y, c] = |x - y| := by
  unfold euclid
  simp [Fin.sum_univ_two, Real.sqrt_sq_eq_abs]

/-- Plain distances to a single reference point, single solution. -/
theorem distInit_single (p : Fin m → ℝ) : distInit { pf := [p] } = some ⟨none, p, p, false, [p]⟩ := by
  simp [distInit, ptMin, ptMax]

/-- **GD and IGD do not respect domination**: the solution (0, 0) dominates (2, 0), but is reported as worse for the
reference point (3, 0)... the reference being worse than both, GD and IGD reward being bad. -/
theorem C59_gd_igd_not_compliant : ∃ (moo : Moocore 2) (a : DistArgs 2) (I : DistInd 2) (A B : List (Fin 2 → ℝ)),
    MooIgdContract moo ∧ distInit a = some I ∧ ProperUnits a ∧ A ≠ [] ∧ B ≠ [] ∧ Covers A B ∧
    (∃ va vb, distDo moo .gd I A = some va ∧ distDo moo .gd I B = some vb ∧ vb < va) ∧
    (∃ va vb, distDo moo .igd I A = some va ∧ distDo moo .igd I B = some vb ∧ vb < va) := by
  have hI := distInit_single (![3, 0] : Fin 2 → ℝ)
  have hs : Units ({ pf := [![3, 0]] } : DistArgs 2) (fun _ => 1) :=
    ⟨![3, 0], ![3, 0], fun k => by constructor <;> constructor <;> simp [lowerBounds, upperBounds], fun k => by simp⟩
  refine ⟨textbookMoo, { pf := [![3, 0]] }, _, [![0, 0]], [![2, 0]], textbookMoo_contract, hI,
    C59_proper_units _ _ hI (Or.inr rfl), by simp, by simp, ?_, ?_, ?_⟩
  · intro b hb
    simp only [List.mem_singleton] at hb
    subst hb
    refine ⟨_, List.mem_singleton_self _, ?_⟩
    intro k
    fin_cases k <;> simp
  · refine ⟨_, _, C59_value _ textbookMoo_contract _ _ _ hI _ hs _ (by simp), C59_value _ textbookMoo_contract _ _ _ hI _ hs _ (by simp), ?_⟩
    simp only [textbook, genDist, avg, List.map_cons, List.map_nil, least_single, List.sum_cons, List.sum_nil, List.length_singleton, euclid_one_fst]
    norm_num
  · refine ⟨_, _, C59_value _ textbookMoo_contract _ _ _ hI _ hs _ (by simp), C59_value _ textbookMoo_contract _ _ _ hI _ hs _ (by simp), ?_⟩
    simp only [textbook, invGenDist, avg, List.map_cons, List.map_nil, least_single, List.sum_cons, List.sum_nil, List.length_singleton, euclid_one_fst]
    norm_num

/-- **An empty set of solutions is reported as perfect** by every indicator (`core/indicator.py:26-27`): the value `0`, which no
non-empty set can beat. -/
theorem C59_empty_perfect (moo : Moocore m) (hmoo : MooIgdContract moo) (a : DistArgs m) (I : DistInd m)
    (hI : distInit a = some I) (kind : DistKind) : distDo moo kind I [] = some 0 ∧
      ∀ F v, distDo moo kind I F = some v → 0 ≤ v := by
  refine ⟨rfl, fun F v h => ?_⟩
  obtain ⟨w, hw, h0⟩ := C59_nonneg moo hmoo a I hI kind F
  rw [hw, Option.some.injEq] at h
  exact h ▸ h0

/-- Non-vacuity of the hypotheses on an object with two reference points and `zero_to_one`. -/
example : ∃ I : DistInd 2, distInit { pf := [![0, 1], ![1, 0]], zeroToOne := true } = some I ∧
    ProperUnits ({ pf := [![0, 1], ![1, 0]], zeroToOne := true } : DistArgs 2) := by
  have : ∃ I : DistInd 2, distInit { pf := [![0, 1], ![1, 0]], zeroToOne := true } = some I := by
    rw [C59_accepts]
    refine ⟨by simp, fun _ lo hi h k => ?_⟩
    exact (h k).1.2 (h k).2.1
  obtain ⟨I, hI⟩ := this
  exact ⟨I, hI, C59_proper_units _ I hI (Or.inl rfl)⟩

example : Covers ([![0, 0]] : List (Fin 2 → ℝ)) [![1, 0], ![0, 2]] := by
  intro b hb
  refine ⟨_, List.mem_singleton_self _, fun k => ?_⟩
  simp only [List.mem_cons, List.not_mem_nil, or_false] at hb
  rcases hb with rfl | rfl <;> fin_cases k <;> simp

end Props
