import Verif.Model.Duplicate
import Mathlib.Data.List.Sublists
import Mathlib.Data.List.Nodup
import Mathlib.Tactic.Common
import Mathlib.Order.Basic

set_option linter.unusedSimpArgs false

namespace Lemmas
open Model
variable {ι : Type*}

theorem keepUnmarked_map (pop : List ι) (f : ι → Bool) :
    keepUnmarked pop (pop.map f) = pop.filter (fun x => !f x) := by
  induction pop with
  | nil => rfl
  | cons x xs ih =>
    have : keepUnmarked (x :: xs) ((x :: xs).map f) =
        (if f x then [] else [x]) ++ keepUnmarked xs (xs.map f) := by
      by_cases h : f x = true <;> simp [keepUnmarked, h]
    rw [this, ih]
    by_cases h : f x = true <;> simp [h]

theorem keepUnmarked_cons (x : ι) (xs : List ι) (b : Bool) (bs : List Bool) :
    keepUnmarked (x :: xs) (b :: bs) = if b then keepUnmarked xs bs else x :: keepUnmarked xs bs := by
  cases b <;> simp [keepUnmarked]

/-- Recursive form of the default self-elimination: `pre` are the rows before the current one. -/
def dfl (near : ι → ι → Bool) : List ι → List ι → List ι
  | _, [] => []
  | pre, x :: xs => if pre.any (near x) then dfl near (pre ++ [x]) xs else x :: dfl near (pre ++ [x]) xs

theorem keep_default (near : ι → ι → Bool) (pop : List ι) : ∀ pre : List ι,
    keepUnmarked pop ((pop.zipIdx pre.length).map fun (x, i) => ((pre ++ pop).take i).any (near x)) =
      dfl near pre pop := by
  induction pop with
  | nil => intro pre; rfl
  | cons x xs ih =>
    intro pre
    rw [List.zipIdx_cons, List.map_cons, keepUnmarked_cons, dfl]
    have h1 : (pre ++ x :: xs).take pre.length = pre := by simp
    have h2 : pre ++ x :: xs = (pre ++ [x]) ++ xs := by simp
    have := ih (pre ++ [x])
    rw [List.length_append, List.length_singleton] at this
    simp only [h1]
    rw [h2, this]

theorem keep_default' (near : ι → ι → Bool) (pop : List ι) :
    keepUnmarked pop ((defaultMasks near).itself pop) = dfl near [] pop := by
  have := keep_default near pop []
  simpa [defaultMasks] using this

theorem dfl_sublist (near : ι → ι → Bool) (pop : List ι) : ∀ pre, (dfl near pre pop).Sublist pop := by
  induction pop with
  | nil => intro pre; exact List.Sublist.refl _
  | cons x xs ih =>
    intro pre
    rw [dfl]
    split_ifs
    · exact (ih _).cons x
    · exact (ih _).cons_cons x

theorem dfl_not_near (near : ι → ι → Bool) (pop : List ι) : ∀ pre,
    (∀ x ∈ dfl near pre pop, ∀ y ∈ pre, near x y = false) ∧
    (dfl near pre pop).Pairwise (fun a b => near b a = false) := by
  induction pop with
  | nil => intro pre; simp [dfl]
  | cons x xs ih =>
    intro pre
    obtain ⟨h1, h2⟩ := ih (pre ++ [x])
    rw [dfl]
    split_ifs with h
    · exact ⟨fun z hz y hy => h1 z hz y (by simp [hy]), h2⟩
    · refine ⟨fun z hz y hy => ?_, ?_⟩
      · rcases List.mem_cons.1 hz with rfl | hz
        · by_contra hc
          exact h (List.any_eq_true.2 ⟨y, hy, by simpa using hc⟩)
        · exact h1 z hz y (by simp [hy])
      · rw [List.pairwise_cons]
        exact ⟨fun z hz => h1 z hz x (by simp), h2⟩

theorem dfl_removed (near : ι → ι → Bool) (pop : List ι) : ∀ pre, ∀ x ∈ pop, x ∉ dfl near pre pop →
    ∃ l r, pop = l ++ x :: r ∧ ∃ y ∈ pre ++ l, near x y = true := by
  induction pop with
  | nil => intro pre x hx; simp at hx
  | cons a xs ih =>
    intro pre x hx hnot
    by_cases hxa : x = a
    · subst hxa
      rw [dfl] at hnot
      split_ifs at hnot with h
      · obtain ⟨y, hy, hn⟩ := List.any_eq_true.1 h
        exact ⟨[], xs, rfl, y, by simpa using hy, hn⟩
      · simp at hnot
    · have hx' : x ∈ xs := by
        rcases List.mem_cons.1 hx with h | h
        · exact absurd h hxa
        · exact h
      have hnot' : x ∉ dfl near (pre ++ [a]) xs := by
        rw [dfl] at hnot
        split_ifs at hnot
        · exact hnot
        · exact fun h => hnot (List.mem_cons_of_mem _ h)
      obtain ⟨l, r, he, y, hy, hn⟩ := ih (pre ++ [a]) x hx' hnot'
      exact ⟨a :: l, r, by simp [he], y, by simpa using hy, hn⟩

/-- For a transitive relation every removed individual is near a kept one (or an earlier one). -/
theorem dfl_cover (near : ι → ι → Bool) (htr : ∀ x y z, near x y = true → near y z = true → near x z = true) (pop : List ι) : ∀ pre, ∀ x ∈ pop,
    x ∈ dfl near pre pop ∨ (∃ y ∈ dfl near pre pop, near x y = true) ∨ ∃ y ∈ pre, near x y = true := by
  induction pop with
  | nil => intro pre x hx; simp at hx
  | cons a xs ih =>
    intro pre x hx
    have step : ∀ x, (∃ y ∈ pre ++ [a], near x y = true) → x ∈ dfl near pre (a :: xs) ∨
        (∃ y ∈ dfl near pre (a :: xs), near x y = true) ∨ ∃ y ∈ pre, near x y = true := by
      rintro x ⟨y, hy, hn⟩
      rcases List.mem_append.1 hy with hy | hy
      · exact .inr (.inr ⟨y, hy, hn⟩)
      · rw [List.mem_singleton] at hy
        subst hy
        rw [dfl]
        split_ifs with h
        · obtain ⟨z, hz, hyz⟩ := List.any_eq_true.1 h
          exact .inr (.inr ⟨z, hz, htr _ _ _ hn hyz⟩)
        · exact .inr (.inl ⟨y, by simp, hn⟩)
    have lift : ∀ z, z ∈ dfl near (pre ++ [a]) xs → z ∈ dfl near pre (a :: xs) := by
      intro z hz
      rw [dfl]
      split_ifs
      · exact hz
      · exact List.mem_cons_of_mem _ hz
    rcases List.mem_cons.1 hx with rfl | hx
    · rw [dfl]
      split_ifs with h
      · obtain ⟨z, hz, hyz⟩ := List.any_eq_true.1 h
        exact .inr (.inr ⟨z, hz, hyz⟩)
      · exact .inl (by simp)
    · rcases ih (pre ++ [a]) x hx with h | ⟨y, hy, hn⟩ | h
      · exact .inl (lift x h)
      · exact .inr (.inl ⟨y, lift y hy, hn⟩)
      · exact step x h

/-- Recursive form of the element-wise self-elimination. -/
def elw (close : ι → ι → Bool) : List ι → List ι
  | [] => []
  | x :: xs => if xs.any (close x) then elw close xs else x :: elw close xs

theorem keep_elementwise (close : ι → ι → Bool) (pop : List ι) : ∀ pre : List ι,
    keepUnmarked pop ((pop.zipIdx pre.length).map fun (x, i) => ((pre ++ pop).drop (i + 1)).any (close x)) =
      elw close pop := by
  induction pop with
  | nil => intro pre; rfl
  | cons x xs ih =>
    intro pre
    rw [List.zipIdx_cons, List.map_cons, keepUnmarked_cons, elw]
    have h1 : (pre ++ x :: xs).drop (pre.length + 1) = xs := by
      rw [show pre ++ x :: xs = (pre ++ [x]) ++ xs by simp]
      rw [List.drop_left' (by simp)]
    have h2 : pre ++ x :: xs = (pre ++ [x]) ++ xs := by simp
    have := ih (pre ++ [x])
    rw [List.length_append, List.length_singleton] at this
    simp only [h1]
    rw [h2, this]

theorem elw_sublist (close : ι → ι → Bool) (pop : List ι) : (elw close pop).Sublist pop := by
  induction pop with
  | nil => exact List.Sublist.refl _
  | cons x xs ih =>
    rw [elw]
    split_ifs
    · exact ih.cons x
    · exact ih.cons_cons x

theorem elw_pairwise (close : ι → ι → Bool) (pop : List ι) :
    (elw close pop).Pairwise (fun a b => close a b = false) := by
  induction pop with
  | nil => exact List.Pairwise.nil
  | cons x xs ih =>
    rw [elw]
    split_ifs with h
    · exact ih
    · rw [List.pairwise_cons]
      refine ⟨fun z hz => ?_, ih⟩
      by_contra hc
      exact h (List.any_eq_true.2 ⟨z, (elw_sublist close xs).subset hz, by simpa using hc⟩)

theorem elw_removed (close : ι → ι → Bool) (pop : List ι) : ∀ x ∈ pop, x ∉ elw close pop →
    ∃ l r, pop = l ++ x :: r ∧ ∃ y ∈ r, close x y = true := by
  induction pop with
  | nil => intro x hx; simp at hx
  | cons a xs ih =>
    intro x hx hnot
    by_cases hxa : x = a
    · subst hxa
      rw [elw] at hnot
      split_ifs at hnot with h
      · obtain ⟨y, hy, hn⟩ := List.any_eq_true.1 h
        exact ⟨[], xs, rfl, y, hy, hn⟩
      · simp at hnot
    · have hx' : x ∈ xs := by
        rcases List.mem_cons.1 hx with h | h
        · exact absurd h hxa
        · exact h
      have hnot' : x ∉ elw close xs := by
        rw [elw] at hnot
        split_ifs at hnot
        · exact hnot
        · exact fun h => hnot (List.mem_cons_of_mem _ h)
      obtain ⟨l, r, he, h⟩ := ih x hx' hnot'
      exact ⟨a :: l, r, by simp [he], h⟩

/-- For a transitive relation every removed individual is close to a kept one. -/
theorem elw_cover (close : ι → ι → Bool) (htr : ∀ x y z, close x y = true → close y z = true → close x z = true)
    (pop : List ι) : ∀ x ∈ pop, x ∈ elw close pop ∨ ∃ y ∈ elw close pop, close x y = true := by
  induction pop with
  | nil => intro x hx; simp at hx
  | cons a xs ih =>
    intro x hx
    have lift : ∀ z, z ∈ elw close xs → z ∈ elw close (a :: xs) := by
      intro z hz
      rw [elw]
      split_ifs
      · exact hz
      · exact List.mem_cons_of_mem _ hz
    rcases List.mem_cons.1 hx with rfl | hx
    · by_cases h : xs.any (close x) = true
      · obtain ⟨y, hy, hn⟩ := List.any_eq_true.1 h
        rcases ih y hy with h1 | ⟨z, hz, hyz⟩
        · exact .inr ⟨y, lift y h1, hn⟩
        · exact .inr ⟨z, lift z hz, htr _ _ _ hn hyz⟩
      · rw [elw, if_neg h]; exact .inl (by simp)
    · rcases ih x hx with h | ⟨y, hy, hn⟩
      · exact .inl (lift x h)
      · exact .inr ⟨y, lift y hy, hn⟩

/-- Elimination against the other populations, for the masks that look at each individual separately. -/
theorem dedupArgs_filter (d : DupMasks ι) (near : ι → ι → Bool)
    (hd : ∀ pop other, d.against pop other = pop.map fun x => other.any (near x)) (args : List (List ι)) :
    ∀ pop, dedupArgs d pop args = pop.filter (fun x => args.all fun a => !a.any (near x)) := by
  induction args with
  | nil => intro pop; simp [dedupArgs]
  | cons a args ih =>
    intro pop
    rw [dedupArgs]
    by_cases ha : a.length > 0
    · rw [if_pos ha]
      by_cases hp : pop.length = 0
      · rw [if_pos hp, List.length_eq_zero_iff.1 hp]; rfl
      · rw [if_neg hp, hd, keepUnmarked_map, ih, List.filter_filter]
        congr 1
        funext x
        simp [Bool.and_comm]
    · rw [if_neg ha, ih]
      have : a = [] := List.length_eq_zero_iff.1 (by omega)
      subst this
      simp

section Hash
variable {η : Type*} [DecidableEq η]

def hsh (h : ι → η) : List η → List ι → List ι
  | _, [] => []
  | H, x :: xs => if h x ∈ H then hsh h H xs else x :: hsh h (h x :: H) xs

theorem keep_hash (h : ι → η) (pop : List ι) : ∀ H, keepUnmarked pop (hashLoop h pop H) = hsh h H pop := by
  induction pop with
  | nil => intro H; rfl
  | cons x xs ih =>
    intro H
    rw [hashLoop, hsh]
    by_cases hm : h x ∈ H
    · rw [if_pos hm, if_pos hm, keepUnmarked_cons, if_pos rfl, ih]
    · rw [if_neg hm, if_neg hm, keepUnmarked_cons, if_neg (by simp), ih]

theorem hsh_spec (h : ι → η) (pop : List ι) : ∀ H,
    (hsh h H pop).Sublist pop ∧ (∀ x ∈ hsh h H pop, h x ∉ H) ∧
    (hsh h H pop).Pairwise (fun a b => h a ≠ h b) ∧
    (∀ x ∈ pop, h x ∈ H ∨ ∃ y ∈ hsh h H pop, h y = h x) := by
  induction pop with
  | nil => intro H; simp [hsh]
  | cons a xs ih =>
    intro H
    rw [hsh]
    by_cases hm : h a ∈ H
    · obtain ⟨h1, h2, h3, h4⟩ := ih H
      rw [if_pos hm]
      refine ⟨h1.cons a, h2, h3, fun x hx => ?_⟩
      rcases List.mem_cons.1 hx with rfl | hx
      · exact .inl hm
      · exact h4 x hx
    · obtain ⟨h1, h2, h3, h4⟩ := ih (h a :: H)
      rw [if_neg hm]
      refine ⟨h1.cons_cons a, ?_, ?_, ?_⟩
      · intro x hx
        rcases List.mem_cons.1 hx with rfl | hx
        · exact hm
        · exact fun hh => h2 x hx (List.mem_cons_of_mem _ hh)
      · rw [List.pairwise_cons]
        exact ⟨fun x hx he => h2 x hx (by simp [he]), h3⟩
      · intro x hx
        rcases List.mem_cons.1 hx with rfl | hx
        · exact .inr ⟨x, by simp, rfl⟩
        · rcases h4 x hx with hh | ⟨y, hy, he⟩
          · rcases List.mem_cons.1 hh with hh | hh
            · exact .inr ⟨a, by simp, hh.symm⟩
            · exact .inl hh
          · exact .inr ⟨y, by simp [hy], he⟩

/-- On a population with distinct hashes the loop only looks at the initial set. -/
theorem hsh_distinct (h : ι → η) (pop : List ι) : ∀ H, pop.Pairwise (fun a b => h a ≠ h b) →
    hsh h H pop = pop.filter (fun x => decide (h x ∉ H)) := by
  induction pop with
  | nil => intro H _; rfl
  | cons a xs ih =>
    intro H hp
    rw [List.pairwise_cons] at hp
    rw [hsh]
    by_cases hm : h a ∈ H
    · rw [if_pos hm, ih H hp.2]; simp [hm]
    · rw [if_neg hm, ih _ hp.2]
      simp only [List.filter_cons, hm, not_false_eq_true, decide_true, if_true, List.cons.injEq, true_and]
      apply List.filter_congr
      intro x hx
      simp [(hp.1 x hx).symm]

theorem dedupArgs_hash (h : ι → η) (args : List (List ι)) : ∀ pop : List ι, pop.Pairwise (fun a b => h a ≠ h b) →
    dedupArgs (hashMasks h) pop args = pop.filter (fun x => decide (∀ a ∈ args, ∀ y ∈ a, h y ≠ h x)) := by
  induction args with
  | nil => intro pop _; simp [dedupArgs]
  | cons a args ih =>
    intro pop hp
    rw [dedupArgs]
    by_cases ha : a.length > 0
    · rw [if_pos ha]
      by_cases h0 : pop.length = 0
      · rw [if_pos h0, List.length_eq_zero_iff.1 h0]; rfl
      · rw [if_neg h0]
        have : keepUnmarked pop ((hashMasks h).against pop a) = pop.filter (fun x => decide (h x ∉ a.map h)) := by
          simp only [hashMasks]
          rw [keep_hash, hsh_distinct _ _ _ hp]
        rw [this, ih _ (hp.sublist List.filter_sublist), List.filter_filter]
        apply List.filter_congr
        intro x _
        simp only [List.mem_map, not_exists, not_and, List.mem_cons, forall_eq_or_imp, Bool.decide_and]
        rw [Bool.and_comm]
    · rw [if_neg ha, ih pop hp]
      have : a = [] := List.length_eq_zero_iff.1 (by omega)
      subst this
      simp

end Hash

/-! ## `get_duplicates` -/

section GD
variable {ρ : Type*} [LinearOrder ρ]

/-- What the inner loop finds: a run of rows equal to the first one, followed by a different row. -/
theorem gdInner_some : ∀ (L : List (ρ × ι)) (l : List ι) (r : List ι × List (ρ × ι)), gdInner l L = some r →
    ∃ run c d rest, L = run ++ c :: d :: rest ∧ r = (l ++ run.map Prod.snd, c :: d :: rest) ∧ c.1 ≠ d.1 ∧
      ∀ x ∈ run, x.1 = c.1
  | a :: b :: rest, l, r, h => by
    rw [gdInner] at h
    split_ifs at h with hab
    · obtain ⟨run, c, d, rest', h1, h2, h3, h4⟩ := gdInner_some (b :: rest) (l ++ [a.2]) r h
      refine ⟨a :: run, c, d, rest', by rw [h1]; rfl, by simp [h2], h3, ?_⟩
      intro x hx
      rcases List.mem_cons.1 hx with rfl | hx
      · rw [hab]
        cases run with
        | nil => simp only [List.nil_append, List.cons.injEq] at h1; rw [h1.1]
        | cons e run =>
          simp only [List.cons_append, List.cons.injEq] at h1
          rw [h1.1]; exact h4 e (by simp)
      · exact h4 x hx
    · simp only [Option.some.injEq] at h
      exact ⟨[], a, b, rest, rfl, by simp [← h], hab, by simp⟩
  | [_], l, r, h => by simp [gdInner] at h
  | [], l, r, h => by simp [gdInner] at h

theorem gdInner_none : ∀ (L : List (ρ × ι)) (l : List ι), gdInner l L = none → L = [] ∨
    ∃ run c, L = run ++ [c] ∧ ∀ x ∈ run, x.1 = c.1
  | a :: b :: rest, l, h => by
    rw [gdInner] at h
    split_ifs at h with hab
    rcases gdInner_none (b :: rest) (l ++ [a.2]) h with h0 | ⟨run, c, h1, h2⟩
    · simp at h0
    · refine .inr ⟨a :: run, c, by rw [h1]; rfl, ?_⟩
      intro x hx
      rcases List.mem_cons.1 hx with rfl | hx
      · rw [hab]
        cases run with
        | nil => simp only [List.nil_append, List.cons.injEq] at h1; rw [h1.1]
        | cons e run =>
          simp only [List.cons_append, List.cons.injEq] at h1
          rw [h1.1]; exact h2 e (by simp)
      · exact h2 x hx
  | [c], _, _ => .inr ⟨[], c, rfl, by simp⟩
  | [], _, _ => .inl rfl

/-- The outer loop fails exactly if the last two rows are equal. -/
theorem gdOuter_none (L : List (ρ × ι)) : gdOuter L = none ↔ ∃ l c d, L = l ++ [c, d] ∧ c.1 = d.1 := by
  induction hn : L.length using Nat.strong_induction_on generalizing L with
  | _ n ih =>
    match L, hn with
    | [], _ => simp [gdOuter]
    | [a], _ =>
      rw [gdOuter]
      simp only [reduceCtorEq, false_iff, not_exists, not_and]
      intro l c d h
      have := congrArg List.length h
      simp at this
    | a :: b :: rest, hn =>
      rw [gdOuter]
      split
      · next h =>
        simp only [true_iff]
        rcases gdInner_none _ _ h with h0 | ⟨run, c, h1, h2⟩
        · simp at h0
        · rcases List.eq_nil_or_concat run with h0 | ⟨run', d, h0⟩
          · subst h0; simp at h1
          · rw [List.concat_eq_append] at h0
            subst h0
            refine ⟨run', d, c, by rw [h1]; simp, h2 d (by simp)⟩
      · next l h =>
        obtain ⟨run, c, d, rest', h1, h2, h3, h4⟩ := gdInner_some _ _ _ h
        simp at h2
      · next l c rest' h =>
        obtain ⟨run, c', d, rest'', h1, h2, h3, h4⟩ := gdInner_some _ _ _ h
        simp only [Prod.mk.injEq, List.cons.injEq] at h2
        obtain ⟨h2a, rfl, rfl⟩ := h2
        rw [Option.map_eq_none_iff, ih (d :: rest'').length (by
          have := congrArg List.length h1
          simp only [List.length_append, List.length_cons] at this hn ⊢
          omega) (d :: rest'') rfl]
        constructor
        · rintro ⟨l', x, y, h5, h6⟩
          exact ⟨run ++ c :: l', x, y, by rw [h1, h5]; simp, h6⟩
        · rintro ⟨l', x, y, h5, h6⟩
          rcases List.eq_nil_or_concat rest'' with h0 | ⟨t, e, h0⟩
          · subst h0
            rw [h1, show run ++ [c, d] = (run ++ [c]) ++ [d] by simp,
              show l' ++ [x, y] = (l' ++ [x]) ++ [y] by simp] at h5
            obtain ⟨h7, h8⟩ := List.append_inj' h5 rfl
            obtain ⟨_, h9⟩ := List.append_inj' h7 rfl
            simp only [List.cons.injEq, and_true] at h8 h9
            rw [h8, h9] at h3
            exact absurd h6 h3
          · rw [List.concat_eq_append] at h0
            subst h0
            -- the last two rows are in `d :: t ++ [e]`
            rcases List.eq_nil_or_concat t with h0 | ⟨t', e', h0⟩
            · subst h0
              refine ⟨[], d, e, rfl, ?_⟩
              rw [h1, show run ++ c :: d :: ([] ++ [e]) = (run ++ [c]) ++ [d, e] by simp] at h5
              obtain ⟨_, h8⟩ := List.append_inj' h5 rfl
              simp only [List.cons.injEq, and_true] at h8
              rw [h8.1, h8.2]; exact h6
            · rw [List.concat_eq_append] at h0
              subst h0
              refine ⟨d :: t', e', e, by simp, ?_⟩
              rw [h1, show run ++ c :: d :: (t' ++ [e'] ++ [e]) = (run ++ c :: d :: t') ++ [e', e] by simp] at h5
              obtain ⟨_, h8⟩ := List.append_inj' h5 rfl
              simp only [List.cons.injEq, and_true] at h8
              rw [h8.1, h8.2]; exact h6

/-- The groups returned for sorted rows. -/
theorem gdOuter_some (L : List (ρ × ι)) (hs : L.Pairwise (fun a b => a.1 ≤ b.1)) (res : List (List ι))
    (h : gdOuter L = some res) :
    res.flatten.Sublist (L.map Prod.snd) ∧ (∀ g ∈ res, 2 ≤ g.length) ∧
    (∀ g ∈ res, ∃ row, g = (L.filter (fun x => decide (x.1 = row))).map Prod.snd) ∧
    (∀ l a m b r, L = l ++ a :: (m ++ b :: r) → a.1 = b.1 → ∃ g ∈ res, a.2 ∈ g ∧ b.2 ∈ g) := by
  induction hn : L.length using Nat.strong_induction_on generalizing L res with
  | _ n ih =>
    have short : ∀ L : List (ρ × ι), L.length ≤ 1 → ∀ l a m b r, ¬ L = l ++ a :: (m ++ b :: r) := by
      intro L hL l a m b r he
      have := congrArg List.length he
      simp at this
      omega
    match L, hn with
    | [], _ =>
      simp [gdOuter] at h
      subst h
      exact ⟨by simp, by simp, by simp, fun l a m b r he => absurd he (short _ (by simp) l a m b r)⟩
    | [a], _ =>
      simp [gdOuter] at h
      subst h
      exact ⟨by simp, by simp, by simp, fun l a m b r he => absurd he (short _ (by simp) l a m b r)⟩
    | a :: b :: rest, hn =>
      rw [gdOuter] at h
      split at h
      · simp at h
      · next l hi =>
        obtain ⟨run, c, d, rest', h1, h2, h3, h4⟩ := gdInner_some _ _ _ hi
        simp at h2
      · next l c rest' hi =>
        obtain ⟨run, c', d, rest'', h1, h2, h3, h4⟩ := gdInner_some _ _ _ hi
        simp only [Prod.mk.injEq, List.cons.injEq] at h2
        obtain ⟨h2a, rfl, rfl⟩ := h2
        rw [List.nil_append] at h2a
        obtain ⟨res', hr', hres⟩ := Option.map_eq_some_iff.1 h
        rw [h1] at hs ⊢
        have hs' : (d :: rest'').Pairwise (fun a b => a.1 ≤ b.1) := by
          rw [List.pairwise_append] at hs
          exact (List.pairwise_cons.1 hs.2.1).2
        have hgt : ∀ x ∈ d :: rest'', c.1 < x.1 := by
          rw [List.pairwise_append] at hs
          have h5 := (List.pairwise_cons.1 hs.2.1)
          intro x hx
          have hcd : c.1 < d.1 := lt_of_le_of_ne (h5.1 d (by simp)) h3
          rcases List.mem_cons.1 hx with rfl | hx
          · exact hcd
          · exact lt_of_lt_of_le hcd ((List.pairwise_cons.1 h5.2).1 x hx)
        obtain ⟨i1, i2, i3, i4⟩ := ih (d :: rest'').length (by
          have := congrArg List.length h1
          simp only [List.length_append, List.length_cons] at this hn ⊢
          omega) (d :: rest'') hs' res' hr' rfl
        have hflt : ∀ row, (∃ x ∈ d :: rest'', x.1 = row) →
            (run ++ c :: d :: rest'').filter (fun x => decide (x.1 = row)) =
              (d :: rest'').filter (fun x => decide (x.1 = row)) := by
          rintro row ⟨x, hx, rfl⟩
          have hne : ¬ c.1 = x.1 := (hgt x hx).ne
          rw [List.filter_append, List.filter_cons_of_neg (by simpa using hne),
            List.filter_eq_nil_iff.2 (fun y hy => by simp [h4 y hy, hne]), List.nil_append]
        have hflc : (run ++ c :: d :: rest'').filter (fun x => decide (x.1 = c.1)) = run ++ [c] := by
          have e1 : (d :: rest'').filter (fun x => decide (x.1 = c.1)) = [] := by
            rw [List.filter_eq_nil_iff]
            intro y hy
            have := (hgt y hy).ne'
            simp [this]
          have e2 : run.filter (fun x => decide (x.1 = c.1)) = run := by
            rw [List.filter_eq_self]
            intro y hy
            simp [h4 y hy]
          rw [List.filter_append, List.filter_cons_of_pos (by simp), e1, e2]
        have i3' : ∀ g ∈ res', ∃ row, g = ((run ++ c :: d :: rest'').filter (fun x => decide (x.1 = row))).map
            Prod.snd := by
          intro g hg
          obtain ⟨row, hrow⟩ := i3 g hg
          have hne : ((d :: rest'').filter (fun x => decide (x.1 = row))) ≠ [] := by
            intro h0
            have := i2 g hg
            rw [hrow, h0] at this
            simp at this
          obtain ⟨x, hx⟩ := List.exists_mem_of_ne_nil _ hne
          rw [List.mem_filter] at hx
          exact ⟨row, by rw [hflt row ⟨x, hx.1, by simpa using hx.2⟩]; exact hrow⟩
        -- position of a pair of equal rows
        have hpair : ∀ l' a' m b' r', run ++ c :: d :: rest'' = l' ++ a' :: (m ++ b' :: r') → a'.1 = b'.1 →
            (a' ∈ run ++ [c] ∧ b' ∈ run ++ [c] ∧ run ≠ []) ∨
            (∃ l'', d :: rest'' = l'' ++ a' :: (m ++ b' :: r')) := by
          intro l' a' m b' r' he hab
          have he2 : (run ++ [c]) ++ (d :: rest'') = l' ++ a' :: (m ++ b' :: r') := by rw [← he]; simp
          by_cases hlen : (run ++ [c]).length ≤ l'.length
          · right
            refine ⟨l'.drop (run ++ [c]).length, ?_⟩
            have := congrArg (List.drop (run ++ [c]).length) he2
            rw [List.drop_left] at this
            rw [this, List.drop_append_of_le_length hlen]
          · left
            have ha : a' ∈ run ++ [c] := by
              have h6 : ((run ++ [c]) ++ (d :: rest''))[l'.length]? = some a' := by rw [he2]; simp
              rw [List.getElem?_append_left (by omega)] at h6
              exact List.mem_of_getElem? h6
            have hrow : ∀ x ∈ run ++ [c], x.1 = c.1 := by
              intro x hx
              rcases List.mem_append.1 hx with hx | hx
              · exact h4 x hx
              · rw [List.mem_singleton.1 hx]
            have hbm : b' ∈ (run ++ [c]) ++ (d :: rest'') := by rw [he2]; simp
            have hb : b' ∈ run ++ [c] := by
              rcases List.mem_append.1 hbm with h | h
              · exact h
              · have := (hgt b' h).ne
                rw [← hab, hrow a' ha] at this
                exact absurd rfl this
            refine ⟨ha, hb, ?_⟩
            rintro rfl
            -- then `a'` is the first and `b'` a later element equal to `c`
            have hl0 : l' = [] := by simpa using hlen
            subst hl0
            simp only [List.nil_append, List.singleton_append, List.cons.injEq] at he2
            have hb2 : b' ∈ d :: rest'' := by rw [he2.2]; simp
            have := (hgt b' hb2).ne
            rw [← hab, ← he2.1] at this
            exact absurd rfl this
        by_cases hrun : l.length > 0
        · rw [if_pos hrun] at hres
          subst hres
          refine ⟨?_, ?_, ?_, ?_⟩
          · rw [List.flatten_cons, show run ++ c :: d :: rest'' = (run ++ [c]) ++ (d :: rest'') by simp,
              List.map_append]
            refine List.Sublist.append ?_ i1
            rw [h2a, List.map_append]; simp
          · intro g hg
            rcases List.mem_cons.1 hg with rfl | hg
            · simp; omega
            · exact i2 g hg
          · intro g hg
            rcases List.mem_cons.1 hg with rfl | hg
            · exact ⟨c.1, by rw [hflc, h2a]; simp⟩
            · exact i3' g hg
          · intro l' a' m b' r' he hab
            rcases hpair l' a' m b' r' he hab with ⟨ha, hb, _⟩ | ⟨l'', he'⟩
            · refine ⟨l ++ [c.2], by simp, ?_, ?_⟩
              · rw [h2a, show run.map Prod.snd ++ [c.2] = (run ++ [c]).map Prod.snd by simp]
                exact List.mem_map_of_mem ha
              · rw [h2a, show run.map Prod.snd ++ [c.2] = (run ++ [c]).map Prod.snd by simp]
                exact List.mem_map_of_mem hb
            · obtain ⟨g, hg, hgg⟩ := i4 l'' a' m b' r' he' hab
              exact ⟨g, by simp [hg], hgg⟩
        · rw [if_neg hrun] at hres
          subst hres
          refine ⟨?_, i2, i3', ?_⟩
          · rw [show run ++ c :: d :: rest'' = (run ++ [c]) ++ (d :: rest'') by simp, List.map_append]
            exact i1.trans (List.sublist_append_right _ _)
          · intro l' a' m b' r' he hab
            rcases hpair l' a' m b' r' he hab with ⟨ha, hb, hne⟩ | ⟨l'', he'⟩
            · exfalso
              have : run.length = 0 := by rw [h2a] at hrun; simpa using hrun
              exact hne (List.length_eq_zero_iff.1 this)
            · exact i4 l'' a' m b' r' he' hab

end GD

end Lemmas
