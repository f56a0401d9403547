import Verif.Model.Survival
import Verif.Lemmas.NonDominatedSorting
import Verif.Lemmas.Sorting
import Verif.Props.Sorting
import Mathlib.Data.List.Perm.Subperm
import Mathlib.Data.List.Count

set_option linter.unusedSimpArgs false
set_option linter.unusedSectionVars false

namespace Lemmas
open Model Spec
variable {N m : ℕ} {α β : Type*} [LinearOrder β]

omit [LinearOrder β] in
theorem rcSave_survivors (front : List (Fin N)) (k : ℕ) (cr : Fin front.length → β) (st : RCState N β) :
    (rcSave front k cr st).survivors = st.survivors := by
  unfold rcSave
  generalize List.finRange front.length = js
  induction js generalizing st with
  | nil => rfl
  | cons j js ih => rw [List.foldl_cons, ih]

omit [LinearOrder β] in
theorem rcSave_aux (front : List (Fin N)) (hnd : front.Nodup) (k : ℕ) (cr : Fin front.length → β)
    (js : List (Fin front.length)) : ∀ st : RCState N β,
    let st' := js.foldl (fun (st : RCState N β) j =>
      { st with rank := Function.update st.rank (front.get j) (some k)
                crowding := Function.update st.crowding (front.get j) (some (cr j)) }) st
    (∀ i, (∀ j ∈ js, front.get j ≠ i) → st'.rank i = st.rank i ∧ st'.crowding i = st.crowding i) ∧
    (∀ j ∈ js, st'.rank (front.get j) = some k ∧ st'.crowding (front.get j) = some (cr j)) := by
  induction js with
  | nil => intro st; simp
  | cons j js ih =>
    intro st
    simp only [List.foldl_cons]
    obtain ⟨h1, h2⟩ := ih { st with
      rank := Function.update st.rank (front.get j) (some k)
      crowding := Function.update st.crowding (front.get j) (some (cr j)) }
    refine ⟨fun i hi => ?_, fun j' hj' => ?_⟩
    · obtain ⟨a, b⟩ := h1 i (fun j' hj' => hi j' (List.mem_cons_of_mem _ hj'))
      have : i ≠ front.get j := (hi j (by simp)).symm
      rw [a, b]
      simp only [Function.update_of_ne this, and_self]
    · by_cases hm : j' ∈ js
      · exact h2 j' hm
      · have : j' = j := by
          rcases List.mem_cons.1 hj' with h | h
          · exact h
          · exact absurd h hm
        subst this
        obtain ⟨a, b⟩ := h1 (front.get j') (fun j'' hj'' he => by
          have : j'' = j' := (List.nodup_iff_injective_get.1 hnd) he
          exact hm (this ▸ hj''))
        rw [a, b]
        simp

omit [LinearOrder β] in
theorem rcSave_spec (front : List (Fin N)) (hnd : front.Nodup) (k : ℕ) (cr : Fin front.length → β)
    (st : RCState N β) :
    (∀ i, i ∉ front → (rcSave front k cr st).rank i = st.rank i ∧ (rcSave front k cr st).crowding i = st.crowding i) ∧
    (∀ j, (rcSave front k cr st).rank (front.get j) = some k ∧
      (rcSave front k cr st).crowding (front.get j) = some (cr j)) := by
  obtain ⟨h1, h2⟩ := rcSave_aux front hnd k cr (List.finRange front.length) st
  refine ⟨fun i hi => h1 i (fun j _ he => hi (he ▸ List.get_mem _ _)), fun j => h2 j (List.mem_finRange j)⟩

theorem map_get_finRange {γ : Type*} (l : List γ) : (List.finRange l.length).map l.get = l := by
  rw [← List.ofFn_eq_map]; exact List.ofFn_get l

section
variable (F : Fin N → Fin m → α) (crowd : (l : ℕ) → (Fin l → Fin m → α) → ℕ → Fin l → β)
  (argsort : (l : ℕ) → (Fin l → β) → List (Fin l)) (P : ℕ → (l : ℕ) → Fin l → Fin l) (n : ℕ)

theorem rcLoop_concat (p : List (List (Fin N))) (f : List (Fin N)) :
    rcLoop F crowd argsort P n (p ++ [f]) =
      rcStep F crowd argsort P n (rcLoop F crowd argsort P n p) (f, p.length) := by
  simp [rcLoop, List.zipIdx_append, List.foldl_append]

/-- As long as everything fits, all fronts are taken. -/
theorem rcLoop_fits (p : List (List (Fin N))) (hnd : p.flatten.Nodup) (hfit : p.flatten.length ≤ n) :
    (rcLoop F crowd argsort P n p).survivors = p.flatten ∧
    ∀ k (hk : k < p.length), (∀ i ∈ p[k], (rcLoop F crowd argsort P n p).rank i = some k) ∧
      ∀ j : Fin p[k].length, (rcLoop F crowd argsort P n p).crowding (p[k].get j) =
        some (crowd p[k].length (fun j => F (p[k].get j)) 0 j) := by
  induction p using List.reverseRecOn with
  | nil => exact ⟨rfl, by simp⟩
  | append_singleton p f ih =>
    rw [List.flatten_append, List.flatten_singleton] at hnd hfit
    rw [List.length_append] at hfit
    have hd := List.nodup_append.1 hnd
    obtain ⟨h1, h2⟩ := ih hd.1 (by omega)
    rw [rcLoop_concat]
    have hno : ¬ (rcLoop F crowd argsort P n p).survivors.length + f.length > n := by rw [h1]; omega
    have hstep : rcStep F crowd argsort P n (rcLoop F crowd argsort P n p) (f, p.length) =
        { rcSave f p.length (crowd f.length (fun j => F (f.get j)) 0) (rcLoop F crowd argsort P n p) with
          survivors := p.flatten ++ f } := by
      unfold rcStep
      dsimp only
      rw [if_neg hno, rcSave_survivors, h1, map_get_finRange]
    rw [hstep]
    refine ⟨by simp, ?_⟩
    obtain ⟨s1, s2⟩ := rcSave_spec f hd.2.1 p.length (crowd f.length (fun j => F (f.get j)) 0)
      (rcLoop F crowd argsort P n p)
    intro k hk
    rw [List.length_append, List.length_singleton] at hk
    by_cases hlt : k < p.length
    · have hget : (p ++ [f])[k] = p[k] := List.getElem_append_left hlt
      have hnf : ∀ i ∈ p[k], i ∉ f := fun i hi hif =>
        hd.2.2 i (List.mem_flatten.2 ⟨p[k], List.getElem_mem hlt, hi⟩) i hif rfl
      obtain ⟨a, b⟩ := h2 k hlt
      refine ⟨fun i hi => ?_, fun j => ?_⟩
      · rw [hget] at hi
        rw [(s1 i (hnf i hi)).1]; exact a i hi
      · have : ∀ (g : List (Fin N)) (hg : g = p[k]) (j : Fin g.length),
            (rcSave f p.length (crowd f.length (fun j => F (f.get j)) 0) (rcLoop F crowd argsort P n p)).crowding
              (g.get j) = some (crowd g.length (fun j => F (g.get j)) 0 j) := by
          rintro g rfl j
          rw [(s1 _ (hnf _ (List.get_mem _ _))).2]; exact b j
        exact this _ hget j
    · have hk' : k = p.length := by omega
      subst hk'
      have hget : (p ++ [f])[p.length] = f := by simp
      refine ⟨fun i hi => ?_, fun j => ?_⟩
      · rw [hget] at hi
        obtain ⟨j, rfl⟩ := List.mem_iff_get.1 hi
        exact (s2 j).1
      · have : ∀ (g : List (Fin N)) (hg : g = f) (j : Fin g.length),
            (rcSave f p.length (crowd f.length (fun j => F (f.get j)) 0) (rcLoop F crowd argsort P n p)).crowding
              (g.get j) = some (crowd g.length (fun j => F (g.get j)) 0 j) := by
          rintro g rfl j
          exact (s2 j).2
        exact this _ hget j

/-- What the loop does on a shortest sufficient prefix of disjoint fronts. -/
theorem rcLoop_spec (hsort : ∀ l A, (argsort l A).Perm (List.finRange l) ∧ (argsort l A).Pairwise (fun a b => A a ≤ A b))
    (hP : ∀ k l, Function.Bijective (P k l)) (p : List (List (Fin N))) (f : List (Fin N))
    (hnd : (p ++ [f]).flatten.Nodup) (hfit : p.flatten.length ≤ n) (hn : n ≤ (p ++ [f]).flatten.length) :
    let st := rcLoop F crowd argsort P n (p ++ [f])
    ∃ cut : List (Fin N), st.survivors = p.flatten ++ cut ∧ st.survivors.length = n ∧ st.survivors.Nodup ∧
      (∀ i ∈ cut, i ∈ f) ∧
      (∀ i ∈ f, i ∈ cut → ∀ j ∈ f, j ∉ cut → ∃ ci cj, st.crowding i = some ci ∧ st.crowding j = some cj ∧ cj ≤ ci) ∧
      (∀ k (hk : k < (p ++ [f]).length), (∀ i ∈ (p ++ [f])[k], st.rank i = some k) ∧
        ∀ j : Fin (p ++ [f])[k].length, st.crowding ((p ++ [f])[k].get j) = some (crowd (p ++ [f])[k].length (fun j => F ((p ++ [f])[k].get j))
          (((p ++ [f]).take (k + 1)).flatten.length - n) j)) := by
  intro st
  by_cases hcut : (p ++ [f]).flatten.length ≤ n
  · obtain ⟨h1, h2⟩ := rcLoop_fits F crowd argsort P n (p ++ [f]) hnd hcut
    refine ⟨f, by simp [st, h1], by simp only [st, h1]; omega, by simp only [st, h1]; exact hnd, fun i hi => hi, ?_, ?_⟩
    · intro i _ _ j hj hj'; exact absurd hj hj'
    · intro k hk
      obtain ⟨a, b⟩ := h2 k hk
      refine ⟨a, fun j => ?_⟩
      have hle : ((p ++ [f]).take (k + 1)).flatten.length ≤ (p ++ [f]).flatten.length :=
        ((List.take_sublist _ _).flatten).length_le
      have h0 : ((p ++ [f]).take (k + 1)).flatten.length - n = 0 := by omega
      rw [h0]; exact b j
  · have hfl : (p ++ [f]).flatten = p.flatten ++ f := by simp
    rw [hfl] at hcut hn hnd
    rw [List.length_append] at hcut hn
    have hd := List.nodup_append.1 hnd
    obtain ⟨h1, h2⟩ := rcLoop_fits F crowd argsort P n p hd.1 hfit
    have hyes : (rcLoop F crowd argsort P n p).survivors.length + f.length > n := by rw [h1]; omega
    set nr := p.flatten.length + f.length - n with hnr
    set cr := crowd f.length (fun j => F (f.get j)) nr with hcr
    obtain ⟨_, I, hI, hIp, hIs⟩ := Props.C38_numpy (argsort f.length) (hsort f.length) (P p.length f.length)
      (hP _ _) cr
    have hIlen : I.length = f.length := by simpa using hIp.length_eq
    have hst : st = { rcSave f p.length cr (rcLoop F crowd argsort P n p) with
        survivors := p.flatten ++ (I.take (f.length - nr)).map f.get } := by
      simp only [st, rcLoop_concat]
      unfold rcStep
      dsimp only
      rw [if_pos hyes, rcSave_survivors, h1, ← hnr, ← hcr, hI]
      simp only [Option.getD_some, hIlen]
    obtain ⟨s1, s2⟩ := rcSave_spec f hd.2.1 p.length cr (rcLoop F crowd argsort P n p)
    have hinj : Function.Injective f.get := List.nodup_iff_injective_get.1 hd.2.1
    have hIn : I.Nodup := hIp.nodup_iff.2 (List.nodup_finRange _)
    have hcutmem : ∀ i ∈ (I.take (f.length - nr)).map f.get, i ∈ f := by
      intro i hi
      obtain ⟨j, _, rfl⟩ := List.mem_map.1 hi
      exact List.get_mem _ _
    refine ⟨(I.take (f.length - nr)).map f.get, by rw [hst], ?_, ?_, hcutmem, ?_, ?_⟩
    · rw [hst]
      simp only [List.length_append, List.length_map, List.length_take, hIlen]
      omega
    · rw [hst]
      simp only
      rw [List.nodup_append]
      refine ⟨hd.1, (hIn.sublist (List.take_sublist _ _)).map hinj, ?_⟩
      intro a ha b hb
      exact hd.2.2 a ha b (hcutmem b hb)
    · intro i hi hic j hj hjc
      obtain ⟨a, ha, rfl⟩ := List.mem_map.1 hic
      obtain ⟨b, rfl⟩ := List.mem_iff_get.1 hj
      refine ⟨cr a, cr b, by rw [hst]; exact (s2 a).2, by rw [hst]; exact (s2 b).2, ?_⟩
      have hb : b ∈ I.drop (f.length - nr) := by
        have : b ∈ I := hIp.mem_iff.2 (List.mem_finRange b)
        rw [← List.take_append_drop (f.length - nr) I, List.mem_append] at this
        rcases this with h | h
        · exact absurd (List.mem_map.2 ⟨b, h, rfl⟩) hjc
        · exact h
      rw [← List.take_append_drop (f.length - nr) I, List.pairwise_append] at hIs
      exact hIs.2.2 a ha b hb
    · intro k hk
      rw [List.length_append, List.length_singleton] at hk
      rw [hst]
      simp only
      by_cases hlt : k < p.length
      · have hget : (p ++ [f])[k] = p[k] := List.getElem_append_left hlt
        have hnf : ∀ i ∈ p[k], i ∉ f := fun i hi hif =>
          hd.2.2 i (List.mem_flatten.2 ⟨p[k], List.getElem_mem hlt, hi⟩) i hif rfl
        obtain ⟨a, b⟩ := h2 k hlt
        have h0 : ((p ++ [f]).take (k + 1)).flatten.length - n = 0 := by
          rw [List.take_append_of_le_length (by omega)]
          have := ((List.take_sublist (k + 1) p).flatten).length_le
          omega
        rw [h0]
        refine ⟨fun i hi => ?_, fun j => ?_⟩
        · rw [hget] at hi
          rw [(s1 i (hnf i hi)).1]; exact a i hi
        · have : ∀ (g : List (Fin N)) (hg : g = p[k]) (j : Fin g.length),
              (rcSave f p.length cr (rcLoop F crowd argsort P n p)).crowding
                (g.get j) = some (crowd g.length (fun j => F (g.get j)) 0 j) := by
            rintro g rfl j
            rw [(s1 _ (hnf _ (List.get_mem _ _))).2]; exact b j
          exact this _ hget j
      · have hk' : k = p.length := by omega
        subst hk'
        have hget : (p ++ [f])[p.length] = f := by simp
        have h0 : ((p ++ [f]).take (p.length + 1)).flatten.length - n = nr := by
          rw [List.take_of_length_le (by simp), hfl, List.length_append]
        rw [h0]
        refine ⟨fun i hi => ?_, fun j => ?_⟩
        · rw [hget] at hi
          obtain ⟨j, rfl⟩ := List.mem_iff_get.1 hi
          exact (s2 j).1
        · have : ∀ (g : List (Fin N)) (hg : g = f) (j : Fin g.length),
              (rcSave f p.length cr (rcLoop F crowd argsort P n p)).crowding
                (g.get j) = some (crowd g.length (fun j => F (g.get j)) nr j) := by
            rintro g rfl j
            exact (s2 j).2
          exact this _ hget j

end

end Lemmas
