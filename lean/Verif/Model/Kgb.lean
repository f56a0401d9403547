import Verif.Model.Dnsga2

/-!
# Model of `pymoo/algorithms/moo/kgb.py` (KGB-DMOEA)

Solutions are vectors `Fin d → K` of exact numbers. The classifier (`sklearn`), the non-dominated sorting of the centroids, mating and the survivals are
arguments, and so are the random numbers. The dictionary `self.ps` is the list of its entries in insertion order. A key `str(counter) + "-" + str(t)`
is the pair `(counter, t)`, from which it can be read off again.
-/

namespace Model

variable {K : Type*} {d m : ℕ}

/-- `kgb.py:198-201`: one value of the dictionary `self.ps`. -/
structure KgbCluster (d : ℕ) (K : Type*) where
  sols : List (Fin d → K)
  centroid : Fin d → K

/-- The dictionary `self.ps`. -/
abbrev KgbArchive (d : ℕ) (K : Type*) := List ((ℕ × ℕ) × KgbCluster d K)

/-- `kgb.py:221-254` `calculate_cluster_centroid` for a list of solutions: the mean of every variable. -/
def kgbMean [Field K] (l : List (Fin d → K)) : Fin d → K := fun i => (l.map fun x => x i).sum / (l.length : K)

/-- `self.ps[key] = value`: an existing key keeps its place. -/
def kgbSet (l : KgbArchive d K) (key : ℕ × ℕ) (c : KgbCluster d K) : KgbArchive d K :=
  if l.any (fun e => decide (e.1 = key)) then l.map fun e => if e.1 = key then (key, c) else e else l ++ [(key, c)]

/-- `kgb.py:188-203` `add_to_ps`: every member of the current optimum becomes a cluster of its own; for a single solution
`calculate_cluster_centroid` returns the solution itself (lines 231-235). -/
def kgbAdd (t : ℕ) (opt : List (Fin d → K)) (l : KgbArchive d K) : KgbArchive d K :=
  opt.zipIdx.foldl (fun l p => kgbSet l (p.2, t) { sols := [p.1], centroid := p.1 }) l

/-- `kgb.py:13-16` without the square root, which is increasing and used in comparisons only. -/
def kgbDist [Field K] (a b : Fin d → K) : K := ∑ i, (a i - b i) ^ 2

/-- `kgb.py:84-95`, one step of the inner loop: the first pair, or a strictly closer one. -/
def kgbCloser [LinearOrder K] (best : Option (K × (ℕ × ℕ) × (ℕ × ℕ))) (p : K × (ℕ × ℕ) × (ℕ × ℕ)) : Option (K × (ℕ × ℕ) × (ℕ × ℕ)) :=
  match best with
  | none => some p
  | some b => if p.1 < b.1 then some p else some b

/-- `kgb.py:76-97`: the closest two clusters. Two different entries never hold the same list object, so the test `is not` of line 83 compares the keys. -/
def kgbClosest [Field K] [LinearOrder K] (l : KgbArchive d K) : Option ((ℕ × ℕ) × (ℕ × ℕ)) :=
  ((l.flatMap fun a => (l.filter fun b => decide (a.1 ≠ b.1)).map fun b => (kgbDist a.2.centroid b.2.centroid, a.1, b.1)).foldl kgbCloser none).map Prod.snd

/-- `kgb.py:99-109`: the solutions of the second cluster are appended to the first, which gets a new centroid; the second is removed. -/
def kgbMerge [Field K] (l : KgbArchive d K) (i j : ℕ × ℕ) : KgbArchive d K :=
  let moved := (l.filter fun e => decide (e.1 = j)).flatMap fun e => e.2.sols
  (l.map fun e => if e.1 = i then (i, { sols := e.2.sols ++ moved, centroid := kgbMean (e.2.sols ++ moved) }) else e).filter fun e => decide (e.1 ≠ j)

/-- `kgb.py:69-112`: the loop `while size > Nc`; the first argument is `size`. `none` = no pair of clusters is left (`IndexError`). -/
def kgbCondense [Field K] [LinearOrder K] (nc : ℕ) : ℕ → KgbArchive d K → Option (KgbArchive d K)
  | 0, l => some l
  | size + 1, l =>
    if size + 1 ≤ nc then some l
    else
      match kgbClosest l with
      | none => none
      | some (i, j) => kgbCondense nc size (kgbMerge l i j)

/-- `kgb.py:114-146`: the solutions of the clusters whose centroid equals that of a position with rank 0 (`want`), respectively another rank. -/
def kgbSelect [DecidableEq K] (l : KgbArchive d K) (ranking : List ℕ) (want : Bool) : List (Fin d → K) :=
  (((l.map fun e => e.2.centroid).zip ranking).filter fun p => decide (p.2 = 0) == want).flatMap fun p =>
    (l.filter fun e => decide (p.1 = e.2.centroid)).flatMap fun e => e.2.sols

/-- `kgb.py:269-275` and `kgb.py:291-297`: values outside the bounds are set to the bound. -/
def kgbClamp [LinearOrder K] (xl xu x : Fin d → K) : Fin d → K := fun i => if xu i < x i then xu i else if x i < xl i then xl i else x i

/-- `kgb.py:278-299` `random_strategy`: `u` are the numbers drawn from the unit interval. -/
def kgbRandom [LinearOrder K] (xl xu : Fin d → K) (u : List (Fin d → K)) : List (Fin d → K) := u.map (kgbClamp xl xu)

/-- What one call of `_advance` takes from outside: the current problem, the sampled indices, the members of `self.opt`, the classifier trained on
useful and useless solutions, the ranking, the random numbers of the two calls of `random_strategy`, the noise, `choice(n, k, replace=False)` for the two
uses, mating and the survivals. -/
structure KgbGen (d m : ℕ) (K : Type*) where
  ev : (Fin d → K) → Fin m → K
  samples : List ℕ
  classify : List (Fin d → K) → List (Fin d → K) → (Fin d → K) → Bool
  rank : List (Fin m → K) → List ℕ
  unit1 : List (Fin d → K)
  unit2 : ℕ → List (Fin d → K)
  noise : Fin d → K
  choice1 : ℕ → ℕ → List ℕ
  choice2 : ℕ → ℕ → List ℕ
  surv1 : List ((Fin d → K) × (Fin m → K)) → ℕ → List ((Fin d → K) × (Fin m → K))
  surv2 : List ((Fin d → K) × (Fin m → K)) → ℕ → List ((Fin d → K) × (Fin m → K))
  mate : List ((Fin d → K) × (Fin m → K)) → List (Fin d → K)

/-- `[l[i] for i in indices]`; `none` = an index out of range. -/
def kgbTake {α : Type*} (l : List α) (I : List ℕ) : Option (List α) := I.mapM fun i => l[i]?

/-- `kgb.py:366-412`: the population made of predicted solutions, centroids, useful solutions and random ones. `none` = an exception; a negative number of
choices raises. -/
def kgbPopulation (popSize nc : ℕ) (predicted centroids useful : List (Fin d → K)) (choice1 choice2 : ℕ → ℕ → List ℕ)
    (random : ℕ → List (Fin d → K)) : Option (List (Fin d → K)) :=
  if popSize < nc then none
  else
    let first : Option (List (Fin d → K)) :=
      if popSize - nc ≤ predicted.length then (kgbTake predicted (choice1 predicted.length (popSize - nc))).map fun p => p ++ centroids
      else some (predicted ++ centroids)
    (first.bind fun p =>
      if p.length < popSize then
        if popSize - p.length ≤ useful.length then (kgbTake useful (choice2 useful.length (popSize - p.length))).map fun q => p ++ q
        else some (p ++ useful)
      else some p).map fun p => if p.length < popSize then p ++ random (popSize - p.length) else p

/-- `kgb.py:337-412`, after a change: the condensed archive and the variables of the new population. -/
def kgbRespond [Field K] [LinearOrder K] (popSize nc : ℕ) (xl xu : Fin d → K) (l : KgbArchive d K) (g : KgbGen d m K) :
    Option (KgbArchive d K × List (Fin d → K)) :=
  (kgbCondense nc l.length l).bind fun l' =>
    let c := l'.map fun e => e.2.centroid
    let ranking := g.rank (c.map g.ev)
    let useful := kgbSelect l' ranking true
    let useless := kgbSelect l' ranking false
    let test := kgbRandom xl xu g.unit1 ++ useful.map fun x => kgbClamp xl xu fun i => x i + g.noise i
    let predicted := test.filter (g.classify useful useless)
    (kgbPopulation popSize nc predicted c useful g.choice1 g.choice2 fun k => kgbRandom xl xu (g.unit2 k)).map fun p => (l', p)

/-- `self.pop`, `self.ps`, `self.t`. -/
structure KgbState (d m : ℕ) (K : Type*) where
  pop : List ((Fin d → K) × (Fin m → K))
  ps : KgbArchive d K
  t : ℕ

/-- `kgb.py:316-448` `_advance`, given the variables of `self.opt`: the new state and the number of evaluations. -/
def kgbAdvance [Field K] [LinearOrder K] (eps : K) (popSize nc : ℕ) (xl xu : Fin d → K) (opt : List (Fin d → K)) (s : KgbState d m K) (g : KgbGen d m K) :
    Option (KgbState d m K × ℕ) :=
  (dnsDetect eps g.ev s.pop g.samples).bind fun change =>
    let ps := kgbAdd s.t opt s.ps
    let base : Option (List ((Fin d → K) × (Fin m → K)) × KgbArchive d K × ℕ × ℕ) :=
      if change then
        (kgbRespond popSize nc xl xu ps g).map fun r => (g.surv1 (dnsEval g.ev r.2) r.2.length, r.1, s.t + 1, r.1.length + r.2.length)
      else some (s.pop, ps, s.t, 0)
    base.map fun b =>
      let off := dnsEval g.ev (g.mate b.1)
      ({ pop := g.surv2 (b.1 ++ off) popSize, ps := b.2.1, t := b.2.2.1 }, g.samples.length + b.2.2.2 + off.length)

/-- `kgb.py:20-42`: the dictionaries in memory. Object 0 is the default value `{}` of the parameter `ps`, made once when the class is defined. -/
abbrev KgbHeap (d : ℕ) (K : Type*) := List (KgbArchive d K)

/-- The heap after the class has been defined. -/
def kgbHeap₀ : KgbHeap d K := [[]]

/-- `KGB(...)` or `KGB(ps=value)`: the heap and the object that becomes `self.ps`. -/
def kgbNew (h : KgbHeap d K) (ps : Option (KgbArchive d K)) : KgbHeap d K × ℕ :=
  match ps with
  | none => (h, 0)
  | some a => (h ++ [a], h.length)

/-- `add_to_ps` of the algorithm whose `self.ps` is the object `r`. -/
def kgbHeapAdd (h : KgbHeap d K) (r t : ℕ) (opt : List (Fin d → K)) : KgbHeap d K := h.modify r (kgbAdd t opt)

end Model
