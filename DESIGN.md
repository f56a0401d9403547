# Formal model of pymoo in Lean 4 — design

## Layout

* `lean/Verif/Spec/*.lean`   — small, model-independent specifications (dominance, canonical Pareto rank,
  "is a permutation", "within bounds", ...). These are what a reader has to understand.
* `lean/Verif/Model/*.lean`  — the executable model, function by function. Each definition cites the file and
  lines of `/repo` that it models and says what is simplified.
* `lean/Verif/Lemmas/*.lean` — helper lemmas (nothing to read here to trust a statement).
* `lean/Verif/Props/*.lean`  — the property theorems, named `C<nn>_...`, each followed by an `example`
  showing that a concrete non-trivial case meets its hypotheses. Theorems whose name contains `_refuted`
  are *negations*: the unchanged code violates the English property and a concrete witness proves it; a
  `_partial` theorem next to it states what does hold.

## Trusted base

* Lean 4.33.0's kernel, and Mathlib as installed (definitions used in statements: `List`, `Nat`, `Int`,
  `Rat`, `Finset`, linear orders/ordered fields).
* Axioms: at most `propext`, `Classical.choice`, `Quot.sound` (listed per theorem in `AXIOMS.md`, the output of `#print axioms`; nothing else).
* The reading of the Python code: no code is run. Each model definition cites what it models.
* Arithmetic: floats are modelled as exact numbers (`Rat`, or any linear order / ordered field where the
  theorem is generic). Rounding, overflow, NaN are NOT modelled unless the definition says so
  (infinities are modelled where the code relies on them, e.g. crowding distance).
* Randomness: a random generator is modelled as an arbitrary stream/function argument; theorems quantify
  over all of them. Nothing is claimed about distributions.
* numpy `argsort`/`lexsort`: where the code's result could depend on the order of equal keys, the model
  takes the sorting permutation as an argument and theorems quantify over every permutation that sorts
  (so they hold for stable and unstable sorts).
* External packages (moocore's `pareto_rank`, scipy `cdist`) are parameters with the stated contract.

## What is modelled, per property

| id | model | proof method |
|----|-------|--------------|
| C01 | `Dominator.get_relation` loop over zipped lists | induction over the loop with the running verdict |
| C02 | domination matrix, vectorised and loop | reduce both to C01's spec |
| C03 | fast sort: counters + peeling loop over `rel : Nat → Nat → Int` | loop invariant (counter = number of dominators in unpeeled fronts), termination by finiteness of strict orders |
| C04, C05 | ENS insertion with sequential/binary search | invariant over inserted prefix; the binary search by monotonicity of "front k dominates p" |
| C06 | bi-objective scan | negation by witness; partial for tie-free inputs |
| C07 | double loop with early exits | direct |
| C08 | comparison matrix from an arbitrary sorting permutation, DDA-NS peel, DDA-ENS insertion | matrix entry = number of objectives ≤; reuse C03/C04 arguments |
| C09 | tree insertion/check | invariant over trees; negation on duplicates |
| C10 | rank_from_fronts / truncation | induction on fronts |
| C11, C12 | survival operators over indices | list lemmas on prefix sums |
| C13 | crowding distance with extended values | sorted-order lemmas |
| C14, C15 | duplicate elimination & infill loop with an arbitrary generator | induction over rounds |
| C16 | evaluator state machine | invariant over call sequences |
| C17, C18 | termination objects, algorithm loop state machine | invariants over the step function |
| C19, C20 | CV aggregation and the cached attribute | algebra; negation for the stale cache |
| C21, C22 | optimum filter, archives | spec of argmin / non-dominated set; induction over adds |
| C23 | improvement replacement | pointwise, lifted to histories |
| C24 | repairs | ordered-field algebra, floor |
| C25 | ox, erx, inversion | list permutation lemmas |
| C26 | mask crossovers | pointwise |
| C27, C38 | stochastic ranking bubble sort, randomised quicksort | permutation + sortedness for all streams |
| C28 | tournament | counting |
| C29, C30 | Das–Dennis recursion and iterator, partition search | induction, stars and bars |
| C31, C32 | normalisation, scalarisation | ordered-field algebra |
| C33 | sliding window | induction over appends |
| C34 | niching loop | invariant with arbitrary picks |
| C35, C36 | population, parameters | algebraic laws |
| C37 | roulette wheel | prefix sums |
| C39 | duplicates helpers | direct; negation for get_duplicates |
| C40 | DE selection | loop invariant |
| C41–C46 | replacement, target/tolerance/until-feasible termination, penalty, rounding repair | case analysis on the step functions, induction over histories; negations by witness |
| C47 | mating pipeline with object identities (store of individuals) | frame reasoning on the store |
| C48–C50, C54 | real-valued operators (SBX, PM, DE, Gauss, bit-flip), random draws as arguments | ordered-field inequalities on the spread factors, clipping |
| C51, C52 | simplex maps, greedy distance selection | sums, step invariant; negation by witness |
| C53 | ideal/worst/extreme/nadir points over a run | induction over updates |
| C55, C56 | `Problem.evaluate` with shapes, constraint wrappers | reshape lemmas, case analysis; negations by witness |
| C57, C58 | sampling, mixed variables | pointwise bounds, permutation of strata, key sets |
| C59, C60 | GD, IGD, GD+, IGD+ and spacing over exact fields; distances of the Euclidean kind as any function with a stated contract | sums and minima, monotonicity; negations (not Pareto compliant, one solution, constant objective) |
| C61, C62 | hypervolume and additive epsilon around moocore (parameter with the measure-theoretic contract) | volume of a union of boxes; order arguments |
| C63, C64 | pseudo weights, trade-off points, neighbour finder | argmin specification, ordered-field algebra |
| C65 | MOEA/D generation as a fold over subproblems with arbitrary neighbours, weights, decomposition | invariant over subproblem order |
| C66, C67 | golden section, quadratic interpolation, Wolfe line search as step machines | bracketing invariant for unimodal functions; Armijo/curvature conditions at return |
| C68, C69 | GA survival, ES | total preorder "feasible first, then violation, then objective"; best-so-far invariant over histories |
| C70, C71 | Nelder–Mead step (all branches), pattern search step | case analysis; box invariant; best vertex never lost |
| C72, C73 | DE, PSO, EPPSO generations | pointwise replacement; bounds on speed and coefficients |
| C74 | clearing rounds | invariant over rounds |
| C75–C78 | SMS-EMOA, SPEA2, RVEA, AGE-MOEA survivals | front prefix lemma, greedy removal invariants |
| C79 | `Algorithm.result` | direct; negation (values of `self.opt`) |
| C80–C84 | analytic test problems with their reported optima and fronts over ℝ | inequalities (trigonometric, exponential, Taylor bounds); negations with exact witnesses |
| C85–C87 | C-TAEA archives and mating | front prefix, niche counting invariants |
| C88, C89 | R-NSGA-II, R-NSGA-III | front prefix, clearing; affine geometry of reference directions |
| C90 | stochastic ranking, SRES, ISRES | permutation/sortedness for every stream |
| C91 | pruning crowding metrics | greedy removal invariant |
| C92, C93 | recorder, callbacks, dynamic problem clock with its cache | invariants over event sequences |
| C94, C95 | problem wrappers, binomial | shape lemmas; induction |
| C96 | DIRECT with the tiling of the box | volume/apartness invariant, density of centres |
| C97–C99 | BRKGA, G3PCX, PCX | elites by sortedness; best-ever invariant; orthogonality algebra |
| C100–C104 | GDE3/NSDE, MOPSO-CD, elitism of all genetic algorithms, CMOPSO, D-NSGA-II | one-to-one competition, archive invariants, histories over generations |
| C105–C107 | flow shop, TSP, knapsack | recurrence = least schedule; cyclic sums; counting |
| C108 | default terminations | invariants over histories, sliding windows |
| C109 | pools as event systems (any interleaving of completions), chunking, runner objects and their copies | schedule-independent refinement; negations for copies |
| C110, C111 | `minimize` on a store of objects (algorithm, termination, problem), `Initialization` | frame reasoning: the heap before and after; refinement to a pure specification |
| C112, C113 | parameter control, hyperparameter problem | exact index arithmetic of `np.repeat`; refinement via C110 |
| C114 | Omni-Optimizer | loose dominance fronts, two-space crowding formulas |
| C115 | constrained rank and crowding | front prefix on violation vectors |
| C116 | PINSGA-II: questions, fit loop, constraints of the fit, value-function dominator | insertion invariant over groups; telescoping of gaps; well-foundedness of the induced relation; negations incl. non-termination |
| C117 | dynamic DF1–DF14: objectives, front generators with their grids and filters | antichain + attainment + every attained vector above the curve, for all times; negations for DF4, DF9, DF12 with witnesses |
| C118 | energy, layer-energy, reduction, construction, genetic reference directions: projections, Adam, `_step`/`_solve`, k-means, construction loop | nearest-point arguments, loop invariant `OnSimplex`, derivative of the log energy; negations for duplicate selections, few points and the recursive projection. Stopping without an exception only for d ≤ 27 (energy), d ≤ 13 (construction) |
| C119 | incremental lattice | characterisation of the rows by induction on the partitions, strict growth |
| C120 | compiled relation, `find_non_dominated`, fast, efficient and dominance-degree sorting | equality with the Python models by induction over the loops; fronts via `peelLoop_spec`; negation: cyclic dominance with a tolerance |
| C121 | compiled `best_order_sort`, `fast_best_order_sort` | invariant: visited solutions have their Pareto rank; negation with ties |
| C122 | compiled `calc_pcd` (out-of-range access = `none`) | invariant `PruneTrace`: matrix and sorted columns are those of the solutions left; negations with ties and with extreme solutions removed |
| C123 | compiled `calc_mnn`, `calc_2nn`; the result of `np.argpartition` is any partition | invariant: neighbour lists are the nearest solutions left; negations with equal distances and two points |
| C124 | `calc_perpendicular_distance`, `calc_distance_to_weights`, `pbi`, `associate_to_niches`, `stochastic_ranking` (both versions), `FunctionLoader` | completing the square; index arithmetic of tile/repeat/reshape; in-place pass = functional pass by induction; registry by cases |
| C125 | `Column`, `Output`, `Display.update`, `SingleObjectiveOutput.update`, `ProgressBar.set`; texts as lists of characters, the digits printed by `%E`/`%f` are data | lengths of texts; injectivity of decimal digits; prefix maxima |
| C126 | `ComplexNumberGradient`, `calc_complex_gradient`, `autograd_*_value_and_grad`, `jax_vectorized_value_and_grad`, `AutomaticDifferentiation.do`, `activate`; the backward pass itself is its documented contract (weighted sums of partial derivatives) | Mathlib derivatives: slope along the imaginary axis; uniqueness of derivatives; offsets of the blocks of cotangents; dictionary folds |
| C127 | `survival_score`, `find_corner_solutions`, `normalize`, `point_2_line_distance`, `compute_geometry`, `pairwise_distances`, `minkowski_distances`; AGE-MOEA-II `project_on_manifold`, `pairwise_distances`, one step of `find_zero`; `np.linalg.solve` is its contract, rounding to 12 digits left out | completing the square; invariant of the greedy loop; two smallest of a sorted list; Minkowski's inequality |
| C128 | helpers of `util/misc.py` and the cache of `util/cache.py`; dictionaries as association lists in insertion order | list inductions, loop invariant of the position index, ordered-field algebra for the distances, induction over sequences of cached calls; negations by witness or for all inputs |
| C129 | `RunningMetric.update` over arbitrary histories, on top of the models of the sliding window, IGD, hypervolume and `calc_delta_norm` | induction over the run (state = last update of the remembered sets), the facts of C33, C59, C61, C108; negations for all inputs of the degenerate kind |
| C130 | `Model/MW`: g1, g2, g3, the objectives, constraints and computed fronts of MW1-4, 6, 8 (and MW12 and MW14 in `Model/MW12`, `Model/MW14`), over the reals | MW1/2 sliding down the diagonal (`diag_front`), MW4/8/6 radial scaling (`radial_front`), MW3 by a Lipschitz bound below one for the lower constraint and the intermediate value theorem at the end of the front; the loop by induction on its rounds |
| C131 | `Model/DCDTLZ`: the three constraint functions on one row, objectives from `Model/DTLZ` | `dist_front`: constraints that allow the optimal distance wherever they allow any, so solutions can be moved there; `first_var`: the last objective determines the first variable |
| C132 | `Model/GProblems`, `Model/GMore`, `Model/G16`: bounds, objective, constraints and documented solution of twenty-three G problems, one row over the reals; `Spec/Constrained`: feasibility and optimality. G17 is not modelled | G3 by the mean inequality, G6 because the documented point is least in both variables, G7 and G9 by the Lagrange function as a sum of squares, G23 by the dual of the pooling problem for a fixed quality, G24 by two polynomial inequalities (`Props/GProblems`); G4 and G10 by reduction to one variable, G15 because on the feasible arc the gap is a product of two nonnegative linear functions (`Props/GMore`); G13 by the weighted mean inequality and tangents, G14 by Gibbs' inequality with numeric bounds of the exponential, G18 by a sum-of-squares certificate for hexagons, G19 by the dual (Colville's problem) (`Props/GRest`); G8 by polynomial bounds of the sine on the feasible region (`Props/G8`), G5 by multipliers and the common maximum of three cosines (`Props/G5`), G20 by the dual of the mass balance (`Props/G20`), G21 by solving the equality constraints for the temperature and subadditivity of the power (`Props/G21`); G2 and G16 by exact rational evaluation of the documented solutions (`Props/G16`; the objective of G2: `Props/G2`), G22 by solving the equations for two temperatures (`Props/G22`) |
| C133 | `Model/WFG`: every transformation, reduction and shape function, the evaluation of WFG1-9, the completions of positions, `pareto_set`, `pareto_front` and the constructor, one row over the reals; `Spec/Wfg`: bounds, ellipsoid, surface | each transformation maps the unit interval to itself and reaches 0 only at its optimum, so the distance is 0 exactly at the completions; the shapes are antichains (sphere, convex chain, linear) and onto; a positive distance adds to every objective |
| C134 | `Model/Kktpm`: weights, gradients of the achievement function, the linear system, the elimination of negative multipliers, the value of one solution over the reals; the linear solver is an argument with the contract that what it returns solves the system; `Spec/Kkt`: first order conditions | invariant: the system is the first one with a growing set of unknowns fixed to zero, hence at most as many passes as unknowns; the quadratic form of the system at a solution |
| C135 | `Model/RMetric`: filtering, clusters, representatives, trimming, translation, parts of the front, `do`; IGD and hypervolume by the models of C59 and C61 | the largest ratio is half of the largest difference to the reference point; representative and nearest reference point by the specification of argmin |
| C136 | `Model/IndicatorTermination` as a primitive of the termination tree of C17 | invariant: `_min`, `_max` are the extreme values seen; induction over the history |
| C137 | `Model/Kgb`: archive as insertion-ordered dictionary, closest pair, merging, `while size > Nc`, useful/useless, population generation, `_advance`; classifier, ranking, survivals, mating and random numbers are arguments; the default dictionary as an object of a heap | induction over the number of clusters with the invariant "keys differ, centroids are means"; permutation of all archived solutions; lengths by cases |
| C138 | `Model/DASCMOP`: the three distances, both `constraints`, the nine `_evaluate`, the table of difficulties | front of "shape plus common distance" with the least allowed distance; the least distance is attained for every position by square roots (g1, g3) and the intermediate value theorem (g2) |
| C139 | `Model/CTP`: `g_linear`, `g_multimodal`, `calc_constraint`, the generated curves of CTP1, all eight problems with NaN as a value of a constraint | CTP1 by envelope of decreasing curves and the intermediate value theorem in the distance; CTP2–8 by case analysis on the division |
| C140 | `Spec/AskTell`: the textbook loop over an arbitrary strategy; `Model/Cmaes`: the vendored generator as a state machine between two `yield`s (with fuel for its inner loops), pymoo's side of it, copies, the restart loop | refinement by induction over generations; schedules by an invariant tying the counters to the list of past runs; termination by a lexicographic measure |
| C141 | `Model/Loopwise`: `LoopwiseAlgorithm` over an arbitrary generator as hooks of `Model/Algorithm`, `ExponentialSearch`, `LineSearchProblem._evaluate` | big-step semantics of the generator (`LoopTrace`), induction over its yields; induction over iterations; Archimedean induction |
| C142 | `Model/IntegerOps.lean`: `Operator.__call__`, `Repair.do`, `Crossover.do` and `Mutation.do` with the number type of the arrays (int or float), the repairs, SBX and PM from `Model/RealOperators.lean` | invariant `IntIn` over an inductive relation of reachable populations (`C142_run`), from `C46`, `C48`, `C49`; witnesses for the settings that fail |
| C143 | Model/Zcat: the g-, z- and f-functions of zcat.py as functions of the normalised variables, assignment of the remaining variables to objectives, `_evaluate_row`, the checks of the constructor, choice of front rows | each z-function is not negative and zero only at zero (Props/ZcatDist); shapes: chain lemmas for products and sums of a rising and a falling function, graphs of strictly falling functions, records of the wave (Props/ZcatShape, ZcatFront, ZcatRecords); Pareto set by completing the first variables on the surface (Props/Zcat) |
| C144 | Model/Truss: `_evaluate`, bounds and the returned front of truss2d.py over the reals | exact characterisation of the trade-off between the volume and the stress: for a given stress the optimal areas, then the optimal height by completing squares; the returned points substituted |
| C145 | Model/Gta: the functions of vendor/gta.py used by problems/dynamic/cec2015.py, as functions of one solution and the time | spheres: the lemma for DTLZ with a real exponent; curves: a scaled decreasing non-negative curve rises with the scale, smallest distance of the remaining variables to an optimum inside or outside the box; HE2 by Bernoulli's inequality |
| C146 | Model/Gta: `_evaluate` of the classes; for misc.py numpy values (numbers or one-dimensional arrays), `math` functions of arrays, the attribute `time`, the shape check of the problem | row-wise: by the map; refutations: calling a number, `math.sin` of an array, the shape of the result, two populations with the same last solution and different objectives |
| C147 | `Model/Plots.lean`: the coordinates handed to matplotlib by the parallel coordinate, Radviz, star coordinate, radar and petal plots, `normalize`, `parse_bounds`, the kept bounds of `PCP` | `Props/Plots.lean`: reading a height back (`Spec/Plots.lean: OnAxis`), column ranges by induction, Cauchy-Schwarz for the disc, sums of roots of unity for the star coordinates; witnesses for the refuted parts |
| C148 | `Model/Plots.lean`: `heatDo` (`np.lexsort` as a stable insertion sort), labels, `scatterDo`, `plotDim` | `Props/PlotOrder.lean`: lexicographic order against `Spec/Plots.lean: StrictlyBefore`, stability by induction on the sort; witnesses for the refuted parts |
| C149 | `Model/Scipy.lean`: the option checks and restrictions of `Optimizer._advance`, the wrapper as hooks of `Model/Algorithm.lean` with SciPy as an arbitrary function | `Props/Scipy.lean`: the run is unfolded through the general `next`/`advance`; restrictions by case analysis and induction over the constraints; witnesses for the refuted parts |
| C150 | `Model/Beam.lean`: `CantileveredBeam` as a `ConProblem` over the reals, the documented value and design | `Props/Beam.lean`: the inertia is bounded by area times a function of the height, which leaves a polynomial inequality in two variables on a box (nlinarith) |
| C151 | `Model/Engineering`: `_evaluate` of OSY, TNK, WeldedBeam, Carside, CSI, WRM, Kursawe, Clutch with undefined division/root as `none` | definedness by positivity, OSY by a case split on the quadrilateral, TNK by continuity (move left while no constraint is active), Carside/CSI constraint by constraint with `ring`; Clutch refuted through the model of `Problem.evaluate` (C55) |
| C152 | `Model/Remote`: `load`/`_download` as a program of single file-system and network steps, any number of processes, a schedule picks process and outcome (success, exception, stop) | an invariant over all schedules (ownership of temporary files, integrity of cached files, what is known at each program point), preserved by every step |
| C153 | `Model/DirQuality`: the functions of `performance.py` (but the Delaunay ones) on real rows, `RandomSamplingAndMap` on top of `C57`/`C51` | sums over pairs by induction; sorted rows characterise the k-th nearest point by counting; Gram-Schmidt invariant (orthogonality, prefix spans), independence by rank; Parseval for the projection; the iterator invariant of C29 for `iterative_igd` |
| C154 | `Model/MoTable`: `initialize`/`update` of `MultiObjectiveOutput` with the state of the inner tolerance criterion, a run as a list of generations | an invariant over runs ties the remembered data to the reference generation (an inductive predicate of the specification, shown unique) |
| C155 | `Model/CrowdEntropy`: `calc_crowding_entropy` with its NaN replacements (on the stable sort of `Model/Pruning`), `_calc_mnn_fast` with its raising branch | the gap lemmas of C91; Mathlib's binary entropy for the value, its bound and the case of equality; argmin/argmax are invariant under normalisation |
| C156 | `Model/Optuna`: `_infill`, `_advance`, `_set_optimum`, runs and ask-and-tell sessions; Optuna's suggestions are an oracle | induction over the run and over the session; witnesses for the two refuted parts |
| C157 | `Model/Migd`: `MIGD.update`/`value` on the clock and front cache of `Model/Observers` and the IGD object of `Model/Indicators` | induction over the history with the invariant that a cached front is the front of the current time; C59 for the value |
| C158 | `Model/RankOptimum`: the persistent attribute `rank`, `Survival.do` with the ranks written by `_do`, `_advance`, `_set_optimum` of NSGA-II and AGE-MOEA | induction over generations with the invariant "infeasible individuals have no rank, a member has rank 0 iff it is in the feasible front of the population"; C10, C11, C12, C78 for the survivals |
| C159 | `Model/GaRun`: initialisation, mating rounds with in-place mutation and repair, duplicate elimination, infill loop, evaluator, merge, survival on a heap of individuals; `Model/GaReal`: sampling, SBX, PM, order crossover, inversion as its operators | induction over rounds and generations: everything below the allocation pointer is unchanged, everything new is unevaluated and in the domain; C16, C111 for evaluator and initialisation, C25, C48, C49, C57 for the operators |
| C160 | `Model/RefOptimum`: `survival.opt` and the algorithm's `opt` along a run; the survival of NSGA-III is `nsga3Survive` (C34) on the fronts of the sorting (C10) with arbitrary distances | induction over the generations; a generation with a feasible individual always rewrites `survival.opt`, so a stale one is never reported |
| C161 | `Model/RunArchive`: `advance` as far as the archive is concerned: `_post_advance` (callback, history), `result`, then `add`; the archive itself is that of C22 | induction over the calls (snoc); then the theorems of C22 on the calls of `add` |
| C162 | `Model/Reproducible`: the decorator `default_random_state`, generators as an abstract state, `compare` and the pair comparisons of eight algorithms, tournament selection, mating, infill loop, generations and whole runs; pattern search, `mut_gauss`, `repair_random_init`, truncation of archives, parameter control, each with the call as written (`random_state` passed or not) | `Spec/Reproducible`: two runs that agree on the generator of the run agree on the result. Closed under sequencing, so proved for whole runs by induction; where the generator is not passed on, an exact condition (iff) or a counterexample for every generator; `C162_model` links the drawing tournaments to those of `Model/Selection` |
| C163 | `Model/AdaptiveWrapper`: the wrapper's hooks around hooks that depend on the shared configuration (`_initialize_advance`, `_advance`, `_infill`, `_setup` and the ones left alone), `next`, `run` with the termination visible to the adaptation, `AttachConfigEvaluator` for individuals and populations, the epsilon policy; on top of `Model/Algorithm`, `Termination`, `Evaluator`, `Loopwise` | simulation of the plain algorithm (`SameAsPlain`, induction over the run); the invariant "termination at progress 0, counter 0" for the endless run; the tolerance after `k` generations by induction; counterexamples for `_setup` and loop-wise algorithms |
| C164 | `Model/Nrbo`: `Search_Rule`, the loop of `_infill` with all its draws, trap avoidance, the repair with NaN, index errors; the update of the population is `Model/Swarm` (C72) | division by zero makes a coordinate NaN: exact condition by algebra; closed forms of the moves by `ring`; bounds from the repair; the damping factor by monotonicity of the fifth power |
| C165 | `Model/SwarmRun`: whole runs of DE and PSO from the initial points on (trial vectors / moves, mutation, replacement), on top of `Model/{RealOperators,Swarm}`; solutions are variables with a serial number, values are those of the problem | invariant over the generations: members are evaluated, within the bounds, serial numbers are 0, 1, …, and every evaluated solution is matched by a member; steps from C50, C72, C73 |
| C166 | `Model/NmTermination`: the four spreads, the edges and the maximum with infinity and nan, over the reals | the maximum of a list is reached by one of its members; the reciprocals solved for the spread; the edges are the distances of the pairs (`Props/NmTermination`) |
| C167 | `Model/Cec`: `get_bounds`, `cec2018_DF`, `cec2018_DF_PF` as written in the vendored file, over the reals | unfolding against `Model/DF`, induction over the loop of DF9, and the exact fronts of C117; witnesses for the differences (`Props/Cec`) |
| C168 | `Model/GtaDb`: `check_boundary`, the alpha, beta and combination functions and the table of the 24 functions of `vendor/gta.py`, over the reals | every summand of beta is nonnegative and 0 at the optimum, every alpha is nonnegative, so the box reduces to the position surface; strictly decreasing curves are their own front (`Props/GtaDb`) |
| C169 | `Model/MWServer`, `Model/MW13`: `_evaluate` of MW5, MW7, MW9, MW10, MW11, MW13 for one row, over the reals | every distance from 1 to a bound is attained (intermediate value theorem), every feasible point lies above a point of the curve, and the curves are strictly decreasing (`Props/MWServer`, `Props/MW13`) |

## Findings: statements the code violates

Each of these is a theorem (usually named `..._refuted`) with a concrete witness, except where "read" is noted.

* Random seeds do not reach: tie-breaking in nsga3/unsga3/niching tournaments, `repair_random_init` in Gaussian mutation and DE, pattern search exploration, SRES/ISRES survival, CMOPSO elites, DE variants and `ParameterControlMating` (C112), version B of D-NSGA-II, `ConstrRankAndCrowding` (C115).
* Feasible or best solutions can be lost: BRKGA duplicates and multi-objective elites (C97), RVEA infeasible filling (C77), C-TAEA optimum (C85), MOPSO-CD archive (C101), Omni-Optimizer with one survivor or variable-space crowding (C114), golden section on non-unimodal functions (C66), population deterioration when the front does not fit (C102).
* Non-termination: mating with `n_parents > n_pop`, cyclic parameter graphs (C36), C-TAEA `_updateDA` with small populations (C86), Wolfe zoom (C67), Das–Dennis iterator with zero partitions (C29), Omni-Optimizer selection with one individual (C114), G3PCX with too many offspring (C98), value-function sorting of PINSGA-II (C116).
* Wrong values: quadratic interpolation formula (C66), its step on functions that are not U-shaped gives up the better end (C66), integer arrays truncated by normalisation (C31), bit-flip on integers, DIRECT truncation (C96), PSO coefficients above 4 (C73), niche counts of C-TAEA, SPEA2 neighbour, average rule of Omni-Optimizer (C114), attached parameters of `ParameterControlMating` (C112), GD/IGD of an empty set = 0 (C59), design-space tolerance of integer problems (C108), second-best solution and refits of PINSGA-II (C116), batch-dependent objectives of DF12 (C117), NaN reference directions of "reduction" (the starting design of "energy") after a duplicate selection and of "incremental" with one point (C118, C119), `project_onto_unit_simplex_recursive` does not return the nearest point below the plane (C118).
* Reported fronts and optima that are not: ZDT3, ZDT5, DTLZ5–7, C3-DTLZ1, SRN, SYM-PART, DF4, DF9 (C117), Schwefel, Himmelblau, pressure vessel, cantilevered beam (C80–C84); bounds of flow shop and TSP (C105, C106).
* Exceptions on documented use: `MultiObjectiveArchive(max_size=None)`, `ConstraintsFromBounds(remove_bonds=True)`, `MOEAD(ref_dirs=None)`, `MultiObjectiveKnapsack` (C107), `InvertedDTLZ1.pareto_front` (read), renormalising termination (C108), Joblib/Ray with `save_history` (C109), hyperparameter runs without feasible solutions (C113), `UntilFeasible` assertion (C44), `get_duplicates` (C39), `StaticProblem` on elementwise problems (C94), reference directions "energy"/"reduction" with fewer points than objectives (C118). Read, not proved: `_solve` of "energy" stores the successor of the best design; `return_as_tuple` is ignored by `do`.
* Compiled code: sorting with a tolerance need not end (C120), best-order sortings are wrong with ties (C121), `calc_pcd` reads outside its vectors with ties or removed extremes (C122), `calc_mnn` enters a neighbour twice (C123), `tree_based_non_dominated_sort` missing, same seed other stochastic ranking (C124), `c_normalize_array` writes to the caller's array (read).
* Printed table: integers wider than their column (`n_gen` from 10^6, `n_eval` from 10^8) are cut off on the right and show another number; so do negative values with three-digit exponents (C125).
* Gradients (C126): `abs` has complex-step gradient zero; a problem wrapped with `ComplexNumberGradient` raises `KeyError` unless the gradient of every value it sets is asked for (so it cannot be optimized with); a failing evaluation leaves autograd/JAX active for all later problems.
* AGE-MOEA (C127): `distances[tuple(np.meshgrid(selected, remaining))]` is row `selected`, column `remaining`, not `distances(remaining, selected)` as the comment says, and the matrix is not symmetric after the division by the norms; AGE-MOEA-II divides by zero if all points of the front have the same objectives.
* Aliasing and state: `NoCrossover` returns parents (C47), stale CV cache (C20), `@Cache` ignores arguments, `get_nadir_point` and `map_onto_unit_simplex` write to caller's arrays, used terminations (C110), `Initialization` repairs the user's population in place (C111), copies of problems with pools (C109), dynamic problem time setter (C93), back-tracking of PINSGA-II (C116).
* Helpers (C128): `swap` of two rows of a matrix keeps a view and loses a row; `all_combinations` fails for a two-dimensional second array; `covert_to_type` inverts booleans;
  `evaluate_if_not_done_yet` never evaluates; the normalised distances (PSO, niching GA) are NaN as soon as one variable is fixed; `time_to_int` ignores days; `Cache` ignores the
  arguments, so `pareto_front(other_directions)` answers the first question again; `list_of_dicts_unique` returns values, not dictionaries.
* Running metric (C129): `c_nadir += 1e-16` comes before the test for equality, so that the divisor stays zero when an objective has a single value (all movements are NaN or
  infinite); with `indicator="hv"` the list holds hypervolumes, not differences.
* MW1, MW2, MW3, MW6 (and MW12) write into the `ref_dirs` array handed to `pareto_front` (C130_caller_refuted). The points MW3 returns are scaled in steps of 0.1 % until they are feasible, which oversteps the constraint: they can be dominated by feasible points (C130_mw3_refuted). The same loop in MW12 turns the first default point into `(0, 1.0004)`, which violates the first constraint: where the first objective is 0 only `(0, 1)` is feasible below 1.3, and no power of 1.001 scales 0.85 to 1 (C130_mw12_refuted). MW14 returns an empty front unless it has three objectives, although `(0, ..., 0, 5)` is Pareto-optimal (C130_mw14_refuted).
* DC1DTLZ1/3 and DC3DTLZ1/3 inherit `_calc_pareto_front` from the unconstrained problems: the front contains infeasible points (C131_front_refuted).
* WFG (C133): `WFG2.pareto_set()` contains dominated solutions whenever it succeeds with two objectives (its front is disconnected, the completions are not filtered); WFG3 with three objectives has Pareto-optimal vectors off the segment that `pareto_front()` samples, e.g. (3, 1, 1); `pareto_set()` with its default of 500 points asks for a negative number of random rows and raises as soon as k is at least 9 (the default for six objectives or more); the constructor accepts zero or a negative number of distance variables and numbers that do not add up to `n_var`.
* KKTPM (C134): raises (`g` unbound) for every problem without inequality constraints; `z -= utopian_eps` changes the caller's `ideal` array, or the ideal point cached in the problem, so that repeated calls use different weights; with many inactive constraints a feasible solution can be given a value above one, i.e. worse than infeasible solutions.
* RMetric (C135): `not w` raises for an array of weights (and twice a list doubles its length), so weights cannot be given for two or more objectives; the trimming of the Pareto front uses the default width 0.2 whatever `delta` is.
* IndicatorTermination (C136): a run whose first indicator value already meets the threshold is not stopped: progress 0, an exception if the value equals the threshold, and an AssertionError as soon as the indicator improves.
* KGB (C137): the mutable default `ps={}` is one object for all algorithms created without `ps`; `random_strategy` samples the unit cube and clips it, so with lower bounds ≥ 1 every "random" solution is a corner; `pop_size < c_size` raises at the first change; entries of earlier, larger optima of the same period stay in the archive.
* CTP (C139): the constraint is the quotient `1 - exp1/exp2`; in CTP2 to CTP5 the ideal corner `x = 0` gives 0/0 = NaN and counts as infeasible although the published inequality holds there.
* CMA-ES (C140): the line that evaluates a point stands behind `if 11 < 3` in the vendored code, so `CMAES(parallelize=False)` samples for ever; `__setstate__` sets `ers` instead of `es`, and the bare `except` in `_advance` turns the missing generator into a silent termination, so that checkpoints and history entries cannot be continued; `ind.F[:] = np.inf` destroys the objective values of infeasible solutions; a variable with equal bounds is varied over one unit. Read, not proved: `bounds_if_normalize(None, None)` returns the bounds 0 and 1 for a problem without bounds.
* Generators (C141): a generator without `yield` on its path runs twice per iteration. `ExponentialSearch` overwrites neither `_infill` nor `_advance`, its `step()` is never called: it evaluates only the lower bound (and `step()` would fail without `x0`). `LineSearchProblem` overwrites `xl`, `xu` by those of the step length and then clips the solution to them, so that negative coordinates become 0. Read, not proved: `algorithms/base/meta.py:MetaAlgorithm2` sets `display = None` of the wrapped algorithm, whose first generation then fails when the display is called.
* C142: `SBX(repair=RoundingRepair())` without `vtype=float` cuts values off (3.5 becomes 3) because the offspring array has the parents' integer type; `PM()` on integers yields floats; rounding leaves fractional bounds.
* C145: DIMP2 has no solution on the front 1 - sqrt(f1) at time 0 with the default 30 variables (`C145_dimp2_start_refuted`): optimal values of some variables are negative but the class uses [0, 1].
* C146: cec2015.py `dMOP3` always raises (six parameters, two given); misc.py: `FDA2_deb`, `DIMP2b`, `HE2b` always raise (`self.time(t)`, but `time` is a number), `HE7b`, `HE9b` always raise (`math.sin` and `math.cos` of whole rows), `DMOP2` raises unless there are as many solutions as variables and then mixes the solutions (rows taken for columns); its `pareto_front` raises (`self.t` is never set). `FDA2_deb`'s front formula uses `x^H` instead of `x^(2^H)` (read).
* **C147** `visualization/util.py:106`: `normalize` of an array of integers keeps the integer type, so all values below the upper bound are drawn at 0 (`C147_integer_data`, `C147_integer_refuted`). `PCP` with `normalize_each_axis=False` keeps the bounds of the first drawing (`C147_stale_refuted`). `Radar` with `normalize_each_objective=False` divides only the outer ends by the largest bound: with bounds (1, 2) every solution is drawn at the same place (`C147_radar_refuted`). `Radviz` is undefined for a solution of zeros and leaves the circle for negative values. `Petal` raises for more than ten objectives (default colours).
* **C148** `heatmap.py:86`: `solution_labels=False` (documented: no labels) calls `len(False)` and raises; `heatmap.py:97` stores the reordered labels, a second drawing reorders them again; `heatmap.py:56`: a list of fewer objectives is silently replaced by 0, 1, 2, …; with the default `reverse=True` the best solutions of the ordering objective are at the bottom. `scatter.py`: a second `do()` has lost `mode` / `plot_type`.
* **C149** `vendor_scipy.py`: `Optimizer` overrides `_advance` but inherits `LoopwiseAlgorithm._infill`, which calls `_advance` itself because `state` is never set: every run calls SciPy twice from the same point (`C149_evaluations`), twice the budget (`C149_budget_refuted`). Equality constraints are dropped (line 80, `C149_equality_refuted`). `use_bounds=False` alone raises (`xl` is undefined in line 74), so methods without bounds, among them COBYLA, run on bounded problems only with all restrictions dropped (`C149_bounds`, `C149_cobyla_refuted`). Line 131 tests `hasattr("res", "nit")`, the string: `n_gen` is never set.
* **C132** `g.py`: the documented solution of G18 is feasible but not optimal, a better one exists by `2.9e-4` (`C132_g18_refuted`); those of G14 and G15 miss every equality constraint by `1e-4` and those of G13 by `1e-7`, and are therefore better than every feasible solution (`C132_g14_refuted`, `C132_g15_refuted`, `C132_g13_refuted`); `pareto_set` of G13 lists two solutions twice; G20 has no feasible solution, the documented one misses an inequality constraint by more than 0.3 (`C132_g20_infeasible`, `C132_g20_refuted`); the documented solution of G21 misses equality constraints by `1e-4` and is better than every feasible one, whose best value is between 193.725 and 193.795 (`C132_g21_refuted`, `C132_g21_optimum`); that of G16, rounded to five decimals, violates its third and fourth constraint (by up to `5.1e-6`) and is worse than a feasible solution (`C132_g16_refuted`); that of G22 misses the first equality constraint by `2.9e-5` (`C132_g22_refuted`).
* **C150** `cantilevered_beam.py:40-41`: the documented design breaks the stress constraint by `2.5e-6` (rounded too low, `C150_set_refuted`); `pareto_front` (92.7693) and the objective of `pareto_set` (92.76912) differ.
* C151: `Clutch` declares `n_ieq_constr=19` but `_evaluate` puts 8 columns in `G`; every evaluation raises.
* C152: `mkstemp` creates the temporary file with mode 0600 and `os.replace` keeps it: in a data folder shared by several users (`PYMOO_DATA_DIR`, "multi-user hosts") all users but the first get a `PermissionError`. KeyboardInterrupt is not caught by `except Exception`, so an interrupted download leaves a `.part` file that nothing removes.
* C153: `closest_point_variance` fills the diagonal with 1, so every nearest distance above 1 (up to sqrt 2 occurs on the simplex) is cut; `iterative_igd(n_partitions=0)` never ends; `RandomSamplingAndMap(n_dim=n, n_points=n)` raises (`np.min` of an empty matrix); `closest_point_variance_mod` leaves the appended corners out of the variance, unlike its siblings.
* `calc_2nn_fast` is `calc_mnn_fast`: the number of neighbours passed is overwritten (C155).
* The Optuna wrapper records a value under the wrong trial when two points are asked for before one is told, and does not tell constraints to the study (C156).
* After `problem.time = t` the MIGD callback measures the distance to the front cached for the old time (C157).
* With AdaptiveEpsilonConstraintHandling the optimum of NSGA-II-type algorithms is read from ranks written when the tolerance was larger: infeasible solutions are reported next to a feasible one (C158).
* With `NoCrossover` offspring are the parents themselves: mutation changes evaluated individuals in place, duplicate elimination then removes all offspring (or the evaluator skips them), and the result holds variables that were never evaluated with the values of other points (C159). Read, not proved: `InversionMutation(prob)` applies `prob` twice, in `_do` and in `do`.
* C160: the optimum of NSGA-III, U-NSGA-III and NSDE-R can contain solutions that are not in the population (`C160_outside_refuted`).
* C161: the `Result` returned by the `tell` that terminates the run has the archive without the last infills, and so do callbacks and history (`C161_returned_refuted`); `result()` called afterwards has them.
* C162: `random_state` is not passed on in `nsga3.py:36`, `unsga3.py:35`, `ga_niching.py:71,82,86`, `pattern.py:80,97`, `gauss.py:34`, `dex.py:117`, `archive.py:82`, `de.py:96` and `operator.py:46`; the called function then makes a generator from the entropy of the operating system, so runs with a seed differ. Pattern search is affected in every iteration: on `(x + y - 1/2)²` the first one ends in `(1/2, 0)` or `(0, 1/2)`.
* C163: `AttachConfigEvaluator` delegates to the wrapped evaluator, whose counter grows while the one the algorithm and the termination read stays 0 (adaptive.py:20-47): `("n_eval", N)` never terminates and the tolerance never shrinks. `AdaptiveConstraintHandling._setup` does not call `super()._setup` (PSO, ES, MOEA/D, RVEA, CMA-ES, Nelder-Mead ... are not set up), `_advance` drops the `False` of loop-wise algorithms, and `eval` of an individual raises because individuals have no `apply`.
* C164: the search rule of NRBO divides by `yw + yb - 2 X_i` (nrbo.py:55) without a guard (the guard in lines 41-44 protects the other division only): for a best individual at the origin every coordinate of its offspring is NaN, which passes the bound repair. `max_iteration` is not taken from the termination, so that in longer runs `delta` grows like the fifth power of the iteration.
* C165: `ImprovementReplacement` (replacement.py:77-80) takes an offspring equal to any member of the population as a duplicate; in PSO a particle that reaches the personal best of another particle does not get it as its own personal best.
* **C166** `nelder.py:42, 50`: the criterion `1 / (1 + (delta - tol))` is negative if the tolerance exceeds the spread by more than one, so that a large `f_tol` or `x_tol` never stops the search (`C166_large_tolerance_refuted`); the criteria are combined by the maximum, so that a simplex symmetric to the optimum ends the search at once (`C166_symmetric_refuted`).
* **C167** `vendor/cec2018.py` is not the DF suite: `get_bounds` has equal lower and upper bounds in nine problems (`C167_bounds_refuted`), eight objective functions differ from `problems/dynamic/df.py` (`C167_objectives_refuted`: e.g. `power(1 - x/g, H)` instead of `1 - power(x/g, H)`), the fronts of DF9, 12 and 13 are empty and that of DF11 multiplies matrices instead of entries, so that two coordinates are 50 times too large (`C167_front_refuted`); the bundled DF1 dominates its own front (`C167_own_front_refuted`).
* **C168** while the environment of DB7 and DB8 is 0 (the first time unit of every ten, so also at the start) the exponent of the front is `log(1) / log(eps) = 0` and the problem has the single optimal objective vector (0, 0) (`C168_conf`).
* **C169** no violation; of the curve MW10 has without constraints only two arcs remain, of that of MW11 one point.

## Not modelled

Statistical claims (convergence quality, distribution of random draws), wall-clock behaviour (time-based termination beyond its arithmetic), pixels
and colours of plots (the arrangement, the data-to-plot maps and the contents of tables are C125, C147, C148, C154), the byte format of pickles
(copying is modelled as copying of the reachable objects), operating-system behaviour of pools (their schedules are modelled, their failures only as
exceptions), automatic differentiation, floating-point rounding, and the external packages named in the trusted base (the SciPy and network bridges are
modelled up to the call, C149, C152). Parts of `/repo` cited by no model: the vendored CMA-ES core (`vendor/vendor_cmaes.py`; pymoo's driver around it is
C140), MODAct (needs an external package), documentation tooling, video recording, and the MATLAB bridge.
