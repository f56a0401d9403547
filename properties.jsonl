{"id": "C01", "title": "Dominance relation is exactly constrained Pareto dominance", "statement": "Dominator.get_relation(a,b,cva,cvb) returns 1 iff a is strictly better (strictly smaller constraint violation, or - when the violations tie or are not given - a Pareto-dominates b), -1 iff b is strictly better than a, and 0 otherwise; hence swapping the arguments negates the answer, no vector dominates itself, and dominance is transitive.", "quantifier": "all pairs/triples of equal-length objective vectors of any length over any linearly ordered values, all constraint violations given or not", "why_tests_cant": "The loop keeps a running verdict and can exit early; the number of objectives and the order pattern of the components are unbounded, so a test can only sample sign patterns.", "anchors": ["pymoo/util/dominator.py:Dominator.get_relation", "pymoo/util/dominator.py:get_relation"]}
{"id": "C02", "title": "Vectorised and loop domination matrices agree with dominance", "statement": "Dominator.calc_domination_matrix(F) has entry 1 at (i,j) iff row i dominates row j, -1 iff row j dominates row i, else 0, and so coincides with the loop version on constraint-free data; with a tolerance epsilon, entry 1 means some objective improves by more than epsilon and none is worse by more than epsilon. The loop version with constraint rows G ranks by summed positive violation first.", "quantifier": "all objective matrices with any number of rows and columns, all tolerances", "why_tests_cant": "Two independent implementations must agree on every matrix, including ties, duplicates and every shape.", "anchors": ["pymoo/util/dominator.py:Dominator.calc_domination_matrix", "pymoo/util/dominator.py:Dominator.calc_domination_matrix_loop"]}
{"id": "C03", "title": "Fast non-dominated sorting yields the canonical Pareto fronts and terminates", "statement": "fast_non_dominated_sort(F) terminates for every matrix; every row index occurs in exactly one returned front; no front is empty; a point is in front k iff every point dominating it lies in earlier fronts and (for k>0) at least one dominator lies in front k-1. In particular front 0 is exactly the set of non-dominated points.", "quantifier": "all finite point sets of every size and dimension, and every strict-partial-order dominance relation supplied as a dominator", "why_tests_cant": "The result depends on counters decremented across an unbounded while loop; partition, canonicity and termination are statements about all dominance graphs.", "anchors": ["pymoo/functions/standard/non_dominated_sorting.py:fast_non_dominated_sort", "pymoo/util/nds/fast_non_dominated_sort.py:fast_non_dominated_sort"]}
{"id": "C04", "title": "ENS with sequential search returns the canonical fronts", "statement": "efficient_non_dominated_sort(F,'sequential') places each point into the front with the same number as the canonical Pareto ranking (the one characterised in C03), each index exactly once.", "quantifier": "all point sets, all tie patterns", "why_tests_cant": "Correctness relies on the lexicographic presort making later points never dominate earlier ones, for all inputs.", "anchors": ["pymoo/functions/standard/non_dominated_sorting.py:efficient_non_dominated_sort", "pymoo/functions/standard/non_dominated_sorting.py:sequential_search"]}
{"id": "C05", "title": "ENS with binary search terminates and agrees with sequential search", "statement": "efficient_non_dominated_sort(F,'binary') terminates, never indexes outside the list of fronts, and returns exactly the same fronts as the 'sequential' strategy.", "quantifier": "all point sets of any size, all numbers of fronts", "why_tests_cant": "Off-by-one errors in a binary search only show for particular front counts; the probe bounds have to be right for every count and every answer pattern.", "anchors": ["pymoo/functions/standard/non_dominated_sorting.py:binary_search", "pymoo/functions/standard/non_dominated_sorting.py:efficient_non_dominated_sort"]}
{"id": "C06", "title": "Native bi-objective sorting returns the Pareto fronts", "statement": "fast_non_dominated_sort(F, native_biobj_sorting=True) on two objectives returns fronts in which no member dominates another member, and front 0 is the non-dominated set. (The unchanged code violates this when first-objective values tie; the property holds when no two points tie in any objective.)", "quantifier": "all bi-objective point sets", "why_tests_cant": "Whether ties break the front property depends on the (unspecified) order numpy's argsort gives equal keys.", "anchors": ["pymoo/functions/standard/non_dominated_sorting.py:_fast_biobjective_nondominated_sort"]}
{"id": "C07", "title": "find_non_dominated returns exactly the non-dominated points", "statement": "find_non_dominated(F) returns, in increasing order and without repetition, exactly the indices of the rows that no other row Pareto-dominates; for epsilon=0 it is non-empty whenever F is; with tolerance epsilon>0 a point is excluded iff another point is epsilon-better in some objective and nowhere more than epsilon worse. NonDominatedSorting's find_non_dominated(F,_F) returns exactly the rows of F not dominated by a row of _F.", "quantifier": "all point sets, all tolerances epsilon", "why_tests_cant": "Two nested early-exit loops; the statement ranges over all sets and duplicates.", "anchors": ["pymoo/functions/standard/non_dominated_sorting.py:find_non_dominated", "pymoo/util/nds/non_dominated_sorting.py:find_non_dominated"]}
{"id": "C08", "title": "Dominance-degree sorting (both strategies) returns the canonical fronts", "statement": "dominance_degree_non_dominated_sort(F,'fast') and (F,'efficient') both terminate and return the canonical Pareto fronts; an unknown strategy raises ValueError.", "quantifier": "all point sets with at least one objective, every way the argsort may order ties", "why_tests_cant": "The degree matrix is built from sorted orders with ties; correctness must hold for every tie-breaking.", "anchors": ["pymoo/functions/standard/non_dominated_sorting.py:construct_comp_matrix", "pymoo/functions/standard/non_dominated_sorting.py:construct_domination_matrix", "pymoo/functions/standard/non_dominated_sorting.py:dda_ns", "pymoo/functions/standard/non_dominated_sorting.py:dda_ens", "pymoo/functions/standard/non_dominated_sorting.py:dominance_degree_non_dominated_sort"]}
{"id": "C09", "title": "Tree-based sorting returns the canonical fronts", "statement": "tree_based_non_dominated_sort(F) returns each index once and the canonical Pareto fronts (as sets). (The unchanged code violates this on duplicate rows, which it puts into later fronts; proved for point sets without duplicate rows.)", "quantifier": "all point sets of any size and dimension", "why_tests_cant": "Pruning of tree branches is justified only by an invariant over all trees that can be built.", "anchors": ["pymoo/functions/standard/non_dominated_sorting.py:tree_based_non_dominated_sort", "pymoo/functions/standard/non_dominated_sorting.py:update_tree", "pymoo/functions/standard/non_dominated_sorting.py:check_tree"]}
{"id": "C10", "title": "Rank bookkeeping of NonDominatedSorting", "statement": "rank_from_fronts(fronts,n) assigns to every index its front number (and the sentinel to unranked ones). NonDominatedSorting.do with n_stop_if_ranked=k returns a prefix of the fronts that is the shortest prefix containing at least k points (all fronts if there are fewer), and n_fronts=k returns at most k leading fronts.", "quantifier": "all front lists, all k", "why_tests_cant": "Boundary behaviour around the cut-off for every front size pattern.", "anchors": ["pymoo/util/nds/non_dominated_sorting.py:NonDominatedSorting.do", "pymoo/util/nds/non_dominated_sorting.py:rank_from_fronts"]}
{"id": "C11", "title": "Rank-and-crowding survival keeps exactly the right number and never prefers a worse front", "statement": "RankAndCrowding survival of n individuals out of a population returns exactly min(n,len(pop)) distinct members of the population; if a member survives, every member of a strictly better front survives; within the cut front, every survivor has crowding at least that of every non-survivor.", "quantifier": "all populations, all n, every random tie-breaking of the argsort", "why_tests_cant": "Depends on slicing arithmetic (front sizes vs. remaining slots) and on every possible random permutation.", "anchors": ["pymoo/operators/survival/rank_and_crowding/classes.py:RankAndCrowding", "pymoo/util/randomized_argsort.py:randomized_argsort"]}
{"id": "C12", "title": "Survival is feasibility-first", "statement": "Survival.do on a constrained problem returns exactly min(n_survive,len(pop)) distinct individuals when the operator's own selection does; if any infeasible individual survives then every feasible individual survives; and an infeasible survivor never has larger constraint violation than an infeasible non-survivor. split_by_feasibility returns a partition of the indices.", "quantifier": "all populations with any CV values, all n_survive, every stable or unstable CV sort", "why_tests_cant": "Quantifies over all mixes of feasible and infeasible members and all truncation points.", "anchors": ["pymoo/core/survival.py:Survival.do", "pymoo/core/survival.py:split_by_feasibility"]}
{"id": "C13", "title": "Crowding distance favours extremes and is non-negative", "statement": "calc_crowding_distance(F) gives every point a value >= 0; in every objective whose values are not all equal, a point placed first or last in that objective's sorted order gets an infinite distance; the finite value of a point is the mean over objectives of the normalised gap between its two sorted neighbours; objectives with no spread contribute 0.", "quantifier": "all objective matrices with at least one objective", "why_tests_cant": "Infinities, zero spreads and ties interact through a sort and its inverse for arbitrary matrices.", "anchors": ["pymoo/operators/survival/rank_and_crowding/metrics.py:calc_crowding_distance", "pymoo/operators/survival/rank_and_crowding/metrics.py:FunctionalDiversity"]}
{"id": "C14", "title": "Duplicate elimination returns a duplicate-free subset covering the input", "statement": "DefaultDuplicateElimination.do(pop, others...) returns a subsequence of pop in which no two members are within epsilon of each other or of a member of others ... and every removed member is within epsilon of an earlier member of pop or of a member of others; HashDuplicateElimination and the element-wise variant keep exactly one representative of each class of equal individuals not already in others; NoDuplicateElimination keeps everything.", "quantifier": "all populations, all other populations, all epsilon / all equivalence relations", "why_tests_cant": "Pairwise property of arbitrary size populations; order of elimination matters.", "anchors": ["pymoo/core/duplicate.py:DuplicateElimination.do", "pymoo/core/duplicate.py:DefaultDuplicateElimination", "pymoo/core/duplicate.py:ElementwiseDuplicateElimination", "pymoo/core/duplicate.py:HashDuplicateElimination"]}
{"id": "C15", "title": "Infill loop: bounded, duplicate-free, never too many", "statement": "InfillCriterion.do(n_offsprings) terminates after at most n_max_iterations rounds, returns at most n_offsprings individuals, and with the default duplicate elimination the returned individuals are pairwise non-duplicates and none duplicates a member of the current population, whatever offspring the operators generate; fewer than n_offsprings are returned only if the iteration limit was reached.", "quantifier": "all behaviours of the (random) offspring generator, all populations, all limits", "why_tests_cant": "The generator is arbitrary: a history property over all rounds.", "anchors": ["pymoo/core/infill.py:InfillCriterion.do", "pymoo/core/mating.py:Mating._do"]}
{"id": "C16", "title": "Evaluator counts and never re-evaluates", "statement": "After any sequence of Evaluator.eval calls on populations, n_eval equals the number of individual evaluations actually performed with counting enabled; an individual whose requested values are already evaluated is not evaluated again (and keeps its values) when skip_already_evaluated is on; after the call every individual of the population has all requested values evaluated.", "quantifier": "all sequences of eval calls, all populations (also sharing individuals), all subsets of requested values", "why_tests_cant": "A history invariant across arbitrary call sequences and evaluation states.", "anchors": ["pymoo/core/evaluator.py:Evaluator.eval"]}
{"id": "C17", "title": "Termination progress, latching and combination", "statement": "Termination.update returns a value and has_terminated() is true iff the last recorded progress is >= 1; a forced termination reports progress 1; combining with 'any' terminates iff some member terminates, 'all' iff every member does; a raw progress below zero is rejected with an assertion. Max-generation and max-evaluation criteria terminate at exactly the first call whose counter reaches the limit and stay terminated for monotone counters.", "quantifier": "all histories of algorithm counters, all nested combinations of criteria", "why_tests_cant": "History and composition property; any nesting depth.", "anchors": ["pymoo/core/termination.py:Termination.update", "pymoo/core/termination.py:TerminateIfAny", "pymoo/core/termination.py:TerminateIfAll", "pymoo/termination/max_gen.py:MaximumGenerationTermination", "pymoo/termination/max_eval.py:MaximumFunctionCallTermination"]}
{"id": "C18", "title": "The algorithm loop runs exactly the requested number of generations", "statement": "Running an algorithm with the termination ('n_gen',N), N>=1, performs exactly N generations and ends with has_next() false; after k next() calls before that, n_iter = k+1 and has_next() is true; run() finalises exactly once. The evaluation budget ('n_eval',B) stops at the first generation boundary where the counter is >= B, overshooting by less than one generation's evaluations.", "quantifier": "all N, all B, all algorithms implementing _infill/_advance (arbitrary offspring sizes), all histories", "why_tests_cant": "Loop-count off-by-ones and overshoot are statements about every N and every sequence of batch sizes.", "anchors": ["pymoo/core/algorithm.py:Algorithm.run", "pymoo/core/algorithm.py:Algorithm.next", "pymoo/core/algorithm.py:Algorithm.advance", "pymoo/core/algorithm.py:Algorithm._post_advance", "pymoo/core/algorithm.py:Algorithm.infill"]}
{"id": "C19", "title": "Constraint violation is zero exactly for satisfied constraints", "statement": "The aggregated violation (default configuration) computed by Individual.calc_cv is >= 0; it is 0 iff every inequality value g <= eps_ieq and every equality value satisfies |h| <= eps_eq; it is monotone in each g and each |h|; no constraints give 0; FEAS is true iff CV <= cv_eps.", "quantifier": "all constraint vectors of any length, all tolerances >= 0 and positive scales", "why_tests_cant": "All real-valued vectors and lengths.", "anchors": ["pymoo/core/individual.py:calc_cv", "pymoo/core/individual.py:constr_to_cv", "pymoo/core/individual.py:Individual.FEAS"]}
{"id": "C20", "title": "CV read from an individual reflects its current constraint values", "statement": "Reading CV after any sequence of set(G/H), reads and resets equals the violation computed from the currently stored G and H. (The unchanged code violates this when the caching configuration is on: CV stays stale after G or H is overwritten; it holds if reset/CV invalidation happens before each read or caching is off.)", "quantifier": "all sequences of attribute writes and reads on an individual", "why_tests_cant": "A cache-coherence history property.", "anchors": ["pymoo/core/individual.py:Individual.CV", "pymoo/core/individual.py:Individual.G", "pymoo/core/individual.py:Individual.H", "pymoo/core/individual.py:Individual.reset"]}
{"id": "C21", "title": "filter_optimum returns the best solutions", "statement": "filter_optimum(pop): None/empty input gives None; if some individual is feasible, the result contains only feasible individuals - for a single objective, one with minimal F; for several objectives exactly the non-dominated feasible ones; if none is feasible, the result is an individual of least constraint violation (None if least_infeasible is off).", "quantifier": "all populations, all dimensions", "why_tests_cant": "Optimality over arbitrary populations.", "anchors": ["pymoo/util/optimum.py:filter_optimum"]}
{"id": "C22", "title": "Archives respect their size limit and keep the best", "statement": "After any sequence of Archive.add calls the archive holds at most max_size individuals, all of which were added (or were initially present); a single-objective archive contains a best individual among all ever added; an unbounded multi-objective archive with the default filter equals the non-dominated feasible subset of everything ever added.", "quantifier": "all histories of add calls", "why_tests_cant": "Invariant over arbitrary histories.", "anchors": ["pymoo/util/archive.py:Archive.add", "pymoo/util/archive.py:SingleObjectiveArchive", "pymoo/util/archive.py:MultiObjectiveArchive"]}
{"id": "C23", "title": "Improvement replacement is elitist and monotone", "statement": "ImprovementReplacement accepts an offspring at position k iff it is strictly better than the parent (both infeasible: smaller CV; feasible beats infeasible; both feasible: smaller F) and is not a duplicate; hence at every position the solution never gets worse, and over any number of generations each position's quality is monotone.", "quantifier": "all parent/offspring populations, any number of generations", "why_tests_cant": "Monotonicity over histories for all values.", "anchors": ["pymoo/core/replacement.py:is_better", "pymoo/core/replacement.py:ImprovementReplacement", "pymoo/core/replacement.py:ReplacementSurvival"]}
{"id": "C24", "title": "Bound repairs always return points within bounds and leave feasible points unchanged", "statement": "Clamping (repair_clamp, set_to_bounds_if_outside), periodic wrapping (repair_periodic), bounce-back and random re-initialisation repair return values in [xl,xu] for every input with xl<=xu, and return in-bounds inputs unchanged. (The unchanged code violates this for periodic wrapping and bounce-back of a fixed variable, xl=xu, where the result is NaN; proved for xl<xu there.)", "quantifier": "every matrix of points, bounds vectors and random stream", "why_tests_cant": "must hold for every point, however far outside the bounds", "anchors": ["pymoo/operators/repair/to_bound.py:set_to_bounds_if_outside", "pymoo/operators/repair/bounds_repair.py:repair_clamp", "pymoo/operators/repair/bounds_repair.py:repair_periodic", "pymoo/operators/repair/bounce_back.py:bounce_back", "pymoo/operators/repair/bounds_repair.py:repair_random_init", "pymoo/operators/repair/inverse_penalty.py:inverse_penality"]}
{"id": "C25", "title": "Order crossover and inversion mutation map permutations to permutations", "statement": "OrderCrossover's ox and EdgeRecombinationCrossover's erx applied to two permutations of the same set return a permutation of that set; ox keeps the donor segment in place; InversionMutation returns a permutation of its input reversing exactly the chosen segment.", "quantifier": "all permutations of any length, all segment choices / random draws", "why_tests_cant": "n! permutations, unbounded n.", "anchors": ["pymoo/operators/crossover/ox.py:ox", "pymoo/operators/crossover/erx.py:erx", "pymoo/operators/mutation/inversion.py:inversion_mutation"]}
{"id": "C26", "title": "Mask crossovers exchange genes position-wise", "statement": "For every mask, crossover_mask produces two children such that at each position the pair of children genes is the pair of parents genes, swapped exactly where the mask is true; hence n-point, uniform, half-uniform, binomial and exponential crossovers conserve the multiset of genes per position, and half-uniform exchanges only positions where the parents differ.", "quantifier": "all parents, all masks (all random draws)", "why_tests_cant": "All masks of unbounded length.", "anchors": ["pymoo/util/misc.py:crossover_mask", "pymoo/operators/crossover/pntx.py", "pymoo/operators/crossover/ux.py", "pymoo/operators/crossover/hux.py", "pymoo/operators/crossover/binx.py", "pymoo/operators/crossover/expx.py"]}
{"id": "C27", "title": "Stochastic ranking returns a permutation, and is lexicographic for pr=0", "statement": "stochastic_ranking(f,phi,pr) returns a permutation of the indices for every random stream; when every comparison is by violation unless both are feasible (pr=0), the result is sorted: feasible before infeasible by f, infeasible by increasing phi; when pr=1 (always compare objectives) the result is sorted by f.", "quantifier": "all f, phi of any length, all random streams, all N sweeps up to termination", "why_tests_cant": "A bubble sort with early exit under an arbitrary random stream.", "anchors": ["pymoo/functions/standard/stochastic_ranking.py:stochastic_ranking"]}
{"id": "C28", "title": "Tournament selection picks valid, non-dominated-by-rivals participants", "statement": "TournamentSelection returns exactly n_select*n_parents valid population indices; each individual takes part in equally many tournaments up to one when permutations are exhausted; binary tournament comparison never returns the participant with larger constraint violation, and for feasible ones never the dominated (or worse-ranked) participant.", "quantifier": "all populations, all pressures, all random permutations", "why_tests_cant": "All random schedules.", "anchors": ["pymoo/operators/selection/tournament.py:TournamentSelection", "pymoo/operators/selection/tournament.py:compare", "pymoo/algorithms/moo/nsga2.py:binary_tournament"]}
{"id": "C29", "title": "Das-Dennis reference directions: on the simplex, distinct, complete, counted", "statement": "das_dennis(p,n_dim) for p>=1 returns exactly C(n_dim+p-1,p) pairwise distinct vectors, each non-negative with coordinates that are multiples of 1/p summing to 1, and every such vector occurs; p=0 gives the centre point. The iterator DasDennis yields the same points.", "quantifier": "all numbers of partitions and dimensions", "why_tests_cant": "Combinatorial count for all p and n.", "anchors": ["pymoo/util/reference_direction.py:das_dennis", "pymoo/util/reference_direction.py:das_dennis_recursion", "pymoo/util/reference_direction.py:get_number_of_uniform_points", "pymoo/util/ref_dirs/das_dennis.py:DasDennis"]}
{"id": "C30", "title": "Partition number closest to a point budget", "statement": "get_partition_closest_to_points(n_points,n_dim) terminates for n_dim>=2 and returns the largest p with C(n_dim+p-1,p) <= n_points (n_dim=1 returns 0), so the generated set never exceeds the requested number when n_points>=1.", "quantifier": "all n_points and n_dim", "why_tests_cant": "Search loop over an unbounded range.", "anchors": ["pymoo/util/reference_direction.py:get_partition_closest_to_points"]}
{"id": "C31", "title": "Normalisation round-trips", "statement": "ZeroToOneNormalization: backward(forward(x)) = x for every x wherever lower < upper (or bounds missing), components with equal bounds are handled as documented, forward maps [xl,xu] into [0,1] and is monotone; SimpleZeroToOneNormalization likewise; denormalize(normalize(x)) = x.", "quantifier": "all x, all bounds including partially missing ones and xl=xu", "why_tests_cant": "All reals with all patterns of missing/degenerate bounds.", "anchors": ["pymoo/util/normalization.py:ZeroToOneNormalization", "pymoo/util/normalization.py:SimpleZeroToOneNormalization", "pymoo/util/normalization.py:normalize", "pymoo/util/normalization.py:denormalize"]}
{"id": "C32", "title": "Scalarisations are monotone with respect to dominance", "statement": "WeightedSum, Tchebicheff (points not better than the utopian point), ASF and AASF satisfy: if a weakly dominates b then value(a) <= value(b) for every non-negative weight vector (positive for ASF/AASF); weighted sum with positive weights is strictly monotone; ASF takes the value max_i (f_i-z_i)/w_i.", "quantifier": "all objective vectors, weights, utopian points of any dimension", "why_tests_cant": "All reals and dimensions.", "anchors": ["pymoo/decomposition/weighted_sum.py", "pymoo/decomposition/tchebicheff.py", "pymoo/decomposition/asf.py", "pymoo/decomposition/aasf.py", "pymoo/core/decomposition.py:Decomposition.do"]}
{"id": "C33", "title": "Sliding window keeps the last entries in order", "statement": "SlidingWindow(size) after any sequence of appends contains exactly the last min(size, number of appends) elements in insertion order; size None keeps everything; is_full iff it holds size elements.", "quantifier": "all append histories, all sizes", "why_tests_cant": "History invariant.", "anchors": ["pymoo/util/sliding_window.py:SlidingWindow"]}
{"id": "C34", "title": "NSGA-III niching selects distinct members with balanced niches", "statement": "niching(pop,n_remaining,niche_count,...) returns exactly n_remaining distinct individuals of the last front (when at least that many exist), for every random choice, and each selection goes to a niche of currently minimal count among niches with remaining members; the niche count is incremented for each selection.", "quantifier": "all association patterns, all niche counts, all random draws", "why_tests_cant": "While loop with randomised picks; termination and distinctness for all choices.", "anchors": ["pymoo/algorithms/moo/nsga3.py:niching", "pymoo/algorithms/moo/nsga3.py:calc_niche_count"]}
{"id": "C35", "title": "Population merge/set/get preserve individuals and order", "statement": "Population.merge(a,b,...) contains exactly the individuals of a followed by those of b (None ignored); set(key,values) followed by get(key) returns values in order and leaves other keys alone; a length mismatch raises; interleaved arguments with an odd count raise.", "quantifier": "all populations and value lists, all sequences of sets", "why_tests_cant": "Algebraic laws over all sizes.", "anchors": ["pymoo/core/population.py:Population", "pymoo/core/population.py:merge", "pymoo/core/population.py:interleaving_args"]}
{"id": "C36", "title": "Parameter dictionaries round-trip between nested and flat form", "statement": "hierarchical(flatten(params)) gives back the nested parameter tree for parameter names without the separator and trees without empty groups (which is what get_params produces); flatten produces one entry per leaf with the dotted path as key; get_params reports every requested variable of an object at exactly one path; set_params changes exactly the named parameters.", "quantifier": "all parameter trees of any depth", "why_tests_cant": "Unbounded nesting.", "anchors": ["pymoo/core/parameters.py:flatten", "pymoo/core/parameters.py:hierarchical", "pymoo/core/parameters.py:get_params", "pymoo/core/parameters.py:set_params"]}
{"id": "C37", "title": "Roulette wheel picks a valid index with the right cumulative interval", "statement": "RouletteWheelSelection.next returns, for each random number in [0,1) and values not all equal to the worst one (non-negative if larger is better), a valid index i whose cumulative-probability interval contains the number; better values never get smaller intervals.", "quantifier": "all value vectors, all random numbers", "why_tests_cant": "All reals.", "anchors": ["pymoo/util/roulette.py:RouletteWheelSelection"]}
{"id": "C38", "title": "Randomised argsort sorts for every random stream", "statement": "randomized_argsort(A, method='quicksort' or 'numpy', order) returns a permutation of the indices along which A is monotone (ascending/descending) for every random stream.", "quantifier": "all arrays, all random streams", "why_tests_cant": "Randomised recursion over all inputs.", "anchors": ["pymoo/util/randomized_argsort.py"]}
{"id": "C39", "title": "Duplicate index helpers agree with their definition", "statement": "find_duplicates(X,epsilon) marks exactly the rows within epsilon of an earlier row; get_duplicates(M) lists groups of equal rows (the unchanged code raises IndexError when the last sorted rows are equal).", "quantifier": "all matrices", "why_tests_cant": "All sizes and tie patterns.", "anchors": ["pymoo/util/misc.py:find_duplicates", "pymoo/util/misc.py:get_duplicates"]}
{"id": "C40", "title": "DE selection indices are mutually distinct", "statement": "Differential-evolution parent selection returns, for each target, parents that are pairwise distinct and (for 'rand' variants) different from the target, for every random stream, whenever the population is large enough.", "quantifier": "all population sizes, all random streams", "why_tests_cant": "Rejection-resampling loop over arbitrary random draws.", "anchors": ["pymoo/operators/selection/des.py:DES"]}
{"id": "C41", "title": "Survival-driven replacement keeps the better of parent and offspring", "statement": "ToReplacement(survival).do(problem, pop, off) replaces the individual at position k by its offspring exactly if the wrapped survival operator ranks the offspring better than the parent. (The unchanged code violates this: it stores the list of positions in order of merit as if it were the list of ranks. It holds for one parent and one offspring.)", "quantifier": "all parent and offspring populations, all survival orders", "why_tests_cant": "Only some orders (those that are not involutions) expose the confusion of a permutation with its inverse.", "anchors": ["pymoo/core/survival.py:ToReplacement._do"]}
{"id": "C42", "title": "Target value termination stops when the target is reached", "statement": "MinimumFunctionValueTermination(fmin) terminates exactly when a feasible solution with objective at most fmin has been found. (The unchanged code divides fmin by the best value and violates this for non-positive values: it can stop early, never stop, or raise an AssertionError; it holds for positive targets and values.)", "quantifier": "every target value and best objective value", "why_tests_cant": "the sign combinations and magnitudes are unbounded", "anchors": ["pymoo/termination/fmin.py:MinimumFunctionValueTermination", "pymoo/core/termination.py:Termination.update"]}
{"id": "C43", "title": "Tolerance criteria stop only after a full period without change", "statement": "RobustTermination(criterion, period) terminates iff the wrapped criterion reported full progress in each of the last period updates (or in all updates when there were fewer); a tolerance criterion reports 0 at its first update, full progress iff the change since the remembered data is within the tolerance, and otherwise a value in [0,1); hence a robust tolerance criterion never stops within its first period updates.", "quantifier": "every sequence of updates, window length, tolerance, skip interval", "why_tests_cant": "histories are unbounded", "anchors": ["pymoo/termination/robust.py:RobustTermination", "pymoo/termination/delta.py:DeltaToleranceTermination", "pymoo/util/sliding_window.py:SlidingWindow"]}
{"id": "C44", "title": "Until-feasible termination", "statement": "UntilFeasibleTermination reaches full progress exactly when the least constraint violation of the optimum is not positive, and never raises. (The second half is violated by the unchanged code: it raises an AssertionError as soon as the violation exceeds the initially remembered one.)", "quantifier": "every history of constraint violations", "why_tests_cant": "histories are unbounded", "anchors": ["pymoo/termination/cv.py:UntilFeasibleTermination"]}
{"id": "C45", "title": "Parameter-less penalty orders by feasibility first", "statement": "parameter_less(F,CV) leaves the values of feasible solutions unchanged and, for fmax at least every value (the default is the maximum), the resulting values are ordered exactly like the solutions in the feasibility-first order: smaller iff feasible against infeasible, both feasible with smaller objective, or both infeasible with smaller violation. (With a smaller user-given fmax this fails.)", "quantifier": "all value vectors, violation vectors and admissible fmax", "why_tests_cant": "the order equivalence must hold for every pair of solutions and every real value", "anchors": ["pymoo/util/misc.py:parameter_less", "pymoo/core/replacement.py:parameter_less"]}
{"id": "C46", "title": "Rounding repair returns integers and keeps integral points", "statement": "RoundingRepair rounds every variable to an integer at distance at most one half, ties going to the even neighbour, and leaves integer points unchanged; with integer bounds a point inside the bounds stays inside.", "quantifier": "every vector of decision values", "why_tests_cant": "rounding must be right for every value including ties", "anchors": ["pymoo/operators/repair/rounding.py:RoundingRepair"]}
{"id": "C47", "title": "Mating creates new individuals and leaves the population alone", "statement": "Crossover.do returns n_offsprings*n_matings new individuals, offspring o of mating k at index o*n_matings+k; a mating that is not crossed copies its parents (in order if there are as many offspring as parents, different ones if fewer, every one at least once if more); Mutation.do changes only the design vectors of accepted individuals, and nothing of the given ones with inplace=False; a mating step never changes an individual of the current population.", "quantifier": "every number of parents, offspring and matings, every random draw, every operator body and every state of the individuals", "why_tests_cant": "aliasing errors appear only for particular operator combinations (e.g. an operator that returns its input objects); tests check offspring values, not that all other objects are untouched", "anchors": ["pymoo/core/crossover.py:Crossover.do", "pymoo/core/mutation.py:Mutation.do", "pymoo/core/mating.py:Mating._do", "pymoo/operators/crossover/nox.py:NoCrossover.do"]}
{"id": "C48", "title": "Simulated binary crossover keeps children inside the bounds", "statement": "For parents inside the bounds, every variable of every child of SBX is inside the bounds; a variable that is not selected, whose parents agree within the tolerance or whose bounds coincide is inherited unchanged; otherwise one child lies on each side of the mean of the two parents and the spread grows with the random number drawn.", "quantifier": "all parent matrices, bounds, eta >= 0, probabilities and random numbers in [0,1)", "why_tests_cant": "a test draws a few random numbers; the spread factor is a real power whose range must be bounded for all inputs", "anchors": ["pymoo/operators/crossover/sbx.py:cross_sbx", "pymoo/operators/crossover/sbx.py:SimulatedBinaryCrossover"]}
{"id": "C49", "title": "Polynomial mutation keeps values inside the bounds", "statement": "For values inside the bounds the mutated values are inside the bounds, entries that are not selected or whose bounds coincide are unchanged, and the mutated value is a nondecreasing function of the random number running from the lower bound over the old value (at 1/2) to the upper bound.", "quantifier": "all matrices, bounds, eta >= 0, masks and random numbers in [0,1]", "why_tests_cant": "the distribution index appears as a real exponent; sampling cannot show the bound for all values", "anchors": ["pymoo/operators/mutation/pm.py:mut_pm"]}
{"id": "C50", "title": "Differential evolution operators compute the documented differential and stay inside the bounds", "statement": "The donor is base + F * (sum of differences), scaled only by the configured jitter/dither; offspring and trial vectors of parents inside the bounds are inside the bounds, with any recombination; variables outside the mask are inherited; the configured F, jitter and dither are the ones used.", "quantifier": "all numbers of matings, variables and difference pairs, all scale factors, masks and random numbers", "why_tests_cant": "the retry loop and the repair depend on random numbers; the settings are ignored only on some paths", "anchors": ["pymoo/operators/crossover/dex.py:DEX", "pymoo/operators/crossover/dex.py:de_differential", "pymoo/algorithms/soo/nonconvex/de.py:Variant"]}
{"id": "C51", "title": "Points sampled on or mapped onto the unit simplex lie on it", "statement": "Mapping rows of non-negative numbers onto the unit simplex returns, for both mapping methods, rows of the same dimension whose coordinates are non-negative and sum to one; combining layers of reference directions returns each point of the layers without repetition, in their order.", "quantifier": "every number of rows and dimensions, every non-negative input with non-zero row sum (sum) or entries in [0,1] (kraemer), every list of layers", "why_tests_cant": "the property ranges over every random matrix and every dimension", "anchors": ["pymoo/util/reference_direction.py:map_onto_unit_simplex", "pymoo/util/reference_direction.py:MultiLayerReferenceDirectionFactory.do"]}
{"id": "C52", "title": "Greedy selection of distant points picks distinct points", "statement": "Selecting n points with maximum distance extends the given start by pairwise different points, each at the time of its selection a point with the largest distance to the points selected before.", "quantifier": "every distance matrix, every start, every number of requested points", "why_tests_cant": "depends on the whole history of the greedy loop; small examples with few rounds do not show the index confusion", "anchors": ["pymoo/util/reference_direction.py:select_points_with_maximum_distance"]}
{"id": "C53", "title": "Ideal, worst, extreme and nadir points over a whole run", "statement": "ObjectiveSpaceNormalization: after any sequence of updates the ideal point is exactly the component-wise minimum of every feasible objective vector ever seen (and the infeasible ideal that of all vectors). HyperplaneNormalization: after any sequence of updates the ideal/worst points are the component-wise minimum/maximum of everything ever seen, extreme points are members of the seen sets minimising the documented achievement function, and ideal <= nadir <= worst in every objective, where a nadir too close to the ideal is replaced by the worst of the current population.", "quantifier": "all sequences of populations of any size and objective count, every outcome of the linear solve (including failure and NaN)", "why_tests_cant": "State accumulates over arbitrarily long histories; the solver can fail or return anything at each step.", "anchors": ["pymoo/util/normalization.py:find_ideal", "pymoo/algorithms/moo/nsga3.py:HyperplaneNormalization", "pymoo/algorithms/moo/nsga3.py:get_extreme_points_c", "pymoo/algorithms/moo/nsga3.py:get_nadir_point"]}
{"id": "C54", "title": "Gaussian and bit-flip mutation touch only the selected entries and stay in the domain", "statement": "Gaussian mutation of values inside the bounds gives values inside the bounds and leaves the unselected entries alone; a bit flip inverts exactly the selected bits, twice gives the original, and a 0/1 array stays a 0/1 array.", "quantifier": "all matrices, bounds, masks and random numbers", "why_tests_cant": "the repaired values depend on arbitrary normal draws; integer arrays behave differently from boolean ones", "anchors": ["pymoo/operators/mutation/gauss.py:mut_gauss", "pymoo/operators/mutation/bitflip.py:BitflipMutation"]}
{"id": "C55", "title": "Problem.evaluate returns the documented shapes and attributes values to the right points", "statement": "If Problem.evaluate returns, every requested value is present and F, G, H (and the gradients) have exactly one row per point and one column per objective/constraint; with elementwise evaluation row i is what the user's function set for point i, in every batch size and with every runner, evaluating in parts gives the same rows, and one vector gives the first row; values of the wrong size raise; NaN is replaced if asked for; missing values are infinite.", "quantifier": "all evaluation functions (elementwise and vectorised), points, batch sizes, numbers of objectives and constraints", "why_tests_cant": "the evaluation function is user code and the formatting is a chain of reshapes: a test tries a few problems", "anchors": ["pymoo/core/problem.py:Problem.evaluate", "pymoo/core/problem.py:Problem._format_dict", "pymoo/parallelization/starmap.py:StarmapParallelization"]}
{"id": "C56", "title": "Constraint wrappers preserve feasible solutions and the meaning of feasibility", "statement": "ConstraintsAsPenalty leaves feasible objective values unchanged and worsens infeasible ones; ConstraintsAsObjective adds an objective that is zero exactly for feasible points; ConstraintsFromBounds is satisfied exactly by points inside the bounds that satisfy the original constraints; the adaptive tolerance decreases to zero and is in force only during a step of the algorithm.", "quantifier": "all objective and constraint values, bounds and runs of the adaptive handling, including runs interrupted by an exception", "why_tests_cant": "interaction of the wrapper with every constraint vector and every schedule of steps", "anchors": ["pymoo/constraints/as_penalty.py:ConstraintsAsPenalty", "pymoo/constraints/as_obj.py:ConstraintsAsObjective", "pymoo/constraints/from_bounds.py:ConstraintsFromBounds", "pymoo/constraints/eps.py:AdaptiveEpsilonConstraintHandling", "pymoo/constraints/adaptive.py:AdaptiveConstraintHandling"]}
{"id": "C57", "title": "Samples are inside the bounds and Latin hypercube samples are stratified", "statement": "Random float, integer, binary and permutation samples are in their domain; Latin hypercube sampling puts exactly one sample into each of the n equal parts of every variable's range, whatever the criterion and the number of iterations, and returns a candidate with the best score.", "quantifier": "all numbers of samples, variables, bounds, criteria, iterations and random numbers", "why_tests_cant": "stratification is a statement about every random stream", "anchors": ["pymoo/operators/sampling/rnd.py:FloatRandomSampling", "pymoo/operators/sampling/lhs.py:sampling_lhs", "pymoo/core/variable.py:Integer", "pymoo/operators/mutation/rm.py:ChoiceRandomMutation"]}
{"id": "C58", "title": "Mixed-variable mating gives every variable exactly one value of its own type", "statement": "Each offspring of mixed mating has a value for exactly the variables of the problem, computed by the operators of the variable's type from the same pair of parents, and inside its domain if the operators keep it there; sampling gives one value per variable; the duplicate test compares all values.", "quantifier": "all sets of variables of all types, parents and operators", "why_tests_cant": "the grouping depends on the order and types of the variables", "anchors": ["pymoo/core/mixed.py:MixedVariableMating", "pymoo/core/mixed.py:MixedVariableSampling", "pymoo/core/mixed.py:MixedVariableDuplicateElimination"]}
{"id": "C59", "title": "GD, IGD, GD+ and IGD+ are the textbook indicators and the plus variants respect domination", "statement": "For every accepted constructor call and every set of solutions, GD/IGD/GD+/IGD+ return the mean distance to the closest point in the documented direction, in the units requested by zero_to_one/norm_by_dist; the value is non-negative, zero exactly for a perfect match, independent of the order of the solutions and (zero_to_one) of the units; IGD+ and GD+ never get worse when solutions are replaced by dominating ones, IGD and IGD+ never when solutions are added", "quantifier": "all fronts, all sets of solutions, all ideal/nadir arguments, all positive rescalings", "why_tests_cant": "Compliance with domination is a statement about all pairs of solution sets", "anchors": ["pymoo/indicators/distance_indicator.py:DistanceIndicator", "pymoo/indicators/gd.py", "pymoo/indicators/igd.py", "pymoo/indicators/gd_plus.py", "pymoo/indicators/igd_plus.py", "pymoo/core/indicator.py:Indicator.do", "pymoo/util/misc.py:vectorized_cdist"]}
{"id": "C60", "title": "The spacing indicator is the standard deviation of the nearest-neighbour distances", "statement": "Spacing is non-negative, zero exactly if all solutions have the same city-block distance to their nearest other solution, and unchanged by reordering or shifting the solutions", "quantifier": "all sets of at least two solutions", "why_tests_cant": "Ranges over all sets, including duplicates", "anchors": ["pymoo/indicators/spacing.py:SpacingIndicator"]}
{"id": "C61", "title": "The hypervolume indicator respects domination and the reference point", "statement": "The hypervolume is non-negative, never decreases when solutions are added or improved, strictly increases for a new solution that is inside the reference box and not weakly dominated, ignores dominated solutions and solutions beyond the reference point, uses the documented reference point, and with zero_to_one does not depend on units; the incremental object always stores the value of its current solutions", "quantifier": "all solution sets, reference points, fronts and operation sequences", "why_tests_cant": "Monotonicity and strictness quantify over all pairs of sets; consistency over all operation histories", "anchors": ["pymoo/indicators/hv/__init__.py:Hypervolume", "pymoo/indicators/hv/approximate.py:ApproximateHypervolume"]}
{"id": "C62", "title": "The additive epsilon indicator is at most zero exactly when the front is covered", "statement": "For every front and set of solutions the additive epsilon indicator is <= 0 iff every reference point is weakly dominated by a solution, never gets worse for a dominating set, and grows by exactly t when all solutions get worse by t; an empty set must not be better than a bad one", "quantifier": "all fronts and solution sets, with and without normalisation", "why_tests_cant": "Ranges over all pairs of sets", "anchors": ["pymoo/indicators/epsilon.py:Epsilon", "pymoo/core/indicator.py:Indicator.do"]}
{"id": "C63", "title": "Pseudo weights choose the solution closest to the preference", "statement": "For every non-dominated set the pseudo weights of every solution are non-negative and sum to one, and the position returned is the first solution whose pseudo weights are closest to the preference", "quantifier": "all sets of mutually non-dominated solutions and all weight vectors", "why_tests_cant": "Optimality of the choice and validity of the weights for all sets", "anchors": ["pymoo/mcdm/pseudo_weights.py:PseudoWeights"]}
{"id": "C64", "title": "High trade-off points are the largest outliers of the trade-off values", "statement": "For every non-dominated set the trade-off value of a solution is its smallest loss/gain ratio to a neighbour; the positions returned are those at least two standard deviations above the mean (never more than a quarter), else the largest one if more than one standard deviation above, else none; no position left out has a larger value; two-dimensional neighbours are adjacent and symmetric", "quantifier": "all solution sets, all neighbour lists, all sorting permutations", "why_tests_cant": "Statements about all lists of values", "anchors": ["pymoo/mcdm/high_tradeoff.py:HighTradeoffPoints", "pymoo/core/decision_making.py:NeighborFinder", "pymoo/core/decision_making.py:find_outliers_upper_tail"]}
{"id": "C65", "title": "MOEA/D keeps one evaluated solution per subproblem and replaces only for the better", "statement": "Running MOEA/D for any number of iterations keeps one evaluated solution per reference direction; an offspring replaces the solution of a subproblem exactly if that subproblem is a neighbour of the one the offspring was made for and the offspring's scalarised value there is strictly smaller; the ideal point is always the componentwise minimum of everything evaluated; parents are distinct valid members; a generation visits every subproblem once and costs exactly pop_size evaluations; with a weighted sum no subproblem's value ever gets worse.", "quantifier": "all populations, weights, neighbourhoods, random generators, operators, scalarisations and numbers of iterations", "why_tests_cant": "A test sees a few runs with one seed; the claim is about every history of offspring and every random order.", "anchors": ["pymoo/algorithms/moo/moead.py:MOEAD", "pymoo/core/algorithm.py:LoopwiseAlgorithm"]}
{"id": "C66", "title": "Golden section search keeps the minimum of a unimodal function bracketed", "statement": "Each iteration of the golden section search shrinks the bracket by exactly the golden ratio inside of the previous one, reuses one point and evaluates exactly one new one inside the bracket, and never loses the minimum of a unimodal function, so it converges to it; interpolation candidates of the bracket searches stay in the bracket.", "quantifier": "all unimodal functions, initial brackets and numbers of iterations", "why_tests_cant": "Only finitely many functions and iterations can be tested.", "anchors": ["pymoo/algorithms/soo/univariate/golden.py:GoldenSectionSearch", "pymoo/algorithms/soo/univariate/quadr_interp.py:QuadraticInterpolationSearch"]}
{"id": "C67", "title": "The Wolfe line search returns a step satisfying the strong Wolfe conditions", "statement": "A step returned by wolfe_line_search satisfies sufficient decrease and the curvature condition, is evaluated, and the search ends.", "quantifier": "all functions along a line, constants c1, c2, iteration limits", "why_tests_cant": "It must hold for every objective function along the line.", "anchors": ["pymoo/algorithms/soo/univariate/wolfe.py:wolfe_line_search"]}
{"id": "C68", "title": "Single-objective survival and GA never lose a best solution", "statement": "FitnessSurvival returns the min(n_survive, size) individuals that are best by violation and then objective, sorted, with consecutive ranks; over any run the GA's population is the best pop_size of all individuals ever evaluated; random search's optimum is a best one of all evaluated.", "quantifier": "all populations, offspring sequences and run lengths", "why_tests_cant": "The claim is about all histories of offspring, including ties and infeasible individuals.", "anchors": ["pymoo/algorithms/soo/nonconvex/ga.py:FitnessSurvival", "pymoo/algorithms/base/genetic.py:GeneticAlgorithm", "pymoo/algorithms/soo/nonconvex/random_search.py:RandomSearch"]}
{"id": "C69", "title": "The evolution strategy reports the best solution ever evaluated and keeps offspring in bounds", "statement": "For ES the reported optimum is a best one of all evaluated individuals although the population may forget it; the population keeps its size; step sizes stay positive and at most sigma_max; repaired offspring are within the bounds; at least twice as many offspring as survivors are created.", "quantifier": "all initial samples, offspring, random draws and sizes", "why_tests_cant": "Depends on every random draw and every history.", "anchors": ["pymoo/algorithms/soo/nonconvex/es.py:ES", "pymoo/algorithms/soo/nonconvex/es.py:es_mut_repair"]}
{"id": "C70", "title": "Nelder-Mead stays in the box and never loses its best vertex", "statement": "From a sorted simplex within the bounds, every iteration keeps n+1 sorted vertices, every point it evaluates lies within the bounds that exist, a replaced vertex is replaced by a better one, and the best vertex after any number of iterations is at least as good as every vertex of the start; the admissible step length max_alpha never leaves the box and touches it.", "quantifier": "all simplices, objective values, constraint violations, bounds and iteration counts", "why_tests_cant": "objective values decide the branch taken (reflection, expansion, two contractions, shrink) in every iteration; tests see a few paths", "anchors": ["pymoo/algorithms/soo/nonconvex/nelder.py:NelderMead._step", "pymoo/algorithms/soo/nonconvex/nelder.py:initialize_simplex", "pymoo/util/vectors.py:max_alpha"]}
{"id": "C71", "title": "Pattern search never loses its best point", "statement": "Whatever the order in which variables are explored, every point PatternSearch evaluates is within the bounds, the centre is only replaced by a better point, no evaluated point beats both the centre and the explored point, a failed exploration has tried both directions of every variable, and the step length is init_rho to the number of failures.", "quantifier": "all problems, starts, bounds, drawn permutations and numbers of iterations", "why_tests_cant": "the search path depends on all objective values and on random permutations", "anchors": ["pymoo/algorithms/soo/nonconvex/pattern.py:PatternSearch._next", "pymoo/algorithms/soo/nonconvex/pattern.py:exploration_move", "pymoo/algorithms/soo/nonconvex/pattern.py:step_along_axis"]}
{"id": "C72", "title": "Differential evolution and the swarms never lose the best solution", "statement": "Each generation of DE replaces an individual only by a strictly better offspring made for it, so after any number of generations every solution ever evaluated is matched or beaten by someone in the population, and the reported optimum is not beaten by anything ever evaluated; the personal bests of PSO, EPPSO and NRBO behave the same, and EPPSO's local best of a particle is at least as good as the personal best of each neighbour that sends to it.", "quantifier": "all populations, offspring, permutations, topologies and numbers of generations", "why_tests_cant": "the claim is about whole histories of random offspring; tests see a few seeds", "anchors": ["pymoo/algorithms/soo/nonconvex/de.py:DE._infill", "pymoo/algorithms/soo/nonconvex/de.py:DE._advance", "pymoo/algorithms/soo/nonconvex/pso.py:PSO._advance", "pymoo/algorithms/soo/nonconvex/pso_ep.py:EPPSO._advance", "pymoo/algorithms/soo/nonconvex/nrbo.py:NRBO._advance"]}
{"id": "C73", "title": "Particle moves respect speed and bounds, and the adaptive coefficients their ranges", "statement": "A velocity is the documented combination of inertia, personal and social pull, limited component-wise to the maximal velocity; a new position is within the bounds and no further from the old one than that velocity; a particle whose first move is inside is not redrawn; the strategy follows the evolutionary factor by the documented thresholds, c1 and c2 remain in [1.5, 2.5] with sum at most 4, and the inertia weight is in [0.4, 0.9] for factors in [0, 1].", "quantifier": "all positions, velocities, random draws, bounds and factors", "why_tests_cant": "continuous inputs and arbitrary random draws", "anchors": ["pymoo/algorithms/soo/nonconvex/pso.py:pso_equation", "pymoo/algorithms/soo/nonconvex/pso.py:PSO._infill", "pymoo/algorithms/soo/nonconvex/pso.py:PSO._adapt", "pymoo/algorithms/soo/nonconvex/pso_ep.py:Swarm.do"]}
{"id": "C74", "title": "Clearing keeps distinct individuals in rounds and never loses the best one", "statement": "The epsilon clearing survival of the niching genetic algorithm returns exactly min(n_survive, len(pop)) different individuals; the best individual (smallest CV, then F) is always first, in the first round; two individuals of the same round are at least epsilon apart; a round ends only when every individual is selected or within epsilon of a member of that round (without n_max_each_iter); at most n_max_each_iter individuals per round; later individuals carry the niche number of the nearest member of the first round; over any number of generations the first reported optimum is the best individual ever produced; select_by_clearing returns n_select different indices.", "quantifier": "all populations, distances, epsilons, limits per round, numbers of survivors and sequences of generations", "why_tests_cant": "rounds and resets interact with the selection history; a test sees a handful of histories and fresh attributes only", "anchors": ["pymoo/util/clearing.py:EpsilonClearing", "pymoo/util/clearing.py:select_by_clearing", "pymoo/algorithms/soo/nonconvex/ga_niching.py:EpsilonClearingSurvival", "pymoo/algorithms/soo/nonconvex/ga_niching.py:NicheGA", "pymoo/algorithms/soo/nonconvex/ga_niching.py:comp_by_cv_and_clearing_fitness"]}
{"id": "C75", "title": "SMS-EMOA keeps whole fronts and removes the least hypervolume contributor", "statement": "The least-hypervolume-contribution survival returns exactly n_survive different individuals, takes whole non-dominated fronts in order with rank equal to the number of the front, and reduces the splitting front by removing, one at a time, the individual whose removal leaves the largest hypervolume of the normalised front; no survivor is dominated by a removed individual; if only one individual must go, the survivors' hypervolume is at least that of the population without any single individual (so one offspring never lowers it); feasible individuals come first.", "quantifier": "all populations, numbers of objectives, bounds, reference offsets and numbers of survivors", "why_tests_cant": "greedy optimality of each removal and the steady-state inequality range over all point sets", "anchors": ["pymoo/algorithms/moo/sms.py:LeastHypervolumeContributionSurvival", "pymoo/algorithms/moo/sms.py:SMSEMOA"]}
{"id": "C76", "title": "SPEA2's archive: exact size, dominance-compatible fitness, crowded ones removed", "statement": "SPEA2's survival returns exactly n_survive different individuals; fitness is below one exactly for non-dominated individuals and strictly smaller for an individual that dominates another; if the non-dominated individuals fit they all survive and the rest is filled by fitness, otherwise only non-dominated ones survive, removing one at a time the one with the lexicographically smallest sorted distances to those still there; no survivor is dominated by a removed individual; feasible ones come first.", "quantifier": "all populations, distances and archive sizes", "why_tests_cant": "fitness compatibility is a statement about all pairs in all populations; ties and truncation order escape sampled tests", "anchors": ["pymoo/algorithms/moo/spea2.py:SPEA2Survival", "pymoo/algorithms/moo/spea2.py:_truncation_candidate"]}
{"id": "C77", "title": "RVEA keeps the best individual of each occupied niche", "statement": "The angle-penalised survival returns exactly one individual for each reference vector that is nearest to some individual, the one with the least angle-penalised distance; the ideal point is the minimum of everything seen; angles are acute; gamma is the smallest angle to another vector; the penalty is zero at the beginning and complete at the end and monotone in distance and angle; reference vectors have length one, also after adaptation; infeasible individuals survive only after all feasible ones.", "quantifier": "all populations, reference vectors, generations", "why_tests_cant": "the niche assignment and the minimum range over all inputs; interaction with the feasibility split needs populations tests do not build", "anchors": ["pymoo/algorithms/moo/rvea.py:APDSurvival", "pymoo/algorithms/moo/rvea.py:RVEA", "pymoo/algorithms/moo/rvea.py:calc_gamma", "pymoo/core/survival.py:Survival.do"]}
{"id": "C78", "title": "AGE-MOEA keeps whole fronts and cuts the last one by survival score", "statement": "AGE-MOEA's survival returns exactly n_survive different individuals, whole fronts first; no survivor is dominated by a removed individual; individuals of the splitting front survive by the largest survival score; feasible ones come first.", "quantifier": "all populations, scores and numbers of survivors", "why_tests_cant": "the splitting front's position varies with the input; a test with one front does not see the others", "anchors": ["pymoo/algorithms/moo/age.py:AGEMOEASurvival"]}
{"id": "C79", "title": "The result reports the optimum honestly", "statement": "Result.success is true exactly when the algorithm's optimum contains a feasible individual, and then opt is that optimum; without feasible individuals nothing is reported unless the least infeasible one was asked for, which then has the least constraint violation; the message says which case it is; X, F, CV, G, H are those of the reported optimum, one-dimensional exactly for one solution of a single-objective problem.", "quantifier": "all optima, feasibility patterns, options and numbers of objectives", "why_tests_cant": "combinations of empty, infeasible and mixed optima with the options are unbounded", "anchors": ["pymoo/core/algorithm.py:Algorithm.result", "pymoo/core/result.py:Result", "pymoo/util/optimum.py:filter_optimum"]}
{"id": "C80", "title": "The reported optimum of a single-objective test problem is its optimum", "statement": "For each single-objective test problem, every point of its Pareto set lies in the bounds, its objective value is the reported Pareto front value, and no point within the bounds has a smaller one.", "quantifier": "all problem sizes, constructor parameters and all points of the decision space", "why_tests_cant": "the claim ranges over all real points of a box of every dimension; sampling cannot exclude a better point", "anchors": ["pymoo/problems/single/ackley.py:Ackley", "pymoo/problems/single/griewank.py:Griewank", "pymoo/problems/single/rastrigin.py:Rastrigin", "pymoo/problems/single/rosenbrock.py:Rosenbrock", "pymoo/problems/single/simple.py:Sphere", "pymoo/problems/single/zakharov.py:Zakharov", "pymoo/problems/single/himmelblau.py:Himmelblau", "pymoo/problems/single/schwefel.py:Schwefel", "pymoo/problems/single/pressure_vessel.py:PressureVessel"]}
{"id": "C81", "title": "The reported Pareto fronts of the ZDT problems are Pareto fronts", "statement": "Every objective vector in the front returned by a ZDT problem is attained by a point within the bounds and dominated by no attained objective vector; the curve sampled is exactly the set of such vectors.", "quantifier": "all numbers of variables, all numbers of requested points, all points of the decision space", "why_tests_cant": "non-domination against a continuum of objective vectors in every dimension", "anchors": ["pymoo/problems/multi/zdt.py:ZDT1", "pymoo/problems/multi/zdt.py:ZDT2", "pymoo/problems/multi/zdt.py:ZDT3", "pymoo/problems/multi/zdt.py:ZDT4", "pymoo/problems/multi/zdt.py:ZDT5", "pymoo/problems/multi/zdt.py:ZDT6"]}
{"id": "C82", "title": "The reported Pareto fronts of the DTLZ problems are Pareto fronts", "statement": "Every objective vector in the front returned by a DTLZ problem (also inverted, scaled or convex) is attained within the bounds and dominated by no attained objective vector; the simplex or sphere it samples is exactly the set of such vectors.", "quantifier": "all numbers of objectives, variables and reference directions, all points of the decision space", "why_tests_cant": "non-domination against a continuum of objective vectors for every number of objectives", "anchors": ["pymoo/problems/many/dtlz.py:DTLZ1", "pymoo/problems/many/dtlz.py:DTLZ2", "pymoo/problems/many/dtlz.py:DTLZ3", "pymoo/problems/many/dtlz.py:DTLZ4", "pymoo/problems/many/dtlz.py:DTLZ5", "pymoo/problems/many/dtlz.py:DTLZ7", "pymoo/problems/many/dtlz.py:InvertedDTLZ1", "pymoo/problems/many/dtlz.py:ScaledProblem", "pymoo/problems/many/dtlz.py:ConvexProblem"]}
{"id": "C83", "title": "The reported Pareto fronts of the constrained DTLZ problems are feasible and Pareto-optimal", "statement": "Every objective vector in the front returned by C1DTLZ1, C1DTLZ3, C2DTLZ2, C3DTLZ1 and C3DTLZ4 is attained by a feasible point within the bounds and dominated by no objective vector of a feasible point; the surface it samples is exactly the set of such vectors.", "quantifier": "all numbers of objectives, variables and reference directions, all radii, all feasible points", "why_tests_cant": "non-domination against a continuum of feasible objective vectors for every number of objectives", "anchors": ["pymoo/problems/many/cdtlz.py:C1DTLZ1", "pymoo/problems/many/cdtlz.py:C1DTLZ3", "pymoo/problems/many/cdtlz.py:C2DTLZ2", "pymoo/problems/many/cdtlz.py:C3DTLZ1", "pymoo/problems/many/cdtlz.py:C3DTLZ4"]}
{"id": "C84", "title": "The reported Pareto sets and fronts of BNH, SRN, the omni-test and SYM-PART are Pareto-optimal", "statement": "Every point of the Pareto set or front returned by these bi-objective problems is feasible, within the bounds and Pareto-optimal, for all constructor parameters; the returned curve samples the whole Pareto front.", "quantifier": "all numbers of points and variables, all problem parameters (lengths, distances, angle), all feasible points", "why_tests_cant": "non-domination against a continuum of feasible points and real parameters", "anchors": ["pymoo/problems/multi/bnh.py:BNH", "pymoo/problems/multi/srn.py:SRN", "pymoo/problems/multi/omnitest.py:OmniTest", "pymoo/problems/multi/sympart.py:SYMPARTRotated"]}
{"id": "C85", "title": "C-TAEA's convergence archive has the requested size and prefers feasible, balanced sets", "statement": "For every merged population the update of the convergence archive returns exactly n different individuals; infeasible ones only if all feasible ones are kept; too few feasible ones are completed front by front (violation, decomposed fitness), the last front by least violation; too many are reduced to the leading fronts and then one at a time from the most crowded niches, so that the niches stay balanced; the reported optima are survivors no survivor dominates. (The claims that the optima are feasible whenever a feasible individual exists, and that a best individual survives, are false.)", "quantifier": "all populations, objective values, violations, niches, distances, tie-breaking coins and sizes", "why_tests_cant": "the trimming loop depends on all tie breaks and distances; a test sees a few populations", "anchors": ["pymoo/algorithms/moo/ctaea.py:CADASurvival._updateCA", "pymoo/algorithms/moo/ctaea.py:CADASurvival._associate", "pymoo/algorithms/moo/ctaea.py:CADASurvival.do"]}
{"id": "C86", "title": "C-TAEA's diversity archive is filled with best individuals, scarce niches first", "statement": "When the update ends the diversity archive has exactly n different members; each was, when taken, a non-dominated individual of least fitness among those left in its niche; niches with fewer members in the convergence archive are served first. The update ends if at least n individuals belong to the first n reference directions; otherwise it never ends.", "quantifier": "all merged archives, niches, objective values, sizes and numbers of passes", "why_tests_cant": "termination and the order of service are statements about all runs of an unbounded loop", "anchors": ["pymoo/algorithms/moo/ctaea.py:CADASurvival._updateDA"]}
{"id": "C87", "title": "C-TAEA's restricted mating", "statement": "A tournament returns one of its participants, a feasible one against an infeasible one, the dominating one of two feasible ones; the participants of the first parent come from the diversity archive iff the convergence archive does not have the larger share of non-dominated individuals, those of the second parent iff the random number is at least that share; all indices are valid.", "quantifier": "all archives, ranks, violations, random numbers and matings", "why_tests_cant": "depends on the random numbers and on every index of the merged population", "anchors": ["pymoo/algorithms/moo/ctaea.py:comp_by_cv_dom_then_random", "pymoo/algorithms/moo/ctaea.py:RestrictedMating._do"]}
{"id": "C88", "title": "R-NSGA-II: survival and clearing around the reference points", "statement": "The survival of R-NSGA-II returns exactly as many individuals as asked for, all different and all from the merged population; it keeps complete fronts in order and only the splitting front is cut, so with every survivor every individual dominating it survives. From the splitting front it keeps the members with least crowding, where members are ranked by their best place over all reference points and members closer than epsilon to an already chosen one are postponed; a member nearest to a reference point that has no neighbour within epsilon survives whenever there are at least as many places as reference points. With the default weights the distance is the Euclidean distance of the normalised objective vectors. The set of reference points stays what the user gave (refuted when extreme points are added).", "quantifier": "all populations, fronts, reference points, distances, epsilon values, sort implementations, numbers of survivors", "why_tests_cant": "the chosen members depend on every configuration of points and ties; tests look at a few fronts", "anchors": ["pymoo/algorithms/moo/rnsga2.py:RankAndModifiedCrowdingSurvival", "pymoo/algorithms/moo/rnsga2.py:RNSGA2", "pymoo/algorithms/moo/rnsga2.py:calc_norm_pref_distance"]}
{"id": "C89", "title": "R-NSGA-III: reference directions around the aspiration points", "statement": "For every shrinkage factor, every set of reference points and every non-empty set of base directions on the unit simplex plane, all generated directions have non-negative components summing to one (no division by zero), there are exactly as many as the population size, and around an interior point they are a copy of the base directions shrunken by mu whose centroid is the projection of the point from the origin.", "quantifier": "all dimensions, shrinkage factors, reference points and base directions", "why_tests_cant": "a closed-form geometric claim over real vectors of every dimension", "anchors": ["pymoo/algorithms/moo/rnsga3.py:get_ref_dirs_from_points", "pymoo/algorithms/moo/rnsga3.py:line_plane_intersection", "pymoo/algorithms/moo/rnsga3.py:RNSGA3.__init__"]}
{"id": "C90", "title": "Stochastic ranking, SRES and ISRES", "statement": "In stochastic ranking, for every comparison probability and all random numbers, an element at least as good in objective and violation that comes first stays ahead; an element strictly better than all others in both is ranked first; without violations the result is sorted by objective. SRES keeps the population size, and its reported optimum never gets worse: it is a best one of all individuals that were ever in the population, and of all evaluated individuals when the ranking is a plain sort (refuted in general). ISRES offspring are in the bounds with step sizes in (0, sigma_max].", "quantifier": "all objective and violation values, random numbers, numbers of elements, generations and offspring", "why_tests_cant": "the result depends on a random number per comparison and on an early exit; the claims range over all random sequences", "anchors": ["pymoo/functions/standard/stochastic_ranking.py:stochastic_ranking", "pymoo/algorithms/soo/nonconvex/sres.py:StochasticRankingSurvival", "pymoo/algorithms/soo/nonconvex/sres.py:SRES", "pymoo/algorithms/soo/nonconvex/isres.py:ISRES"]}
{"id": "C91", "title": "The pruning crowding metrics (pcd, mnn, 2nn)", "statement": "calc_pcd, calc_mnn and calc_2nn prune greedily: every removed point has the least value among the points left, where the values are computed anew after every removal; removed points keep the value they had, so they come in ascending order before all points left, and the survival that keeps the points with the greatest values keeps exactly the result of the greedy removal (up to ties). Values never decrease when another point is removed. For every objective a point with the least and one with the greatest value is infinite. The number of removals used is min(max(n_remove,0), N-M). Duplicates get zero, fronts of at most two points infinity. A constant objective is ignored (refuted for mnn/2nn: NaN).", "quantifier": "all point sets, dimensions, numbers of removals", "why_tests_cant": "the values are recomputed in a loop whose length depends on the input; tests look at single fronts", "anchors": ["pymoo/functions/standard/pruning_cd.py:calc_pcd", "pymoo/functions/standard/mnn.py:calc_mnn_base", "pymoo/operators/survival/rank_and_crowding/metrics.py:FunctionalDiversity", "pymoo/util/misc.py:find_duplicates"]}
{"id": "C92", "title": "Recorders and callbacks see the iterations they promise", "statement": "A Recorder without nth_evals stores one entry per iteration; with nth_evals = k it stores exactly the first iteration and every iteration at which the number of evaluations passes a multiple of k, hence never more than one entry per k evaluations; the entry of the single-objective recorder is the least violation, the least feasible objective (infinite iff there is none) and its gap to the Pareto front. A callback is initialised once before anything else and then notified and updated once per iteration.", "quantifier": "every run, every non-decreasing sequence of evaluation counts, every nth_evals, every reported optimum", "why_tests_cant": "tests record a few iterations of one algorithm; the claim is about every schedule of evaluation counts", "anchors": ["pymoo/core/recorder.py:Recorder.notify", "pymoo/core/recorder.py:DefaultSingleObjectiveRecorder.save", "pymoo/core/callback.py:Callback.__call__", "pymoo/core/callback.py:CallbackCollection"]}
{"id": "C93", "title": "The clock of a dynamic problem and its Pareto front agree", "statement": "After any sequence of tic() and pareto_front() calls the time of a dynamic test problem is the number of completed periods of taut ticks divided by nt, it never runs backwards, it changes exactly when a period is completed, and pareto_front() returns the front of the current time.", "quantifier": "every sequence of calls, every nt, taut and initial tau", "why_tests_cant": "the claim is about all call histories including repeated cached calls", "anchors": ["pymoo/problems/dyn.py:DynamicTestProblem", "pymoo/util/cache.py:Cache"]}
{"id": "C94", "title": "Problem wrappers evaluate the wrapped problem at the right points with the right values", "statement": "StaticProblem returns the given values wherever it is evaluated; FunctionalProblem returns the values of the given functions row by row; MultiToSingleObjective and decompose return the scalarised objective of every point with the documented shape; ZeroToOne evaluates the wrapped problem at the point of the original box that corresponds to the point of the unit cube.", "quantifier": "every wrapped problem, every number of points, objectives, weights and bounds", "why_tests_cant": "tests evaluate a few points; shapes and values must be right for every number of points", "anchors": ["pymoo/problems/static.py:StaticProblem", "pymoo/problems/functional.py:FunctionalProblem", "pymoo/problems/multi_to_single.py:MultiToSingleObjective", "pymoo/problems/zero_to_one.py:ZeroToOne", "pymoo/problems/util.py:decompose"]}
{"id": "C95", "title": "binomial(n, k) is the binomial coefficient", "statement": "For all integers, binomial(n, k) is the number of k-element subsets of n elements (zero if n or k is negative or k > n).", "quantifier": "all integers n, k", "why_tests_cant": "infinitely many arguments", "anchors": ["pymoo/problems/util.py:binomial"]}
{"id": "C96", "title": "DIRECT tiles the search space and converges", "statement": "At every iteration the boxes of DIRECT's individuals tile the search space with the evaluated points as centres; no point is evaluated twice or outside the bounds; boxes stay compact (sides within a factor of three); exactly the potentially optimal individuals are divided, so one of the largest and one of the best boxes is divided in every iteration; for every objective function the evaluated points become dense in the search space.", "quantifier": "every problem with bounds xl < xu, any number of variables, every objective function, every number of iterations, every selection", "why_tests_cant": "a run samples one function for a few iterations; tiling and density are invariants over all functions and iterations", "anchors": ["pymoo/algorithms/soo/nonconvex/direct.py:DIRECT"]}
{"id": "C97", "title": "BRKGA keeps the best solutions as elites", "statement": "In BRKGA the elites are the best n_elites of all individuals evaluated since the start (one objective, no duplicate elimination), nobody is lost in a survival, every mating takes one elite and one non-elite, every gene of an offspring comes from one of these two and at least one from the elite; with eliminate_duplicates=True the elites hold the n_elites best distinct objective values on unconstrained problems; with more objectives the elites are exactly the individuals not dominated by anything evaluated.", "quantifier": "every initial population, every sequence of offspring and mutants, every number of generations, every random draw", "why_tests_cant": "runs are random and long; a test sees one history and cannot show that the best solution is never lost", "anchors": ["pymoo/algorithms/soo/nonconvex/brkga.py:BRKGA", "pymoo/algorithms/soo/nonconvex/brkga.py:EliteSurvival", "pymoo/algorithms/soo/nonconvex/brkga.py:EliteBiasedSelection"]}
{"id": "C98", "title": "G3PCX reports the best solution ever evaluated", "statement": "At every moment the optimum reported by G3PCX is a best one (feasible first) of all individuals evaluated so far, the population keeps its size, only the drawn family is replaced and by its best members and offspring; every iteration evaluates the offspring of one loop.", "quantifier": "every initial population, every offspring, every drawn family, every number of iterations", "why_tests_cant": "elitism is an invariant over all histories of random families and offspring", "anchors": ["pymoo/algorithms/soo/nonconvex/g3pcx.py:G3PCX", "pymoo/core/algorithm.py:LoopwiseAlgorithm"]}
{"id": "C99", "title": "Parent-centric crossover", "statement": "The offspring of PCX is the first parent plus a random multiple of the vector to the centroid plus noise orthogonal to it whose scale is the mean perpendicular distance of the other parents; collinear parents have offspring on their line, identical parents are reproduced up to 1e-32; after the repair the offspring is within the bounds.", "quantifier": "all parents, any number of parents and variables, all random draws", "why_tests_cant": "geometric identities over all real inputs and draws", "anchors": ["pymoo/operators/crossover/pcx.py:pcx", "pymoo/operators/crossover/pcx.py:ParentCentricCrossover"]}
{"id": "C100", "title": "GDE3 and NSDE: one-to-one competition, elitism, trial vectors", "statement": "In GDE3 a parent or offspring leaves the pool only if its own rival has a smaller violation or, at equal violation, Pareto-dominates it; the next population has the same size, consists of different parents and offspring, never has fewer feasible members than before, and loses a feasible non-dominated individual only if all its members are feasible and non-dominated. The same elitism holds for survival by rank and crowding in NSGA-II and NSDE. A trial vector is inside the bounds, equals its own target outside the crossover mask (which has at least one variable) and the donor inside it.", "quantifier": "all populations, offspring, crowding metrics, random numbers, numbers of generations, repairs and DE parameters", "why_tests_cant": "a lost solution or a mismatched pair shows only for particular populations and random draws; the run theorem covers any number of generations", "anchors": ["pymoo/algorithms/moo/gde3.py:GDE3._advance", "pymoo/algorithms/moo/nsde.py:VariantDE._do", "pymoo/operators/survival/rank_and_crowding/classes.py:RankAndCrowding", "pymoo/util/dominator.py:get_relation"]}
{"id": "C101", "title": "MOPSO-CD: archive, optimum, personal bests and flight", "statement": "Through any run of MOPSO-CD the optimum is non-empty, has at most archive_size members, consists of evaluated solutions and no member dominates another; as long as the archive is never truncated and no constraint is present it holds exactly the objective vectors of all non-dominated solutions evaluated. The personal best of a particle is one of its own positions and is dominated by none of them. Velocities stay within max_velocity_rate times the variable range and positions within the bounds, and a leader is an archive member that is at least as isolated as its rival. The truncation tournament keeps different members and never the strictly most crowded one. What a user would also expect but fails: no duplicates in the optimum, feasible solutions preferred, no member dominated by an evaluated solution.", "quantifier": "all particle positions, objective values, random draws, archive sizes and numbers of generations", "why_tests_cant": "loss of a solution or a duplicate appears only after particular sequences of generations and draws", "anchors": ["pymoo/algorithms/moo/mopso_cd.py:MOPSO_CD._initialize_advance", "pymoo/algorithms/moo/mopso_cd.py:MOPSO_CD._advance", "pymoo/algorithms/moo/mopso_cd.py:MOPSO_CD._update_archive", "pymoo/algorithms/moo/mopso_cd.py:MOPSO_CD._infill"]}
{"id": "C102", "title": "Multi-objective genetic algorithms keep the front while it fits", "statement": "For NSGA-II, NSGA-III, SPEA2, SMS-EMOA and AGE-MOEA, constrained or not, with any offspring: the population always consists of pop_size different evaluated individuals and its number of feasible members never decreases; as long as in no generation more than pop_size of the solutions evaluated so far are feasible and non-dominated, the population contains every feasible solution evaluated so far that no feasible evaluated solution dominates, and the optimum reported consists of exactly these. (When the front does not fit the population can get worse: an evaluated solution may dominate a final one.)", "quantifier": "all objective and constraint values, offspring, random numbers and numbers of generations", "why_tests_cant": "a lost non-dominated solution shows only for particular populations; the claim ranges over whole histories", "anchors": ["pymoo/algorithms/base/genetic.py:GeneticAlgorithm._advance", "pymoo/core/survival.py:Survival.do", "pymoo/operators/survival/rank_and_crowding/classes.py:RankAndCrowding", "pymoo/algorithms/moo/nsga3.py:ReferenceDirectionSurvival", "pymoo/algorithms/moo/spea2.py:SPEA2Survival", "pymoo/algorithms/moo/sms.py:LeastHypervolumeContributionSurvival", "pymoo/algorithms/moo/age.py:AGEMOEASurvival"]}
{"id": "C103", "title": "CMOPSO: population, elites and flight", "statement": "A run of CMOPSO never raises, whatever the particles are; the population keeps pop_size different evaluated individuals and contains every feasible non-dominated evaluated solution as long as these fit; there is always at least one elite and at most pop_size, all evaluated, none beating another, all feasible as soon as a feasible individual was evaluated. Each particle learns from that of two elites which has the smaller angle to it; its velocity stays within max_velocity_rate times the range; without inertia it does not overshoot the winner; initial velocities are between zero and the limit.", "quantifier": "all particles, objective and constraint values, random numbers and numbers of generations", "why_tests_cant": "archive truncation and survival interact over generations; the claims range over all histories and draws", "anchors": ["pymoo/algorithms/moo/cmopso.py:CMOPSO", "pymoo/algorithms/moo/cmopso.py:CrowdingDistanceTournamentSurvival", "pymoo/algorithms/moo/cmopso.py:cmopso_equation", "pymoo/util/archive.py:SurvivalTruncation"]}
{"id": "C104", "title": "D-NSGA-II: change detection and stored objectives", "statement": "With eps=0 a change is detected exactly if the stored objectives of a sampled individual differ from the current ones; after a detection every member carries current objectives; a member with outdated objectives is an old one that was not sampled. On a problem that does not change D-NSGA-II is NSGA-II and all stored values are correct. A generation costs ceil(perc_detect_change*N) evaluations more than NSGA-II, plus N after a detection. What fails: outdated values can stay, perc_detect_change=0 raises, version B raises if no individual is chosen.", "quantifier": "all populations, problems, changes, samples, random choices, numbers of generations", "why_tests_cant": "an undetected change depends on which individuals are sampled", "anchors": ["pymoo/algorithms/moo/dnsga2.py:DNSGA2._advance"]}
{"id": "C105", "title": "The flow-shop problem evaluates the makespan of the best schedule", "statement": "For every matrix of processing times and every job sequence, the start times FlowshopScheduling.get_machine_times returns form a valid schedule (no machine works on two jobs at a time, jobs visit the machines in order), every operation starts as early as in any schedule of this sequence, and the objective value is the least completion time of all schedules, i.e. the length of the critical path; it is unchanged when the sequence is run backwards through the machines in reverse order.", "quantifier": "all numbers of machines and jobs, all non-negative processing times, all sequences of jobs, all schedules", "why_tests_cant": "the optimality claim ranges over all schedules of all instances; a test compares a few instances with known makespans", "anchors": ["pymoo/problems/single/flowshop_scheduling.py:FlowshopScheduling.get_machine_times", "pymoo/problems/single/flowshop_scheduling.py:FlowshopScheduling.makespan"]}
{"id": "C106", "title": "The travelling-salesman problem evaluates the length of the round trip", "statement": "For every set of cities and every sequence of cities, TravelingSalesman evaluates the sum of the distances between consecutive cities including the way back; the value does not depend on the starting city nor on the direction, inverting a segment exchanges exactly two connections, leaving a city out never makes a trip longer, and a trip is at least twice as long as the distance of any two of its cities.", "quantifier": "all sets of cities, all sequences of cities (not only permutations), all rotations, segments and pairs of cities", "why_tests_cant": "the invariances must hold for every tour of every instance", "anchors": ["pymoo/problems/single/traveling_salesman.py:TravelingSalesman.get_route_length"]}
{"id": "C107", "title": "The knapsack problem is the knapsack problem", "statement": "For every instance, evaluating any list of packings returns the negated profits as objective and weight minus capacity as constraint: a packing is feasible exactly if it fits, and has the least objective among feasible packings exactly if it is a most profitable one that fits; random instances are neither trivial nor infeasible.", "quantifier": "all numbers of items, weights, profits, capacities and packings", "why_tests_cant": "quantifies over all instances and all subsets of items", "anchors": ["pymoo/problems/single/knapsack.py:Knapsack", "pymoo/problems/single/knapsack.py:MultiObjectiveKnapsack", "pymoo/problems/single/knapsack.py:create_random_knapsack_problem"]}
{"id": "C108", "title": "Default terminations end runs at the limits, not too early, and when the solutions stop changing", "statement": "With the default single- or multi-objective termination, updating never raises; the run ends at the latest when the generation or evaluation limit is reached; within the first `period` generations it ends only because of a limit; it ends once the decision variables of the optimum have not changed for more than `period` generations (counting skipped ones); a single-objective change counts as significant exactly if the best feasible value improved by more than the tolerance, a multi-objective one exactly if ideal, nadir or normalised IGD moved by more than the tolerance, independent of the units of the objectives; without feasible solutions no progress is recorded; and a run in which variables and objectives keep changing is not ended by tolerance.", "quantifier": "all sequences of generations, objective values, bounds, tolerances, periods, limits", "why_tests_cant": "quantifies over complete histories of runs of any length", "anchors": ["pymoo/termination/default.py:DefaultSingleObjectiveTermination", "pymoo/termination/default.py:DefaultMultiObjectiveTermination", "pymoo/termination/ftol.py:MultiObjectiveSpaceTermination", "pymoo/termination/ftol.py:SingleObjectiveSpaceTermination", "pymoo/termination/xtol.py:DesignSpaceTermination", "pymoo/termination/cv.py:ConstraintViolationTermination"]}
{"id": "C109", "title": "Parallel evaluation gives the same values as sequential evaluation, for every schedule", "statement": "For every order in which workers start, finish, fail or lose jobs, a parallel runner that returns has returned for every design exactly the value that sequential evaluation gives that design, at the design's position; a partial list never carries values of another design; every job left can still be completed (no stuck state); without lost workers every design is evaluated exactly once; chunked submission changes nothing; and copies of a problem with the default runner evaluate like the original.", "quantifier": "all interleavings of start, finish, failure, loss and collection events, all lists of designs, all chunk sizes", "why_tests_cant": "schedules of a worker pool cannot be enumerated by tests", "anchors": ["pymoo/parallelization/starmap.py:StarmapParallelization", "pymoo/parallelization/joblib.py:JoblibParallelization", "pymoo/parallelization/dask.py:DaskParallelization", "pymoo/parallelization/ray.py:RayParallelization", "pymoo/core/problem.py:LoopedElementwiseEvaluation", "pymoo/core/problem.py:Problem.__getstate__"]}
{"id": "C110", "title": "minimize neither changes its arguments nor depends on earlier calls", "statement": "With the default copying of algorithm and termination, a call of minimize leaves every object the caller holds as it was, returns the result determined by algorithm, termination, problem and seed alone, can be repeated any number of times in any order with the same result, stops only when the termination says so, and continuing from a copied checkpoint gives the result of the uninterrupted run.", "quantifier": "all object graphs, algorithms, terminations, seeds, sequences of calls, checkpoints", "why_tests_cant": "quantifies over all histories of calls sharing objects", "anchors": ["pymoo/optimize.py:minimize", "pymoo/core/algorithm.py:Algorithm.setup", "pymoo/core/algorithm.py:Algorithm.run", "pymoo/core/algorithm.py:Algorithm.__getstate__", "pymoo/core/duplicate.py:DuplicateElimination"]}
{"id": "C111", "title": "Initialisation turns any starting point into a repaired, duplicate-free population", "statement": "Whatever the initial sampling (operator, array or population), the initial population holds only repaired designs, has no duplicates under the elimination used, keeps the values of individuals evaluated before without evaluating them again, contains nothing that does not come from the sampling, and has the requested size when the sampling operator delivers it without duplicates.", "quantifier": "all samplings, repairs, duplicate eliminations, population sizes, partly evaluated populations", "why_tests_cant": "quantifies over all user supplied populations and repairs", "anchors": ["pymoo/core/initialization.py:Initialization.do", "pymoo/core/population.py:Population.new"]}
{"id": "C112", "title": "Controlled operator parameters stay in their domains and belong to the offspring that carries them", "statement": "With parameter control (random or evolutionary), every mating gets exactly one value for every controlled parameter, over any number of generations every value used lies in the domain of its parameter, values of individuals are kept, every offspring carries (and is mutated with) the parameters its mating was crossed with, and the draws are determined by the seed.", "quantifier": "all parameters, populations, generations, numbers of matings and offspring, selections and survivals", "why_tests_cant": "quantifies over all histories of evolving parameters", "anchors": ["pymoo/operators/control.py:ParameterControl", "pymoo/operators/control.py:EvolutionaryParameterControl", "pymoo/operators/control.py:RandomParameterControl", "pymoo/operators/control.py:ParameterControlMating", "pymoo/operators/control.py:age_binary_tournament", "pymoo/algorithms/soo/nonconvex/de.py:Variant.do", "pymoo/algorithms/soo/nonconvex/pso_ep.py:Swarm.do"]}
{"id": "C113", "title": "Tuning hyperparameters evaluates what it says", "statement": "Evaluating hyperparameters x of an algorithm over a list of seeds returns the mean, over the seeds, of the results of runs of the algorithm with exactly the values x set at the paths named by the keys and nothing else changed; it changes neither the algorithm being tuned nor any other object; and evaluations do not influence each other: order, repetitions and entropy of the system do not matter.", "quantifier": "all algorithms, hyperparameters, seeds, terminations, sequences of evaluations", "why_tests_cant": "quantifies over all histories of evaluations sharing one algorithm object", "anchors": ["pymoo/algorithms/hyperparameters.py:HyperparameterProblem", "pymoo/algorithms/hyperparameters.py:MultiRun", "pymoo/algorithms/hyperparameters.py:create", "pymoo/algorithms/hyperparameters.py:stats_single_objective_mean"]}
{"id": "C114", "title": "Omni-Optimizer: loose dominance, two-space niching, restricted mating", "statement": "The survival of the Omni-Optimizer keeps exactly n_survive points, whole fronts of the loose dominance (Pareto dominance by more than delta times the range of an objective) before later ones and the least crowded of the last; delta=0 recovers Pareto dominance; for each objective a point with the best value survives (niching in objective space, at least as many survivors as objectives and two); the reported optimum is exactly the surviving points nobody loosely dominates; each tournament is between an individual and its nearest neighbour among those which have not yet competed in the pass. Refuted in full: the optimum may contain Pareto-dominated solutions, without objective niching or with one survivor the best is lost, the documented average rule is not the one computed, a population of one individual makes the selection loop forever.", "quantifier": "all populations, margins, random permutations, sort tie-breaking, numbers of survivors", "why_tests_cant": "ranks and survivors depend on the whole population, on ties and on random draws; non-termination cannot be observed by a test", "anchors": ["pymoo/algorithms/moo/omni.py:LooseDominator", "pymoo/algorithms/moo/omni.py:calc_omni_crowding_distance", "pymoo/algorithms/moo/omni.py:OmniOptimizerSurvival", "pymoo/algorithms/moo/omni.py:NeighborBasedTournamentSelection"]}
{"id": "C115", "title": "Constrained rank-and-crowding survival prefers feasible, then least violating individuals", "statement": "ConstrRankAndCrowding (the GDE3 constraint handling) keeps min(n_survive, len(pop)) different members; an infeasible individual survives only beside all feasible ones; a feasible individual no feasible one dominates is dropped only for feasible non-dominated ones; infeasible survivors are taken front by front of their vectors (max(G,0), abs(H)), the last front by total violation; without constraints it is plain rank-and-crowding. Reproducibility with a seed fails: ties in the splitting front are shuffled by an unseeded generator.", "quantifier": "every population, objective, constraint and violation values, number of survivors, crowding metric, tie-breaking of the sorts and random permutation", "why_tests_cant": "population contents, sizes and random permutations are unbounded; order of fronts and ties matter", "anchors": ["pymoo/operators/survival/rank_and_crowding/classes.py:ConstrRankAndCrowding", "pymoo/util/randomized_argsort.py:randomized_argsort"]}
{"id": "C116", "title": "PINSGA-II honours the decision maker's preferences", "statement": "The ranks computed from pairwise questions are, for every consistent decision maker, one plus the number of better values (and gap-free for any answers); an accepted value function gives better ranked solutions a value larger by at least epsilon(1 - delta T); the loop of refits ends without an exception; the value function changes only every tau generations; without preferences the selection is plain dominance; the selection terminates and ranks preferred solutions first. Refuted: v2 is taken from the wrong solution and refits invert preferences; an accepted fit may be constant; many ties invert a preference; an indifferent decision maker leaves a value function in force; back-tracking does nothing; preferences count only for individuals later in the population; with a polynomial value function the sorting may never terminate.", "quantifier": "every number of presented solutions, every consistent or arbitrary sequence of answers, every fit result, population order and objective values", "why_tests_cant": "answers, populations and value functions are unbounded; the faults depend on the order of individuals and of answers", "anchors": ["pymoo/algorithms/moo/pinsga2.py:PINSGA2", "pymoo/util/vf_dominator.py:VFDominator", "pymoo/util/value_functions.py:create_linear_vf", "pymoo/util/value_functions.py:create_poly_vf"]}
{"id": "C117", "title": "Pareto fronts of the dynamic DF problems", "statement": "For every time the points DF1 to DF14 return as Pareto front are Pareto-optimal for the problem at that time, and the curve or surface they are taken from is the whole Pareto front; the objectives of a solution depend only on that solution. Holds for DF1, DF2, DF3, DF5, DF6, DF7, DF8, DF10, DF11, DF14, for DF13 while its waves are off and for DF4 exactly when its curve fits into the bounds. Refuted: DF4 for 0 < t < 1 returns unattainable points, DF9 returns dominated points, DF12 multiplies over the whole batch so that objectives depend on the other solutions.", "quantifier": "every time, number of variables, number of points, every feasible solution", "why_tests_cant": "fronts are claims about all points of a continuum and all times", "anchors": ["pymoo/problems/dynamic/df.py:DF1", "pymoo/problems/dynamic/df.py:DF4", "pymoo/problems/dynamic/df.py:DF9", "pymoo/problems/dynamic/df.py:DF12"]}
{"id": "C118", "title": "Reference directions by energy, reduction, construction, layers or a genetic algorithm lie on the unit simplex", "statement": "Every reference direction returned by these methods has non-negative coordinates with sum one; frozen and edge points are returned unchanged; the two plane projections return the nearest point; the recursive projection ends and returns a point of the simplex, the nearest one if the row is on or above the plane; one Adam step moves a coordinate by a bounded amount so that no iteration raises an exception (energy: up to 27 objectives, construction: up to 13); the gradient is the derivative of the logarithmic energy; construction returns max(n_points, n_dim) points including the corners. Refuted: the projection is not the nearest point below the plane; a point that was selected twice gives NaN; fewer points than objectives leave no edge point.", "quantifier": "every row, design, number of points, iteration count and selection; every dimension except where a limit is named", "why_tests_cant": "the methods are iterative and random, invariants must hold after every iteration", "anchors": ["pymoo/util/ref_dirs/energy.py:RieszEnergyReferenceDirectionFactory", "pymoo/util/ref_dirs/misc.py:project_onto_unit_simplex_recursive", "pymoo/util/ref_dirs/optimizer.py:Adam", "pymoo/util/ref_dirs/reduction.py:kmeans", "pymoo/util/ref_dirs/construction.py:ConstructionBasedReferenceDirectionFactory", "pymoo/util/ref_dirs/energy_layer.py:LayerwiseRieszEnergyReferenceDirectionFactory", "pymoo/util/ref_dirs/genetic_algorithm.py"]}
{"id": "C119", "title": "Incremental lattice", "statement": "get_reference_directions(\"incremental\") returns different points of the unit simplex: after p partitions exactly the points w/(n p) whose integer coordinates are congruent modulo n; with a number of points it returns exactly that many points if a number of partitions with that many points exists and otherwise raises an exception that names the next smaller and the next larger possibility. Refuted for one point: the result is NaN.", "quantifier": "every number of objectives (at least two for the search), partitions, points", "why_tests_cant": "the lattice is built by an unbounded loop; exactness concerns all partitions", "anchors": ["pymoo/util/ref_dirs/incremental.py:incremental_lattice", "pymoo/util/ref_dirs/incremental.py:check_n_points", "pymoo/util/ref_dirs/incremental.py:IncrementalReferenceDirectionFactory"]}
{"id": "C120", "title": "Compiled non-dominated sorting agrees with the Python version", "statement": "Loading the compiled functions changes nothing: the compiled dominance relation is Pareto dominance (with a tolerance, the entry of the Python domination matrix), find_non_dominated, efficient_non_dominated_sort (both strategies) and dominance_degree_non_dominated_sort return what the Python versions return, and fast_non_dominated_sort returns the Pareto fronts up to the limits", "quantifier": "every objective matrix, tolerance, strategy and limits, unbounded numbers of solutions and objectives", "why_tests_cant": "equality of two programs on all inputs; the compiled modules use different loops and data structures", "anchors": ["pymoo/functions/compiled/non_dominated_sorting.pyx", "pymoo/functions/standard/non_dominated_sorting.py"]}
{"id": "C121", "title": "Best-order sorting returns the Pareto fronts", "statement": "The compiled best_order_sort and fast_best_order_sort return the Pareto fronts of the objective matrix", "quantifier": "every objective matrix", "why_tests_cant": "ties between objective values decide the order in which solutions are visited; a sample of random real matrices has no ties", "anchors": ["pymoo/functions/compiled/non_dominated_sorting.pyx"]}
{"id": "C122", "title": "Compiled pruning by crowding distance recomputes after every removal", "statement": "The compiled calc_pcd removes one after another the solution with the least crowding distance among those left, never leaves the arrays, and returns for each removed solution the value at its removal and for each solution left the current value", "quantifier": "every objective matrix and number of solutions to remove", "why_tests_cant": "the incremental update must agree with recomputation after every history of removals, and bounds checks are off in compiled code", "anchors": ["pymoo/functions/compiled/pruning_cd.pyx", "pymoo/operators/survival/rank_and_crowding/metrics.py"]}
{"id": "C123", "title": "Compiled pruning by nearest neighbours recomputes after every removal", "statement": "The compiled calc_mnn and calc_2nn remove one after another the solution with the least product of distances to its nearest neighbours among those left and return those products", "quantifier": "every objective matrix, result of np.argpartition and number of solutions to remove", "why_tests_cant": "neighbour lists are repaired incrementally over all removal histories", "anchors": ["pymoo/functions/compiled/mnn.pyx", "pymoo/functions/standard/mnn.py"]}
{"id": "C124", "title": "Loaded functions: distances to directions, niches, stochastic ranking", "statement": "calc_perpendicular_distance gives the distance of every point to the line of every direction, independent of the length of the direction; associate_to_niches chooses the first nearest line and does not depend on the units of the objectives; the compiled versions of these, of calc_distance_to_weights, pbi and stochastic_ranking agree with the Python ones; every registered function can be loaded in both modes", "quantifier": "all points, directions, populations, probabilities and random streams", "why_tests_cant": "equality of programs and geometric minimality over all real inputs", "anchors": ["pymoo/functions/standard/calc_perpendicular_distance.py", "pymoo/functions/compiled/calc_perpendicular_distance.pyx", "pymoo/functions/compiled/decomposition.pyx", "pymoo/functions/compiled/stochastic_ranking.pyx", "pymoo/functions/__init__.py:FunctionLoader", "pymoo/algorithms/moo/nsga3.py:associate_to_niches"]}
{"id": "C125", "title": "Printed table and progress bar", "statement": "With verbose output all lines of a run (header, rules, one line per iteration in order) have the same length, cells are right-aligned and show the value in full whenever it fits; integers below the capacity of the column are printed exactly and distinguishably; the row of a single-objective run shows the least and the average objective of the feasible solutions of the current iteration and nothing stale; the progress bar never goes back, is less than one percent behind and shows 100% exactly when reported", "quantifier": "all column values, widths, sequences of iterations, populations and progress sequences", "why_tests_cant": "the number of generations, evaluations and the magnitude of values are unbounded; tests print a few short runs", "anchors": ["pymoo/util/display/column.py:Column", "pymoo/util/display/output.py:Output", "pymoo/util/display/display.py:Display", "pymoo/util/display/single.py:SingleObjectiveOutput", "pymoo/util/display/progress.py:ProgressBar"]}
{"id": "C126", "title": "Gradients of problems", "statement": "A problem wrapped for complex steps returns, for functions with complex derivatives that are real on real points, values tending to the partial derivatives as the step tends to zero (exact for quadratics); row j, column k belong to value j and variable k at that point; other values are unchanged. Reverse-mode gradients of a whole batch (autograd, JAX) are the partial derivatives per point for problems that evaluate rows independently, names are not mixed up, and afterwards numpy is active again", "quantifier": "all problems, points, steps, batches, sets of names, outcomes of the evaluation", "why_tests_cant": "gradients are compared on random points of a few problems only; the numbers of points, values and names, the functions and the failures are unbounded", "anchors": ["pymoo/gradient/grad_complex.py:ComplexNumberGradient", "pymoo/gradient/grad_autograd.py:autograd_vectorized_value_and_grad", "pymoo/gradient/grad_jax.py:jax_vectorized_value_and_grad", "pymoo/gradient/automatic.py:AutomaticDifferentiation", "pymoo/gradient/__init__.py:activate"]}
{"id": "C127", "title": "Survival score of AGE-MOEA and AGE-MOEA-II", "statement": "The extreme points are different members of the front, each closest to its axis among those left; normalisation divides by positive numbers only and puts the extreme points on the unit plane if the hyperplane allows; extreme points have an infinite score, the others the sum of the distances to the two nearest ones taken before, taken greedily, and these scores do not increase, so that surviving by score is taking the first ones; the estimated exponent is in (0.1, 20] and puts the central point on the unit sphere; the distances are positive, symmetric and defined", "quantifier": "all fronts, numbers of points and objectives, exponents", "why_tests_cant": "scores depend on the whole front and on the order in which points are taken; tests run a few benchmark problems only", "anchors": ["pymoo/algorithms/moo/age.py:AGEMOEASurvival.survival_score", "pymoo/algorithms/moo/age.py:find_corner_solutions", "pymoo/algorithms/moo/age.py:normalize", "pymoo/algorithms/moo/age.py:point_2_line_distance", "pymoo/algorithms/moo/age2.py:AGEMOEA2Survival", "pymoo/algorithms/moo/age2.py:find_zero"]}
{"id": "C128", "title": "Helper functions: combinations, defaults, positions, distances, cache", "statement": "The grid of two vectors has every pair; the closest other point is the closest; conversion to integers rounds to a nearest integer; normalised distances are symmetric, zero exactly for equal points and ordered as the norms are; intersection keeps order and multiplicity; the power set (and with it the corner positions of the WFG problems) is complete and free of repetitions; defaults never replace what was given; the position index of a list lists exactly the positions; parameters with a prefix are found under the name without it; a cached method returns what it computed for the same question. (Swapping rows, grids with a matrix, conversion to booleans, evaluation of what is missing, fixed variables, days and changed arguments of a cached call are refuted.)", "quantifier": "all lists, dictionaries, vectors, bounds and sequences of calls", "why_tests_cant": "the helpers are used by many operators with arbitrary inputs; the failures show only for matrices, fixed variables or repeated calls with other arguments", "anchors": ["pymoo/util/misc.py:swap", "pymoo/util/misc.py:all_combinations", "pymoo/util/misc.py:powerset", "pymoo/util/misc.py:set_defaults", "pymoo/util/misc.py:filter_params", "pymoo/util/misc.py:where_is_what", "pymoo/util/misc.py:norm_eucl_dist", "pymoo/util/cache.py:Cache"]}
{"id": "C129", "title": "Running metric", "statement": "The running metric remembers the last `period` optima; it reports one entry per remembered optimum for the movement of the ideal point, of the nadir point and of the set, in units of the range of the current set: the movements are at most t exactly if no objective moved by more than t ranges, the indicator of a set is zero exactly if every current solution was in it, the last entry is zero. (Refuted when one objective has the same value in all current solutions: every movement is a division by zero; and for the hypervolume, whose last entry is positive.)", "quantifier": "all sequences of optima, periods, numbers of objectives", "why_tests_cant": "the metric is used to decide when to stop; whether its entries mean what they should depends on all histories and on degenerate ranges", "anchors": ["pymoo/util/running_metric.py:RunningMetric", "pymoo/termination/ftol.py:calc_delta_norm", "pymoo/util/sliding_window.py:SlidingWindow"]}
{"id": "C130", "title": "The fronts of the MW test problems", "statement": "For MW1, MW2, MW3, MW4, MW6 and MW8 pareto_front() describes the constrained problem: the Pareto-optimal objective vectors are exactly the feasible points of the closed curve or surface the front is taken from, and exactly the Pareto-optimal ones of the candidate rows are returned. The search for the front of MW3 always stops.", "quantifier": "every number of variables (at least the number of objectives, plus one for g1) and objectives, every solution in the bounds, every array of reference directions", "why_tests_cant": "constraint landscapes with infinitely many disconnected feasible pieces; a test only samples solutions and cannot show that no solution dominates a returned point", "anchors": ["pymoo/problems/multi/mw.py:MW1._evaluate", "pymoo/problems/multi/mw.py:MW3._calc_pareto_front", "pymoo/problems/multi/mw.py:MW8._calc_pareto_front"]}
{"id": "C131", "title": "The fronts of the degenerate constrained DTLZ problems", "statement": "For DC1-, DC2- and DC3-DTLZ1/3 the Pareto-optimal objective vectors are exactly those of the position variables that satisfy the constraints together with an optimal distance; for DC2 this is the whole simplex or sphere, so that the inherited pareto_front() is right; for DC1 the last objective decides.", "quantifier": "every number of objectives and variables, every solution in the bounds, every reference direction", "why_tests_cant": "the constraints cut the front into pieces; only a proof over all solutions shows which points are Pareto-optimal", "anchors": ["pymoo/problems/many/dcdtlz.py:constraint_dc1", "pymoo/problems/many/dcdtlz.py:constraints_dc2", "pymoo/problems/many/dcdtlz.py:constraints_dc3"]}
{"id": "C132", "title": "The documented optima of the G problems", "statement": "For the single-objective problems G1, G2, G3 (any number of variables), G4, G5, G6, G7, G8, G9, G10, G11, G12, G13, G14, G15, G16, G18, G19, G20, G21, G22, G23 and G24, each solution pareto_set() returns is feasible, pareto_front() is its value, and no feasible solution has a smaller one (by more than the rounding of the documented decimals). The evaluations set as many constraint values as declared.", "quantifier": "every feasible solution of the bounds and constraints", "why_tests_cant": "global optimality under nonlinear constraints ranges over a continuum of solutions", "anchors": ["pymoo/problems/single/g.py:G1", "pymoo/problems/single/g.py:G3", "pymoo/problems/single/g.py:G4", "pymoo/problems/single/g.py:G6", "pymoo/problems/single/g.py:G7", "pymoo/problems/single/g.py:G9", "pymoo/problems/single/g.py:G10", "pymoo/problems/single/g.py:G11", "pymoo/problems/single/g.py:G12", "pymoo/problems/single/g.py:G13", "pymoo/problems/single/g.py:G14", "pymoo/problems/single/g.py:G15", "pymoo/problems/single/g.py:G18", "pymoo/problems/single/g.py:G19", "pymoo/problems/single/g.py:G23", "pymoo/problems/single/g.py:G24", "pymoo/problems/single/g.py:G5", "pymoo/problems/single/g.py:G8", "pymoo/problems/single/g.py:G20", "pymoo/problems/single/g.py:G21", "pymoo/problems/single/g.py:G2", "pymoo/problems/single/g.py:G16", "pymoo/problems/single/g.py:G22"]}
{"id": "C133", "title": "Pareto sets and fronts of the WFG problems", "statement": "For any number of objectives at least two and any accepted number of position and distance variables: a solution of WFG1 and WFG4-9 is Pareto-optimal exactly if it is one of the completions of positions that pareto_set() produces, the fronts of WFG4-9 are the nonnegative part of the ellipsoid with semi-axes 2, 4, 6, ..., the front of WFG1 is the stated surface, WFG3's completions are Pareto-optimal and map onto a segment; every row of pareto_set() and pareto_front() of WFG1 and WFG3-9 is Pareto-optimal; objectives lie between 0 and 1 plus twice their number; the constructor accepts exactly the documented parameters.", "quantifier": "every solution in the bounds, every number of objectives, positions and distance variables, every random draw of positions", "why_tests_cant": "Pareto optimality ranges over a continuum of solutions and over all dimensions", "anchors": ["pymoo/problems/many/wfg.py:WFG", "pymoo/problems/many/wfg.py:WFG1", "pymoo/problems/many/wfg.py:WFG2", "pymoo/problems/many/wfg.py:WFG3", "pymoo/problems/many/wfg.py:WFG4", "pymoo/problems/many/wfg.py:WFG5", "pymoo/problems/many/wfg.py:WFG6", "pymoo/problems/many/wfg.py:WFG7", "pymoo/problems/many/wfg.py:WFG8", "pymoo/problems/many/wfg.py:WFG9"]}
{"id": "C134", "title": "The KKT proximity measure", "statement": "KKTPM gives an infeasible solution one plus its constraint violation; the search for nonnegative multipliers ends for every solver that returns solutions; the value of a feasible solution is nonnegative and at most the root of the number of constraints; a zero value means that the solution satisfies the first order conditions with a positive weight for every objective, and a Karush-Kuhn-Tucker point of the augmented achievement function has the value zero if the system is regular.", "quantifier": "every objective vector, constraint vector and gradient, every number of objectives, constraints and variables, every linear solver", "why_tests_cant": "the elimination loop and the values depend on continuous data through linear systems of any size", "anchors": ["pymoo/indicators/kktpm.py:KKTPM"]}
{"id": "C135", "title": "The R-metric", "statement": "RMetric.do uses exactly the solutions that no other algorithm's solution dominates, assigns each to its closest reference point, moves those within half of delta of the best representative by the vector that takes the representative to the diagonal through the reference point (never improving an objective), returns no values exactly if every solution is dominated, and otherwise the inverted generational distance of the moved solutions to the parts of the Pareto front around the reference points and, for at most three objectives, their hypervolume, which is at most that of the solutions themselves.", "quantifier": "every set of solutions, other solutions, reference points, Pareto front and delta, any number of objectives", "why_tests_cant": "the sets range over continuous objective spaces of any size", "anchors": ["pymoo/indicators/rmetric.py:RMetric"]}
{"id": "C136", "title": "Stopping at an indicator threshold", "statement": "IndicatorTermination reports, after every update, a nonnegative progress that is the share of the way from the worst indicator value seen so far to the threshold, and terminates exactly when the current indicator value has reached the threshold (at most it when minimising, at least it when maximising).", "quantifier": "every goal, threshold and history of indicator values of any length", "why_tests_cant": "histories of real values are unbounded in length and range", "anchors": ["pymoo/termination/indicator.py:IndicatorTermination", "pymoo/core/termination.py:Termination.update"]}
{"id": "C137", "title": "KGB-DMOEA: knowledge archive and response to a change", "statement": "Every generation archives the current optimum; when re-evaluated samples show a change the archive is condensed to at most c_size clusters without losing a solution, always merging two closest clusters and keeping every centroid the mean of its cluster; a solution counts as useful exactly if its cluster's centroid is not dominated by another centroid under the changed problem; the new population has exactly pop_size members inside the bounds, contains the centroids, and everything in the resulting population is evaluated on the changed problem; a new algorithm starts without knowledge, and random solutions are spread over the bounds.", "quantifier": "every archive, optimum, problem, classifier, noise and sequence of random numbers, any sizes", "why_tests_cant": "archives grow without bound and the response depends on arbitrary classifiers and random draws", "anchors": ["pymoo/algorithms/moo/kgb.py:KGB"]}
{"id": "C138", "title": "DASCMOP1-9: Pareto-optimal points", "statement": "For every difficulty without the third factor the feasible Pareto-optimal objective vectors of DASCMOP1 to DASCMOP9 are exactly the points of the problem's curve or surface over the position parameters that the first kind of constraint allows (for DASCMOP3 and 6 those no other allowed point of the curve dominates), moved in every objective by the shift of the second kind of constraint (0, 0.5, or 0.4999 for zeta = 1); integer difficulties are accepted exactly from 1 to 16.", "quantifier": "every difficulty (eta, zeta, 0) with zeta in [0, 1], every row of 30 variables", "why_tests_cant": "the decision space is a continuum of 30 dimensions and the front a continuous set", "anchors": ["pymoo/problems/multi/dascmop.py:DASCMOP", "pymoo/problems/multi/dascmop.py:DASCMOP1", "pymoo/problems/multi/dascmop.py:DASCMOP9"]}
{"id": "C139", "title": "CTP1-8: feasibility and Pareto-optimal points", "statement": "The constraints of CTP1 are the published sequence of exponential curves and its feasible Pareto-optimal objective vectors are exactly the points of the upper envelope of these curves and the unconstrained front; a solution of CTP2 to CTP8 is feasible exactly when the published inequality of each of its constraints holds (not so where both sides are zero: the code divides 0 by 0); a feasible solution at distance one is Pareto-optimal and lies on f2 = 1 - sqrt(f1).", "quantifier": "every number of variables, every distance option, every row within the bounds", "why_tests_cant": "the decision space is a continuum and the front a continuous set", "anchors": ["pymoo/problems/multi/ctp.py:CTP", "pymoo/problems/multi/ctp.py:CTP1", "pymoo/problems/multi/ctp.py:CTP2", "pymoo/problems/multi/ctp.py:CTP8"]}
{"id": "C140", "title": "CMA-ES: protocol, optimum, bounds, restarts, copies", "statement": "For every strategy and problem the algorithm evaluates exactly the solutions the strategy asks for, each once and in order, and tells it their objective values (infinity for infeasible ones); the optimum is a best one of all solutions evaluated so far; points inside the normalised bounds stand for solutions inside the bounds of the problem; restarts multiply the population size and there are at most restarts+1 runs; BIPOP restarts follow the budget rule and end; a copy of a running algorithm continues it; parallelize=False evaluates the same solutions one by one.", "quantifier": "every strategy (the external package), problem, number of generations, sequence of run lengths and random numbers", "why_tests_cant": "the strategy is arbitrary and the number of generations and restarts unbounded", "anchors": ["pymoo/algorithms/soo/nonconvex/cmaes.py:CMAES", "pymoo/algorithms/soo/nonconvex/cmaes.py:bounds_if_normalize", "pymoo/vendor/vendor_cmaes.py:my_fmin", "pymoo/vendor/vendor_cmaes.py:MyCMAEvolutionStrategy.ask_and_eval"]}
{"id": "C141", "title": "Generator algorithms, exponential search, line search problem", "statement": "An iteration of an algorithm written as a generator takes one call of next() per yielded population, each of which is evaluated once and sent back; only the call in which the generator returns ends the generation (counter, optimum, termination, callback and history once each). Exponential search evaluates delta, 2 delta, 4 delta, ... up to the upper bound while the objective does not increase. A line search problem evaluates the original problem at point + alpha * direction, kept within the bounds of the original problem.", "quantifier": "every generator and problem, every number of iterations, every step length", "why_tests_cant": "the generator and the number of its yields are arbitrary", "anchors": ["pymoo/core/algorithm.py:LoopwiseAlgorithm", "pymoo/algorithms/soo/univariate/exp.py:ExponentialSearch", "pymoo/algorithms/base/line.py:LineSearchProblem"]}
{"id": "C142", "title": "Integer variables stay integers within their bounds", "statement": "A genetic algorithm with the default operators for integer variables (IntegerRandomSampling, SBX and PM with vtype=float and RoundingRepair) only ever creates integer arrays within integer bounds, in every generation and for all random numbers, parents and survivors; every new value is the integer nearest to the value of the real-valued operator, and individuals that are not crossed or mutated keep their values. Operators called with another vtype or repair convert accordingly.", "quantifier": "all populations of integer arrays, bounds, operator parameters, random numbers, selections of parents and survivors, numbers of generations", "why_tests_cant": "An invariant over all generations and all random numbers; a run samples some of them, and a value that is cut off instead of rounded is an integer too.", "anchors": ["pymoo/core/operator.py:Operator.__call__", "pymoo/core/repair.py:Repair.do", "pymoo/core/crossover.py:Crossover.do", "pymoo/core/mutation.py:Mutation.do", "pymoo/operators/repair/rounding.py:RoundingRepair", "pymoo/operators/repair/vtype.py:TypeRepair"]}
{"id": "C143", "title": "ZCAT1 to ZCAT20: distance part, Pareto set and Pareto front", "statement": "For every accepted parameter setting (problem id 1 to 20, any number of objectives from 2, any number of variables the constructor accepts, any level, with or without complicated Pareto set, bias and imbalance; for level 6 at most 10^50 variables) every objective of a feasible solution is at least the scaled shape function of its first variables, with equality in all objectives exactly if the remaining variables lie on the surface given by the g-function; a feasible solution is Pareto-optimal exactly if it lies on that surface and its first variable is admissible: any value for ZCAT1-10, 14, 17-20, and for ZCAT11, 12, 13, 15, 16 the values at which the wave in the last objective reaches a new record; the Pareto front is the scaled shape of the admissible parameters (for ZCAT4 a part of a hyperplane, written out). No objective is ever negative and on the front objective k is at most k^2; with the first variables at their lower bounds the last objective has its worst value, with all at their upper bounds the value 0 (reversed for ZCAT13). The choice of rows of a longer reference front returns as many rows as asked for, all different, with the first and the last one", "quantifier": "all twenty problems, all numbers of objectives and variables, all option settings, all real decision vectors", "why_tests_cant": "optimality compares a solution with the uncountably many other feasible ones, for every number of objectives and variables; tests evaluate a few points", "anchors": ["pymoo/problems/many/zcat.py:ZCAT", "pymoo/problems/many/zcat.py:ZCAT._evaluate_row", "pymoo/problems/many/zcat.py:ZCAT._calc_pareto_front"]}
{"id": "C144", "title": "Truss2D: the Pareto front", "statement": "The Pareto front of the two-bar truss problem is exactly the curve of two pieces given in closed form (volume against maximal stress): one where both bars are at their smallest feasible areas for the stress, one where the first bar has its largest area; every point returned as Pareto front is Pareto-optimal, and the returned set has 1100 points and contains both ends of the front", "quantifier": "all feasible real decision vectors (two areas and the height), every returned point", "why_tests_cant": "optimality compares a point with the uncountably many other feasible ones", "anchors": ["pymoo/problems/multi/truss2d.py:Truss2D._evaluate", "pymoo/problems/multi/truss2d.py:Truss2D._calc_pareto_front"]}
{"id": "C145", "title": "Dynamic CEC 2015 problems: Pareto fronts at every time", "statement": "At every time t: FDA4 has the part of the unit sphere with non-negative entries as its Pareto front, FDA5 the one of the sphere with radius 1 + abs(sin(pi t/2)); dMOP2 and FDA2 have the whole curve given in closed form (including the times at which the optimum of the remaining variables is outside their range); DIMP2 never has a point below 1 - sqrt(f1), the curve is exactly its front if the optimal values of the other variables are all in range, and no solution reaches it otherwise (as at the start with 30 variables); HE2, while its exponent is at least one, has the part of its curve that is lower than everything to its left", "quantifier": "all times, all numbers of variables, all real decision vectors", "why_tests_cant": "optimality compares a solution with the uncountably many other feasible ones, at uncountably many times", "anchors": ["pymoo/vendor/gta.py:FDA4", "pymoo/vendor/gta.py:FDA5", "pymoo/vendor/gta.py:dMOP2", "pymoo/vendor/gta.py:fda2_deb", "pymoo/vendor/gta.py:DIMP2", "pymoo/vendor/gta.py:HE2", "pymoo/problems/dynamic/cec2015.py:DynamicCEC2015"]}
{"id": "C146", "title": "Dynamic problem classes: a solution's objectives depend only on it and the time", "statement": "Every dynamic test problem of cec2015.py and misc.py can be evaluated for any number of solutions, and the objectives of a solution are those of the underlying function at the current time, whatever the other solutions are", "quantifier": "all populations, times and problem classes of the two files", "why_tests_cant": "it must hold for every population size and content", "anchors": ["pymoo/problems/dynamic/cec2015.py:dMOP2", "pymoo/problems/dynamic/cec2015.py:dMOP3", "pymoo/problems/dynamic/misc.py:FDA2_deb", "pymoo/problems/dynamic/misc.py:DMOP2", "pymoo/problems/dynamic/misc.py:HE7b", "pymoo/problems/dyn.py:DynamicTestProblem.time"]}
{"id": "C147", "title": "Plots draw every solution where its values can be read off", "statement": "In the parallel coordinate, radar, petal, star coordinate and Radviz plots, every solution is drawn at the place its objective values determine: without bounds an axis runs from the smallest to the largest added value of its objective, with bounds between the bounds; heights lie in the axis exactly for values within the bounds, and a height read on the (possibly reversed) axis gives the value back. With normalize_each_axis=False all axes of a parallel coordinate plot have the same scale. Radviz draws non-negative solutions inside the circle, at the average of the anchors weighted by the objective values; star coordinates sum the heights along the axes; the radar plot raises exactly if a value is outside the bounds; the petals share the circle equally. Adding data and drawing again, arrays of integers and bounds that do not start at zero make no difference.", "quantifier": "all sets of solutions with any number of objectives, all bounds, reversed or not, any number of sets, repeated drawing", "why_tests_cant": "A test compares a picture for one data set; the claim is about where every value of every data set is drawn, including degenerate objectives, integer arrays and drawing again.", "anchors": ["pymoo/visualization/util.py:normalize", "pymoo/visualization/pcp.py:PCP._do", "pymoo/visualization/radviz.py:Radviz._do", "pymoo/visualization/star_coordinate.py:StarCoordinate._do", "pymoo/visualization/radar.py:Radar._do", "pymoo/visualization/petal.py:Petal._plot"]}
{"id": "C148", "title": "Heatmaps order their rows and keep the labels with them; drawing again gives the same picture", "statement": "A heatmap shows every solution once, each row with the label of its solution; with order_by_objectives the rows are sorted lexicographically by the objectives in the given priority, ties keeping their order; solution_labels=False shows no labels; a list of some of the objectives is respected; a scatter plot uses the drawing method that was asked for; drawing a second time gives the same picture; drawing raises if sets with different numbers of objectives were added.", "quantifier": "all sets of solutions, orders, labels, bounds and repeated drawings", "why_tests_cant": "Stability, the match of labels and rows and the behaviour of a second drawing depend on the permutation that the data produce; tests draw one picture once.", "anchors": ["pymoo/visualization/heatmap.py:Heatmap._do", "pymoo/visualization/scatter.py:Scatter._do", "pymoo/core/plot.py:Plot.do"]}
{"id": "C149", "title": "The SciPy wrappers hand over the problem and return a best solution within the budget", "statement": "A SciPy wrapper (SLSQP, COBYLA, L-BFGS-B, ...) starts SciPy once at the best of the sampled points, hands over exactly the restrictions of the problem (bounds, inequality and equality constraints) or raises if the method cannot handle them, keeps to the evaluation budget, counts every evaluation of the objective, and its result is SciPy's answer, never worse than the sampled points.", "quantifier": "all problems, samples, options, methods and all behaviours of SciPy (an arbitrary function of the starting point)", "why_tests_cant": "SciPy is a black box whose answers and numbers of calls are arbitrary; a test sees one problem and one method.", "anchors": ["pymoo/vendor/vendor_scipy.py:Optimizer", "pymoo/core/algorithm.py:LoopwiseAlgorithm", "pymoo/algorithms/base/local.py:LocalSearch"]}
{"id": "C150", "title": "The documented optimum of the cantilevered beam is the optimum", "statement": "For the cantilevered beam problem, the documented optimal design is feasible, its volume is the documented optimal value, and no feasible design has a smaller volume.", "quantifier": "every design within the bounds (all real values of the four variables)", "why_tests_cant": "the feasible designs are a continuum; a test evaluates some of them", "anchors": ["pymoo/problems/single/cantilevered_beam.py:CantileveredBeam"]}
{"id": "C151", "title": "Engineering design problems evaluate as declared", "statement": "For every solution within the bounds, OSY, TNK, WeldedBeam, Carside, CSI, WRM, Kursawe and Clutch can be evaluated (no division by zero, no root of a negative number, no index out of range) and yield the declared numbers of objectives and constraints. Feasibility means the documented physical limits (WeldedBeam: shear stress, bending stress, thickness, buckling load). Carside and CSI are the same problem. OSY's ideal point over the feasible set is (-274, 4); TNK's efficient solutions lie on a constraint boundary; Kursawe's origin is the unique minimiser of f1.", "quantifier": "all solutions within the bounds of each problem", "why_tests_cant": "the solutions are a continuum; sampled points cannot show that no division by zero occurs or that two problems agree everywhere", "anchors": ["pymoo/problems/multi/osy.py", "pymoo/problems/multi/tnk.py", "pymoo/problems/multi/welded_beam.py", "pymoo/problems/multi/clutch.py", "pymoo/problems/multi/carside.py", "pymoo/problems/multi/csi.py", "pymoo/problems/multi/wrm.py", "pymoo/problems/multi/kursawe.py"]}
{"id": "C152", "title": "The data cache is crash safe and safe under concurrent use", "statement": "Remote.load resolves a file from the user cache, else from the copy bundled with the package, else by download. Whatever the number of processes loading at the same time, the order of their steps, the failures and the points where processes are stopped: a cached file is at every moment absent, unchanged, or complete; a call that returns yields the cached, else bundled, else complete server data; a call that has returned or raised leaves no temporary file; after any history the next undisturbed call succeeds. The cache folder is PYMOO_DATA_DIR, else XDG_CACHE_HOME/pymoo, else ~/.cache/pymoo.", "quantifier": "all numbers of processes, schedules, failures and crash points, all initial contents of the cache", "why_tests_cant": "crash points and interleavings of processes cannot be enumerated by tests", "anchors": ["pymoo/util/remote.py:Remote._download", "pymoo/util/remote.py:Remote.load", "pymoo/util/remote.py:_user_cache_dir"]}
{"id": "C153", "title": "Quality measures of reference directions and the random factory", "statement": "average_distance_to_other_points, distance_of_closest_point, closest_point_variance, closest_point_variance_mod, mean_mean, geometric_mean_var and potential_energy return, for every set of points, the statistic of pairwise or nearest-neighbour distances they are named after (the nearest-neighbour ones on the set completed with the corners of the simplex); potential_energy does not change when points are scaled; iterative_igd does not depend on the batch size and averages over all scaled Das-Dennis points; gram_schmidt makes orthonormal rows that span the same spaces, exactly for independent rows; project_onto_one_dim_less keeps all distances on the simplex; RandomSamplingAndMap returns n_points directions on the simplex including the corners, for all random draws.", "quantifier": "all sets of points of every size and dimension, all batch sizes and partition numbers, all random draws and scalings", "why_tests_cant": "tests compare a few point sets numerically; the identities, the equivalence with linear independence and termination for every batch size need proofs over all inputs", "anchors": ["pymoo/util/ref_dirs/performance.py:closest_point_variance,iterative_igd,gram_schmidt,project_onto_one_dim_less,potential_energy", "pymoo/util/ref_dirs/sample_and_map.py:RandomSamplingAndMap"]}
{"id": "C154", "title": "The table of multi-objective runs shows the current generation", "statement": "With MultiObjectiveOutput every generation prints one row, all rows of a run have the same columns, determined by constraints, known front and number of objectives; counters, size of the optimum and violations are those of the generation; IGD, GD and HV are computed from the feasible members of the optimum and the front of the problem (at that moment, for dynamic problems), and are empty without a feasible solution, never left over from earlier rows; without a known front eps and indicator show which of ideal point, nadir point or front moved, relative to a uniquely determined earlier generation with a feasible optimum.", "quantifier": "all runs of any length, all optima, populations, fronts, also dynamic ones, all orders of feasible and infeasible generations", "why_tests_cant": "stale cells and wrong references only show for particular sequences of feasible, infeasible and quiet generations", "anchors": ["pymoo/util/display/multi.py:MultiObjectiveOutput,NumberOfNondominatedSolutions", "pymoo/util/display/output.py:Output,pareto_front_if_possible", "pymoo/util/display/single.py:MinimumConstraintViolation,AverageConstraintViolation", "pymoo/termination/delta.py:DeltaToleranceTermination"]}
{"id": "C155", "title": "Crowding entropy and fast nearest-neighbour metrics", "statement": "calc_crowding_entropy gives infinity exactly to the points that stand first or last (ties by index) in some objective with spread; every other point gets the sum over the objectives with spread of the gap between its neighbours, relative to the range, times the entropy in bits of its position within the gap, so the value is non-negative, at most the summed crowding distance with equality only for points in the middle of all gaps, and unchanged by shifting or rescaling objectives. calc_mnn_fast gives infinity to extreme points and otherwise the product of the squared normalised distances to the n_obj nearest other points, and agrees with calc_mnn without removals; calc_2nn_fast uses two neighbours.", "quantifier": "all numbers of points and objectives, all objective values including ties, duplicates and constant objectives", "why_tests_cant": "NaN from zero gaps, ties and constant columns only occur for special values, and the neighbour count is visible only with other than two objectives", "anchors": ["pymoo/operators/survival/rank_and_crowding/metrics.py:calc_crowding_entropy,calc_mnn_fast,calc_2nn_fast,_calc_mnn_fast"]}
{"id": "C156", "title": "Optuna wrapper: points, trials and values", "statement": "Every point Optuna proposes lies in the domain of each of the problem's variables (real, integer, choice, binary), and any other kind of variable is refused; running the wrapper evaluates one point per iteration, tells the study each point's value exactly once and under the trial that proposed it, and reports as optimum the best of all points evaluated so far; in any ask-and-tell session every value recorded belongs to the trial that proposed the point, and the study knows the feasibility of points", "quantifier": "all variable dictionaries, all suggestions Optuna may make within its contract, all numbers of iterations and all ask-and-tell sessions", "why_tests_cant": "Which trial a value is recorded under depends on the history of asks and tells", "anchors": ["pymoo/algorithms/soo/nonconvex/optuna.py:Optuna,_infill,_advance,_set_optimum"]}
{"id": "C157", "title": "MIGD callback records the right front and the right values", "statement": "On an unconstrained dynamic problem the MIGD callback never raises and writes one record per call, in order: the time of the problem at the call and the IGD between the Pareto front at that time and the objective values of the algorithm's population of that moment, evaluated at that time (or as stored when re-evaluation is off); it does not move the clock, and its value is the mean of the recorded IGD values", "quantifier": "all histories of clock ticks, front requests, time changes, new populations and callback calls", "why_tests_cant": "The record depends on the cache of the front and on when the clock moved; only some histories reveal a stale front", "anchors": ["pymoo/indicators/migd.py:MIGD", "pymoo/problems/dyn.py:DynamicTestProblem"]}
{"id": "C158", "title": "The optimum NSGA-II, NSDE, GDE3 and AGE-MOEA report is the feasible non-dominated part of the population", "statement": "After initialisation and any sequence of generations, algorithm.opt of an algorithm that keeps ranks in the individuals consists exactly of the feasible members of the current population that no feasible member of the population dominates; if the population has no feasible member it is one member with the smallest violation. The ranks are attributes written by the survival and read afterwards, so this also says that no stale rank is read.", "quantifier": "all populations, offspring sequences, population sizes, tie breaks and crowding functions; constraint definitions fixed during the run", "why_tests_cant": "stale attributes only show for particular histories; a test fixes one history", "anchors": ["pymoo/algorithms/moo/nsga2.py:NSGA2._set_optimum", "pymoo/algorithms/moo/age.py:AGEMOEA._set_optimum", "pymoo/operators/survival/rank_and_crowding/classes.py:RankAndCrowding._do"]}
{"id": "C159", "title": "A run of a genetic algorithm: stored values belong to stored variables, points stay in the domain, the budget is kept", "statement": "After initialisation and any number of generations of a genetic algorithm, every individual of the population and every individual ever evaluated carries exactly the values of the problem at its own variables; what was evaluated is never changed afterwards; every point handed to the problem lies in the domain the operators keep to (within the bounds for the default real operators, a permutation for order crossover and inversion); no individual is evaluated twice; the evaluation counter is the number of evaluated individuals and at most the initial points plus n_offsprings per generation.", "quantifier": "all problems, operators, random numbers, initial populations (also partly evaluated ones), duplicate eliminations, survivals and numbers of generations", "why_tests_cant": "objects are shared and overwritten in place, so a wrong value shows only for a particular history of operators", "anchors": ["pymoo/algorithms/base/genetic.py:GeneticAlgorithm", "pymoo/core/algorithm.py:Algorithm.next", "pymoo/core/infill.py:InfillCriterion.do", "pymoo/core/mating.py:Mating", "pymoo/core/evaluator.py:Evaluator.eval", "pymoo/operators/crossover/nox.py:NoCrossover"]}
{"id": "C160", "title": "The optimum reported by NSGA-III, U-NSGA-III and NSDE-R", "statement": "After every generation of NSGA-III, U-NSGA-III or NSDE-R, constrained or not, the reported optimum is a non-empty list of different solutions; if the individuals of the last generation (population and offspring) include a feasible one, the population has a feasible member and every reported solution is a feasible individual of that generation that no feasible one of them dominates; otherwise it is one member with the least violation. The reported solutions are members of the population.", "quantifier": "all problems, populations, offspring, numbers of generations, distances to the directions and random permutations", "why_tests_cant": "The optimum is kept inside the survival object across generations and must be valid for every history of populations, feasible or not", "anchors": ["pymoo/algorithms/moo/nsga3.py:NSGA3._set_optimum", "pymoo/algorithms/moo/nsga3.py:ReferenceDirectionSurvival._do", "pymoo/algorithms/moo/nsder.py:NSDER._set_optimum", "pymoo/core/survival.py:Survival.do"]}
{"id": "C161", "title": "The archive kept during a run", "statement": "An archive given empty to an algorithm takes in every solution handed to tell, once and in order; the archive of the result of run or minimize respects its size limit, is not empty if a solution was handed in, has no member that beats another one, has only feasible members if a feasible solution was handed in, and for one objective has only best solutions of all that were handed in. The same holds of the archive in the result that the last tell returns and in what callbacks and the history see, with the solutions of that call included.", "quantifier": "all sequences of calls of tell or next, infills, size limits, duplicate tests and truncation operators", "why_tests_cant": "What is in the archive depends on the order of updates over the whole history of the run", "anchors": ["pymoo/core/algorithm.py:Algorithm.advance", "pymoo/core/algorithm.py:Algorithm.result", "pymoo/core/algorithm.py:Algorithm._post_advance", "pymoo/util/archive.py:Archive.add"]}
{"id": "C162", "title": "A run with a seed can be repeated", "statement": "Two runs of an algorithm with the same seed on the same problem return the same result, at any time and on any machine: every random number comes from the generator made from the seed (or from a function with a fixed default seed), never from the entropy of the operating system.", "quantifier": "all generators, seeds, operators, populations, numbers of generations and states of the operating system's entropy", "why_tests_cant": "a test repeats a run a few times on one machine and sees the difference only if a tie, a value outside the bounds or a full archive happens to occur", "anchors": ["pymoo/util/__init__.py:default_random_state", "pymoo/operators/selection/tournament.py", "pymoo/algorithms/moo/nsga3.py", "pymoo/algorithms/moo/unsga3.py", "pymoo/algorithms/soo/nonconvex/ga_niching.py", "pymoo/algorithms/soo/nonconvex/pattern.py", "pymoo/operators/mutation/gauss.py", "pymoo/util/archive.py", "pymoo/algorithms/base/genetic.py"]}
{"id": "C163", "title": "Wrapping an algorithm in adaptive constraint handling", "statement": "Wrapping an algorithm in AdaptiveConstraintHandling or AdaptiveEpsilonConstraintHandling changes only how constraint violations are judged inside the algorithm: the wrapped algorithm is set up, counts its evaluations and generations and ends under every termination as the algorithm itself would, the tolerance shrinks from the mean violation of the first population to zero with the progress of the run, the optimum is judged with the default tolerance, and the evaluator gives the same values and attaches the configuration to what it evaluated.", "quantifier": "all wrapped algorithms (their hooks under every configuration), adaptation rules, terminations, budgets, problems and numbers of generations", "why_tests_cant": "The wrapper is generic over all algorithms and terminations, and that a run never ends is a statement about every number of steps", "anchors": ["pymoo/constraints/adaptive.py:AdaptiveConstraintHandling", "pymoo/constraints/adaptive.py:AttachConfigEvaluator", "pymoo/constraints/eps.py:AdaptiveEpsilonConstraintHandling", "pymoo/core/algorithm.py:MetaAlgorithm"]}
{"id": "C164", "title": "Offspring of the Newton-Raphson-based optimizer", "statement": "In every generation NRBO makes one offspring per individual, each a finite vector inside the bounds of the problem, by the stated move (search rule towards the best individual, or the trap avoidance), for every random stream and for any initial population the user supplies; the factor of the difference to the best individual stays between -1 and 1 during the run.", "quantifier": "all populations, bounds, iterations, budgets and random numbers", "why_tests_cant": "The formula has divisions whose denominators vanish only on thin sets of positions and random numbers, and the factor depends on the length of the run", "anchors": ["pymoo/algorithms/soo/nonconvex/nrbo.py:NRBO._infill", "pymoo/algorithms/soo/nonconvex/nrbo.py:Search_Rule", "pymoo/operators/repair/bounds_repair.py:repair_random_init"]}
{"id": "C165", "title": "A run of differential evolution or of the particle swarm: bounds, budget, best solution", "statement": "A run of DE (any strategy, at most pop_size offspring per generation) or PSO on a problem with bounds never raises; every point handed to the problem, from the first to the last, is within the bounds (PSO: and every velocity within the limit); exactly pop_size + generations * n_offsprings (PSO: pop_size * (1 + iterations)) different solutions are evaluated; population, swarm and personal bests keep their size and consist of evaluated solutions; the reported optimum is an evaluated solution and none of the evaluated ones is better, feasible solutions first. The personal best of a particle is the best point it has visited, and n_offsprings may be any number.", "quantifier": "all problems with bounds, initial points, random numbers, strategies, coefficients and numbers of generations", "why_tests_cant": "The claim is about whole histories of random points; tests see a few seeds", "anchors": ["pymoo/algorithms/soo/nonconvex/de.py:DE", "pymoo/algorithms/soo/nonconvex/de.py:Variant.do", "pymoo/algorithms/soo/nonconvex/pso.py:PSO", "pymoo/core/replacement.py:ImprovementReplacement"]}
{"id": "C166", "title": "The default termination of Nelder-Mead", "statement": "Without a termination of its own, NelderMead stops after an iteration if and only if all vertices of the simplex have objective values within f_tol of that of the first one (the best, once the simplex has been sorted), or all coordinates are within x_tol (as a fraction of the bounds) of those of the first vertex, or n_max_iter iterations or n_max_evals evaluations are spent, or the simplex has collapsed; it never stops with a single point, and the progress it reports is never negative.", "quantifier": "all simplices, objective functions, bounds, tolerances and counters", "why_tests_cant": "The condition is about every simplex a search can reach; the criterion is computed from reciprocals of spreads, which tests with the default tolerances cannot tell from a comparison.", "anchors": ["pymoo/algorithms/soo/nonconvex/nelder.py:NelderAndMeadTermination", "pymoo/core/termination.py:Termination"]}
{"id": "C167", "title": "The bundled CEC 2018 functions agree with the DF problems", "statement": "For every problem DF1 to DF14, every point within the bounds and every time, cec2018_DF returns the same objectives as the problem of the same name, get_bounds returns the problem's bounds, and every point cec2018_DF_PF returns is a Pareto-optimal objective vector of that problem (and it returns some).", "quantifier": "all points, times, numbers of variables and numbers of front points", "why_tests_cant": "Two transcriptions of the same formulas have to be compared at every point and time; samples near the optimum, where most terms vanish, agree even if the formulas differ.", "anchors": ["pymoo/vendor/cec2018.py:cec2018_DF", "pymoo/vendor/cec2018.py:get_bounds", "pymoo/vendor/cec2018.py:cec2018_DF_PF", "pymoo/problems/dynamic/df.py:DF1"]}
{"id": "C168", "title": "The GTA dynamic benchmark functions and their fronts", "statement": "The environment of the GTA functions DB1a to DB12m is a number from 0 to 5 that changes by exactly one per time unit and repeats after ten. A function raises exactly for the points of the wrong dimension or outside the bounds. At every time the optimal objective vectors are those of the position variables alone, with all distance variables at their optimum: the front is 1 - sqrt(f1) for DB1 to DB3, 1 - f1^e for DB7 and DB8; the additive and the multiplicative version have the same front.", "quantifier": "all points, times t >= 0, and all twenty-four functions", "why_tests_cant": "A front is optimal only if no point of the whole 21-dimensional box dominates it, at any time; samples cannot show that", "anchors": ["pymoo/vendor/gta.py:DB1a", "pymoo/vendor/gta.py:DB7a", "pymoo/vendor/gta.py:DB12m", "pymoo/vendor/gta.py:check_boundary", "pymoo/vendor/gta.py:beta_mix", "pymoo/vendor/gta.py:alpha_conf"]}
{"id": "C169", "title": "The fronts and feasible regions of MW5, MW7, MW9, MW10, MW11, MW13", "statement": "For every number of variables the Pareto-optimal objective vectors of MW9, MW10 and MW11 are exactly those of explicit curves (two arcs for MW9, four pieces for MW10, four arcs and the point (1, 1) for MW11), and the feasible objective vectors of MW5 and MW7 are exactly those whose distance from the origin lies between two explicit bounds that depend on the angle. The constraints of MW13 leave two bands, and its front is the non-dominated part of the lower boundary 5 - exp(a) - 0.5 sin(3 pi a), 0 <= a <= 1.5.", "quantifier": "all points within the bounds, numbers of variables, objective vectors", "why_tests_cant": "Optimality is a statement about all feasible points of the box, and the code only downloads sampled fronts for these problems; tests can compare samples but not exclude a dominating point", "anchors": ["pymoo/problems/multi/mw.py:MW5", "pymoo/problems/multi/mw.py:MW7", "pymoo/problems/multi/mw.py:MW9", "pymoo/problems/multi/mw.py:MW10", "pymoo/problems/multi/mw.py:MW11", "pymoo/problems/multi/mw.py:MW13"]}
