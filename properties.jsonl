{"id": "C01", "title": "Box constraints are respected by the geno/pheno transform", "statement": "With GenoPheno<pwqBoundStrategy>(lb,ub,dim) and lb_i < ub_i, pheno(x) returns a vector y with lb_i <= y_i <= ub_i for every coordinate i, whatever the internal vector x (however far outside the box), and the library's own 'error in shifting pwq bounds' abort can never trigger.", "quantifier": "all dimensions, all bound vectors lb<ub, all internal real vectors x (inside the stated machine-integer range of the shift count)", "why_tests_cant": "The input space is a continuum (any x, any bounds); tests sample a handful of points and cannot exclude an escape at some fold or seam.", "anchors": ["src/pwq_bound_strategy.cc: pwqBoundStrategy, to_f_representation, shift_into_feasible", "include/libcmaes/genopheno.h: GenoPheno::pheno"]}
{"id": "C02", "title": "The bound transform is harmless inside the box and never jumps", "statement": "pheno is exactly the identity on the interior [lb+al, ub-au], attains both bounds, is non-decreasing over [lb-al, ub+au], is periodic with period 2(ub-lb+al+au), mirrors at the ends of that interval, and is 1-Lipschitz over all reals: moving an internal point by h moves the evaluated point by at most |h|.", "quantifier": "all bounds lb<ub, all pairs of internal points", "why_tests_cant": "Continuity / Lipschitz / monotonicity are statements about all pairs of reals; a discontinuity at a seam has measure zero and is never hit by sampling.", "anchors": ["src/pwq_bound_strategy.cc: to_f_representation, shift_into_feasible"]}
{"id": "C03", "title": "geno and pheno are mutually inverse under box bounds", "statement": "For every y in [lb,ub], pheno(geno(y)) = y; for every x in [lb-al, ub+au], geno(pheno(x)) = x; geno of a feasible point always lands in [lb-al, ub+au].", "quantifier": "all bounds lb<ub, all feasible y and all x of the fundamental interval", "why_tests_cant": "Round trips must hold on a continuum, including the quadratic margins next to the bounds.", "anchors": ["src/pwq_bound_strategy.cc: to_f_representation, to_internal_representation"]}
{"id": "C04", "title": "Exact domain on which the bound transform is defined", "statement": "For lb<ub the transform has defined behaviour exactly when the number of periods between x and the box fits in a C++ int; with lb_i = ub_i it has defined behaviour only at x_i = lb_i, every other x is undefined behaviour (conversion of an infinite quotient to int).", "quantifier": "all bounds lb<=ub and all internal points", "why_tests_cant": "Undefined behaviour has no observable specification; a test that passes says nothing about it.", "anchors": ["src/pwq_bound_strategy.cc: shift_into_feasible lines 99-102"]}
{"id": "C05", "title": "Linear scaling is an exact change of unit", "statement": "linScalingStrategy(lb,ub) maps [lb,ub] onto [0,10] increasingly, lb to 0 and ub to 10; scale_to_f(scale_to_internal(y)) = y and scale_to_internal(scale_to_f(x)) = x for all x,y; the same round trips hold for any user scaling vector without zero entry.", "quantifier": "all lb<ub (finite range), all scaling vectors with non-zero entries, all points", "why_tests_cant": "Algebraic laws over all reals.", "anchors": ["include/libcmaes/scaling.h: linScalingStrategy::compute_scaling, scale_to_internal, scale_to_f"]}
{"id": "C06", "title": "Bounds, scaling and user transform compose soundly", "statement": "With bounds and linear scaling together, pheno(x) lies in the user's [lb,ub] for every x, pheno(geno(y)) = y for every feasible y, and with a user transform whose phenof inverts genof the round trip still holds; this is so for the (lb,ub) constructors and for the scaling-vector constructor with positive scaling.", "quantifier": "all lb<ub, all internal x, all feasible y, all user transforms genof/phenof with phenof(genof(z)) = z", "why_tests_cant": "Composition order errors only show on specific scale/bound/transform combinations; the claim ranges over all of them.", "anchors": ["include/libcmaes/genopheno.h: constructors, pheno, geno", "include/libcmaes/scaling.h"]}
{"id": "C07", "title": "Vector and matrix transforms agree, independently of thread schedule", "statement": "For each of the four bound/scaling policies, column i of pheno(matrix) is pheno(column i), likewise geno; since columns are written by independent parallel iterations, any execution order of the column tasks gives the same matrix.", "quantifier": "all matrices, all policy combinations, all schedules (permutations) of the column tasks", "why_tests_cant": "All schedules cannot be enumerated; specialised template members may silently disagree with the generic ones.", "anchors": ["include/libcmaes/genopheno.h: pheno(dMat), geno(dMat), pheno_candidates, specialisations 264-334"]}
{"id": "C08", "title": "The bound strategy reports the user's bounds", "statement": "getPhenoLBound(k)/getPhenoUBound(k) return the bounds the user gave, in the user's units, for every constructor of GenoPheno with pwqBoundStrategy. (Found false of the code for the scaling-vector constructor, which reports internal-unit bounds.)", "quantifier": "all constructors, all bounds, all scaling vectors", "why_tests_cant": "Needs all constructor/bounds combinations; values coincide whenever the scaling is 1.", "anchors": ["include/libcmaes/genopheno.h: 48-93, 347-362", "src/pwq_bound_strategy.cc: constructors"]}
{"id": "C09", "title": "geno honours a user transform for every policy", "statement": "geno(y) applies reverse scaling, reverse bounds, then the user's genof, and returns that value. (Found false for GenoPheno<NoBoundStrategy,linScalingStrategy> with a user transform: the returned vector is uninitialised.)", "quantifier": "all user transforms, all points, all policies", "why_tests_cant": "Uninitialised memory can look right in a test.", "anchors": ["include/libcmaes/genopheno.h: 216-239, 281-317"]}
{"id": "C10", "title": "Deleting and re-inserting coordinates", "statement": "addElement at the removed index undoes removeElement; removing a set of coordinates from a bound/scaling strategy leaves on the surviving coordinates exactly the transform they had before. (Holds when indices are given in decreasing order; found false for increasing order, the order used by the error-statistics code for several fixed parameters.)", "quantifier": "all vectors, all indices, all index lists", "why_tests_cant": "Index-shift errors depend on list order and sizes; unbounded combinations.", "anchors": ["include/libcmaes/eo_matrix.h: removeElement, addElement", "src/pwq_bound_strategy.cc: remove_dimensions", "include/libcmaes/scaling.h: remove_dimensions", "src/errstats.cc: optimize_vpk"]}
{"id": "C11", "title": "Population size and recombination weights are well formed", "statement": "An unspecified (or <2) lambda becomes 4+floor(3 ln dim), which is at least 4, a given lambda>=2 is kept; mu = floor(lambda/2) >= 1; the mu weights are positive, strictly decreasing and sum to 1; the variance effective selection mass satisfies 1 <= mu_w <= mu.", "quantifier": "all dimensions >= 1 and all lambda", "why_tests_cant": "Must hold for every lambda including those reached by restarts (doubling).", "anchors": ["include/libcmaes/parameters.h: Parameters ctor", "src/cmaparameters.cc: initialize_parameters 76-91"]}
{"id": "C12", "title": "Default learning rates are admissible", "statement": "After construction: 0 < c1, 0 <= cmu, c1+cmu <= 1, 0 < cc <= 1, 0 < csigma < 1, dsigma >= 1, chi_N > 0, the cumulation normalisations are real (arguments of the square roots are non-negative) and the lazy-update period is positive.", "quantifier": "all dimensions >= 1 and all lambda >= 2", "why_tests_cant": "Inequalities over an infinite parameter grid, including dim >= 1000 branch.", "anchors": ["src/cmaparameters.cc: initialize_parameters 93-117"]}
{"id": "C13", "title": "Algorithm variants keep the learning rates admissible", "statement": "set_sep (once), set_noisy, set_tpa keep 0<c1, 0<=cmu, c1+cmu<=1, 0<cc<=1 and dsigma>0; set_vd does for dim >= 6. (Found false: set_vd yields a rank-one rate of 0 in dimension 5 and negative rates below; calling set_sep repeatedly can drive c1 above 1 and cmu negative.)", "quantifier": "all dimensions, all lambda, all sequences of variant setters", "why_tests_cant": "Interaction of setters over an infinite grid.", "anchors": ["src/cmaparameters.cc: set_noisy, set_tpa, set_sep, set_vd"]}
{"id": "C14", "title": "set_elitism(e) selects exactly mode e", "statement": "After set_elitism(e), e in 0..3, exactly the documented elitism mode is active, whatever calls came before. (Found false: set_elitism(0) after set_elitism(3) switches all three modes on.)", "quantifier": "all histories of set_elitism calls", "why_tests_cant": "History dependent; tests call the setter once on a fresh object.", "anchors": ["include/libcmaes/cmaparameters.h: set_elitism"]}
{"id": "C15", "title": "Setters for fixed parameters and stopping criteria obey the last call", "statement": "After set_fixed_p(i,v) the optimisation holds coordinate i at v; after set_stopping_criteria(c,b) criterion c is active iff b; unset_fixed_p removes it. (Found false for repeated calls on the same key: the first value wins.)", "quantifier": "all histories of setter calls", "why_tests_cant": "History dependent (insert vs assign).", "anchors": ["include/libcmaes/parameters.h: set_fixed_p, unset_fixed_p", "include/libcmaes/cmaparameters.h: set_stopping_criteria"]}
{"id": "C16", "title": "The seed the user sets is the seed used", "statement": "After set_seed(s), get_seed() = s whenever the previous seed was not 0. (Found false when the current seed is 0: the argument is ignored and the clock used.)", "quantifier": "all histories of constructor/set_seed calls and clock values", "why_tests_cant": "Depends on the clock and on call history.", "anchors": ["include/libcmaes/parameters.h: 74-83, 277-291"]}
{"id": "C17", "title": "Algorithm names and codes select the documented algorithm", "statement": "Each name documented for set_str_algo selects the algorithm of that name; cmaes() runs, for each code, the documented covariance update with the documented restart strategy, and returns an empty solution for an unknown code. (Found false for 'sepaipop' and 'sepabipop': the algorithm is left unchanged.)", "quantifier": "all strings and all integer codes", "why_tests_cant": "Ranges over all strings/codes and prior states.", "anchors": ["include/libcmaes/cmaparameters.h: 140-150, 331", "include/libcmaes/cmaes.h: cmaes", "include/libcmaes/esoptimizer.h"]}
{"id": "C18", "title": "The search starts where and as wide as asked", "statement": "The initial mean equals x0 (in internal units) when x0 is a point, lies in [x0min,x0max] when it is a box, fixed coordinates have their fixed value, sigma is the given one if positive and 1/dim otherwise; the histories are empty, the covariance is the identity.", "quantifier": "all x0 / boxes, all random draws, all fixed-parameter maps, all sigma", "why_tests_cant": "Ranges over all draws of the random generator and all configurations.", "anchors": ["src/cmasolutions.cc: CMASolutions ctor"]}
{"id": "C19", "title": "ask() returns lambda candidates honouring fixed parameters", "statement": "ask() returns exactly lambda candidates of dimension dim, each equal to mean + sigma * B*D*z for the drawn z when no gradient/TPA injection applies and lazy update is off; each fixed coordinate has its fixed value in each candidate, also in injected ones. (Found false with lazy update: candidates are drawn around a stale mean.)", "quantifier": "all states, all draws, all fixed-parameter maps, all flags", "why_tests_cant": "Ranges over all states reachable in a run and all draws.", "anchors": ["src/cmastrategy.cc: ask", "include/libcmaes/eigenmvn.h"]}
{"id": "C20", "title": "tell() ranks the population without losing or inventing candidates", "statement": "After tell() (no uncertainty handling) the candidate list is a permutation of the evaluated one, sorted by ascending objective value, ties kept in evaluation order; best_candidate() is the minimum of this generation.", "quantifier": "all populations with comparable objective values, any lambda >= 2", "why_tests_cant": "All populations; stability and permutation are universal statements.", "anchors": ["include/libcmaes/cmasolutions.h: sort_candidates, best_candidate", "src/cmastrategy.cc: tell"]}
{"id": "C21", "title": "Memory use of the histories is bounded", "statement": "After any number of iterations the best and k-best histories have equal length at most max_hist, the best-f-value list at most 20 entries, and their content is the most recent generations in order.", "quantifier": "all run lengths, all populations", "why_tests_cant": "Unbounded iteration.", "anchors": ["src/cmasolutions.cc: update_best_candidates"]}
{"id": "C22", "title": "The best-seen candidate is the minimum over the whole run", "statement": "After any number of generations without NaN, get_best_seen_candidate() is an evaluated (or the initial) point with objective value not above any candidate told so far, and is the earliest such. (Found false if the first generation's best value is NaN: it then never changes.)", "quantifier": "all run lengths, all populations", "why_tests_cant": "Unbounded histories.", "anchors": ["src/cmasolutions.cc: update_best_candidates 114-125"]}
{"id": "C23", "title": "The worst-seen candidate is the maximum over the whole run", "statement": "After any number of generations without NaN, get_worst_seen_candidate() has an objective value not below any candidate told so far.", "quantifier": "all run lengths, all populations", "why_tests_cant": "Unbounded histories.", "anchors": ["src/cmasolutions.cc: update_best_candidates 121-125"]}
{"id": "C24", "title": "Population must contain no NaN to be ranked", "statement": "Ranking is only defined if the comparison is a strict weak order on the population; a population mixing NaN with two distinct comparable values makes std::stable_sort undefined, and every NaN-free population (infinities included) is defined.", "quantifier": "all populations", "why_tests_cant": "Undefined behaviour is invisible to tests.", "anchors": ["include/libcmaes/cmasolutions.h: 76-80", "src/esostrategy.cc: 214-237"]}
{"id": "C25", "title": "The new mean is a convex combination of the selected points", "statement": "After tell() the mean lies in the convex hull of the mu best candidates of the generation, hence stays in every convex set (e.g. box, half-space) containing these; this holds for the default, active, separable and VD updates alike.", "quantifier": "all populations, all updates, all states with sigma > 0", "why_tests_cant": "Convexity over all populations.", "anchors": ["src/covarianceupdate.cc", "src/acovarianceupdate.cc", "src/vdcmaupdate.cc"]}
{"id": "C26", "title": "The covariance matrix stays symmetric positive (semi-)definite", "statement": "Starting from the identity, after any number of tell() the covariance matrix of the default update is symmetric and positive semi-definite, and positive definite as long as c1+cmu<1.", "quantifier": "all histories of populations, any number of generations", "why_tests_cant": "Unbounded histories; matrices over the reals.", "anchors": ["src/covarianceupdate.cc: 53-82"]}
{"id": "C27", "title": "Active covariance update keeps the matrix positive definite", "statement": "The negative update of active CMA-ES never destroys positive definiteness when the eigendecomposition is made in every generation: starting from the identity the covariance stays symmetric positive definite after any number of tell(), for rates with c1+cmu<1 and c1 < 0.66 (1-cmu). With set_lazy_update(true) this is false as soon as lazy_value is at least 2 (two candidates in dimension 38 or more; the default population size in large dimensions): on the squared distance to the starting point there are draws for which the covariance has a negative variance from the third generation to the end of the first period, and the search then fails in the square root of a negative eigenvalue.", "quantifier": "all histories of populations; for the failure all dimensions, parameters, starting points, eigensolvers, schedules with lazy_value >= 2", "why_tests_cant": "Needs a spectral argument over all matrices.", "anchors": ["src/acovarianceupdate.cc: 28-122", "src/cmastrategy.cc: 157-165"]}
{"id": "C28", "title": "The step size stays positive", "statement": "sigma() > 0 after any number of tell() for all updates and step-size rules (CSA, TPA, uncertainty handling).", "quantifier": "all histories", "why_tests_cant": "Unbounded histories.", "anchors": ["src/covarianceupdate.cc: 84-88", "src/acovarianceupdate.cc: 113-117", "src/vdcmaupdate.cc: 116-120", "src/cmastrategy.cc: 298-300"]}
{"id": "C29", "title": "Separable variances stay positive", "statement": "In sep-CMA-ES every diagonal entry stays positive after any number of tell(), for default and active update.", "quantifier": "all histories", "why_tests_cant": "Unbounded histories.", "anchors": ["src/covarianceupdate.cc", "src/acovarianceupdate.cc"]}
{"id": "C30", "title": "Fixed parameters never move", "statement": "If coordinate i is fixed at v, then in each generation of any run each candidate and the mean have i-th internal coordinate v (with no scaling in effect).", "quantifier": "all runs, all draws, all objectives", "why_tests_cant": "Unbounded histories.", "anchors": ["src/cmastrategy.cc: 249-257", "src/covarianceupdate.cc: 33-36", "src/cmasolutions.cc: 56-64"]}
{"id": "C31", "title": "Only the ranking of objective values matters", "statement": "Replacing the objective f by g(f) for any strictly increasing g leaves the search trajectory unchanged: after any number of generations with the same draws the mean, sigma, covariance, paths and candidate points are identical (any covariance variant, bounds, elitism, two-point adaptation; no uncertainty handling, no gradient injection).", "quantifier": "all objectives, all strictly increasing transformations, all draws, all numbers of generations", "why_tests_cant": "Relational property over pairs of runs.", "anchors": ["src/cmastrategy.cc: ask, tell", "src/esostrategy.cc: eval", "src/covarianceupdate.cc"]}
{"id": "C32", "title": "Translation invariance", "statement": "Optimising x -> f(x - t) from x0 + t with the same draws gives the same trajectory shifted by t, with identical sigma, covariance, paths and objective values (no bounds or scaling, no fixed parameters, no uncertainty handling, no gradient injection).", "quantifier": "all objectives, all t, all draws, all numbers of generations", "why_tests_cant": "Relational property over pairs of unbounded runs.", "anchors": ["src/cmastrategy.cc: ask, tell", "src/covarianceupdate.cc"]}
{"id": "C33", "title": "Scale invariance", "statement": "Optimising x -> f(x/s), s>0, from s*x0 with positive step size s*sigma and the same draws gives the same trajectory multiplied by s, with identical covariance, paths and objective values (same conditions as translation invariance).", "quantifier": "all objectives, all s>0, all draws, all numbers of generations", "why_tests_cant": "Relational property over pairs of unbounded runs.", "anchors": ["src/cmastrategy.cc: ask, tell", "src/covarianceupdate.cc"]}
{"id": "C34", "title": "Candidate order does not matter to tell()", "statement": "If the objective values are numbers and pairwise distinct, and uncertainty handling is off, tell() yields the same state (mean, sigma, covariance, paths, best, histories) for every permutation of the candidate list.", "quantifier": "all populations, all permutations", "why_tests_cant": "All permutations of arbitrary populations.", "anchors": ["include/libcmaes/cmasolutions.h: sort_candidates", "src/cmastrategy.cc: tell"]}
{"id": "C35", "title": "Maximising f is minimising -f", "statement": "With set_maximize(true) the whole run (hand-written loop, optimize, IPOP, BIPOP) equals the run minimising -f: same solution, same counters, the objective called at the same points; reported objective values are those of -f. (Found false when starting from an existing solution: f itself is minimised; and a user-supplied gradient function is not negated, so gradient injection descends.)", "quantifier": "all objectives, all runs", "why_tests_cant": "Relational property over runs.", "anchors": ["src/esostrategy.cc: 41-75, 165-184", "src/cmastrategy.cc"]}
{"id": "C36", "title": "The evaluation counter is exact", "statement": "fevals() equals the number of calls made to the user objective since the optimiser was created, after any number of generations, including initial-point evaluation, uncertainty-handling re-evaluations and numerical gradients.", "quantifier": "all runs, all flags, all objectives", "why_tests_cant": "Counting over unbounded histories and flag combinations.", "anchors": ["src/esostrategy.cc: eval, update_fevals, gradf, eval_candidates_uh", "src/cmastrategy.cc: optimize 341-350"]}
{"id": "C37", "title": "Each candidate is evaluated once, at its phenotype, in any thread order", "statement": "eval() calls the objective exactly once per candidate with the phenotype of this candidate and stores the value with that candidate; with a deterministic objective the result does not depend on the order in which the parallel loop executes.", "quantifier": "all populations, all objectives, all schedules", "why_tests_cant": "All schedules of the parallel loop.", "anchors": ["src/esostrategy.cc: eval 89-101"]}
{"id": "C38", "title": "The objective is never called outside the bounds", "statement": "With box bounds and no uncertainty handling / no gradient, each objective call of a run is made at a point of [lb,ub]. (Found false with uncertainty handling, which perturbs the phenotype; and for numerical gradients with bounds+scaling.)", "quantifier": "all runs, all draws, all objectives", "why_tests_cant": "Unbounded histories; undefined region is only reached near bounds.", "anchors": ["src/cmastrategy.cc: optimize", "src/esostrategy.cc: eval, gradf, select_candidates_uh"]}
{"id": "C39", "title": "Elitism never lets the best value get worse", "statement": "With set_elitism(1), an objective that never returns NaN, no uncertainty handling and at least two candidates per generation, the best candidate of each generation (from the second on) is at least as good as the best one seen before it; so after every generation best_candidate() and the best candidate seen have the same value, also for the solution returned by optimize().", "quantifier": "all runs, all objectives", "why_tests_cant": "Unbounded histories.", "anchors": ["src/esostrategy.cc: 109-141", "src/cmasolutions.cc: update_best_candidates"]}
{"id": "C40", "title": "Reinjection replaces one candidate only and counts no evaluation", "statement": "Elitist reinjection overwrites exactly the candidate at position 1 with the reference when fewer than lambda/2 candidates improve on it, leaves the population unchanged otherwise, and makes no call of the objective function. It can therefore discard the only candidate better than the reference, so that the best point ever evaluated is lost for good.", "quantifier": "all populations", "why_tests_cant": "All populations.", "anchors": ["src/esostrategy.cc: 127-140"]}
{"id": "C41", "title": "Uncertainty handling re-evaluates a sane number of points and reranks without loss", "statement": "The number of re-evaluated candidates is between 1 and lambda, and equals floor or ceiling of rlambda*lambda; the reranked population is a permutation of the evaluated one. ", "quantifier": "all lambda, all draws, all populations", "why_tests_cant": "All draws and populations.", "anchors": ["src/esostrategy.cc: 211-374"]}
{"id": "C42", "title": "The uncertainty-handling rank order is a legal ordering", "statement": "The comparison used to rerank candidates by combined rank is a strict weak order, so that std::sort is defined. (Found false: it compares r1+r2 of one side with 2*r2 of the other and is not antisymmetric.)", "quantifier": "all triples of ranked candidates", "why_tests_cant": "Undefined behaviour of std::sort under an invalid comparator is invisible to tests.", "anchors": ["src/esostrategy.cc: 294-314"]}
{"id": "C43", "title": "The reported stop status is the highest-priority active criterion that holds", "statement": "stop() reports the smallest code among the active criteria that hold, 0 if none; a deactivated criterion is never reported; activation of one criterion never affects another.", "quantifier": "all states, all activation patterns", "why_tests_cant": "2^12 activation patterns times all states.", "anchors": ["src/cmastopcriteria.cc: stop, set_criteria_active"]}
{"id": "C44", "title": "Each stopping criterion fires exactly on its documented condition", "statement": "maxFEvals, maxIter, autoMaxIter, fTarget, tolHistFun, equalFunVals, tolX, tolUpSigma, stagnation, conditionCov, noEffectAxis, noEffectCoor fire iff the documented inequality holds of the observable state. (Found deviations: tolX multiplies the tolerance, not the path and the deviations, by sigma/sigma_0, and takes path components with their sign; equalFunVals cannot fire if dim < max_hist, which is the default; noEffectAxis scales the coordinate of an eigenvector with the eigenvalue of another axis.)", "quantifier": "all states", "why_tests_cant": "All states.", "anchors": ["src/cmastopcriteria.cc: 69-250"]}
{"id": "C45", "title": "Every run terminates", "statement": "optimize() terminates for every objective and every random stream if AUTOMAXITER is active (default), or a max_iter or a max_fevals is set and active, with an explicit bound on the number of iterations.", "quantifier": "all objectives, all draws, all initial states", "why_tests_cant": "Termination is not testable.", "anchors": ["src/cmastrategy.cc: stop, optimize", "src/cmastopcriteria.cc: autoMaxIter, maxIter"]}
{"id": "C46", "title": "max_iter is obeyed", "statement": "With MAXITER active and max_iter = m >= 1 a run performs at most m iterations, and exactly m if no other criterion fires first; max_iter = 0 still performs one iteration.", "quantifier": "all runs", "why_tests_cant": "All runs.", "anchors": ["src/cmastopcriteria.cc: maxIter", "src/cmastrategy.cc: stop"]}
{"id": "C47", "title": "max_fevals is exceeded by less than one generation", "statement": "With MAXFEVALS active and max_fevals = m, the evaluation count when the run stops is less than m plus the evaluations of one generation (plus the initial evaluation), for every run.", "quantifier": "all runs, all flags", "why_tests_cant": "All runs.", "anchors": ["src/cmastopcriteria.cc: maxFEvals", "src/cmastrategy.cc: optimize"]}
{"id": "C48", "title": "Return code and run_status agree", "statement": "optimize() returns OPTI_SUCCESS iff run_status() >= 0 and OPTI_ERR_TERMINATION otherwise; run_status() is one of the documented codes; a run stopped by a criterion reports this criterion.", "quantifier": "all runs", "why_tests_cant": "All runs.", "anchors": ["src/cmastrategy.cc: 386-388", "include/libcmaes/cmastopcriteria.h"]}
{"id": "C49", "title": "f-target stops at the first generation reaching it", "statement": "With only FTARGET active and target t, the run stops right after the first generation whose best value is <= t, and reports FTARGET; before that no generation has best value <= t.", "quantifier": "all runs", "why_tests_cant": "All runs.", "anchors": ["src/cmastopcriteria.cc: fTarget"]}
{"id": "C50", "title": "A progress function can stop the run at any generation", "statement": "If the progress function returns non-zero the run stops at once, performing no further objective call; run_status keeps its previous value.", "quantifier": "all runs, all progress functions", "why_tests_cant": "All runs.", "anchors": ["src/cmastrategy.cc: stop 320-321"]}
{"id": "C51", "title": "IPOP doubles the population at each restart", "statement": "The r-th run of IPOP (r>=0) uses lambda0*2^r candidates per generation, at most nrestarts runs are made, and parameters are re-derived from the new lambda. (Found: separable/VD/noisy/TPA rate adjustments are lost at the first restart.)", "quantifier": "all numbers of restarts, all runs", "why_tests_cant": "Unbounded restarts.", "anchors": ["src/ipopcmastrategy.cc: optimize, lambda_inc"]}
{"id": "C52", "title": "A restart strategy returns the best run", "statement": "The solution returned by IPOP/BIPOP is that of a run whose final best value is minimal among all runs (earliest on ties), if no run ends with NaN. (Found false with NaN: a first run ending with NaN is kept forever.)", "quantifier": "all sequences of runs", "why_tests_cant": "All sequences.", "anchors": ["src/ipopcmastrategy.cc: capture_best_solution, optimize", "src/bipopcmastrategy.cc: optimize"]}
{"id": "C53", "title": "IPOP stops restarting once the evaluation budget is consumed", "statement": "With max_fevals = m > 0 no new run is started after the total number of evaluations has reached m, so that the total is bounded by m plus one run's own limit.", "quantifier": "all sequences of runs", "why_tests_cant": "All sequences.", "anchors": ["src/ipopcmastrategy.cc: 73-79"]}
{"id": "C54", "title": "BIPOP's small-population regime stays in range and in balance", "statement": "A BIPOP search is a sequence of fresh runs of two regimes. A large run doubles the population of the last large one and has the user's step size and budget; it starts only when the small regime has spent at least as much as the large one. A small run has at least 2 candidates, between the default population and half the last large one, a step size in (0.02,2] and half the large regime's expenses as budget; it starts only while the small regime has spent less. The search ends if the progress function lets every run make an iteration. (Found: if the runs make no iteration, e.g. the progress function keeps asking to stop, the loop never ends.)", "quantifier": "all uniform draws, all budgets", "why_tests_cant": "All draws, unbounded loops.", "anchors": ["src/bipopcmastrategy.cc: optimize, r1, r2"]}
{"id": "C55", "title": "Resuming from a solution restarts counters and keeps settings", "statement": "Starting from an existing solution resets iteration/evaluation counters, histories and paths, and starts the search at the solution's best candidate with the user's stopping-criteria settings. (Found false: the mean stays that of the solution and the stopping-criteria settings are ignored.)", "quantifier": "all solutions", "why_tests_cant": "All prior histories.", "anchors": ["include/libcmaes/esostrategy.h: start_from_solution", "src/cmasolutions.cc: reset", "src/cmastrategy.cc: 123-137"]}
{"id": "C56", "title": "Profile likelihood intervals are ordered and indices in range", "statement": "A profile that errstats::profile_likelihood computes has min <= max and errmin <= errmax, errors equal to the distances from the optimum, indices in the sampled range that select, on each side, a point whose value is nearest to the minimum plus fup; it is computed without error; and get_pli returns what was computed last for that parameter. (Found: recomputing for the same parameter keeps the old interval; after a separable or VD search the computation is undefined behaviour.)", "quantifier": "all objectives, all inner optimisations, all parameters, sample sizes, fup, delta, maxiters, with and without curve", "why_tests_cant": "All profiles and all behaviours of the inner optimisations.", "anchors": ["include/libcmaes/pli.h", "src/errstats.cc: profile_likelihood"]}
{"id": "C57", "title": "Linear profile stepping terminates", "statement": "profile_likelihood ends: each line search makes finitely many calls of the objective, and each direction at most maxiters inner optimisations. (Found false when the parameter's value is 0 at the optimum: the step is 0 and the first line search never ends.)", "quantifier": "all objectives, all start points", "why_tests_cant": "Termination.", "anchors": ["src/errstats.cc: take_linear_step"]}
{"id": "C58", "title": "Surrogate training set is a bounded FIFO of true evaluations", "statement": "In a search with a surrogate strategy, without elitism, uncertainty handling and gradients, the training set holds the last l truly evaluated points, each with the answer of the objective to its own call, in the order of the calls, never more than l. (Found false with elitism: a candidate whose value was predicted by the model is reinjected and enters the training set as if evaluated.)", "quantifier": "all objectives, models, numbers of generations, settings of the surrogate", "why_tests_cant": "Unbounded histories.", "anchors": ["src/surrogatestrategy.cc: add_to_training_set"]}
{"id": "C59", "title": "Surrogate model error is a normalised rank disagreement", "statement": "The model error over n>=2 test points lies in [0,1], is the fraction of pairs ordered wrongly, and is 0 iff the surrogate orders all pairs as the objective does (test points of different values; for equal values only: if it is 0 the order is right); the smoothed error stays in [0,1] over any history. (Found false for ACMSurrogateStrategy when lambdaprime is at most 1, which is the default in dimension 1: the error over one point is 0/0, and the smoothed error is NaN from then on.)", "quantifier": "all test sets, all histories", "why_tests_cant": "All test sets.", "anchors": ["src/surrogatestrategy.cc: compute_error, set_test_error"]}
{"id": "C60", "title": "Surrogate life length is sane", "statement": "The adaptive number of surrogate generations is between 2 and the given maximum plus one for every smoothed error in [0,1], does not grow with the error, and in any run the whole population is evaluated with the true objective at least once in that many generations.", "quantifier": "all error values; all runs of the simple strategy", "why_tests_cant": "Continuum.", "anchors": ["src/surrogatestrategy.cc: compute_lifelength"]}
{"id": "C61", "title": "ACM pre-selection evaluates exactly the promised number of distinct candidates", "statement": "In a generation with a full training set, ACMSurrogateStrategy samples prelambda points, picks lambda distinct ones of them as the new population, among them one predicted best, and calls the true objective exactly max(1,lambdaprime) times, at as many different members of the population; the others get the greatest double as value. (Found: if lambdaprime is set above lambda, the generation never ends.)", "quantifier": "all draws, all rankings", "why_tests_cant": "All draws.", "anchors": ["src/surrogatestrategy.cc: pre_selection_eval"]}
{"id": "C62", "title": "Ranking SVM multipliers stay in their box and ascend the dual", "statement": "During training each multiplier stays in [0,C_i], the cached gradient equals its definition, and no accepted step decreases the dual objective.", "quantifier": "all training sets, all draws, all iteration counts", "why_tests_cant": "Unbounded iterations.", "anchors": ["include/libcmaes/surrogates/rankingsvm.hpp: optimize"]}
{"id": "C63", "title": "Correlation matrix is a correlation matrix", "statement": "corr() is symmetric with unit diagonal and entries in [-1,1] whenever the covariance is positive definite, and corr(i,j) equals its (i,j) entry, for full and VD covariance.", "quantifier": "all positive definite covariances", "why_tests_cant": "All matrices.", "anchors": ["src/cmasolutions.cc: corr, full_cov", "include/libcmaes/cmasolutions.h: stds"]}
{"id": "C64", "title": "Independent optimisers do not disturb each other", "statement": "Two optimiser objects driven alternately through ask/tell each produce the candidates they would produce alone. (Found false: all samplers share one global random engine, and constructing any sampler reseeds it.)", "quantifier": "all interleavings", "why_tests_cant": "All interleavings of two clients.", "anchors": ["include/libcmaes/eigenmvn.h: scalar_normal_dist_op::rng"]}
{"id": "C65", "title": "Reported standard deviations", "statement": "errors() of a solution is non-negative and equals sigma*sqrt(C_ii) without transform. (Found false: it is sqrt(sigma)*sqrt(C_ii).)", "quantifier": "all states", "why_tests_cant": "All states.", "anchors": ["include/libcmaes/cmasolutions.h: stds, errors"]}
{"id": "C66", "title": "Two-point adaptation compares two mirrored points and its signal is bounded", "statement": "With two-point adaptation, from the second generation on two candidates lie symmetrically about the mean, in the direction of the last move of the mean and at the distance (in the metric of the covariance) of a sampled point. The signal is smoothed (0.7/0.3) from the difference of the ranks of these two points divided by lambda-1; without elitism it stays in [-1,1], with any settings in +-lambda/(lambda-1) (elitism may overwrite one of the two points), so that one generation changes sigma by at most a factor exp(bound/dsigma).", "quantifier": "all dimensions, objectives, draws, schedules, numbers of generations", "why_tests_cant": "Unbounded histories, all rankings.", "anchors": ["src/esostrategy.cc: tpa_update", "src/cmastrategy.cc: 223-247", "src/covarianceupdate.cc: 85-92"]}
{"id": "C67", "title": "A run does not fail", "statement": "With the default or the active update, full or diagonal covariance, no uncertainty handling and no gradient injection, and an objective that never returns NaN, constructing the optimiser and performing any number of generations raises no exception, hits no undefined behaviour (index out of range, uninitialised member, illegal sort) and leaves no value undefined (no division by zero, no root of a negative number) - unless the genotype/phenotype transform itself fails on a point, or, with two-point adaptation, a generation leaves the mean exactly where it was.", "quantifier": "all dimensions, starting points, step sizes, seeds, objectives, draws, schedules, numbers of generations", "why_tests_cant": "Quantifies over all runs; a test only shows the failures it provokes.", "anchors": ["src/cmastrategy.cc: ask, tell", "src/esostrategy.cc: eval", "src/covarianceupdate.cc", "src/acovarianceupdate.cc", "src/cmasolutions.cc"]}
{"id": "C68", "title": "tell() computes the published CMA-ES update", "statement": "With the default update, full covariance and an eigendecomposition in each iteration, every tell() of every run computes the mean, both evolution paths, the stall indicator, the step size and the covariance matrix by the equations of the CMA-ES tutorial: m + sigma <y>_w, (1-cs) ps + sqrt(cs(2-cs)mueff) C^(-1/2) <y>_w, (1-cc) pc + h sqrt(cc(2-cc)mueff) <y>_w, (1-c1-cmu+(1-h)c1 cc(2-cc)) C + c1 pc pc^T + cmu sum w_i y_i y_i^T, sigma exp(cs/ds (|ps|/chi - 1)).", "quantifier": "all dimensions, settings of that kind, histories, points and values given to eval()", "why_tests_cant": "A numeric test sees one trajectory; wrong constants or a wrong path still converge on test functions.", "anchors": ["src/covarianceupdate.cc: 28-94", "src/cmaparameters.cc: 92-118", "include/libcmaes/eigenmvn.h"]}
{"id": "C69", "title": "The active update is the published negative update with the largest admissible rate", "statement": "With the active update, tell() computes mean, paths and step size as in C68, and the covariance as (1-c1-cmu+c/2) C + c1 pc pc^T + (cmu+c/2) sum w_i y_i y_i^T - c sum w_i y_(lambda-i) y_(lambda-i)^T, where c is the largest number not above (1-cmu) mueff / (4((n+2)^1.5 + 2 mueff)) that takes from no direction more than 0.34 (1-cmu) of its variance.", "quantifier": "all dimensions, settings of that kind, histories, points and values", "why_tests_cant": "The maximality and the bound concern all directions of all matrices.", "anchors": ["src/acovarianceupdate.cc: 28-122"]}
{"id": "C70", "title": "The diagonal model follows the published equations", "statement": "With set_sep() and the default update, tell() computes the diagonal of the equations of C68, with the learning rates reported by the parameter object and the path normalisation sqrt(cc(2-cc)mueff) belonging to its cc.", "quantifier": "all dimensions, settings of that kind, histories, points and values", "why_tests_cant": "A wrong path normalisation only changes the speed of convergence.", "anchors": ["src/covarianceupdate.cc: 28-94", "src/cmaparameters.cc: 151-159"]}
{"id": "C71", "title": "Ranker training that has come to rest is at the maximum of the dual", "statement": "When a whole sweep of RankingSVM::train over the multipliers changes none of them, no admissible multipliers have a larger dual objective. (False of the code: the acceptance test adds epsilon to a gradient that already contains it; what holds is a gap of at most 2 epsilon times the weighted sum of the pair distances.)", "quantifier": "all training sets, kernels, encodings, draws, iteration counts", "why_tests_cant": "The claim compares with all admissible multipliers; tests look at the predictions of a few points.", "anchors": ["include/libcmaes/surrogates/rankingsvm.hpp: optimize"]}
{"id": "C72", "title": "A ranker's predictions are pointwise and keep margins on its training points", "statement": "predict() gives every tested point a score that depends on that point alone and not on the others tested with it. On the training points, successive scores differ by epsilon minus the cached gradient; if the multipliers solve the dual, every training point whose multiplier is below its bound is predicted at least epsilon above the next better one.", "quantifier": "all training sets, kernels, encodings, test lists", "why_tests_cant": "All data sets and all groupings of the points tested.", "anchors": ["include/libcmaes/surrogates/rankingsvm.hpp: train, predict, optimize, encode"]}
{"id": "C73", "title": "The error of a ranker is a normalised count of reversed pairs", "statement": "RankingSVM::error() on at least two points lies in [0,1] and is 0 exactly when no two points are predicted in the order opposite to that of their reference values. A ranker without multipliers (trained on fewer than two points) predicts nothing and has error 1. (On one point it is 0/0.)", "quantifier": "all trained rankers, all lists of test points and reference values", "why_tests_cant": "All lists.", "anchors": ["include/libcmaes/surrogates/rankingsvm.hpp: error"]}
{"id": "C74", "title": "A simple surrogate search never fails", "statement": "With default or other valid parameters, an objective and a model that return numbers, and a step count other than 0, every number of generations of a SimpleSurrogateStrategy succeeds, whatever its setters were called with.", "quantifier": "all objectives, models, random numbers, settings, numbers of generations", "why_tests_cant": "Unbounded runs, all settings.", "anchors": ["src/surrogatestrategy.cc: SimpleSurrogateStrategy"]}
{"id": "C75", "title": "A generation that exploits the model makes no call and ranks by prediction", "statement": "In a generation of a SimpleSurrogateStrategy with a full training set whose number is no multiple of nsteps, the objective is not called and no evaluation counted; the candidates are the points sampled, with the predicted values, in ascending order; model and training set do not change.", "quantifier": "all states, models, random numbers", "why_tests_cant": "All models.", "anchors": ["src/surrogatestrategy.cc: SimpleSurrogateStrategy::eval, tell"]}
{"id": "C76", "title": "The test error of a simple surrogate tells how well it predicts the objective", "statement": "get_test_error() of a SimpleSurrogateStrategy is the fraction of pairs of truly evaluated points that the model puts in the wrong order. (Found false: after a generation that exploited the model, the model is compared with its own predictions and the error is 0 for every objective.)", "quantifier": "all objectives, all models", "why_tests_cant": "All objectives.", "anchors": ["src/surrogatestrategy.cc: SimpleSurrogateStrategy::eval, compute_error"]}
{"id": "C77", "title": "The best candidate of a surrogate search was evaluated by the objective", "statement": "best_candidate() and get_best_seen_candidate() after a search with a surrogate are points at which the objective was called, with the value it returned. (Found false for SimpleSurrogateStrategy: both may carry a value made up by the model; and for ACMSurrogateStrategy if the objective returns values of at least the greatest double, for instance infinities for infeasible points.)", "quantifier": "all objectives, models, runs", "why_tests_cant": "All runs.", "anchors": ["src/surrogatestrategy.cc: SimpleSurrogateStrategy::eval, ACMSurrogateStrategy::eval", "src/cmasolutions.cc: update_best_candidates"]}
{"id": "C78", "title": "After every generation of an ACM surrogate search the candidates are sorted", "statement": "After each tell() of ACMSurrogateStrategy the candidates of the solution are sorted by value and best_candidate() has the least value among them. (Found false: in the generation in which the training set gets full, the candidates are left in the order of the calls, the best candidate and the update of the mean use the points evaluated first, whatever their values.)", "quantifier": "all objectives, models, runs", "why_tests_cant": "One generation of a run goes wrong, and only as less progress.", "anchors": ["src/surrogatestrategy.cc:275-280: ACMSurrogateStrategy::tell"]}
{"id": "C79", "title": "The worst candidate seen by an ACM surrogate search was evaluated by the objective", "statement": "get_worst_seen_candidate() after a search with ACMSurrogateStrategy is a point at which the objective was called, with the value it returned. (Found false: after a pre-selection it carries the placeholder value of a candidate that was never evaluated.)", "quantifier": "all objectives, models, runs", "why_tests_cant": "All runs.", "anchors": ["src/surrogatestrategy.cc: pre_selection_eval", "src/cmasolutions.cc: update_best_candidates"]}
{"id": "C80", "title": "An ACM surrogate search never fails and every generation ends", "statement": "With the usual settings, with prelambda at least lambda and lambdaprime at most lambda, with objective and model returning numbers, any number of generations of ACMSurrogateStrategy succeeds, provided the numbers drawn fit an int and reach every index again and again.", "quantifier": "all objectives, models, settings of the surrogate, draws as said, numbers of generations", "why_tests_cant": "The selection loops have no bound.", "anchors": ["src/surrogatestrategy.cc: ACMSurrogateStrategy"]}
{"id": "C81", "title": "The selection spreads of the ACM strategy can be set", "statement": "set_theta_sel0() and set_theta_sel1() change the spread with which candidates are picked in a pre-selection. (Found false: the distributions are built from the default values when the strategy is constructed; the setters only change what the getters return.)", "quantifier": "all objectives, models, values, numbers of generations", "why_tests_cant": "The effect on a run is statistical; a test that sets the values passes.", "anchors": ["include/libcmaes/surrogatestrategy.h:397-415", "src/surrogatestrategy.cc:220-221"]}
{"id": "C82", "title": "The model a surrogate strategy uses has been trained with the present training set", "statement": "Whenever the training set is full at the end of a generation, so that the next one may use the model, the model is the outcome of a training with exactly that set. (Found false of SimpleSurrogateStrategy: the model may never have been trained when it is first used, and with automatic life length a training after true evaluations may be left out.)", "quantifier": "all objectives, models, settings, numbers of generations", "why_tests_cant": "Depends on how population size, training set size and number of steps relate; over all runs.", "anchors": ["src/surrogatestrategy.cc: SimpleSurrogateStrategy::tell, do_train", "src/surrogatestrategy.cc: ACMSurrogateStrategy::tell", "include/libcmaes/surrogatestrategy.h: add_to_training_set"]}
{"id": "C83", "title": "After a restart a surrogate strategy only knows points of the new run", "statement": "With IPOPCMAStrategy underneath, after a restart and one generation the training set holds points evaluated since the restart only, and the settings of the surrogate are those of the user. (Found false of SimpleSurrogateStrategy, which keeps the points of earlier runs; ACMSurrogateStrategy clears them, but replaces a number of samples set with set_prelambda.)", "quantifier": "all objectives, models, states before the restart, numbers of generations", "why_tests_cant": "All runs; restarts take long runs.", "anchors": ["src/surrogatestrategy.cc: ACMSurrogateStrategy::ask", "include/libcmaes/surrogatestrategy.h: reset_training_set", "src/ipopcmastrategy.cc: reset_search_state, lambda_inc"]}
{"id": "C84", "title": "The ends of a profile likelihood interval are where the objective has risen by fup", "statement": "Without curve, each end of the interval profile_likelihood reports for a parameter is the coordinate of a point where the objective exceeds the minimum by fup, up to a tenth of fup. (Found false in dimension 1, for an objective with a negative minimum, when the eigenvectors do not move the parameter, and when maxiters rounds are not enough: then the ends are the optimum itself or 0.)", "quantifier": "all objectives, inner optimisations that report true values, bounds, parameters, fup, delta, maxiters", "why_tests_cant": "All objectives and inner optimisations.", "anchors": ["src/errstats.cc: profile_likelihood_search, take_linear_step", "include/libcmaes/pli.h: getMinMax"]}
{"id": "C85", "title": "Points of a profile carry their own values", "statement": "Every entry of get_fvaluem of a computed profile is the objective's value at the entry of get_xm at the same position; positions that were not reached hold the value 0 at the origin.", "quantifier": "all objectives, inner optimisations that report true values, bounds, parameters, with and without curve", "why_tests_cant": "All profiles.", "anchors": ["src/errstats.cc: profile_likelihood_search, optimize_vpk", "include/libcmaes/pli.h"]}
{"id": "C86", "title": "Optimising with fixed parameters keeps them fixed", "statement": "errstats::optimize_vpk runs an optimisation over the remaining parameters, within their bounds, starting from their values in the given point; every point it evaluates and the point it returns have the fixed parameters at the given values. (Found false unless the parameters are given in increasing order, and, with bounds, then too: the bounds of the wrong parameters are kept.)", "quantifier": "all objectives, dimensions, sets of fixed parameters and values, inner optimisations", "why_tests_cant": "All index sets and dimensions.", "anchors": ["src/errstats.cc: optimize_vpk", "include/libcmaes/eo_matrix.h: addElement, removeElement", "src/pwq_bound_strategy.cc: remove_dimensions"]}
{"id": "C87", "title": "VD-CMA moves its covariance matrix by the natural gradient", "statement": "In the VD variant, where the search distribution has covariance sigma^2 D(I+vv^T)D, each tell() adds to v and D exactly the natural gradient step (the direction whose Fisher product with every direction is that of the rank-mu plus rank-one change of the covariance matrix), with the published damping of the coupling; mean, evolution paths and step size follow the published equations, with the mean step normalised by the coordinates' standard deviations.", "quantifier": "all dimensions, parameters of the VD variant, executions, generations, points and values given to eval", "why_tests_cant": "An identity between matrices for all v, D and populations; the code's closed formulas are an O(n) solution of a linear system of size 2n.", "anchors": ["src/vdcmaupdate.cc: VDCMAUpdate::update"]}
{"id": "C88", "title": "A VD run does not fail", "statement": "With an objective that never returns NaN, any number of generations of the VD variant succeeds, and the scales D stay positive. (Found false: nothing limits the step of D, which can reach zero, after which the next update divides by it, or become negative. It holds as long as v and the components of D are not zero.)", "quantifier": "all dimensions, parameters, objectives, random draws, schedules and numbers of generations", "why_tests_cant": "Depends on the draws of a whole run.", "anchors": ["src/vdcmaupdate.cc: VDCMAUpdate::update", "src/cmastrategy.cc: ask, tell"]}
{"id": "C89", "title": "Expected distance to the minimum", "statement": "When an objective gradient is given, edm() is n/(10(sqrt(lambda/4+1/2)-1)) times the length of the gradient of the objective in the coordinates in which the samples are standard normal, also under the bound and scaling transforms of the user (locally affine). (Found false for the full model: the gradient is multiplied with the eigenvectors where their transpose is meant, so the value is right for unrotated distributions only, and otherwise within the square root of the condition number; with two candidates the factor divides by zero; for VD the product is undefined.)", "quantifier": "all dimensions, parameters, objectives with a given gradient, runs and random draws", "why_tests_cant": "The value is only printed or compared with a tolerance; a wrong coordinate system gives a plausible number of the right magnitude.", "anchors": ["src/esostrategy.cc: ESOStrategy::edm, gradgp, gradf", "src/cmastrategy.cc: optimize"]}
{"id": "C90", "title": "The uncertainty level and the step size it enlarges", "statement": "Under uncertainty handling with distinct values, tell computes as uncertainty level the mean, over the re-evaluated candidates, of twice the change of rank between the two evaluations (a change by one not counting) minus the lower deciles at the two ranks, and multiplies the step size by 1+2/(dim+10) exactly if the level is positive. In particular the step size is not enlarged if no re-evaluated candidate moves by more than one rank, and it is enlarged if every one moves by more than 2+(2 lambda-1)/10 ranks.", "quantifier": "all dimensions, configured parameters, populations, objective values, noise and random draws", "why_tests_cant": "The level depends on ranks in two orders of the whole population; tests only see that a noisy run ends.", "anchors": ["src/esostrategy.cc: uncertainty_handling", "src/cmastrategy.cc: tell"]}
{"id": "C91", "title": "The ranking SVM as surrogate", "statement": "With the ranking SVM as surrogate (RSVMSurrogateStrategy), once the training set is full every generation ranks its samples by a ranker trained on exactly the training set as it is then, from worst to best, in coordinates relative to the current mean and scaled by the inverse square root of the covariance matrix, and the preselection goes by the scores of this ranker in the same coordinates. A search with at least two training points can fail in training only, and only if two training points coincide; if each generation replaces the whole training set and the random vectors differ, it makes any number of generations. The reported test error measures the predictions of the ranker that was used. (The last part found false: the ranker is tested with the new points already in place of those it was trained on, so that with a training set of two points and two evaluations the error is 0 whatever the objective. With a training set of fewer than two points no generation ends.)", "quantifier": "all dimensions, objectives, parameters without uncertainty handling and gradient, numbers of generations, sorting functions and random draws", "why_tests_cant": "Which data a model was trained on, in which coordinates, and which it is tested on cannot be seen from outside; a wrong ranker still gives a search that ends.", "anchors": ["include/libcmaes/surrogates/rsvm_surr_strategy.hpp: RSVMSurrogateStrategy", "include/libcmaes/surrogates/rankingsvm.hpp: RankingSVM", "src/surrogatestrategy.cc: ACMSurrogateStrategy::ask, eval, tell, pre_selection_eval"]}
{"id": "C92", "title": "Contour points: how many and where", "statement": "contour_points for two parameters and a number of points computes the intervals of both parameters, each as profile_likelihood would with the fup and delta of the call and the default number of samples, so that computing them beforehand changes nothing (a stored interval is used as it is, even if it was computed with another fup), and returns a closed polygon: the four points where one of the parameters is at an end of its interval and the others are optimised, and then, one at a time, a point between the two neighbours that are farthest from each other when each parameter is measured by its interval. There are at least four points and never more than asked for; the call ends, and gives as many points as asked for. (The last part found false: with two parameters in all there are never more than four points, whatever the objective; the search for a point does not end when it comes to the origin; and with the parameters in decreasing order the objective can be called with the wrong number of coordinates.)", "quantifier": "all dimensions, objectives, optimisation results, intervals, numbers of points and outcomes of inner optimisations", "why_tests_cant": "The result depends on a search along a line whose end depends on the objective; a test on one objective with three or more parameters sees neither the endless search nor the case of two parameters.", "anchors": ["src/errstats.cc: contour_points, cross", "include/libcmaes/errstats.h: contour_points"]}
{"id": "C93", "title": "Contour points lie on the contour", "statement": "Each point returned by contour_points is on the contour: the least value of the objective with the two parameters fixed there is the minimum plus fup (up to the tolerance), provided the intervals and the inner optimisations are exact. (Found false beyond the first four points: a further point can have any value not above the aim; for max(|x-100|,|y-100|)^2+z^2 with fup 1 the fifth point has 0.5625. What holds: the first four points have the least value of the interval end they are at; a further point is on the line through the middle of its neighbours at right angles, or is not above the aim while one step, a tenth of the coordinates, further is.)", "quantifier": "all unconstrained objectives, dimensions from 3 on, pairs of parameters in increasing order, optimisation results, intervals and numbers of points", "why_tests_cant": "Whether a point is on the contour needs the least value over all other parameters, which no test computes; plots look plausible.", "anchors": ["src/errstats.cc: contour_points, cross, optimize_vpk"]}
{"id": "C94", "title": "The elitist restart (elitism mode 3)", "statement": "With set_elitism(3), optimize() repeats the search, starting at the best candidate ever seen, as long as the last search has lost it (it is better than the best of the last population and was found three or more iterations before); it goes on counting evaluations, and the result is never worse than the best candidate of the first search. The iteration kept with the best candidate is the one in which it was told. (Found false with scaled parameters: the internal coordinates of the best candidate are scaled once more, the new search begins elsewhere, and the result can be worse. Found false with a budget of evaluations: the second search makes one generation, and if it is worse than the starting point an uninitialised iteration number is read.)", "quantifier": "all dimensions, objectives, parameters, random draws and numbers of restarts", "why_tests_cant": "Restarts depend on the history of the whole search; whether an uninitialised variable is read, and what is lost between searches, shows in no result of a single run.", "anchors": ["src/cmastrategy.cc: optimize 335-389", "src/cmasolutions.cc: update_best_candidates 114-125, CMASolutions 30-84", "include/libcmaes/cmasolutions.h: _best_seen_iter 529"]}
{"id": "C95", "title": "Candidates are independent normal samples of the distribution held by the solution", "statement": "If the generator gives independent standard normal vectors, then in each generation of each run the candidates returned by ask() are independent of each other, and each is normal with mean xmean() and covariance sigma()^2 * cov() (sepcov() for the diagonal variant, D(I+vv^T)D for VD) on the coordinates that are not fixed; in the first generation N(x0, sigma0^2 I). No gradient injection, no two-point adaptation, eigendecomposition not lazy.", "quantifier": "all dimensions, parameters, past executions, objectives, probability spaces carrying the draws", "why_tests_cant": "A distribution over a continuum; tests can only estimate moments for a few states.", "anchors": ["src/cmastrategy.cc: ask 147-260", "include/libcmaes/eigenmvn.h: samples, samples_ind, setCovar"]}
{"id": "C96", "title": "Without information from the objective the search is an unbiased random walk", "statement": "If the objective does not depend on the point (flat function or pure noise), then in each generation of the default or active update, full or diagonal, the new mean is normal around the old mean with covariance sigma^2/muw * C, and the path of the step size becomes (1-csigma) times itself plus normal noise with covariance csigma(2-csigma) I, whatever the covariance matrix; N(0,I) is stationary for the path, so that comparing its length with chi is a comparison with no selection. For the diagonal variant the path after k generations is N(0, (1-(1-csigma)^(2k)) I). No elitism, no fixed coordinates, no uncertainty handling, no two-point adaptation.", "quantifier": "all dimensions, parameters, past executions, schedules of the evaluations, objectives that do not look at the point", "why_tests_cant": "A statement about distributions; bias of the weights, the ranking or the normalisation of the path would show only statistically, and only on flat functions.", "anchors": ["src/covarianceupdate.cc: 30-80", "src/acovarianceupdate.cc: 30-90", "src/cmasolutions.cc: sort_candidates", "src/cmaparameters.cc: initialize_parameters"]}
{"id": "C97", "title": "A starting point that is not given is drawn uniformly", "statement": "If Eigen's Random gives independent uniform numbers in [-1,1], a start with set_x0(min,max) is uniform on the box, the coordinates independent (a coordinate with equal bounds has that value); without a given start it is uniform on [-4,4]^n; fixed coordinates have their values; a given start is taken as it is. No scaling.", "quantifier": "all dimensions, boxes, sets of fixed coordinates, probability spaces carrying the draws", "why_tests_cant": "A distribution over a continuum.", "anchors": ["src/cmasolutions.cc: CMASolutions 45-67", "include/libcmaes/parameters.h: set_x0 90-175"]}
{"id": "C98", "title": "surrcmaes() runs the chosen algorithm, at each call", "statement": "For each algorithm code surrcmaes() runs, with the ranking SVM as surrogate, the covariance update and restart scheme that cmaes() runs for this code, with the same parameters; calling it again with the same parameters object runs the same algorithm again. (The last part found false for the separable and VD codes: set_sep and set_vd are called at each call, on the caller's object, also if they were called before; each call with a separable algorithm multiplies the rank-one rate by (dim+2)/3, and after some calls it exceeds 1 and the rank-mu rate is negative.)", "quantifier": "all dimensions, parameters, algorithm codes and numbers of calls", "why_tests_cant": "A test calls the function once per parameters object; the rates drift with the number of calls.", "anchors": ["include/libcmaes/surrcmaes.h: surrcmaes", "src/cmaparameters.cc: set_sep, set_vd"]}
{"id": "C99", "title": "A vector of starting step sizes sets the spread of each coordinate", "statement": "With the constructor that takes one step size per coordinate, the points evaluated in the first generation are normal around x0 with independent coordinates, coordinate i with the standard deviation given for it, and stay within the bounds if the transform has bounds. (Found false: with linear scaling the standard deviation of coordinate i is the smallest step size times the one given for i, hence right only up to a common factor; with the default transform it is the smallest for all coordinates; with the bounded transform without scaling, or with it and no bounds given, the transform is left without bounds and the first generation reads beyond empty vectors. With scaling and bounds the points lie in the bounds.)", "quantifier": "all dimensions, starting points, positive step sizes, bounds, lambdas and eigensolvers; all standard normal draws", "why_tests_cant": "The spread is a property of a distribution over all draws; a run from a spread wrong by a factor still converges on test functions.", "anchors": ["src/cmaparameters.cc: CMAParameters(x0, sigma vector, ...)", "include/libcmaes/genopheno.h: GenoPheno(scaling, shift, lbounds, ubounds)"]}
{"id": "C100", "title": "The search does not depend on the orientation of the coordinate axes", "statement": "For the default and the active update with full covariance matrix and no bounds or scaling, searching x -> f(R^T x) from R x0, for an orthogonal R, goes through the distributions, evolution paths, populations and objective values of the search of f from x0, turned by R, for any number of generations, once the normal draws are turned generation by generation; the turning depends only on the covariance matrix before the draws, so that the turned draws have the law of the draws. The diagonal variant (sepcmaes) depends neither on the numbering nor on the orientation of the axes, but on their directions: after one generation the turned distribution may be one it cannot represent.", "quantifier": "all dimensions, orthogonal matrices, eigensolvers (any orthogonal diagonalisation), NaN-free objectives, draws, admissible parameters and numbers of generations", "why_tests_cant": "A test compares finitely many runs with fixed draws, whose turned counterparts depend on the eigensolver; invariance is a statement about all of them.", "anchors": ["src/covarianceupdate.cc: CovarianceUpdate::update", "src/acovarianceupdate.cc: ACovarianceUpdate::update", "src/cmastrategy.cc: CMAStrategy::ask", "include/libcmaes/eigenmvn.h: samples"]}
{"id": "C101", "title": "The plot file tells what the search did, and does not disturb it", "statement": "Giving a plot file does not change the search. The file has one line for the start and one for each generation; the scripts of the project, which cut the lines by the number of columns or by the dimension in the first line, read from line j the state after j generations: the absolute value of the best candidate of that generation, the number of calls of the objective so far, the step size, the mean and the standard deviations in the user's coordinates, the eigenvalues and the square root of the ratio of the largest to the smallest (1 at the start); in the complete format also the best and worst candidates seen and the extreme eigenvalues. (Found false: with HAVE_DEBUG the script finds one dimension too many; the complete format repeats its first line after an elitist restart, amid the numbers; it writes the best point in internal coordinates; the surrogate strategies write NaN as the condition number of the first line, and the diagonal of the square root of the covariance as standard deviations, which is smaller.)", "quantifier": "all dimensions, parameters, objectives with values that are no NaN, draws, numbers of generations, plot functions (for the first sentence)", "why_tests_cant": "A test can compare one file with one run; that every line of every run is cut correctly for every dimension, and that writing never influences the search, is not settled by examples.", "anchors": ["src/cmastrategy.cc: fpfuncdef_impl, fpfuncdef_full_impl, stop, plot, optimize", "src/surrogatestrategy.cc: SurrogateStrategy", "python/cma_multiplt.py: plot", "python/cma_legacyplt.py: convert"]}
{"id": "C102", "title": "Removing a coordinate leaves a search over the other coordinates", "statement": "reset_as_fixed(k), called on the solution of a finished run and on its parameters, gives a solution and parameters of a search over the other coordinates. The normal distribution the new solution holds (mean, step size, covariance) is the marginal one of the old over the other coordinates, its covariance is positive definite, the candidates keep their values and order and lose coordinate k, counters and histories are empty. With the new parameters the search can go on from the new solution and ends without failure within its automatic limit, sampling first around the rest of the mean. (Found false: for k below mu the weight vector loses an entry too and the first tell reads past its end; the constants that depend on the dimension stay those of the old one; bounds are not shifted, so a later coordinate is held in the bounds of the one before; the eigenvalue and eigenvector number k are dropped although they do not belong to coordinate k; on a separable search or before the first generation the full matrices are empty and the removal is undefined.)", "quantifier": "all dimensions, coordinates, usual parameters, objectives with values that are no NaN (two of them: before and after), draws, runs", "why_tests_cant": "The test of the project checks the sizes of three members for one k in one dimension; whether the reduced objects describe the right distribution and whether a search with them runs, for each k, is not checked by any.", "anchors": ["src/cmasolutions.cc: reset_as_fixed", "src/cmaparameters.cc: reset_as_fixed", "include/libcmaes/eo_matrix.h: removeRow, removeColumn, removeElement", "src/covarianceupdate.cc: update", "src/pwq_bound_strategy.cc: to_f_representation"]}
{"id": "C103", "title": "The Python interface runs the search that was asked for", "statement": "to_params and pcmaes of lcmaes_interface.py: with both lists of bounds given, the user's function only gets points within them, for each algorithm name, with or without restarts and scaling; each keyword argument that names a setter of one value gives the parameters that value, whatever the order of the keywords, and any other keyword raises an exception; without bounds, and with keywords that do not change the kind of search, pcmaes ends without failure for each function with no NaN values. (Found false: scaling vectors without bounds always raise an exception, as make_parameters_ls is called with too few arguments; one list of bounds without the other is dropped without notice, so that the function gets points beyond it; the keywords sep, noisy and fixed_p raise an exception although the setters exist; get_solution_sepcov is bound to the function for the full covariance, which after a separable search reads from an empty matrix.)", "quantifier": "all dimensions, starting points, step sizes, algorithm names, bounds, keyword lists, objectives, draws, clocks", "why_tests_cant": "The Python tests run a few examples that print their result; none of them varies which bounds or keywords are given, and whether all points lie within the bounds depends on each draw.", "anchors": ["python/lcmaes_interface.py: to_params, pcmaes", "python/lcmaes.cc: make_parameters_ls, get_solution_cov_py, get_solution_sepcov, pcmaes"]}
{"id": "C104", "title": "The search distribution cannot shrink faster than its learning rates allow", "statement": "In each direction the spread of the search distribution, sigma times the standard deviation the covariance gives to it, after k iterations is at least its initial value times r^k, where r = exp(-csigma/dsigma) sqrt(keep) and keep = 1-c1-cmu for the default update and 0.66(1-cmu)-c1 for the active one, whatever the draws and the objective; so reducing the spread by a factor eps takes at least log(1/eps)/(csigma/dsigma + log(1/keep)/2) iterations. For the default update the rate is attained. (Not for vd-cma and two-point step adaptation.)", "quantifier": "all dimensions, parameters, objectives, draws, numbers of iterations, directions", "why_tests_cant": "A lower bound over all sequences of draws: a test only sees the rate at which one run shrinks, and the slowest a run may be is not the fastest a run may shrink.", "anchors": ["src/covarianceupdate.cc: update", "src/acovarianceupdate.cc: update", "src/cmasolutions.cc: constructor"]}
{"id": "C105", "title": "A plateau ends the search after a definite number of iterations", "statement": "If all objective values lie within less than max(ftolerance, 1e-12) of each other and the test TOLHISTFUN is active, optimize() returns after at most min(max_hist, 10+30n/lambda) iterations, whatever the draws and however the other tests are set; with only this test active it returns after exactly that many and reports TOLHISTFUN with return code 0. If the objective is +infinity everywhere TOLHISTFUN never holds, but STAGNATION, if active, ends the search after at most 20 iterations.", "quantifier": "all dimensions, parameter settings, bounds, objectives within the tolerance, draws, progress functions", "why_tests_cant": "That a loop ends for all random draws and all objectives within the tolerance is not something a finite number of runs shows; the interplay of the histories' capacities with the look-back differs for each dimension and population size.", "anchors": ["src/cmastopcriteria.cc: TOLHISTFUN, STAGNATION", "src/cmasolutions.cc: update_best_candidates", "src/cmastrategy.cc: optimize, stop"]}
{"id": "C106", "title": "No region of the search space gets out of reach, and a generation improves with the probability of the better points", "statement": "Given an ideal generator of normal vectors. Whatever the past of a search (default or active update, full or diagonal): each candidate of the next population is with positive probability in any region that has an inner point; with bounds, its phenotype is with positive probability near any point of the box, the border included. The probability that the population has a point in A is 1-(1-q)^lambda with q the probability of A under the normal distribution held by the solution. So for an objective that is a function of the point the next generation brings a best value below c with probability 1-(1-q)^lambda, q that of the points better than c: never 0 if these have an inner point, never 1 if the others have one.", "quantifier": "all dimensions, parameter settings, past runs, regions, boxes, objectives, levels", "why_tests_cant": "Statements on probabilities that may be as small as one likes, at each state a run may come to; a test samples a few populations of a few states.", "anchors": ["src/cmastrategy.cc: ask, eval, tell", "include/libcmaes/eigenmvn.h: samples", "src/cmasolutions.cc: update_best_candidates", "src/pwq_bound_strategy.cc: to_f_representation"]}
{"id": "C107", "title": "Selection moves the mean towards better values: below the population average on convex functions, downhill on linear ones", "statement": "If the objective is convex as the search sees it, the value at the new mean is at most the average value of the population, and strictly below it when two candidates differ in value; if it is only quasi-convex, the new mean is not worse than the worst candidate selected, hence than any candidate left out. On a linear objective a.x+b, given an ideal generator, at each state a run can come to: the value of the next mean is almost surely below a normal variable centred at the value of the present mean; so the mean moves downhill with probability at least 1/2, and its expected value is strictly lower.", "quantifier": "all dimensions, settings, past runs, convex / quasi-convex / linear objectives, draws", "why_tests_cant": "A test checks progress on a few functions and seeds, within a statistical margin; here it is an inequality for each convex function and each population, and for linear functions a statement about the law of the next state.", "anchors": ["src/covarianceupdate.cc: update (mean)", "src/acovarianceupdate.cc: update (mean)", "src/vdcmaupdate.cc: update (mean)", "src/cmastrategy.cc: ask, eval, tell", "src/cmasolutions.cc: sort_candidates"]}
{"id": "C108", "title": "The printed summary of a solution says what the last generation found, how many calls it took, and where the confidence intervals end", "statement": "After at least one generation (own loop or optimize, any algorithm, transformation and settings but uncertainty handling), CMASolutions::print writes: the least value of the last population, the point it was obtained at, in the coordinates of the objective function (for maximisation the value is negated), the number of objective calls made so far, and the number of generations; printing is defined whatever profiles the solution holds, with one interval per profiled parameter, in increasing order, whose bounds, errors relative to the printed point, and values are those of the profile. False: the statuses beside an interval are both of the lower side, so that a failure of the upper side goes unreported; for a negative optimum the values and points beside the bounds are in the other order; the solution titled best is that of the last generation, although a better one may have been evaluated, even with elitism; and operator<< prints the point in internal coordinates.", "quantifier": "all dimensions, settings, transformations, objectives, run lengths, profiles", "why_tests_cant": "A test compares one printed line; here the line is tied to the calls of each run, and the defects need particular profiles.", "anchors": ["src/cmasolutions.cc: print, operator<<", "include/libcmaes/cmasolutions.h: best_candidate, fevals, niter, print", "include/libcmaes/pli.h: pli", "src/errstats.cc: profile_likelihood"]}
{"id": "C109", "title": "With gradient injection, one candidate of each generation is the steepest descent point at the distance of a sample", "statement": "With set_gradient(true), for CMA, active CMA and separable CMA, in every generation of every run the first candidate is the point that minimises the linear model of the objective (as a function of the internal coordinates) over the ellipsoid whose squared Mahalanobis distance from the mean is at most the dimension; it is on its boundary, is the only such point and its slope is downwards. This holds for the gradient function given by the user and for any transform that is affine, or quadratic near the mean, coordinate by coordinate. The other candidates are those of the same call without injection; where the gradient vanishes all are. With the numerical gradient the same point is formed from difference quotients, each the slope at some point within 1e-8(1+|y|) of the mean; for a linear objective these are exact, so that in each generation one candidate improves on the mean by exactly sqrt(n) standard deviations of the values of samples, and the best candidate is no worse. No generation fails, for any number of generations, when the gradient can be computed. False: with bounds and scaling the numerical gradient is cut at the bound of the internal coordinates, calls the objective out of bounds and may point uphill; for a transform that mixes coordinates the injected point need not descend; in VD-CMA the step ignores the vector v and takes deviations for variances, so that in the first generation the point is nearer than a sample unless v is orthogonal to the gradient (and for maximisation with a user gradient it goes the wrong way: C35).", "quantifier": "all dimensions, settings of the three algorithms, differentiable objectives, coordinatewise transforms, sampled values, schedules, run lengths", "why_tests_cant": "Optimality of the point is a statement about all points of an ellipsoid for each reachable covariance; a test compares evaluations counts on a few functions.", "anchors": ["src/cmastrategy.cc: ask", "src/esostrategy.cc: gradf, gradgp", "include/libcmaes/parameters.h: set_gradient"]}
{"id": "C110", "title": "Lazy update: dates of the eigendecompositions, what the generations between them sample and what they keep", "statement": "With set_lazy_update(true) and a full covariance the covariance is decomposed exactly in the generations that are multiples of P = floor(lazy_value) + 1, whatever the objective, so the decomposition in use is never more than floor(lazy_value) generations old; updated_eigen() is true in exactly those generations (the documentation says the contrary: whether the last update is lazy). In each generation of a period the candidates are mean + sigma A z with the current sigma, fresh draws, and the mean and the covariance A A^T of the first generation of the period (not the current mean: C19 is false). Hence without elitism the mean after any generation of a period is the mean at the start of the period plus one step, with no trace of the moves of the generations between. Up to dimension 16, with the default population size or at most 28 candidates, P = 1 and the setting has no effect.", "quantifier": "all dimensions, parameters, objectives, draws, eigensolvers, schedules, numbers of generations; the dates for both updates, gradient injection and two-point adaptation included", "why_tests_cant": "The dates and the identity of the mean used are statements about each generation of arbitrarily long runs; tests only look at the final value of a run.", "anchors": ["src/cmastrategy.cc: ask", "src/cmaparameters.cc: initialize_parameters", "include/libcmaes/cmaparameters.h: set_lazy_update", "include/libcmaes/cmasolutions.h: updated_eigen", "include/libcmaes/eigenmvn.h: setMean, setCovar, samples"]}
{"id": "C111", "title": "A loop written by hand: ask() again, another number of points in eval(), tell() again", "statement": "In a loop written with ask(), eval() and tell(): a second ask() before eval() returns the population the first would have returned from the next lambda normal vectors and changes nothing but the position in the random stream, so a population may be thrown away (without gradient injection and two-point adaptation; with lazy decompositions this is false in the generations that decompose: afterwards tell() uses the inverse root of an earlier covariance). eval() of more columns than lambda throws out_of_range whatever the threads do; eval() of fewer succeeds, calls the objective once per column, and tell() ranks the new candidates together with the worst ones left from the previous generation and recombines the best of both; in the first generation the missing ones have no value and tell() is undefined behaviour as soon as two evaluated values differ. tell() again without an evaluation succeeds (full covariance), keeps the candidates and the mean, multiplies the evolution paths by 1-csigma and 1-cc, and, repeated, drives the step size to zero without a call of the objective. With set_elitism(2) (reinjection of the initial point) the initial point is recorded by optimize() only, so in a loop written by hand every eval() of two or more points after the first generation injects an empty candidate, which is undefined behaviour, whatever the values.", "quantifier": "all dimensions, parameters, states, objectives, draws, schedules, numbers of columns, numbers of repeated calls", "why_tests_cant": "These are misuses or variations of the loop that tests do not exercise, over all states and any number of repetitions; the number of columns is not checked anywhere in the code.", "anchors": ["src/cmastrategy.cc: ask, tell", "src/esostrategy.cc: eval", "src/covarianceupdate.cc: update", "include/libcmaes/cmasolutions.h: sort_candidates, get_candidate"]}
{"id": "C112", "title": "Two-point step-size adaptation on linear objectives: the step size grows while the mean goes downhill, without bound, and shrinks after a move uphill", "statement": "With set_tpa(2), no elitism, gradient injection, uncertainty handling or fixed parameters, on an objective that is a strictly increasing function of a linear one in the internal coordinates (after the transform, and after the negation when maximising), whatever the covariance model: in each generation after the first, if the last move of the mean went downhill the adaptation signal is at least 0.7 times its former value plus 0.3/(lambda-1), if it went uphill at most 0.7 times its former value minus 0.3/(lambda-1), whatever the ranks of the other candidates and whatever the length of the move. As long as the mean goes downhill in each generation, the signal after k+1 generations is at least (1-0.7^k)/(lambda-1) and the step size at least exp(0.3 k/((lambda-1) dsigma)) times the initial one, hence passes every bound.", "quantifier": "all dimensions, parameters set through the interface, covariance models, directions, strictly increasing functions, objectives to maximise or minimise, transforms under which the objective has this form, draws that are not the zero vector, numbers of generations", "why_tests_cant": "A statement on every generation of runs of any length and on all monotone functions of linear objectives; tests run a few quadratic functions and look at the final value.", "anchors": ["src/cmastrategy.cc: ask, tell", "src/esostrategy.cc: tpa_update", "include/libcmaes/cmaparameters.h: set_tpa"]}
{"id": "C113", "title": "The benchmark functions have the gradients and the minima that the test program states for them", "statement": "The gradients stated for fsphere and elli are the gradients at every point in every dimension; the one stated for tablet is the gradient exactly where the first coordinate is 0 and the one stated for rosenbrock exactly where each coordinate except the first and the last is the square of the one before it, so that both are wrong at almost every point (rosenbrock from dimension 3 on). The points stated as solutions of ackleys, fsphere, rosenbrock, elli, tablet, cigar and ellirot are the one point where the function is least, with the stated value 0; the rows of orthogonalBasis are orthonormal. The point stated for rastrigin, all ones, has value N and is not the minimum, which is the origin.", "quantifier": "all dimensions, points, and draws of the basis", "why_tests_cant": "A gradient that is right at the points tried, or close enough for the search to succeed, is not known to be right elsewhere; a run that ends near the stated point does not show that there is no better one.", "anchors": ["tests/test-functions.cc:68-103", "tests/test-functions.cc:115-164", "tests/test-functions.cc:244-319", "tests/test-functions.cc:396-443"]}
{"id": "C114", "title": "Adding a constant to the objective changes nothing: the search stops after the same iterations, for the same reason, at the same point", "statement": "Searching f + c instead of f, with the same settings except that a target value set with set_ftarget is moved by c (by -c when maximising, where it is compared with negated values), optimize() goes through the same search to its end: same run status, same numbers of iterations and evaluations, same mean, step size, covariance and paths, same candidates and best points, whose values differ by the constant. With default settings both searches end.", "quantifier": "all dimensions, constants, objectives (also noisy or stateful) with values that are finite doubles or +infinity before and after adding the constant, draws, stopping criteria switched on or off, elitism modes except elitism on restart, bounds, scaling, fixed parameters, maximisation, full or diagonal covariance with default or active update, progress functions that look at no objective value", "why_tests_cant": "Relates two whole runs, for all objectives and constants, including each of the twelve stopping criteria; tests run one objective at a time.", "anchors": ["src/cmastopcriteria.cc:54-250", "src/cmasolutions.cc:90-126", "src/cmastrategy.cc:314-389"]}
{"id": "C115", "title": "Gradient injection and two-point adaptation can be used together", "statement": "With both gradient injection and two-point adaptation, each generation succeeds: candidate 0 is the gradient step and, from the second generation on, the candidates 1 and 2 are the two test points, symmetric to the mean on the line of its last move.", "quantifier": "all dimensions, population sizes, objectives, gradients, draws, numbers of generations", "why_tests_cant": "Needs all population sizes and unbounded runs; the program's tests use no population of two together with both options, for which the second generation writes behind the end of the population.", "anchors": ["src/cmastrategy.cc:202-247", "src/cmaparameters.cc:132-139", "include/libcmaes/cmaparameters.h:166-173"]}
{"id": "C116", "title": "Moving or magnifying the search space changes neither the search nor when and why it stops", "statement": "Searching f((x - t)/a), a > 0, from a x0 + t with step size a sigma, optimize() stops after the same number of iterations and evaluations and for the same reason as the search of f from x0 with sigma, with the distribution and the points moved by x -> a x + t and the same values.", "quantifier": "all dimensions, displacements, magnifications, starting points, step sizes, settings of the stopping criteria, objectives, draws, lengths of run", "why_tests_cant": "Relates two whole runs for every map, every objective and every criterion; C32 and C33 say nothing of the stopping.", "anchors": ["src/cmastopcriteria.cc:66-280", "src/cmastrategy.cc:315-400", "src/cmasolutions.cc:31-75"]}
{"id": "C117", "title": "The unit in which the objective is measured does not matter", "statement": "Searching c f, c > 0, in place of f, with the target value multiplied by c, optimize() stops after the same number of iterations and evaluations, for the same reason, with the same distribution and the same points, whose values are multiplied by c.", "quantifier": "all dimensions, factors, settings, objectives, draws, lengths of run", "why_tests_cant": "Relates two whole runs for every factor and objective; only a proof tells which of the criteria depend on the unit.", "anchors": ["src/cmastopcriteria.cc:66-280", "src/cmastrategy.cc:315-400", "src/cmasolutions.cc:90-126"]}
{"id": "C118", "title": "Objectives that rank all points alike end alike", "statement": "Let g be strictly increasing. Searching g(f) in place of f, with the target g(target), TOLHISTFUN and STAGNATION switched off, optimize() stops after the same number of iterations and evaluations, for the same reason, with the same distribution and the same points; only these two criteria compute with values instead of comparing them.", "quantifier": "all dimensions, strictly increasing maps of the extended reals that keep an infinite target, settings, objectives, draws, lengths of run", "why_tests_cant": "Relates two whole runs for every increasing map and every objective; that a stopping criterion only compares values cannot be seen from samples.", "anchors": ["src/cmastopcriteria.cc:66-280", "src/cmastrategy.cc:315-400", "src/cmasolutions.cc:90-126"]}
{"id": "C119", "title": "The rotated benchmark functions stay the same function from call to call", "statement": "In every process, the calls of ellirot and diffpowrot in one dimension return values of one ellipsoid and one sum of powers, turned by one rotation, with their one minimum at the origin. It holds while a single dimension (and dimension 1) is used; orthogonalBasis keeps its first matrix for all dimensions, so that afterwards a larger dimension reads outside the matrix and a smaller one gives the values of no rotated ellipsoid.", "quantifier": "all dimensions, draws, numbers and orders of calls, points", "why_tests_cant": "The matrix is random and kept for the life of the process; a test sees one matrix and one dimension, and a function that changes between calls is told from a noisy one only by all sequences of calls.", "anchors": ["tests/test-functions.cc:68-103", "tests/test-functions.cc:305-319", "tests/test-functions.cc:331-345"]}
{"id": "C120", "title": "The ranking SVM does not depend on the coordinates of the search space", "statement": "A ranker that encodes its points ends with the same multipliers and gives every tested point the same score after a change of coordinates A x + b of the points, the mean and the covariance matrix; with a diagonal covariance, after a change of the scale and origin of each axis. Without encoding, the default kernel gives the same scores after a move, a scaling and a turn or reflection of the points. (Found false of the diagonal covariance for a turn of the axes.)", "quantifier": "all dimensions, numbers of training and tested points, kernels, numbers of iterations, random numbers, changes of coordinates", "why_tests_cant": "A test compares two runs for one map; that no iteration of the optimizer and no kernel reads the coordinates in another way is a statement about all maps and points.", "anchors": ["include/libcmaes/surrogates/rankingsvm.hpp:142-230", "include/libcmaes/surrogates/rankingsvm.hpp:88-112", "include/libcmaes/surrogates/rsvm_surr_strategy.hpp:60-91"]}
{"id": "C121", "title": "The ranking SVM depends on the ranking of its training set only", "statement": "RSVMSurrogateStrategy trains the same ranker and makes the same predictions on two training sets of the same points, in whatever order they are stored and whatever their values, as long as the values rank the points alike and no two are equal. (Found false of equal values: the order in which two such points are stored can turn the sign of a score.)", "quantifier": "all dimensions, sizes of the training set, orders, values, implementations of std::sort, numbers of iterations, tested points", "why_tests_cant": "A test compares single pairs of sets with one library; the claim is about all orders and values and every permitted behaviour of std::sort.", "anchors": ["include/libcmaes/surrogates/rsvm_surr_strategy.hpp:34-48", "include/libcmaes/surrogates/rsvm_surr_strategy.hpp:60-91"]}
