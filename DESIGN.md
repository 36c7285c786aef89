# A Lean 4 model of libcmaes

`properties.jsonl` lists the properties, `MANIFEST.json` maps each to its theorems, `lean/` holds the
model and the proofs, `seeded/LOG.jsonl` records the wrong programs the theorems were tested against.

## 1. Layout

| directory | content |
|---|---|
| `lean/Verif/Model/*.lean` | the model: one definition per C++ function, each citing file and lines |
| `lean/Verif/Spec/*.lean` | small specifications, written without reference to the model's helpers |
| `lean/Verif/Lemmas/*.lean` | auxiliary lemmas |
| `lean/Verif/Props/*.lean` | the property theorems, named `Cnn_...`, each followed by a witness that its hypotheses can be met |

A theorem whose name ends in `_partial` proves less than the property's text; its doc comment says what
is missing. A theorem whose name contains `_false` is a proved *negation*: the text of the property is
false of the code, and the theorem exhibits the concrete input.

## 2. Trusted base

* Lean 4.33.0's kernel and the installed Mathlib.
* Axioms: only `propext`, `Classical.choice`, `Quot.sound` (checked with `#print axioms` for every
  property theorem). No axiom is added; `sorry`, `admit`, `native_decide`, `bv_decide` are not used.
* Fidelity of the model: the code is not executed. Every definition cites the lines it was read from.

### Numbers

* Coordinates, sigma, matrices: exact reals. Rounding, overflow to infinity and underflow of `double`
  arithmetic on these quantities are not modelled. Where the C++ computation would leave the reals
  (division by zero, square root of a negative number) the model yields the distinct outcome
  `Err.notReal`; where it is undefined behaviour, `Err.ub`; where it throws, `Err.outOfRange`; where it
  aborts, `Err.fatal`. Nothing is totalised silently.
* Objective values: `FVal`, i.e. NaN or an extended real; comparisons are the IEEE ones (false on NaN).
* Counters (`niter`, `nevals`, lambda): natural numbers; wrap-around of `int` is modelled only where a
  property speaks about it (conversion of the bound-transform shift count, doubling of lambda).

### Environment (parameters of the model, universally quantified in the theorems)

* The objective is an arbitrary function of the call index and the point (so noisy or stateful
  objectives are covered).
* Random numbers are arbitrary streams. C95-C97 make them random variables on a probability space (`Spec/Law`): that
  the vectors `EigenMultivariateNormal` is given are independent and standard normal, and that the entries of
  `dVec::Random` are independent and uniform on [-1,1], is assumed there, not proved of the generators. All other
  theorems hold for each stream.
* `Eigen::SelfAdjointEigenSolver` is a structure `EigSolver`: for every symmetric matrix it returns
  orthonormal eigenvectors and the eigenvalues of the matrix (nothing is assumed about other matrices).
  `EigSolver.spectral` shows that such a solver exists (Mathlib's spectral theorem).
* `std::stable_sort`, `std::sort`: a stable merge sort when the comparator is a strict weak order on the
  list at hand, `Err.ub` otherwise.
* Parallel loops (`#pragma omp parallel for`) are modelled by an arbitrary order of the iterations.

### Not modelled

Logging, the digits and timings in the plot file and in `print` (the numbers written are modelled), timers, `std::thread` scheduling beyond loop order, memory
allocation, the Python bindings but for those of C103, command-line tools (but for the benchmark functions of C113 and C119), double rounding, the statistical quality of random
numbers, Eigen's numerical algorithms.

## 3. Where each property lives

| id | model | proof method |
|---|---|---|
| C01-C04 | `Model/Pwq`: constructor, `shift_into_feasible`, `to_f`, `to_internal`, with `static_cast<int>` UB and the FATAL check | real inequalities by cases on the branch taken; floor bounds for the shift count; Lipschitz via a closed form (triangle wave composed with a monotone fold) |
| C05 | `Model/Scaling` | field arithmetic |
| C06-C09 | `Model/GenoPheno`: the four template specialisations, vector and matrix versions, constructors | composition of C01/C03/C05; order-independence by commuting writes; negations by witness |
| C10 | `Model/EoMatrix`, `removeDimensions` | list induction; decreasing index lists; counterexample for increasing |
| C11-C13 | `Model/Params`: `initialize_parameters`, `set_*` | real inequalities with log/sqrt; monotone weights; Cauchy-Schwarz |
| C14-C17 | `Model/Params`, `Model/Dispatch`: setters as a state machine, algorithm table and dispatch | induction over call sequences, finite case analysis |
| C18 | `Model/Solutions` constructor | direct |
| C19, C30 | `Model/Strategy`: `ask` | matrix calculus; invariant over generations |
| C20-C24 | `Model/Solutions`: sort, update_best_candidates | refinement to list minima, induction over generations |
| C25-C29 | `Model/Update` (default, active, sep, VD) | convexity; positive semidefinite matrix calculus; induction |
| C31-C35 | `Model/Strategy` | `Lemmas/Sim`: every step of a generation commutes with an affine change of the points and an order-preserving change of the values; induction over generations. C35: `Lemmas/Flip`, every function commutes with exchanging the flag and negating the objective |
| C36-C38, C40-C42 | `Model/Strategy`: eval, uncertainty handling, gradient, reinjection, with a ghost log of objective calls | invariants over the log |
| C39 | `Model/Strategy` elitism | invariant over generations and over `optimize` |
| C43-C50 | `Model/Stop`: criteria, the generation loop, `optimize`, `edm` | decision logic stated outright; explicit bounds, induction on generations |
| C51-C54 | `Model/Restart`: IPOP, BIPOP | a search decomposed into a list of runs (`Spec/Restart.History`), each from scratch; induction over restarts |
| C55 | `Model/Strategy`, `Model/Restart`: constructors from a solution | end of the first run and start of the second satisfy `Live`; negations by witness |
| C63, C65 | `Model/Stats` | two-by-two minors of a positive definite matrix; `Live` for runs |
| C64 | `Model/Engine`: two optimisers over one engine | generations read the engine and their own state; negations for any engine that does not repeat its first block |
| C62, C71-C73 | `Model/Rsvm`: kernels, encoding, training, prediction, error of the ranking SVM | kernel matrices are positive semidefinite (`Lemmas/Kernel`); invariant over the coordinate steps; concavity of the dual; C71 negation by computing the first three steps |
| C58-C61, C74-C83 | `Model/Surrogate`: SurrogateStrategy, SimpleSurrogateStrategy, ACMSurrogateStrategy, restart; training and prediction functions arbitrary | frame of one generation (`Lemmas/Surrogate`), induction over generations; error as a count of pairs (`Lemmas/SurrError`); C76, C77 and C58 with elitism by runs of two or three generations; for the ACM strategy a summary of one generation (`Lemmas/SurrAcmStep`) and termination of its selection loops (`Lemmas/SurrAcmTotal`) |
| C91 | `Model/RsvmStrategy`: RSVMSurrogateStrategy, i.e. the functions of `Model/Rsvm` in the ACM strategy | training fails only on coinciding points (`Lemmas/RsvmTotal`); injectivity of the encoding as an invariant; distinct draws give distinct candidates |
| C56, C57, C84-C86 | `Model/ErrStats`: pli, optimize_vpk, take_linear_step, profile_likelihood(_search), the map of profiles; inner optimisations arbitrary | invariants over the rounds (`Lemmas/ErrStats*`); doubling argument for the end of the first step; negations by invariants (parameter never moves) and by following the first round |
| C92, C93 | `Model/Contour`: contour_points, cross (with IEEE division by zero, both signs of zero) | the polygon grows by splitting longest edges (`Lemmas/ContourGrow`); each result of cross comes from an optimisation on the line or from a bracketing search (`Lemmas/ContourCross`); exact optimisations give least values (`Lemmas/ContourMin`); negations by following the code |
| C94 | `Model/Stop`: optimize, wantsRestart, elitistRestart | candidates seen carry the value of their point, so the evaluation of the starting point gives it back (`Lemmas/ElitistRestart`); negations by generations in which all draws coincide, so that the mean moves to a known point (`Lemmas/ElitistRestartWit`) |
| C66 | `Model/Strategy`: askTpa, tpaUpdate | step of the signal, induction over generations |
| C95-C97 | `Model/Strategy`: ask, generation; `Model/Solutions`: constructor; `Spec/Law` on Mathlib's normal distributions | the law of a weighted sum of independent standard normal vectors by characteristic functions (`Lemmas/Gauss`); with values that do not depend on the points the ranking is a fixed permutation (`Lemmas/Neutral`) |
| C98 | `Model/SurrDispatch` | finite case analysis; powers of a number above 1 |
| C99 | `Model/Sigmas`, `Spec/Law` | linear image of the first sample; the transform is left without bounds by case analysis |
| C100 | `Spec/Rotation`, `Spec/Cma`, `Spec/Law` | both searches obey the published equations, which turn with R; the draws turn by A'⁻¹ R A, A and A' the roots the eigensolver gives; induction over generations |
| C101 | `Model/Plot`; readers of the scripts in `Spec/Plot` | the loop with the file as the loop without it, with a block of rows for each test; invariants of the run for the columns; negations by the restarted run of C94 |
| C102 | `Model/Reduce` | marginals of a normal law; the reduced objects satisfy what a resumed run needs (`ResumeSol`); traces for the eigenvalues |
| C103 | `Model/Python` | `to_params` as a choice of constructor and a fold of setter calls; setters of different names commute; reuse of the box and termination theorems |
| C104 | `Model/Cov`, `Model/Strategy` | one-step bound on `x'Cx` and on sigma (terms added are positive semi-definite, the length of a path is not negative), induction on the run; the bound is met by a run with all draws zero |
| C105 | `Model/Stop`, `Model/Solutions` | invariant: all values in the histories lie between the bounds; length of the histories from C21; termination from the first iteration at which the test must hold |
| C106 | `Model/Strategy`, `Model/Pwq` | C95 (law of the population), independence of the candidates, positive definiteness (C26, C27, C29): the normal law gives each open set a positive probability; C22 for the best value; C02, C03 for bounds |
| C107 | `Model/Update` (recombination), `Model/Strategy` | Jensen, and Chebyshev's sum inequality for the decreasing weights and the ascending values, with its case of strictness; on linear functions the average of the population is normal around the mean (C95's representation of the candidates), the sorted weighted sum is a minimum over permutations, hence measurable |
| C108 | `Model/Print`, `Model/ErrStats` | invariant tying `nevals`, the population and the log of calls over generations, `stop` and `edm`; induction over the profiles made, from C89's account of `profile_likelihood` |
| C109 | `Model/Strategy`: gradf, gradgp, askGradient | Cauchy-Schwarz in the metric of the inverse covariance (Lagrange identity); mean value theorem for the quotients; positive definiteness along runs (C26-C28); simulation by the strategy without injection for totality |
| C110 | `Model/Strategy`: askPrepare, askSample, generations; `Model/Params`: lazyValue | induction on generations with the state of the sampler; convexity of the recombination (C25) for the mean; rates for the small dimensions |
| C111 | `Model/Strategy`: ask, eval, tell; `Model/Update` | idempotence of askPrepare and shift of the draws; induction over the schedule for the exception; position by position for the mixed candidates; a stable sort keeps a sorted list, the recombination is a fixed point, induction over the calls, geometric sum |
| C112 | `Model/Strategy`: askTpa, tell (tpaUpdate), generations; `Spec/TpaLinear` | the two test points are mirrored at the mean, so that the one that continues the last move is better exactly when the move went downhill; ranks differ by at least one; induction on generations |
| C113 | `Model/Benchmarks`: fsphere, rosenbrock, elli, tablet, cigar, rastrigin, ackleys, their gradients, basisRows, ellirot; `Spec/Benchmarks` | closed form of the assignment loops by induction; derivative of a sum with respect to one coordinate; Gram-Schmidt invariant |
| C114 | `Model/Stop`: all criteria, stop, loop, optimize; `Spec/Shift` | the simulation of C31 extended to the histories (medians commute with adding a constant) and to each criterion, through its specification (C44); induction on the loop |
| C115 | `Model/Strategy`: `askGradient`, `askTpa`, `generation` | both parts of `ask` succeed in a live state; then the columns are compared with lambda; induction over generations for lambda ≥ 3 |
| C116 | `Model/Stop`: `stopCrit`; `Model/Strategy`: `stop`, `loop`, `optimize` | the simulation of C33 carried through `stop`, `loop` and `optimize`: each criterion fires in both searches or in none (TolX and the step-size criteria compare with the initial step size, which is magnified too) |
| C117 | `Model/Stop`: `stopCrit`, `critTolHistFun`; `Model/Strategy`: `optimize` | simulation as for C114 with values multiplied by c (`Lemmas/Unit`); for the negation, the history of best values of an objective that is 0 in the first generation and 1 later (`Lemmas/UnitWit`) |
| C118 | `Model/Stop`: `stopCrit`; `Model/Strategy`: `optimize` | simulation as for C114 with values mapped by g (`Lemmas/Relabel`); for the negation, the histories of best values and medians of an objective returning -10, 0 and later 5 (`Lemmas/StagWit`, `Lemmas/StagCrit`) |
| C119 | `Model/Rotated`: orthogonalBasis with its `static` variable, ellirot, diffpowrot; `Spec/Rotated` | induction on the calls; for the smaller dimension the sum of the values at the unit points, a trace |
| C120 | `Model/Rsvm`: train, predict, encode, kernels; `Spec/RsvmAffine` | kernels see inner products only, and these are kept by the encoding; one multiplier stays positive (for the counterexample) |
| C121 | `Model/RsvmStrategy`: to_mat_vec, training, prediction; `Spec/RsvmRank` | a sorted list without ties is unique, and keeps its order under a change of values |
| C67 | `Model/Strategy` | invariant `Live` closed under one generation |
| C87, C88 | `Model/Update`: `vdUpdate`; `Spec/Vd` from the Fisher information of normal distributions | the Fisher product in terms of traces, Sherman-Morrison for the diagonal plus rank-one system (`Lemmas/Vd*`); C88: invariant `VdLive`, negations by computing one generation in dimension 6 |
| C89 | `Model/Strategy`: edm, gradgp, gradf; `Spec/Edm` | derivative of the affine composition, orthogonal invariance of the length, bounds by the extreme eigenvalues; negation by two generations of equal draws |
| C90 | `Model/Strategy`: uncertaintyHandling, tell; `Spec/UhLevel` | sorting by distinct values numbers by rank; permutation invariance of the sum; bounds of the deciles |
| C68-C70 | `Model/Update` against the textbook equations of `Spec/Cma` | matrix algebra |

## 4. Disagreements between the code and the properties

Recorded in the property texts and proved as `_false` theorems:

* C06: `GenoPheno<NoBoundStrategy,linScalingStrategy>(genof,phenof)` cannot be used unless the dimension is 1.
* C08, C09: see the texts of the properties (custom maps applied outside the box).
* C10: removing dimensions with increasing index lists removes the wrong ones.
* C13: `set_vd` in small dimensions and a repeated `set_sep` give inadmissible rates.
* C14: `set_elitism(0)` after `set_elitism(3)` leaves a mode on.
* C15: a second `set_fixed_p` or stopping-criterion call on the same key is ignored.
* C16: `set_seed` when the seed is 0.
* C17: two documented algorithm names are not accepted.
* C19: with lazy update the candidates are centred on a stale mean.
* C22: a NaN in the first generation stays the best candidate seen.
* C30: under linear scaling a fixed parameter is held in internal units.
* C35: a search started from a solution minimises although maximisation was asked for; a gradient function given by the user is not negated.
* C38: the box is left by the calls of uncertainty handling (`C38_uh_false`; by at most `1e-7` times the step size times the largest normal number, `C38_uh_near`) and by the numerical gradient under scaling (`C109_scaling_false`).
* C40: elitist reinjection can discard the best point ever evaluated.
* C42: the comparator of uncertainty handling is not a strict weak order; the sort is undefined.
* C44: tolX applies the factor sigma/sigma_0 to the wrong side; equalFunVals never fires with default histories; noEffectAxis mixes up the axes.
* C45: with all criteria off the run has no end.
* C51: restarts recompute the rates and lose those of `set_sep`.
* C52: a first run that ends with NaN is returned as the best one.
* C54: BIPOP never ends if the progress function asks for a stop for good after the first run: the small runs
  then cost nothing, and the loop waits for their regime to catch up.
* C55: starting from a solution goes on from its mean, not from its best candidate, with all stopping criteria
  active whatever the user set; after a run with diagonal covariance the first generation is undefined behaviour
  (empty evolution paths); BIPOP started from a solution reads uninitialised members.
* C62: training divides by zero if two points next to each other in the ranking coincide, and takes a remainder
  modulo zero for a single training point.
* C63: `corr()` of a diagonal covariance is a column of ones.
* C64: optimisers used alternately disturb each other: one static random engine, seeded again by each construction.
* C65: `errors()` multiplies by `sqrt(sigma)`, not by `sigma`; with bounds it can report 0.
* C66: elitism may overwrite one of the two test points, so the signal is only bounded by `lambda/(lambda-1)`.
* C67: with two-point adaptation a generation that leaves the mean in place makes the next one divide 0 by 0.
* C70: `set_sep` changes `cc` but not the factor `sqrt(cc(2-cc)mueff)`.
* C71: the ranker's acceptance test counts `epsilon` twice: training stalls away from the maximum of the dual.
* C73: the error on a single point is 0/0.
* C58: with elitism on, the best candidate seen may carry a predicted value; it is reinjected in the next true
  generation and then added to the training set as if evaluated.
* C59: points of equal objective value count as wrongly ordered or not depending on how `std::sort` left them.
* C60: the life length exceeds the given maximum by one; a step count of 0 is a remainder by zero.
* C76: SimpleSurrogateStrategy computes the test error on the candidates of the previous generation. If that
  generation exploited the model, their values are the model's own predictions: the error is always 0, and the
  smoothed error and the automatic life length then react to nothing.
* C77: the best candidates are updated from predicted values as from true ones.
* C59, C61, C77-C79, C81 (ACM strategy): with `lambdaprime` of at most 1 (default in dimension 1) the smoothed error
  is NaN; with `lambdaprime` above `lambda` a generation never ends; candidates that are not evaluated get the
  greatest double as value, which beats infinities and becomes the worst candidate seen; when the training set gets
  full, the candidates of that generation are used unsorted; `set_theta_sel0/1` have no effect, and the squares of
  these numbers, not they themselves, are used as standard deviations.
* C82, C83: SimpleSurrogateStrategy trains only in generations whose number is a multiple of the number of steps, but
  uses the model as soon as the training set is full: with `set_nsteps(3)` and default settings in dimension 1 the
  model is first used before it was ever trained; with automatic life length the training that belongs to a true
  evaluation is left out whenever the new life length does not divide the number of the generation.  It keeps the
  training set over a restart.  ACMSurrogateStrategy clears it, but overwrites `set_prelambda`.
* C56: `profile_likelihood` stores its result with `insert`, which keeps an interval computed before; after a separable or
  VD search the eigenvectors are one column, and the product with a vector of the dimension is undefined behaviour.
* C57: the first step is a tenth of the parameter's value: if that is 0, the line search never ends.
* C84: when `maxiters` rounds do not reach the target, the ends are 0; in dimension 1 this always happens, because
  `optimize_vpk` then returns the old optimum; the test for a new minimum, `value < 0.1 * minimum`, holds of ordinary
  values when the minimum is negative, and the optimum itself is then reported; the step is `E^T d e_k`, of which only
  component `k`, `E_kk d`, is kept, so that a parameter with `E_kk = 0` never moves.
* C86: `optimize_vpk` removes indices from the last to the first and inserts them from the first to the last, which is
  right for increasing indices only; `remove_dimensions` of the bounds is right for decreasing indices only.
* C88: nothing limits the step of `D` in `VDCMAUpdate::update`: for large steps of the selected candidates in some
  coordinates the scales of the others decrease below zero.  A scale of zero is divided by in the next update; the
  stopping criteria take square roots of the scales.  The first candidate of a VD run is drawn along `v`, because
  the constructor of the solution and the sampler start from the same seed.
* C89: `edm` multiplies the gradient with `E L^(1/2)` where the coordinates of the samples need `(E L^(1/2))^T`: the
  length computed is that of `L^(1/2) g`, not of `L^(1/2) E^T g`.  With `lambda = 2` the factor divides by zero.  For VD
  the eigenvectors are one column, and the product is undefined behaviour.  Before the first `tell` there are no
  eigenvectors at all.
* C90 is about the ranks of the code, which orders the values and the re-evaluations separately, among `lambda`
  candidates each; the published method ranks all `2 lambda` together, which is why its limits run to `2 lambda - 1`.
* C91: ACMSurrogateStrategy::tell computes the test error after the new points were pushed into the training set and
  before training: the ranker trained on the old points is applied with its coefficients attached to the new ones.
  With a training set of two points and two evaluations the error is 0 whatever the objective.  `set_l(0)` and
  `set_l(1)` make the first training undefined (an index into an empty matrix, a remainder by zero).
* C92: with two parameters in all, `optimize_vpk` has nothing left to optimise and returns the best candidate of the finished
  search: all points on the line seem to have the minimum as value, the slope is 0, the next step infinite (then
  limited), and after ten attempts `cross` gives up.  So there are never more than four points.  The step of the
  incremental search is a tenth of the coordinates themselves: it is 0 at the origin, and the search does not end.  With
  the parameters in decreasing order `optimize_vpk` (see C86) fixes the wrong ones; if the first is the last parameter
  of the problem, the objective is called with one coordinate too many.
* C93: the incremental search returns the last point below the aim, whatever its value: with coordinates about 100 times the
  size of the interval, a step leads far outside.  If all three points are above the aim, the nearest is returned without
  comparing it with the aim.  Other slips in `cross` the model follows: a step below -0.5 is replaced by +0.5 instead of
  -0.5; going back to `slope` with the third point leaves the slope and the solutions of the old points; the
  evaluations of the incremental search are not counted; when the nearest point is above the aim the search starts
  from the other point, but keeps the nearest as its first solution.
* C94: the restart writes the internal coordinates of the best candidate into `_x0min`, `_x0max`, which hold a starting point
  before scaling, and the new solution scales them: with linear scaling the mean of the restart is not the best
  candidate.  `_best_seen_iter` has no initial value and is written by `tell` only; the candidate at the starting point is put into
  `_best_seen_candidate` without it.  When the budget of evaluations is used up, the second search makes one generation
  (the criteria are not looked at before the first iteration), and reads it.  The same holds for any criterion that ends
  the second search after one generation.  A starting point with all coordinates equal to the marker -DBL_MAX would be replaced by a
  random one; hence the hypothesis on the value there.  The number of restarts is unbounded: each is a call of
  `optimize` within `optimize`.
* C97 says nothing of reproducibility: `dVec::Random` uses `std::rand`, which the library never seeds, so the seed given to
  the parameters does not determine a starting point that is drawn.
* C98: `surrcmaes` calls `set_sep`/`set_vd` on the caller's object without asking whether that was done before (`cmaes` asks).
* SimpleSurrogateStrategy switches the criterion on the target value on again, also when the user switched it off.
* C99: the constructor with a vector of step sizes scales by the inverses and also starts with the smallest step size, so the
  standard deviations come out multiplied by it (`C99_std_false`); without linear scaling the vector is reduced to its
  smallest entry (`C99_unscaled_false`); `<pwqBoundStrategy>` without scaling drops the bounds given, and with scaling but without
  bounds has none: the first generation is then undefined (`C99_bounds_false`). `&v.front()` of an empty vector is taken as null.
* C101: HAVE_DEBUG columns mislead `cma_multiplt.py`; the complete format repeats its first line after a restart and writes the best
  point in internal coordinates; the surrogate strategies write NaN as the first condition number and the diagonal of the square root
  of the covariance as standard deviations.
* C102: `reset_as_fixed(k)` of the parameters also removes the recombination weight number k if k < mu, and the next `tell` reads past
  the end; rates and the expected length of a normal vector stay those of the old dimension; bounds, scaling and fixed parameters are not
  shifted; of the solution, the eigenvalue number k is dropped; best and worst seen and initial candidate keep the old dimension, as do
  the diagonal covariance and the vectors of the two-point adaptation; on a diagonal search it is undefined.
- Python interface (C103): `to_params` with scaling vectors and without both bounds raises `Boost.Python.ArgumentError`; one list of bounds
  alone is dropped; `scaling=True` without bounds and `vscaling` with bounds are dropped; `sep`, `noisy`, `fixed_p` cannot be given as
  keywords; `get_solution_sepcov` is the full covariance, undefined after a separable search; `get_best_candidate_pheno` only takes the
  transformation of bounds without scaling; exceptions of the user's function and the global interpreter lock are not modelled.
- A plateau of `+inf` (C105) is not one for TOLHISTFUN: the range of the histories is `inf - inf`, a NaN, and `NaN < tolerance` is false; only
  STAGNATION ends such a search (partial success, code 6).
* **C108** (`cmasolutions.cc:278`): `_err[_maxindex]` should be `_err[_samplesize+1+_maxindex]`, as for `_fvaluem` on the next line; the status of the upper end of an interval is never printed. With a negative optimum `setMinMax` exchanges the bounds but not the indices. `operator<<` (`cmasolutions.cc:292-296`) passes a default `GenoPheno`: the point printed is the internal one.
* **C109** (`esostrategy.cc:178`): `gradf` cuts its points at `getUBound`, the bound in internal units; it should be `getPhenoUBound`. With bounds 100 and 200 and scaling, the objective is called at 10 and the first candidate goes uphill (`C109_scaling_false`; C38 fails there too). `gradgp` takes the diagonal of the derivative of the transform only (`C109_mixed_false`). For VD-CMA `ask` uses `_sepcov` as variances although it holds deviations, and ignores `_v`: the first candidate is not at the distance of a sample (`C109_vd`, `C109_vd_false`).
* **C27** (`acovarianceupdate.cc:77-108`): the bound on the negative rate `cminus` is computed with `_csqinv`, the inverse root of the
  covariance last decomposed. With lazy update that is not the current covariance; after three generations with the same worst direction the
  variance in it is negative (`C27_lazy_false`, any settings with `lazy_value >= 2`), and `operatorInverseSqrt` fails at the next decomposition.
* **C110** (`cmastrategy.cc:157-165`): `setMean` is inside the branch of the decomposition, so that with lazy update all generations of a period restart from the mean of its first one (`C110_mean`), the work of all but the last generation of a period is kept in the paths and the covariance only. `updated_eigen()` is documented as "whether the last update is lazy" and returns the contrary.
* **C111** (`esostrategy.cc:82-149`): `eval` takes the number of points from the matrix, `tell` from the candidates; nothing compares them. Fewer columns mix in the worst candidates of the previous generation (`C111_fewer_tell`), in the first generation blank candidates with NaN (`C111_fresh`). A second `ask` under lazy update clears `_updated_eigen`, so `tell` keeps a stale `_csqinv` (`C111_ask_lazy_false`). With `set_elitism(2)` the reference `_initial_candidate` is only recorded by `optimize()`; in a loop written by hand it stays empty, its value NaN is not improved by any candidate, and the second `eval()` injects the empty candidate (`C111_elitist_false`, a run of it `C111_elitist_case`).
* **C113** (`tests/test-functions.cc:160`): `grad(i) = ...` overwrites what the pass before added to `grad(i)`; it should be `+=`. `grad_tablet` (line 290) starts its loop at 0 and overwrites the first component, which is then a million times too small; it should start at 1. `msols["rastrigin"]` is the point of all ones; it should be the origin. `orthogonalBasis` keeps the matrix of its first call in a `static` variable: a second call with another dimension returns a matrix of the wrong size (C119: undefined behaviour, or a function that is no rotated ellipsoid).
- **C115** (`src/cmastrategy.cc:239-246`): with gradient injection the test points of the two-point adaptation go to columns 1 and 2. A population of two, which the constructor accepts, has no column 2: the second generation writes out of bounds.
- C117: the search depends on the unit of the objective. TOLHISTFUN compares best values with `max(ftolerance, 1e-12)`, an absolute tolerance; multiplied by a small enough factor, every bounded objective ends after `min(max_hist, 10 + 30n/λ)` iterations (`C117_short`, `C117_default_false`).
- C118: the search depends on more than the ranking of the values. STAGNATION compares medians that are means of two values; doubling the positive values of an objective can make a search end which otherwise goes on (`C118_stagnation_false`, `C118_default_false`).
- C119: `orthogonalBasis` (`tests/test-functions.cc:68-103`) keeps its first matrix for all dimensions: a larger dimension then reads outside it, a smaller one is given a matrix that is no rotation (`C119_larger_false`, `C119_smaller_false`).
- C120: with a diagonal covariance the ranking SVM depends on the orientation of the axes, as the separable models themselves do (`C120_turned_false`).
- C121: training points of equal value are ranked by the order in which `std::sort` leaves them; exchanging two of them can turn the sign of a score (`C121_ties_false`, `include/libcmaes/surrogates/rsvm_surr_strategy.hpp:38-40`).
