{
 "claims": [
  {
   "property": "C01",
   "status": "proved",
   "theorems": [
    "Libcmaes.C01_pheno_in_box"
   ],
   "note": ""
  },
  {
   "property": "C02",
   "status": "proved",
   "theorems": [
    "Libcmaes.C02_smooth_transform",
    "Libcmaes.C02_coordinatewise"
   ],
   "note": ""
  },
  {
   "property": "C03",
   "status": "proved",
   "theorems": [
    "Libcmaes.C03_inverse",
    "Libcmaes.C03_roundtrip"
   ],
   "note": ""
  },
  {
   "property": "C04",
   "status": "proved",
   "theorems": [
    "Libcmaes.C04_defined_iff",
    "Libcmaes.C04_equal_bounds"
   ],
   "note": ""
  },
  {
   "property": "C05",
   "status": "proved",
   "theorems": [
    "Libcmaes.C05_vectors_inverse",
    "Libcmaes.C05_zero_scaling",
    "Libcmaes.C05_bounds_scaling"
   ],
   "note": ""
  },
  {
   "property": "C06",
   "status": "proved",
   "theorems": [
    "Libcmaes.C06_bounds",
    "Libcmaes.C06_bounds_scaled",
    "Libcmaes.C06_vectors_scaled",
    "Libcmaes.C06_custom_only",
    "Libcmaes.C06_custom_scaled_one",
    "Libcmaes.C06_custom_scaled_false",
    "Libcmaes.C06_negative_scaling_false"
   ],
   "note": ""
  },
  {
   "property": "C07",
   "status": "proved",
   "theorems": [
    "Libcmaes.C07_pheno_matrix",
    "Libcmaes.C07_geno_matrix"
   ],
   "note": ""
  },
  {
   "property": "C08",
   "status": "partial",
   "theorems": [
    "Libcmaes.C08_reported_bounds_partial",
    "Libcmaes.C08_no_bounds_partial",
    "Libcmaes.C08_reported_bounds_false"
   ],
   "note": "False of the code for the scaling-vector constructor; negation proved."
  },
  {
   "property": "C09",
   "status": "partial",
   "theorems": [
    "Libcmaes.C09_geno_custom_partial",
    "Libcmaes.C09_geno_custom_false"
   ],
   "note": "False of the code for NoBound + linear scaling; negation proved."
  },
  {
   "property": "C10",
   "status": "partial",
   "theorems": [
    "Libcmaes.C10_remove_decreasing",
    "Libcmaes.C10_remove_increasing_false",
    "Libcmaes.C10_add_remove",
    "Libcmaes.C10_remove_add",
    "Libcmaes.C10_add_forward_copy_false",
    "Libcmaes.C10_bounds_survive",
    "Libcmaes.C10_scaling_survive",
    "Libcmaes.C10_genopheno_survive"
   ],
   "note": "Proved for decreasing index lists; false for increasing ones."
  },
  {
   "property": "C100",
   "status": "proved",
   "theorems": [
    "Libcmaes.C100_rotation",
    "Libcmaes.C100_draws",
    "Libcmaes.C100_axes",
    "Libcmaes.C100_sep_false"
   ],
   "note": "C100_rotation gives the turned draws, C100_draws that turning keeps their law; C100_axes and C100_sep_false are the two halves of the last sentence."
  },
  {
   "property": "C101",
   "status": "partial",
   "theorems": [
    "Libcmaes.C101_search",
    "Libcmaes.C101_file",
    "Libcmaes.C101_optimize",
    "Libcmaes.C101_total",
    "Libcmaes.C101_full_partial",
    "Libcmaes.C101_debug_false",
    "Libcmaes.C101_header_false",
    "Libcmaes.C101_bestx_false",
    "Libcmaes.C101_surrogate_false",
    "Libcmaes.C101_surrogate_stds",
    "Libcmaes.C101_surrogate",
    "Libcmaes.C101_user"
   ],
   "note": "Proved for the default format of a build without HAVE_DEBUG; for the complete format without restarts and with the best point in internal coordinates. Missing, and false: restarts and the user coordinates there, HAVE_DEBUG, the surrogate strategies."
  },
  {
   "property": "C102",
   "status": "partial",
   "theorems": [
    "Libcmaes.C102_solution_partial",
    "Libcmaes.C102_fresh",
    "Libcmaes.C102_search_partial",
    "Libcmaes.C102_witness",
    "Libcmaes.C102_weights_false",
    "Libcmaes.C102_rates_false",
    "Libcmaes.C102_bounds_false",
    "Libcmaes.C102_spectrum_false",
    "Libcmaes.C102_empty_false"
   ],
   "note": "Proved for a full covariance search that made a generation; going on for k not below mu, without fixed parameters, elitism and bounds. Missing, and false: k below mu, bounds, the constants, the eigenvalues, separable searches."
  },
  {
   "property": "C103",
   "status": "partial",
   "theorems": [
    "Libcmaes.C103_box_partial",
    "Libcmaes.C103_keywords",
    "Libcmaes.C103_start",
    "Libcmaes.C103_names",
    "Libcmaes.C103_search",
    "Libcmaes.C103_vscaling_false",
    "Libcmaes.C103_onebound_false",
    "Libcmaes.C103_keywords_false",
    "Libcmaes.C103_sepcov_false"
   ],
   "note": "Bounds (all algorithms, no uncertainty handling; with scaling no gradient), keywords and the end of the search without restarts are proved. Missing, and false: scaling vectors, one bound alone, the keywords sep, noisy and fixed_p, get_solution_sepcov."
  },
  {
   "property": "C104",
   "status": "proved",
   "theorems": [
    "Libcmaes.C104_full",
    "Libcmaes.C104_sep",
    "Libcmaes.C104_time",
    "Libcmaes.C104_tight",
    "Libcmaes.C104_active_runs"
   ],
   "note": "Full and diagonal covariance, default and active update; vd and two-point step adaptation are excluded by hypothesis. C104_tight shows that the rate is attained."
  },
  {
   "property": "C105",
   "status": "proved",
   "theorems": [
    "Libcmaes.C105_plateau",
    "Libcmaes.C105_exact",
    "Libcmaes.C105_infinite",
    "Libcmaes.C105_default"
   ],
   "note": "Default and active update, full or diagonal, any elitism but that on restart, no expected distance to minimum. C105_default shows that the default set-up meets the hypotheses."
  },
  {
   "property": "C106",
   "status": "proved",
   "theorems": [
    "Libcmaes.C106_hit",
    "Libcmaes.C106_reach",
    "Libcmaes.C106_box",
    "Libcmaes.C106_improve",
    "Libcmaes.C106_sphere",
    "Libcmaes.C106_box_default"
   ],
   "note": "Without fixed parameters; C106_improve without elitism. C106_sphere and C106_box_default show that default settings meet the hypotheses."
  },
  {
   "property": "C107",
   "status": "proved",
   "theorems": [
    "Libcmaes.C107_tell",
    "Libcmaes.C107_quasiconvex",
    "Libcmaes.C107_convex",
    "Libcmaes.C107_linear",
    "Libcmaes.C107_linear_default",
    "Libcmaes.C107_convex_default"
   ],
   "note": "C107_tell and C107_quasiconvex hold for each variant and with elitism, without uncertainty handling; C107_convex and C107_linear for whole generations of the default and active update, full or diagonal, without elitism and fixed parameters. The *_default theorems show that default settings meet the hypotheses in each generation."
  },
  {
   "property": "C108",
   "status": "partial",
   "theorems": [
    "Libcmaes.C108_summary",
    "Libcmaes.C108_optimize",
    "Libcmaes.C108_intervals_partial",
    "Libcmaes.C108_case",
    "Libcmaes.C108_interval_case",
    "Libcmaes.C108_status_false",
    "Libcmaes.C108_order_false",
    "Libcmaes.C108_best_false",
    "Libcmaes.C108_stream_false"
   ],
   "note": "Partial since the code falsifies parts: C108_status_false, C108_order_false, C108_best_false and C108_stream_false are witnesses (default arguments; the last two in any dimension, for any number of generations). What is printed is modelled as a record of numbers, not as text; the elapsed time is left out."
  },
  {
   "property": "C109",
   "status": "partial",
   "theorems": [
    "Libcmaes.C109_steepest",
    "Libcmaes.C109_rest",
    "Libcmaes.C109_numeric",
    "Libcmaes.C109_linear",
    "Libcmaes.C109_total",
    "Libcmaes.C109_scaling_false",
    "Libcmaes.C109_mixed_false",
    "Libcmaes.C109_vd",
    "Libcmaes.C109_vd_false"
   ],
   "note": "Partial since the code falsifies parts: C109_scaling_false and C109_mixed_false are witnesses with default settings; C109_vd_false holds for every VD-CMA search whose drawn vector is not orthogonal to the gradient (C109_vd gives the distance in every generation, with a concrete case). Lazy eigendecompositions are excluded by hypothesis. Real arithmetic: rounding of the difference quotients is not modelled."
  },
  {
   "property": "C11",
   "status": "proved",
   "theorems": [
    "Libcmaes.C11_lambda",
    "Libcmaes.C11_weights"
   ],
   "note": ""
  },
  {
   "property": "C110",
   "status": "proved",
   "theorems": [
    "Libcmaes.C110_dates",
    "Libcmaes.C110_points",
    "Libcmaes.C110_mean",
    "Libcmaes.C110_small"
   ],
   "note": "The points and the mean are for the default update; with the active update and lazy decompositions positive definiteness can be lost (C27_lazy_false). That the stale mean differs from the current one is C19_lazy_false."
  },
  {
   "property": "C111",
   "status": "proved",
   "theorems": [
    "Libcmaes.C111_ask_again",
    "Libcmaes.C111_ask_lazy_false",
    "Libcmaes.C111_more",
    "Libcmaes.C111_fewer",
    "Libcmaes.C111_fewer_tell",
    "Libcmaes.C111_fresh",
    "Libcmaes.C111_tell_again",
    "Libcmaes.C111_tell_shrinks",
    "Libcmaes.C111_elitist_false",
    "Libcmaes.C111_elitist_case"
   ],
   "note": "Elitism and uncertainty handling are off in the statements on fewer columns. Repeated tell() is for the full covariance, default and active update; the existence of all further calls is part of the theorem."
  },
  {
   "property": "C112",
   "status": "proved",
   "theorems": [
    "Libcmaes.C112_signal",
    "Libcmaes.C112_grows",
    "Libcmaes.C112_case",
    "Libcmaes.C112_up_case"
   ],
   "note": "C112_case is an infinite run in any dimension that meets the hypotheses (separable model, default settings, draws -w); C112_up_case the other direction. Exact arithmetic; the draw that scales the two test points is assumed not to be the zero vector."
  },
  {
   "property": "C113",
   "status": "partial",
   "theorems": [
    "Libcmaes.C113_gradient_partial",
    "Libcmaes.C113_tablet_false",
    "Libcmaes.C113_rosenbrock_false",
    "Libcmaes.C113_minima",
    "Libcmaes.C113_rastrigin_false",
    "Libcmaes.C113_basis",
    "Libcmaes.C113_basis_case"
   ],
   "note": "Partial because the code falsifies the full statement for two gradients and one stated minimum; where they hold is characterised exactly. Exact arithmetic; the static variable of orthogonalBasis, which keeps the first dimension asked for, is the subject of C119."
  },
  {
   "property": "C114",
   "status": "proved",
   "theorems": [
    "Libcmaes.C114_constant",
    "Libcmaes.C114_default",
    "Libcmaes.C114_case"
   ],
   "note": "Exact arithmetic (adding a large constant to small differences in double precision is not covered). Without uncertainty handling, gradient injection, two-point adaptation, edm and VD. C31 gives the same for any increasing function of f, but for the iterations only: the criteria TOLHISTFUN and STAGNATION look at differences and averages of values."
  },
  {
   "property": "C115",
   "status": "partial",
   "theorems": [
    "Libcmaes.C115_points",
    "Libcmaes.C115_total_partial",
    "Libcmaes.C115_lambda_false",
    "Libcmaes.C115_case"
   ],
   "note": "False for lambda = 2, which the constructor accepts: the test points are written to columns 1 and 2 of a population of two columns, in each run whose first generation moves the mean (C115_lambda_false; C115_case shows such runs in every dimension for every objective). With lambda >= 3 the only failure is a generation that leaves the mean exactly where it was (0/0, as in C67). Default and active update, full or diagonal covariance, no uncertainty handling."
  },
  {
   "property": "C116",
   "status": "proved",
   "theorems": [
    "Libcmaes.C116_place",
    "Libcmaes.C116_default",
    "Libcmaes.C116_case"
   ],
   "note": "Full or diagonal covariance, default or active update, any stopping criteria, elitism but that on restart; without bounds, scaling and fixed parameters; start not the code for a random one. Rounded addition enters through NoEffectAxis and NoEffectCoor, the two criteria that test x + d = x: it is assumed to have an effect at both places alike (RoundsAlike), which holds for exact addition and, in doubles, for a power of two and no displacement. The other criteria are about reals."
  },
  {
   "property": "C117",
   "status": "partial",
   "theorems": [
    "Libcmaes.C117_factor_partial",
    "Libcmaes.C117_short",
    "Libcmaes.C117_unit_false",
    "Libcmaes.C117_default_false",
    "Libcmaes.C117_case"
   ],
   "note": "Proved with TOLHISTFUN switched off, for all the other criteria. False with it: its tolerance is an absolute number, never below 1e-12. C117_short: for every bounded objective a small enough factor ends the search after min(max_hist, 10 + 30n/lambda) iterations; C117_unit_false, C117_default_false: a search which goes on where that of 1e-13 f has ended."
  },
  {
   "property": "C118",
   "status": "proved",
   "theorems": [
    "Libcmaes.C118_ranking",
    "Libcmaes.C118_case",
    "Libcmaes.C118_example",
    "Libcmaes.C118_stagnation_false",
    "Libcmaes.C118_default_false"
   ],
   "note": "Extends C31 from the generations to the end of the run. With TOLHISTFUN it is false already for linear g (C117_unit_false). With STAGNATION, whose medians are means of two values, it is false too (C118_stagnation_false; C118_default_false with default settings in every dimension)."
  },
  {
   "property": "C119",
   "status": "partial",
   "theorems": [
    "Libcmaes.C119_calls_partial",
    "Libcmaes.C119_larger_false",
    "Libcmaes.C119_smaller_false",
    "Libcmaes.C119_case"
   ],
   "note": "Proved for processes that use one dimension (and dimension 1). False with two: undefined behaviour for a larger second dimension (every draw, function and point), a wrong function for a smaller one, unless the kept matrix happens to have blocks (C119_smaller_false). Exact arithmetic; a division by zero in orthogonalBasis is an error."
  },
  {
   "property": "C12",
   "status": "proved",
   "theorems": [
    "Libcmaes.C12_default_rates"
   ],
   "note": ""
  },
  {
   "property": "C120",
   "status": "proved",
   "theorems": [
    "Libcmaes.C120_affine",
    "Libcmaes.C120_solver",
    "Libcmaes.C120_axes",
    "Libcmaes.C120_similarity",
    "Libcmaes.C120_turned_false"
   ],
   "note": "Outcomes are compared whole, failures included. The covariance argument is an inverse square root of the covariance matrix before and after the change. Exact arithmetic. C120_turned_false: two training points and a turn by 45 degrees, for every number of iterations."
  },
  {
   "property": "C121",
   "status": "proved",
   "theorems": [
    "Libcmaes.C121_ranking",
    "Libcmaes.C121_ties_false"
   ],
   "note": "For values that are numbers. Without ties std::sort has one permitted result. C121_ties_false: two points of equal value, every number of iterations."
  },
  {
   "property": "C13",
   "status": "partial",
   "theorems": [
    "Libcmaes.C13_variants_partial",
    "Libcmaes.C13_vd_small_dimension_false",
    "Libcmaes.C13_repeated_set_sep_false"
   ],
   "note": "Proved for at most one set_sep or (dim >= 6) set_vd among any other setters; false otherwise, negations proved."
  },
  {
   "property": "C14",
   "status": "partial",
   "theorems": [
    "Libcmaes.C14_elitism_partial",
    "Libcmaes.C14_elitism_nonzero",
    "Libcmaes.C14_elitism_zero_after_three_false"
   ],
   "note": "False of the code for set_elitism(0) after set_elitism(3)."
  },
  {
   "property": "C15",
   "status": "partial",
   "theorems": [
    "Libcmaes.C15_fixed_last_call_partial",
    "Libcmaes.C15_refix_false",
    "Libcmaes.C15_criteria_last_call_partial",
    "Libcmaes.C15_reset_criterion_false"
   ],
   "note": "False of the code for a second call on the same key."
  },
  {
   "property": "C16",
   "status": "partial",
   "theorems": [
    "Libcmaes.C16_seed_partial",
    "Libcmaes.C16_seed_constructor",
    "Libcmaes.C16_seed_zero_false"
   ],
   "note": "False of the code when the current seed is 0."
  },
  {
   "property": "C17",
   "status": "partial",
   "theorems": [
    "Libcmaes.C17_dispatch",
    "Libcmaes.C17_names_partial",
    "Libcmaes.C17_names_false",
    "Libcmaes.C17_unknown_name"
   ],
   "note": "False of the code for two of the fifteen documented names."
  },
  {
   "property": "C18",
   "status": "proved",
   "theorems": [
    "Libcmaes.C18_initial_state",
    "Libcmaes.C18_construction_succeeds"
   ],
   "note": "For every outcome of the random numbers; success of the construction shown for in-range fixed indices."
  },
  {
   "property": "C19",
   "status": "proved",
   "theorems": [
    "Libcmaes.C19_fixed",
    "Libcmaes.C19_full",
    "Libcmaes.C19_sep",
    "Libcmaes.C19_vd",
    "Libcmaes.C19_lazy_false"
   ],
   "note": "Exact arithmetic. False with lazy update; negation proved."
  },
  {
   "property": "C20",
   "status": "proved",
   "theorems": [
    "Libcmaes.C20_tell_ranks",
    "Libcmaes.C20_rank_defined"
   ],
   "note": "Without uncertainty handling."
  },
  {
   "property": "C21",
   "status": "proved",
   "theorems": [
    "Libcmaes.C21_histories",
    "Libcmaes.C21_bounded",
    "Libcmaes.C21_max_hist_pos"
   ],
   "note": "Over every execution of ask/eval/tell, any number of generations; without uncertainty handling."
  },
  {
   "property": "C22",
   "status": "partial",
   "theorems": [
    "Libcmaes.C22_best_seen",
    "Libcmaes.C22_nan_false",
    "Libcmaes.C22_nan_run"
   ],
   "note": "Holds when no NaN was returned in the first generation; false of the code otherwise."
  },
  {
   "property": "C23",
   "status": "proved",
   "theorems": [
    "Libcmaes.C23_worst_seen"
   ],
   "note": ""
  },
  {
   "property": "C24",
   "status": "proved",
   "theorems": [
    "Libcmaes.C24_ranking_defined_iff",
    "Libcmaes.C24_tell_undefined"
   ],
   "note": ""
  },
  {
   "property": "C25",
   "status": "proved",
   "theorems": [
    "Libcmaes.C25_mean_convex",
    "Libcmaes.C25_configured"
   ],
   "note": "All variants and flags."
  },
  {
   "property": "C26",
   "status": "proved",
   "theorems": [
    "Libcmaes.C26_cov",
    "Libcmaes.C26_cov_from_start",
    "Libcmaes.C26_strict_default"
   ],
   "note": "Over every execution; real arithmetic."
  },
  {
   "property": "C27",
   "status": "proved",
   "theorems": [
    "Libcmaes.C27_active_pd",
    "Libcmaes.C27_active_pd_from_start",
    "Libcmaes.C27_lazy_false",
    "Libcmaes.C27_lazy_settings"
   ],
   "note": "For rates meeting StrictRates (shown for the default population size), non-lazy eigendecomposition. With lazy decompositions at least two generations apart the claim is false (C27_lazy_false) and the search can fail."
  },
  {
   "property": "C28",
   "status": "proved",
   "theorems": [
    "Libcmaes.C28_sigma_pos",
    "Libcmaes.C28_sigma_pos_from_start"
   ],
   "note": "All variants; real arithmetic (no underflow)."
  },
  {
   "property": "C29",
   "status": "proved",
   "theorems": [
    "Libcmaes.C29_sep_pos",
    "Libcmaes.C29_sep_pos_from_start"
   ],
   "note": "For rates meeting StrictRates."
  },
  {
   "property": "C30",
   "status": "proved",
   "theorems": [
    "Libcmaes.C30_generations",
    "Libcmaes.C30_optimize",
    "Libcmaes.C30_calls",
    "Libcmaes.C30_scaled_false"
   ],
   "note": "All settings, no scaling. Under linear scaling the fixed value is held in internal units (C30_scaled_false)."
  },
  {
   "property": "C31",
   "status": "proved",
   "theorems": [
    "Libcmaes.C31_rank_invariance",
    "Libcmaes.C31_monotone",
    "Libcmaes.C33_witness"
   ],
   "note": "Without uncertainty handling and gradient injection. Any transform, bounds, fixed parameters, elitism, two-point adaptation, covariance kind."
  },
  {
   "property": "C32",
   "status": "proved",
   "theorems": [
    "Libcmaes.C32_translation",
    "Libcmaes.C33_witness"
   ],
   "note": "Without bounds/scaling, fixed parameters, uncertainty handling and gradient injection; start not the \"uniform\" sentinel."
  },
  {
   "property": "C33",
   "status": "proved",
   "theorems": [
    "Libcmaes.C33_scale",
    "Libcmaes.C33_affine",
    "Libcmaes.C33_witness"
   ],
   "note": "Same conditions as C32, positive initial step size. C33_affine covers translation and scaling together."
  },
  {
   "property": "C34",
   "status": "proved",
   "theorems": [
    "Libcmaes.C34_order",
    "Libcmaes.C34_ties_false",
    "Libcmaes.C34_ties_case"
   ],
   "note": "Objective values numbers and pairwise distinct; without uncertainty handling (whose re-evaluated candidates are addressed by position). With equal values the order decides: C34_ties_false gives by how much the mean changes, C34_ties_case shows default searches in every dimension in which it does."
  },
  {
   "property": "C35",
   "status": "proved",
   "theorems": [
    "Libcmaes.C35_generations",
    "Libcmaes.C35_optimize",
    "Libcmaes.C35_ipop",
    "Libcmaes.C35_bipop",
    "Libcmaes.C35_witness",
    "Libcmaes.C35_start_false",
    "Libcmaes.C35_start_witness",
    "Libcmaes.C35_gradient_false"
   ],
   "note": "All settings, the whole state compared. A gradient function supplied by the user is the same in both runs; it is not negated by the library (C35_gradient_false). False when starting from a solution (C35_start_false)."
  },
  {
   "property": "C36",
   "status": "proved",
   "theorems": [
    "Libcmaes.C36_run",
    "Libcmaes.C36_optimize",
    "Libcmaes.C36_ipop",
    "Libcmaes.C36_bipop"
   ],
   "note": "All settings. The counter of the solution covers one run; under restarts the total is that of the strategy."
  },
  {
   "property": "C37",
   "status": "proved",
   "theorems": [
    "Libcmaes.C37_eval",
    "Libcmaes.C37_schedule"
   ],
   "note": "Without uncertainty handling."
  },
  {
   "property": "C38",
   "status": "proved",
   "theorems": [
    "Libcmaes.C38_optimize",
    "Libcmaes.C38_generations",
    "Libcmaes.C38_ipop",
    "Libcmaes.C38_bipop",
    "Libcmaes.C38_bounds",
    "Libcmaes.C38_uh",
    "Libcmaes.C38_uh_near",
    "Libcmaes.C38_uh_out_false",
    "Libcmaes.C38_uh_false",
    "Libcmaes.C109_scaling_false"
   ],
   "note": "For the settings of the statement. False with uncertainty handling (C38_uh_false in every dimension; C38_uh_near bounds how far outside) and with numerical gradients under scaling (C109_scaling_false)."
  },
  {
   "property": "C39",
   "status": "proved",
   "theorems": [
    "Libcmaes.C39_turn",
    "Libcmaes.C39_generations",
    "Libcmaes.C39_optimize"
   ],
   "note": "Without uncertainty handling, NaN-free objective."
  },
  {
   "property": "C40",
   "status": "proved",
   "theorems": [
    "Libcmaes.C40_reinjection",
    "Libcmaes.C40_none",
    "Libcmaes.C40_loss_false"
   ],
   "note": "Including the loss of the best evaluated point (C40_loss_false)."
  },
  {
   "property": "C41",
   "status": "proved",
   "theorems": [
    "Libcmaes.C41_number",
    "Libcmaes.C41_calls",
    "Libcmaes.C41_rerank"
   ],
   "note": "The permutation part is for calls of tell that return (see C42)."
  },
  {
   "property": "C42",
   "status": "partial",
   "theorems": [
    "Libcmaes.C42_partial",
    "Libcmaes.C42_consistent",
    "Libcmaes.C42_false"
   ],
   "note": "False of the code: a reachable first generation ends in undefined behaviour. Defined when the re-evaluations rank the candidates as the values do."
  },
  {
   "property": "C43",
   "status": "proved",
   "theorems": [
    "Libcmaes.C43_status",
    "Libcmaes.C43_unique",
    "Libcmaes.C43_negative",
    "Libcmaes.C43_inactive",
    "Libcmaes.C43_flags"
   ],
   "note": "For every reachable state of every kind, any objective with values that are numbers or +infinity."
  },
  {
   "property": "C44",
   "status": "partial",
   "theorems": [
    "Libcmaes.C44_single",
    "Libcmaes.C44_documented_partial",
    "Libcmaes.C44_equalFunVals_never",
    "Libcmaes.C44_equalFunVals_false",
    "Libcmaes.C44_tolX_false",
    "Libcmaes.C44_noEffectAxis_false"
   ],
   "note": "Proved for every criterion but tolX, noEffectAxis and equalFunVals, whose coded condition is not the documented one (negations proved)."
  },
  {
   "property": "C45",
   "status": "proved",
   "theorems": [
    "Libcmaes.C45_auto",
    "Libcmaes.C45_maxIter",
    "Libcmaes.C45_maxFevals",
    "Libcmaes.C45_result",
    "Libcmaes.C45_default",
    "Libcmaes.C45_all_off_false"
   ],
   "note": "Termination for default settings; with every criterion off the loop never ends."
  },
  {
   "property": "C46",
   "status": "proved",
   "theorems": [
    "Libcmaes.C46_at_most",
    "Libcmaes.C46_exact",
    "Libcmaes.C46_only",
    "Libcmaes.C46_witness"
   ],
   "note": ""
  },
  {
   "property": "C47",
   "status": "proved",
   "theorems": [
    "Libcmaes.C47_last_generation",
    "Libcmaes.C47_budget"
   ],
   "note": ""
  },
  {
   "property": "C48",
   "status": "proved",
   "theorems": [
    "Libcmaes.C48_status",
    "Libcmaes.C48_criterion"
   ],
   "note": ""
  },
  {
   "property": "C49",
   "status": "proved",
   "theorems": [
    "Libcmaes.C49_target"
   ],
   "note": ""
  },
  {
   "property": "C50",
   "status": "proved",
   "theorems": [
    "Libcmaes.C50_stop",
    "Libcmaes.C50_run"
   ],
   "note": ""
  },
  {
   "property": "C51",
   "status": "proved",
   "theorems": [
    "Libcmaes.C51_ipop",
    "Libcmaes.C51_evals",
    "Libcmaes.C51_result",
    "Libcmaes.C51_default",
    "Libcmaes.C51_sep_rates_false"
   ],
   "note": "All settings; the first run keeps the rates set up by the user, the rates of restarted runs are those of the constructor, so the ones of set_sep are lost (C51_sep_rates_false)."
  },
  {
   "property": "C52",
   "status": "proved",
   "theorems": [
    "Libcmaes.C52_ipop",
    "Libcmaes.C52_none",
    "Libcmaes.C52_bipop",
    "Libcmaes.C52_nan_false"
   ],
   "note": "IPOP and BIPOP. False when the first run ends with NaN (C52_nan_false)."
  },
  {
   "property": "C53",
   "status": "proved",
   "theorems": [
    "Libcmaes.C53_start",
    "Libcmaes.C53_total",
    "Libcmaes.C53_default"
   ],
   "note": ""
  },
  {
   "property": "C54",
   "status": "proved",
   "theorems": [
    "Libcmaes.C54_runs",
    "Libcmaes.C54_result",
    "Libcmaes.C54_default",
    "Libcmaes.C54_stuck_false"
   ],
   "note": "The runs and their regimes for every search that ends; termination when the progress function lets every run make its first iteration; never ends otherwise (C54_stuck_false)."
  },
  {
   "property": "C55",
   "status": "partial",
   "theorems": [
    "Libcmaes.C55_resume_partial",
    "Libcmaes.C55_witness",
    "Libcmaes.C55_mean_false",
    "Libcmaes.C55_crit_false",
    "Libcmaes.C55_sep_false",
    "Libcmaes.C55_sep_witness",
    "Libcmaes.C55_bipop_false"
   ],
   "note": "False of the code as to the starting point (mean, not best candidate), the stopping criteria (all active), diagonal covariance (undefined behaviour) and BIPOP (undefined behaviour); the rest is proved for full covariance."
  },
  {
   "property": "C56",
   "status": "partial",
   "theorems": [
    "Libcmaes.C56_interval",
    "Libcmaes.C56_total",
    "Libcmaes.C56_get_partial",
    "Libcmaes.C56_recompute_false",
    "Libcmaes.C56_separable_false"
   ],
   "note": "Interval and indices proved for every computed profile; no error after an unconstrained search with full covariance matrix. get_pli proved for the first computation; false of a second one. False after separable and VD searches."
  },
  {
   "property": "C57",
   "status": "partial",
   "theorems": [
    "Libcmaes.C57_later",
    "Libcmaes.C57_rounds",
    "Libcmaes.C57_ends_partial",
    "Libcmaes.C57_zero_false"
   ],
   "note": "Number of rounds and of calls in later steps bounded for all objectives; the first step ends if the parameter is not 0 at the optimum and the eigenvectors move it; false when it is 0."
  },
  {
   "property": "C58",
   "status": "proved",
   "theorems": [
    "Libcmaes.C58_simple",
    "Libcmaes.C58_from_start",
    "Libcmaes.C58_acm",
    "Libcmaes.C58_acm_from_start",
    "Libcmaes.C58_elitism_false"
   ],
   "note": "Both surrogate strategies, any number of generations. Side finding: with elitism predicted values enter the training set (C58_elitism_false)."
  },
  {
   "property": "C59",
   "status": "partial",
   "theorems": [
    "Libcmaes.C59_error",
    "Libcmaes.C59_ties_partial",
    "Libcmaes.C59_ties_false",
    "Libcmaes.C59_smoothed_simple",
    "Libcmaes.C59_smoothed_acm_partial",
    "Libcmaes.C59_acm_false",
    "Libcmaes.C59_acm_default_false"
   ],
   "note": "The error over two or more points and the smoothed error of SimpleSurrogateStrategy are proved; the smoothed error of the ACM strategy only with lambdaprime of at least 2, it is NaN otherwise. For any std::sort; with equal values one direction holds and the other fails (C59_ties_partial, C59_ties_false)."
  },
  {
   "property": "C60",
   "status": "proved",
   "theorems": [
    "Libcmaes.C60_lifelength",
    "Libcmaes.C60_defined",
    "Libcmaes.C60_run",
    "Libcmaes.C60_zero"
   ],
   "note": "Bounds, monotonicity, and the longest wait for a true evaluation in any run."
  },
  {
   "property": "C61",
   "status": "partial",
   "theorems": [
    "Libcmaes.C61_preselection",
    "Libcmaes.C61_hang_false"
   ],
   "note": "Proved for every generation that ends; with lambdaprime above lambda it does not (C61_hang_false). When it ends: C80."
  },
  {
   "property": "C62",
   "status": "proved",
   "theorems": [
    "Libcmaes.C62_box",
    "Libcmaes.C62_gradient",
    "Libcmaes.C62_ascent",
    "Libcmaes.C62_total",
    "Libcmaes.C62_duplicate_false",
    "Libcmaes.C62_single_false"
   ],
   "note": "All kernels, all iteration counts. Side findings: repeated neighbouring training points divide by zero (C62_duplicate_false), one training point takes a remainder modulo zero (C62_single_false)."
  },
  {
   "property": "C63",
   "status": "proved",
   "theorems": [
    "Libcmaes.C63_corr",
    "Libcmaes.C63_vd",
    "Libcmaes.C63_run",
    "Libcmaes.C63_witness",
    "Libcmaes.C63_witness_vd",
    "Libcmaes.C63_sep_false"
   ],
   "note": "Full and VD covariance; for a diagonal covariance corr() returns a column of ones (C63_sep_false)."
  },
  {
   "property": "C64",
   "status": "partial",
   "theorems": [
    "Libcmaes.C64_sequential_partial",
    "Libcmaes.C64_sequential_witness",
    "Libcmaes.C64_false",
    "Libcmaes.C64_reseed_false",
    "Libcmaes.C64_witness"
   ],
   "note": "False of the code: one engine for all optimisers, seeded by each construction. Optimisers used one after the other are independent."
  },
  {
   "property": "C65",
   "status": "partial",
   "theorems": [
    "Libcmaes.C65_errors_partial",
    "Libcmaes.C65_in_box",
    "Libcmaes.C65_scaled",
    "Libcmaes.C65_false",
    "Libcmaes.C65_bounds_false"
   ],
   "note": "Non-negative always; the value is sqrt(sigma)*sqrt(C_ii) instead of sigma*sqrt(C_ii), and 0 is possible with bounds."
  },
  {
   "property": "C66",
   "status": "proved",
   "theorems": [
    "Libcmaes.C66_bound",
    "Libcmaes.C66_unit",
    "Libcmaes.C66_step",
    "Libcmaes.C66_sigma",
    "Libcmaes.C66_damping",
    "Libcmaes.C66_points",
    "Libcmaes.C66_points_sep",
    "Libcmaes.C66_direction",
    "Libcmaes.C66_witness"
   ],
   "note": "The geometry of the two points is for full (not lazily decomposed) and diagonal covariance without fixed coordinates."
  },
  {
   "property": "C67",
   "status": "proved",
   "theorems": [
    "Libcmaes.C67_total",
    "Libcmaes.C67_default",
    "Libcmaes.C67_tpa"
   ],
   "note": "Real arithmetic; settings listed in Spec/Usual.lean."
  },
  {
   "property": "C68",
   "status": "proved",
   "theorems": [
    "Libcmaes.C68_default"
   ],
   "note": "Exact arithmetic; without uncertainty handling (which may enlarge sigma afterwards) and two-point adaptation."
  },
  {
   "property": "C69",
   "status": "proved",
   "theorems": [
    "Libcmaes.C69_active"
   ],
   "note": "Rates strict (always with the default population size)."
  },
  {
   "property": "C70",
   "status": "partial",
   "theorems": [
    "Libcmaes.C70_sep_partial",
    "Libcmaes.C70_sep_false"
   ],
   "note": "False of the code for pc: set_sep changes cc but not the constant factPc = sqrt(cc(2-cc)mueff); all the other equations hold."
  },
  {
   "property": "C71",
   "status": "partial",
   "theorems": [
    "Libcmaes.C71_rest_partial",
    "Libcmaes.C71_stall_false"
   ],
   "note": "False of the code: on the points 0, 1, 2 the default ranker stalls away from the maximum. The gap at rest is bounded."
  },
  {
   "property": "C72",
   "status": "proved",
   "theorems": [
    "Libcmaes.C72_pointwise",
    "Libcmaes.C72_margin",
    "Libcmaes.C72_ranked"
   ],
   "note": "All kernels and encodings."
  },
  {
   "property": "C73",
   "status": "proved",
   "theorems": [
    "Libcmaes.C73_error",
    "Libcmaes.C73_empty",
    "Libcmaes.C73_single_false"
   ],
   "note": "For two points or more; one point gives 0/0 (C73_single_false)."
  },
  {
   "property": "C74",
   "status": "proved",
   "theorems": [
    "Libcmaes.C74_total"
   ],
   "note": "Any number of generations, any calls of the setters (step count other than 0)."
  },
  {
   "property": "C75",
   "status": "proved",
   "theorems": [
    "Libcmaes.C75_quiet"
   ],
   "note": "For models that predict each point on its own, from model and training set."
  },
  {
   "property": "C76",
   "status": "partial",
   "theorems": [
    "Libcmaes.C76_partial",
    "Libcmaes.C76_vacuous_false",
    "Libcmaes.C76_reversed_false"
   ],
   "note": "False of the code: after a generation exploiting the model the error is 0 for every objective, also for a model that reverses every pair. What is measured after a true generation is proved."
  },
  {
   "property": "C77",
   "status": "partial",
   "theorems": [
    "Libcmaes.C77_partial",
    "Libcmaes.C77_false",
    "Libcmaes.C77_acm_partial",
    "Libcmaes.C77_acm_false"
   ],
   "note": "False of the code. Without exploitation the search is the one without surrogate; for the ACM strategy it holds if all answers are below the greatest double."
  },
  {
   "property": "C78",
   "status": "partial",
   "theorems": [
    "Libcmaes.C78_partial",
    "Libcmaes.C78_unsorted_false",
    "Libcmaes.C78_best_false"
   ],
   "note": "False of the code in the generation in which the training set gets full; proved for all others."
  },
  {
   "property": "C79",
   "status": "partial",
   "theorems": [
    "Libcmaes.C79_partial",
    "Libcmaes.C79_false",
    "Libcmaes.C79_default_false"
   ],
   "note": "False of the code after every pre-selection of fewer than lambda evaluations; proved without exploitation."
  },
  {
   "property": "C80",
   "status": "proved",
   "theorems": [
    "Libcmaes.C80_total",
    "Libcmaes.C80_default"
   ],
   "note": "C80_default: the hypotheses can be met with default settings in any dimension."
  },
  {
   "property": "C81",
   "status": "partial",
   "theorems": [
    "Libcmaes.C81_false",
    "Libcmaes.C81_default_false"
   ],
   "note": "False of the code: for all values the search goes as if nothing had been set. No positive part."
  },
  {
   "property": "C82",
   "status": "partial",
   "theorems": [
    "Libcmaes.C82_acm",
    "Libcmaes.C82_kept",
    "Libcmaes.C82_simple_partial",
    "Libcmaes.C82_untrained_false",
    "Libcmaes.C82_default_false",
    "Libcmaes.C82_auto_false"
   ],
   "note": "Proved for the ACM strategy. False of the simple strategy when the training set gets full in a generation whose number the number of steps does not divide, and with automatic life length; proved without exploitation and for a training set of one population with a fixed number of steps."
  },
  {
   "property": "C83",
   "status": "partial",
   "theorems": [
    "Libcmaes.C83_acm",
    "Libcmaes.C83_simple_false",
    "Libcmaes.C83_default_false",
    "Libcmaes.C83_prelambda_false"
   ],
   "note": "Proved for the ACM strategy; false of the simple strategy, which keeps old points, and of prelambda, which is replaced."
  },
  {
   "property": "C84",
   "status": "partial",
   "theorems": [
    "Libcmaes.C84_partial",
    "Libcmaes.C84_found",
    "Libcmaes.C84_dim1_false",
    "Libcmaes.C84_rotated_stuck_false",
    "Libcmaes.C84_rotated_false",
    "Libcmaes.C84_negative_false"
   ],
   "note": "Proved up to the two other ends the code writes, with the conditions under which it does. False in dimension 1, for negative minima, and for eigenvectors that do not move the parameter."
  },
  {
   "property": "C85",
   "status": "proved",
   "theorems": [
    "Libcmaes.C85_values"
   ],
   "note": "Plain problems and problems with bounds."
  },
  {
   "property": "C86",
   "status": "partial",
   "theorems": [
    "Libcmaes.C86_points_partial",
    "Libcmaes.C86_total",
    "Libcmaes.C86_order_false",
    "Libcmaes.C86_bounds_false"
   ],
   "note": "Proved for unconstrained problems with parameters in increasing order; false in another order and with bounds."
  },
  {
   "property": "C87",
   "status": "proved",
   "theorems": [
    "Libcmaes.C87_vd",
    "Libcmaes.C87_derivative"
   ],
   "note": "The specification is the Fisher information of normal distributions, not the closed formulas; C87_derivative shows its matrices are the derivatives."
  },
  {
   "property": "C88",
   "status": "partial",
   "theorems": [
    "Libcmaes.C88_total_partial",
    "Libcmaes.C88_zero_false",
    "Libcmaes.C88_negative_false"
   ],
   "note": "Proved until v or a component of D is zero; false in general."
  },
  {
   "property": "C89",
   "status": "partial",
   "theorems": [
    "Libcmaes.C89_sep_partial",
    "Libcmaes.C89_full_partial",
    "Libcmaes.C89_total_partial",
    "Libcmaes.C89_rotated_false",
    "Libcmaes.C89_two_false",
    "Libcmaes.C89_vd_false"
   ],
   "note": "Proved for the diagonal model; for the full model within the square root of the condition number; false of rotated distributions, two candidates and VD."
  },
  {
   "property": "C90",
   "status": "proved",
   "theorems": [
    "Libcmaes.C90_level",
    "Libcmaes.C90_noiseless",
    "Libcmaes.C90_noisy"
   ],
   "note": "For distinct values (with ties the ranks depend on std::sort), without two-point adaptation and elitism. The ranks are those of the code, in two separate orders of lambda candidates."
  },
  {
   "property": "C91",
   "status": "partial",
   "theorems": [
    "Libcmaes.C91_ranked",
    "Libcmaes.C91_total",
    "Libcmaes.C91_runs",
    "Libcmaes.C91_default",
    "Libcmaes.C91_blind_false",
    "Libcmaes.C91_small_false"
   ],
   "note": "The ranking, the reasons for failures and runs without failure are proved; false of the test error, and of training sets of fewer than two points."
  },
  {
   "property": "C92",
   "status": "partial",
   "theorems": [
    "Libcmaes.ErrStats.C92_points",
    "Libcmaes.ErrStats.C92_count",
    "Libcmaes.ErrStats.C92_intervals",
    "Libcmaes.ErrStats.C92_intervals'",
    "Libcmaes.ErrStats.C92_dim2_false",
    "Libcmaes.ErrStats.C92_endless_false",
    "Libcmaes.ErrStats.C92_order_false"
   ],
   "note": "Shape and bounds on the number of points are proved; false with two parameters, for points at the origin, and for parameters in decreasing order."
  },
  {
   "property": "C93",
   "status": "partial",
   "theorems": [
    "Libcmaes.ErrStats.C93_partial",
    "Libcmaes.ErrStats.C93_value_false"
   ],
   "note": "Proved for the first four points; for further points only that they bracket the aim or are on the line at right angles."
  },
  {
   "property": "C94",
   "status": "partial",
   "theorems": [
    "Libcmaes.C94_end",
    "Libcmaes.C94_restart",
    "Libcmaes.C94_kept_partial",
    "Libcmaes.C94_kept_run",
    "Libcmaes.C94_iter",
    "Libcmaes.C94_uninit_false",
    "Libcmaes.C94_scaled_false"
   ],
   "note": "Proved: when it ends, what a restart begins with, that nothing is lost without scaling (for an objective that is a function of the point, unless the marker for a missing starting point is as good), and the iteration kept. False with linear scaling, and with a budget of evaluations."
  },
  {
   "property": "C95",
   "status": "proved",
   "theorems": [
    "Libcmaes.C95_sampled",
    "Libcmaes.C95_first",
    "Libcmaes.C95_vd",
    "Libcmaes.C95_moments"
   ],
   "note": "Given the past; the draws are assumed independent standard normal. VD for any state with v not zero."
  },
  {
   "property": "C96",
   "status": "proved",
   "theorems": [
    "Libcmaes.C96_neutral",
    "Libcmaes.C96_stationary",
    "Libcmaes.C96_sep_run"
   ],
   "note": "Given the past. Law over several generations only for the diagonal variant, where the path is linear in the draws."
  },
  {
   "property": "C97",
   "status": "proved",
   "theorems": [
    "Libcmaes.C97_start"
   ],
   "note": "For the constructor of the solution object, used by every start and restart."
  },
  {
   "property": "C98",
   "status": "partial",
   "theorems": [
    "Libcmaes.C98_choice",
    "Libcmaes.C98_params_partial",
    "Libcmaes.C98_repeated_false"
   ],
   "note": "Missing: objects on which set_sep or set_vd was already called; for them it is false: the rates change at each call."
  },
  {
   "property": "C99",
   "status": "partial",
   "theorems": [
    "Libcmaes.C99_start_partial",
    "Libcmaes.C99_std_false",
    "Libcmaes.C99_unscaled_false",
    "Libcmaes.C99_box",
    "Libcmaes.C99_bounds_false"
   ],
   "note": "Proved up to a common factor, the smallest step size, where the full statement has 1; that it is not 1, and the cases without scaling or without bounds, are proved as negations."
  }
 ]
}