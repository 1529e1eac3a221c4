{
 "claims": [
  {
   "property": "C01",
   "status": "proved",
   "theorems": [
    "Verif.Params.C01_rebuild_flatten",
    "Verif.Params.C01_flatten_rebuild",
    "Verif.Params.C01_short_vector_rejected"
   ],
   "note": "both directions, plus: too short vectors are rejected"
  },
  {
   "property": "C02",
   "status": "proved",
   "theorems": [
    "Verif.Fit.C02_fixed_unchanged",
    "Verif.Fit.C02_fixed_unchanged_history"
   ],
   "note": "every outcome, both methods, and over histories of fit calls"
  },
  {
   "property": "C03",
   "status": "proved",
   "theorems": [
    "Verif.Params.C03_layout"
   ],
   "note": "index-level layout; ranks are injective and in range (freeRank_lt, freeRank_injective)"
  },
  {
   "property": "C04",
   "status": "proved",
   "theorems": [
    "Verif.Params.C04_blocks"
   ],
   "note": "_reshape_matrix with scalar fill, used by fisher_matrix and error_matrix"
  },
  {
   "property": "C05",
   "status": "partial",
   "theorems": [
    "Verif.Params.C05_std_error_counterexample",
    "Verif.Params.C05_std_error_partial"
   ],
   "note": "false of the code without constraints (-None is a TypeError): counterexample proved; proved for >= 1 constraint"
  },
  {
   "property": "C06",
   "status": "partial",
   "theorems": [
    "Verif.Params.C06_append_partial",
    "Verif.Params.C06_rejected_unchanged_partial",
    "Verif.Params.C06_history_partial",
    "Verif.Params.C06_list_fixed_counterexample",
    "Verif.Params.C06_list_values_counterexample"
   ],
   "note": "false of the code for list arguments (parameters erased, unbounded recursion): counterexample proved; proved for array arguments over all histories"
  },
  {
   "property": "C07",
   "status": "partial",
   "theorems": [
    "Verif.Fit.C07_newton_atomic",
    "Verif.Fit.C07_broyden_atomic_partial",
    "Verif.Fit.C07_broyden_counterexample"
   ],
   "note": "Newton and invalid method: full; Broyden stores params before a pinvh that may raise: counterexample + partial"
  },
  {
   "property": "C08",
   "status": "partial",
   "theorems": [
    "Verif.Fit.C08_newton_never_decreases_partial",
    "Verif.Fit.C08_needs_eval_consistency_counterexample"
   ],
   "note": "proved under hypotheses: comparison transitive, model.eval agrees with model(); counterexample shows the latter is needed"
  },
  {
   "property": "C09",
   "status": "proved",
   "theorems": [
    "Verif.Fit.C09_budget",
    "Verif.Fit.C09_returns_true_only_converged",
    "Verif.Fit.C09_newton_outcomes",
    "Verif.Fit.C09_broyden_outcomes"
   ],
   "note": "budget, honesty, and classification of outcomes for non-raising callbacks"
  },
  {
   "property": "C10",
   "status": "partial",
   "theorems": [
    "Verif.Fit.C10_newton_flag_counterexample",
    "Verif.Fit.C10_newton_concrete_counterexample",
    "Verif.Fit.C10_stale_flag_counterexample",
    "Verif.Fit.C10_broyden_flag_partial"
   ],
   "note": "false of the code (Newton never sets the flag; stale flag): counterexamples; Broyden part proved"
  },
  {
   "property": "C11",
   "status": "partial",
   "theorems": [
    "Verif.Fit.C11_newton_verbosity_partial",
    "Verif.Fit.C11_broyden_verbose_counterexample",
    "Verif.Fit.C11_broyden_concrete_counterexample"
   ],
   "note": "false of the code for Broyden (NameError): counterexample; Newton proved"
  },
  {
   "property": "C12",
   "status": "proved",
   "theorems": [
    "Verif.Fit.C12_step_cut",
    "Verif.Fit.C12_step_slice",
    "Verif.Fit.C12_no_free_edge"
   ],
   "note": "slice arithmetic for every nfree >= 1 and every number of constraints; edge case nfree = 0 documented"
  },
  {
   "property": "C59",
   "status": "partial",
   "theorems": [
    "Verif.Fit.C59_newton_hessian_partial",
    "Verif.Fit.C59_newton_hessian_stale_counterexample"
   ],
   "note": "false of the code: the stored Hessian is one step behind; counterexample + what holds"
  },
  {
   "property": "C13",
   "status": "proved",
   "theorems": [
    "Verif.Flat.C13_newton_step_residual",
    "Verif.Flat.C13_residual_never_grows"
   ],
   "note": "single step scaling and whole Newton trajectory, exact arithmetic and exact solver (hypothesis)"
  },
  {
   "property": "C14",
   "status": "proved",
   "theorems": [
    "Verif.Flat.C14_broyden_secant"
   ],
   "note": "list model of the update; any ordered field, non-zero gradient change"
  },
  {
   "property": "C15",
   "status": "proved",
   "theorems": [
    "Verif.Flat.C15_flat_grad_layout"
   ],
   "note": "index-level layout, any numbers of parameters, constraints, regularisations"
  },
  {
   "property": "C16",
   "status": "partial",
   "theorems": [
    "Verif.Flat.C16_flat_hess_bordered_partial",
    "Verif.Flat.C16_repeated_parameter_counterexample"
   ],
   "note": "proved for increasing parameter maps; repeated indices give an asymmetric matrix (counterexample), decreasing ones raise (C17)"
  },
  {
   "property": "C17",
   "status": "partial",
   "theorems": [
    "Verif.Flat.C17_decreasing_map_counterexample",
    "Verif.Flat.C17_flat_grad_any_order_partial"
   ],
   "note": "false of the code for the Hessian (IndexError for every decreasing map): counterexample; proved for the flat gradient"
  },
  {
   "property": "C18",
   "status": "partial",
   "theorems": [
    "Verif.Flat.C18_information_criteria_partial",
    "Verif.Flat.C18_fixed_entries_counterexample",
    "Verif.Flat.C18_regularisation_counterexample"
   ],
   "note": "false of the code with fixed entries or regularisations: counterexamples; proved otherwise"
  },
  {
   "property": "C19",
   "status": "proved",
   "theorems": [
    "Verif.Like.C19_poisson",
    "Verif.Like.C19_zeroInflatedPoisson",
    "Verif.Like.C19_logistic",
    "Verif.Like.C19_negativeBinomial",
    "Verif.Like.C19_normalizedFinite",
    "Verif.Like.C19_finite"
   ],
   "note": "six classes, partial derivatives with respect to every parameter entry (dense semantics of the Tensor operations)"
  },
  {
   "property": "C20",
   "status": "proved",
   "theorems": [
    "Verif.Like.C20_poisson",
    "Verif.Like.C20_zeroInflatedPoisson",
    "Verif.Like.C20_logistic",
    "Verif.Like.C20_negativeBinomial",
    "Verif.Like.C20_normalizedFinite",
    "Verif.Like.C20_finite"
   ],
   "note": "six classes"
  },
  {
   "property": "C21",
   "status": "proved",
   "theorems": [
    "Verif.Like.C21_poisson_concave",
    "Verif.Like.C21_logistic_concave",
    "Verif.Like.C21_negativeBinomial_concave",
    "Verif.Like.C21_zeroInflatedPoisson_concave"
   ],
   "note": "Poisson, Logistic, NegativeBinomial (and ZeroInflatedPoisson with s >= 1)"
  },
  {
   "property": "C22",
   "status": "proved",
   "theorems": [
    "Verif.Like.C22_finite_scale_invariant",
    "Verif.Like.C22_finite_normalized"
   ],
   "note": "both halves"
  },
  {
   "property": "C23",
   "status": "proved",
   "theorems": [
    "Verif.Func.C23_arith_value",
    "Verif.Func.C23_flat",
    "Verif.Func.C23_coefficients",
    "Verif.Func.C23_arith_derivatives"
   ],
   "note": "Every nesting of the operators around any object evaluates to the arithmetic on its value, is one Affine layer, and scales gradient/Hessian by the slope. Func.__div__ is Python-2-only and not modelled."
  },
  {
   "property": "C24",
   "status": "partial",
   "theorems": [
    "Verif.Func.C24_add_exact",
    "Verif.Func.C24_add_correct_iff",
    "Verif.Func.C24_adds_partial",
    "Verif.Func.C24_add_affine_unit_weight",
    "Verif.Func.C24_weighted_offset_counterexample",
    "Verif.Func.C24_nested_sum_counterexample"
   ],
   "note": "Proved for offset-free objects and any sequence of additions; C24_add_exact states the exact error otherwise and C24_add_correct_iff when it vanishes. The full claim is false (two counterexamples): Sum.add adds foo.b without the weight."
  },
  {
   "property": "C25",
   "status": "partial",
   "theorems": [
    "Verif.Func.C25_eval_agrees_partial",
    "Verif.Func.C25_sum_eval_misses_offset",
    "Verif.Func.C25_sum_with_offset_counterexample"
   ],
   "note": "Proved for every expression over the six combinators with offset-free Sums and order-compatible FuncWraps. False for every Sum with an offset (Sum.eval ignores self.b) and FuncWrap.eval raises for decreasing maps."
  },
  {
   "property": "C26",
   "status": "partial",
   "theorems": [
    "Verif.Func.C26_composite_derivatives_partial",
    "Verif.Func.C26_partial_derivatives_partial"
   ],
   "note": "Proved for every expression over the six combinators (first and second derivatives, along every curve and as partial derivatives) except FuncWrap with repeated indices, where it is false, or permuted maps around functions that provide only the lower triangle."
  },
  {
   "property": "C27",
   "status": "partial",
   "theorems": [
    "Verif.Func.C27_unlisted_zero",
    "Verif.Func.C27_listed_gradient_partial",
    "Verif.Func.C27_listed_hessian_partial",
    "Verif.Func.C27_eval_increasing_partial",
    "Verif.Func.C27_eval_raises_on_decreasing_map",
    "Verif.Func.C27_repeated_index_counterexample",
    "Verif.Func.C27_decreasing_map_counterexample"
   ],
   "note": "Zero derivative for unlisted parameters (all maps), true gradients for repetition-free maps, true Hessians and eval for increasing ones; repeated indices give a wrong gradient and decreasing maps make eval raise (counterexamples)."
  },
  {
   "property": "C28",
   "status": "proved",
   "theorems": [
    "Verif.Func.C28_product_adds",
    "Verif.Func.C28_product_flat",
    "Verif.Func.C28_bad_map_raises"
   ],
   "note": "For every sequence of additions and nesting; a Product without atoms (which raises in Python) has value 1 in the model."
  },
  {
   "property": "C29",
   "status": "proved",
   "theorems": [
    "Verif.Func.C29_X",
    "Verif.Func.C29_Scalar",
    "Verif.Func.C29_Vector",
    "Verif.Func.C29_Constant",
    "Verif.Func.C29_Exp",
    "Verif.Func.C29_Log",
    "Verif.Func.C29_Logistic",
    "Verif.Func.C29_ArcTan",
    "Verif.Func.C29_Sigmoid",
    "Verif.Func.C29_Linear",
    "Verif.Func.C29_Quadratic"
   ],
   "note": "All eleven functions: gradient, Hessian, eval consistency and null flags (AtomOk), Log where entries are non-zero, Linear with as many (scalar) weights as parameters. Linear with fewer weights and array weights are not modelled."
  },
  {
   "property": "C30",
   "status": "proved",
   "theorems": [
    "Verif.Func.C30_poisson_values",
    "Verif.Func.C30_poisson_grad",
    "Verif.Func.C30_poisson_hess",
    "Verif.Func.C30_poisson_eval",
    "Verif.Func.C30_poisson_lengths",
    "Verif.Func.C30_negbin_values",
    "Verif.Func.C30_negbin_grad",
    "Verif.Func.C30_negbin_hess",
    "Verif.Func.C30_poisson_atom",
    "Verif.Func.C30_negbin_atom",
    "Verif.Func.C30_negbin_composed"
   ],
   "note": "Values, first and second derivatives of every component for every size; eval; NegativeBinomial = Exp @ LogNegativeBinomial."
  },
  {
   "property": "C31",
   "status": "partial",
   "theorems": [
    "Verif.Func.C31_game_grad",
    "Verif.Func.C31_game_hess",
    "Verif.Func.C31_tiebreak_grad",
    "Verif.Func.C31_tiebreak_hess",
    "Verif.Func.C31_set_grad_p_partial",
    "Verif.Func.C31_set_grad_t_partial",
    "Verif.Func.C31_set_hess_pp",
    "Verif.Func.C31_set_hess_tp",
    "Verif.Func.C31_set_hess_tt",
    "Verif.Func.C31_set_clip_counterexample"
   ],
   "note": "Game and TieBreak for every p; Set inside its clipping interval [1e-10, 1-1e-10]. False outside: the value is clipped, the gradient is not (counterexample)."
  },
  {
   "property": "C32",
   "status": "proved",
   "theorems": [
    "Verif.Func.C32_game_total",
    "Verif.Func.C32_game_nonneg",
    "Verif.Func.C32_tiebreak_total",
    "Verif.Func.C32_tiebreak_nonneg",
    "Verif.Func.C32_set_total",
    "Verif.Func.C32_set_nonneg"
   ],
   "note": "Totals for every real p (and t), non-negativity for probabilities; Set including its clipping."
  },
  {
   "property": "C33",
   "status": "partial",
   "theorems": [
    "Verif.Func.C33_rotated_cell",
    "Verif.Func.C33_elementwise_partial",
    "Verif.Func.C33_symmetric_partial",
    "Verif.Func.C33_two_axes_counterexample",
    "Verif.Tens.C33_test_set_partial",
    "Verif.Tens.C33_test_set_hess_counterexample"
   ],
   "note": "Proved for 0 and 1 feature axes and for rotation-invariant parameters; C33_rotated_cell states which entry is read in general; false for two axes (counterexample): np.stack(g).swapaxes(0, -1). For the model of test_set (Set @ [Collapse(Game), Collapse(TieBreak)] @ Logistic on an antisymmetric matrix of log-odds) the values and first derivatives are right in spite of it, for game probabilities that Set does not clip (C33_test_set_partial); the second derivatives, which std_error uses, are not (C33_test_set_hess_counterexample)."
  },
  {
   "property": "C34",
   "status": "proved",
   "theorems": [
    "Verif.Markov.C34_markovMatrix_distribution",
    "Verif.Markov.C34_markovVector_distribution",
    "Verif.Markov.C34_accepted_iff",
    "Verif.Tens.C34_markovVector_positive",
    "Verif.Tens.C34_markovMatrix_positive"
   ],
   "note": "Both functions, every size, steps, skew in [0,1], array of parameters; exactly which parameters are accepted, and positivity of every cell for positive rates."
  },
  {
   "property": "C35",
   "status": "proved",
   "theorems": [
    "Verif.Markov.C35_matrix_sweep_is_one_step",
    "Verif.Markov.C35_matrix_is_walk",
    "Verif.Markov.C35_vector_sweep_is_one_step",
    "Verif.Markov.C35_vector_is_walk",
    "Verif.Markov.C35_frames"
   ],
   "note": "One in-place sweep = one synchronous step of the walk of Spec/Markov.lean for every state, and the returned frames are its distribution after `steps` steps."
  },
  {
   "property": "C36",
   "status": "partial",
   "theorems": [
    "Verif.Markov.C36_matrix_curve_partial",
    "Verif.Markov.C36_vector_curve",
    "Verif.Markov.C36_matrix_grad_and_diagonal",
    "Verif.Markov.C36_eval_value",
    "Verif.Markov.C36_vector_atom",
    "Verif.Markov.C36_matrix_atom_partial",
    "Verif.Markov.C36_matrix_mixed_iff",
    "Verif.Markov.C36_matrix_mixed_counterexample",
    "Verif.Markov.C36_matrix_repaired"
   ],
   "note": "MarkovVector: all derivatives, every skew. MarkovMatrix: gradients and both pure second derivatives for every skew; the mixed one for symmetric skew (the default); false otherwise (counterexample; C36_matrix_mixed_iff says exactly when, C36_matrix_repaired proves the one-line repair)."
  },
  {
   "property": "C37",
   "status": "partial",
   "theorems": [
    "Verif.Markov.C37_default_three_sums",
    "Verif.Markov.C37_default_total",
    "Verif.Markov.C37_default_grad",
    "Verif.Markov.C37_custom_conditions_counterexample",
    "Verif.Markov.C37_partition_partial",
    "Verif.Markov.C37_grad_layout",
    "Verif.Markov.C37_grad_layout_rotated"
   ],
   "note": "Default conditions: values, total, linear gradient, and the gradient's axes for at most two feature axes (rotated for more, C37_grad_layout_rotated). User supplied conditions raise AttributeError (counterexample)."
  },
  {
   "property": "C38",
   "status": "proved",
   "theorems": [
    "Verif.Copula.C38_marginals",
    "Verif.Copula.C38_total",
    "Verif.Copula.C38_accepted",
    "Verif.Copula.C38_any_function"
   ],
   "note": "All four classes, any lengths, non-negative weights with positive total (numpy's 0/inf conventions at weight 0 modelled explicitly); AkiMikhailHaq(1) with both first weights zero (nan) excluded. Gaussian calls compiled routines and is not modelled; C38_any_function covers the wrapper for it."
  },
  {
   "property": "C39",
   "status": "proved",
   "theorems": [
    "Verif.Copula.C39_nonneg",
    "Verif.Copula.C39_le_one"
   ],
   "note": "Same quantifier as C38; convexity for Clayton and Gumbel, direct for Frank and AkiMikhailHaq."
  },
  {
   "property": "C40",
   "status": "proved",
   "theorems": [
    "Verif.Skellam.C40_poisson_vector",
    "Verif.Skellam.C40_poisson_cdf",
    "Verif.Skellam.C40_poisson_mid_cdf",
    "Verif.Skellam.C40_cdf_bounds"
   ],
   "note": "poisson_vector rows, poisson_cdf, poisson_mid_cdf with HasDerivAt for the second component; cdf within [0,1]"
  },
  {
   "property": "C41",
   "status": "partial",
   "theorems": [
    "Verif.Skellam.C41_complement",
    "Verif.Skellam.C41_complement_call",
    "Verif.Skellam.C41_values",
    "Verif.Skellam.C41_derivatives",
    "Verif.Skellam.C41_sign_counterexample",
    "Verif.Skellam.C41_exchanged",
    "Verif.Skellam.C41_pair_call",
    "Verif.Skellam.C41_cdf_call",
    "Verif.Skellam.C41_tables_partial"
   ],
   "note": "table identities, strict/non-strict weights and derivatives proved for every size, and for the public functions at the size that the tolerance gives (C41_pair_call, C41_cdf_call); the documented sign (X - Y) is wrong: the quantities are for Y - X (C41_sign_counterexample, C41_exchanged)"
  },
  {
   "property": "C42",
   "status": "partial",
   "theorems": [
    "Verif.Skellam.C42_returns_root_partial",
    "Verif.Skellam.C42_terminates",
    "Verif.Skellam.C42_invalid_target_counterexample",
    "Verif.Skellam.C42_results"
   ],
   "note": "every number returned is a positive root within tol, loop ends within 51 iterations; but invalid targets and non-convergence RETURN the exception class instead of raising (C42_invalid_target_counterexample)"
  },
  {
   "property": "C43",
   "status": "proved",
   "theorems": [
    "Verif.Skellam.C43_returns_root",
    "Verif.Skellam.C43_terminates",
    "Verif.Skellam.C43_invalid_targets"
   ],
   "note": "|tol| < 1; returned pairs are positive roots for the tables used, at most 51 iterations, ValueError on invalid targets"
  },
  {
   "property": "C44",
   "status": "partial",
   "theorems": [
    "Verif.Skellam.C44_returns_root_partial",
    "Verif.Skellam.C44_invalid_target",
    "Verif.Skellam.C44_diverges_counterexample",
    "Verif.Skellam.C44_root_exists"
   ],
   "note": "a returned value is a root for the table sizes of the last iteration; termination is false (count is never incremented): C44_diverges_counterexample"
  },
  {
   "property": "C45",
   "status": "proved",
   "theorems": [
    "Verif.Prep.C45_cells",
    "Verif.Prep.C45_axes",
    "Verif.Prep.C45_total",
    "Verif.Prep.C45_count",
    "Verif.Prep.C45_plain"
   ],
   "note": "MultiIndex and plain index; cells, axes, totals and counts"
  },
  {
   "property": "C46",
   "status": "partial",
   "theorems": [
    "Verif.Prep.C46_cells_partial",
    "Verif.Prep.C46_name_clash_counterexample"
   ],
   "note": "proved except for a transformation called \"N\", whose result is overwritten by the weights (C46_name_clash_counterexample)"
  },
  {
   "property": "C47",
   "status": "partial",
   "theorems": [
    "Verif.Prep.C47_one_hot_partial",
    "Verif.Prep.C47_last_columns",
    "Verif.Prep.C47_overflow_counterexample",
    "Verif.Prep.C47_size_one"
   ],
   "note": "one row per observation, one True per row, columns below size-2 right; the last two columns are exchanged (np.insert at -1) for every size (C47_overflow_counterexample, C47_last_columns); size = 1 raises"
  },
  {
   "property": "C48",
   "status": "proved",
   "theorems": [
    "Verif.Tens.C48_toarray",
    "Verif.Tens.C48_unmapped",
    "Verif.Tens.C48_needs_diagonal_storage"
   ],
   "note": "every Tensor in diagonal storage; C48_needs_diagonal_storage shows the hypothesis is needed"
  },
  {
   "property": "C49",
   "status": "partial",
   "theorems": [
    "Verif.Tens.C49_neg",
    "Verif.Tens.C49_raises_iff",
    "Verif.Tens.C49_scalar_partial",
    "Verif.Tens.C49_rdiv_counterexample"
   ],
   "note": "proved except for scalar / Tensor, which leaves zeros off the diagonal (C49_rdiv_counterexample)"
  },
  {
   "property": "C50",
   "status": "partial",
   "theorems": [
    "Verif.Tens.C50_add_sub_partial",
    "Verif.Tens.C50_add_sub_storage",
    "Verif.Tens.C50_add_sub_succeeds",
    "Verif.Tens.C50_toarray_partial",
    "Verif.Tens.C50_commutative_partial",
    "Verif.Tens.C50_scalar_left_counterexample"
   ],
   "note": "proved except for a scalar Tensor on the left of a Tensor with maps (C50_scalar_left_counterexample)"
  },
  {
   "property": "C52",
   "status": "partial",
   "theorems": [
    "Verif.Tens.C52_transpose_partial",
    "Verif.Tens.C52_transpose_twice_partial",
    "Verif.Tens.C52_transpose_counterexample"
   ],
   "note": "proved when one of the spaces is empty or both have one axis; for every other pair of axis counts the moveaxis loop mixes the axes (C52_transpose_counterexample)"
  },
  {
   "property": "C53",
   "status": "proved",
   "theorems": [
    "Verif.Tens.C53_expand_values",
    "Verif.Tens.C53_expand_dim",
    "Verif.Tens.C53_raises_iff"
   ],
   "note": "value axes and dim axes, and exactly when expand raises"
  },
  {
   "property": "C54",
   "status": "proved",
   "theorems": [
    "Verif.Tens.C54_flip",
    "Verif.Tens.C54_refuses_mapped",
    "Verif.Tens.C54_flip_twice"
   ],
   "note": "flip of distinct existing axes, twice, and refusal of mapped axes"
  },
  {
   "property": "C60",
   "status": "proved",
   "theorems": [
    "Verif.Tens.C60_drop_dim_toarray",
    "Verif.Tens.C60_drop_dim"
   ],
   "note": "drop_dim"
  },
  {
   "property": "C51",
   "status": "partial",
   "theorems": [
    "Verif.Tens.C51_mul_div_partial",
    "Verif.Tens.C51_mul_div_storage",
    "Verif.Tens.C51_toarray_partial",
    "Verif.Tens.C51_commutative_partial",
    "Verif.Tens.C51_value_tensor_ok",
    "Verif.Tens.C51_gradients_ok",
    "Verif.Tens.C51_same_maps_ok",
    "Verif.Tens.C51_cross_raises",
    "Verif.Tens.C51_mul_div_succeeds",
    "Verif.Tens.C51_take_diag_counterexample",
    "Verif.Tens.C51_y_map_counterexample",
    "Verif.Tens.C51_length_counterexample"
   ],
   "note": "proved for the products and quotients formed by the package (value Tensors, gradients in different spaces, equal maps) and whenever the diagonal can be taken; counterexamples for diagonals of inner axes, y maps with x axes, maps of different lengths; C51_cross_raises for different maps"
  },
  {
   "property": "C55",
   "status": "partial",
   "theorems": [
    "Verif.Tens.C55_sum_all_partial",
    "Verif.Tens.C55_sum_axes_partial",
    "Verif.Tens.C55_sum_dim",
    "Verif.Tens.C55_sum_nothing_drops_dim",
    "Verif.Tens.C55_repeated_axis_raises",
    "Verif.Tens.C55_remaining_map_counterexample",
    "Verif.Tens.C55_same_axis_counterexample"
   ],
   "note": "proved for sum over all value axes, over lists containing all mapped axes, over dim only; findings: sum(False, False) drops dim, a mapped axis that is not summed loses its map, two axes mapped to the same value axis"
  },
  {
   "property": "C56",
   "status": "partial",
   "theorems": [
    "Verif.Tens.C56_dot_vector_partial",
    "Verif.Tens.C56_dot_matrix_partial",
    "Verif.Tens.C56_dot_refused",
    "Verif.Tens.C56_dot_zero",
    "Verif.Tens.C56_dot_left_partial",
    "Verif.Tens.C56_dot_left_transposed_partial",
    "Verif.Tens.C56_dot_left_map_raises",
    "Verif.Tens.C56_dot_right_partial",
    "Verif.Tens.C56_dot_right_zero",
    "Verif.Tens.C56_dot_right_asserts",
    "Verif.Tens.C56_dot_right_map_raises",
    "Verif.Tens.C56_unmapped_axis_counterexample",
    "Verif.Tens.C56_same_axis_counterexample",
    "Verif.Tens.C56_unmapped_y_counterexample"
   ],
   "note": "proved for dot, dot_left, dot_right with vector-like operands with injective maps and diagonals along mapped axes (both branches of dot_left, the transposed case, dot_right); findings: dot_right/dot_left raise IndexError when the operand is diagonal beyond the map, diagonal lost for a map with unmapped axes, two axes mapped to one value axis"
  },
  {
   "property": "C57",
   "status": "partial",
   "theorems": [
    "Verif.Tens.C57_add_sub_partial",
    "Verif.Tens.C57_add_sub_storage",
    "Verif.Tens.C57_mul_div_partial",
    "Verif.Tens.C57_mul_div_value",
    "Verif.Tens.C57_neg",
    "Verif.Tens.C57_division_raises",
    "Verif.Tens.C57_generic_add_sub",
    "Verif.Tens.C57_generic_mul_partial",
    "Verif.Tens.C57_tensor_generic_partial",
    "Verif.Tens.C57_expressions",
    "Verif.Tens.C57_array_finding",
    "Verif.Tens.C57_add_sub_succeeds"
   ],
   "note": "proved for GenericTensors built from Tensors (all expressions of +, -, unary minus and products with value Tensors, C57_expressions; products of GenericTensors when C51 applies to the elements); finding: arrays are appended as they are, later products raise AttributeError"
  },
  {
   "property": "C58",
   "status": "partial",
   "theorems": [
    "Verif.Tens.C58_toarray_partial",
    "Verif.Tens.C58_layout_counterexample",
    "Verif.Tens.C58_broadcast_diagonal_counterexample",
    "Verif.Tens.C58_sum_all_partial",
    "Verif.Tens.C58_sum_dim",
    "Verif.Tens.C58_sum_raises",
    "Verif.Tens.C58_sum_raises_example",
    "Verif.Tens.C58_sum_missing_axis_counterexample",
    "Verif.Tens.C58_sum_list_keeps_axes",
    "Verif.Tens.C58_sum_axis_zero"
   ],
   "note": "toarray() is the represented array when all elements have the full layout and no diagonal is broadcast (counterexamples for both: the trailing-axes alignment of toarray and the broadcast diagonal); sum(True, \u2026) is the sum over the value (and dim) axes counting broadcast elements, sum(False, True) over the dim axes; sum raises IndexError when an element lacks axes, miscounts when its dim axis is taken for a value axis (counterexample), ignores partial lists of axes, and sum(0, False) returns the tensor unchanged. Missing: elements without value axes, broadcast diagonals and non-injective maps, for which the claim is false."
  },
  {
   "property": "C61",
   "status": "partial",
   "theorems": [
    "Verif.Tens.C61_expand_values",
    "Verif.Tens.C61_expand_dim",
    "Verif.Tens.C61_flip",
    "Verif.Tens.C61_flip_refuses_mapped",
    "Verif.Tens.C61_transpose_partial",
    "Verif.Tens.C61_drop_dim",
    "Verif.Tens.C61_drop_dim_counterexample"
   ],
   "note": "expand, flip and drop_dim proved for elements with all the value (or dim) axes; transpose for at most one x and one y axis (otherwise Tensor.transpose is wrong, C52); counterexample: drop_dim of an element with a dim axis but no value axes."
  },
  {
   "property": "C62",
   "status": "proved",
   "theorems": [
    "Verif.Tens.C62_hess_tensor",
    "Verif.Tens.C62_grad_tensor",
    "Verif.Tens.C62_grad_diagonal",
    "Verif.Tens.C62_grad_raises_iff",
    "Verif.Tens.C62_map_out_of_range"
   ],
   "note": "grad_tensor and hess_tensor, all three kinds of maps, dense array and shapes; toarray of the diagonal case; rejected iff values has too few axes. Finding (C62_map_out_of_range): a map pointing past the value axes is accepted and yields a malformed tensor."
  },
  {
   "property": "C63",
   "status": "partial",
   "theorems": [
    "Verif.Tens.C63_poisson_like",
    "Verif.Tens.C63_poisson_grad",
    "Verif.Tens.C63_poisson_hess",
    "Verif.Tens.C63_zeroInflatedPoisson_like",
    "Verif.Tens.C63_zeroInflatedPoisson_grad",
    "Verif.Tens.C63_zeroInflatedPoisson_hess",
    "Verif.Tens.C63_logistic_like",
    "Verif.Tens.C63_logistic_grad",
    "Verif.Tens.C63_logistic_hess",
    "Verif.Tens.C63_poisson_derivatives",
    "Verif.Tens.C63_zeroInflatedPoisson_derivatives",
    "Verif.Tens.C63_logistic_derivatives",
    "Verif.Tens.C63_negativeBinomial_derivatives",
    "Verif.Tens.C63_normalizedFinite_derivatives",
    "Verif.Tens.C63_finite_derivatives_partial",
    "Verif.Tens.C63_finite_grad_broadcast",
    "Verif.Tens.C63_finite_like_broadcast",
    "Verif.Tens.C63_negativeBinomial_like",
    "Verif.Tens.C63_negativeBinomial_grad",
    "Verif.Tens.C63_negativeBinomial_hess",
    "Verif.Tens.C63_normalizedFinite_like",
    "Verif.Tens.C63_normalizedFinite_grad",
    "Verif.Tens.C63_normalizedFinite_hess",
    "Verif.Tens.C63_finite_like",
    "Verif.Tens.C63_finite_grad",
    "Verif.Tens.C63_finite_hess"
   ],
   "note": "proved for all six likelihood classes, the methods modelled as the sequence of Tensor operations they execute; models may be stored with axes of size 1, for Finite with feature axes of size 1; missing: Finite when the model or a derivative is stored with outcome axes of size 1, for which the claim is false (C63_finite_like_broadcast, C63_finite_grad_broadcast)"
  },
  {
   "property": "C64",
   "status": "partial",
   "theorems": [
    "Verif.Tens.C64_add_sum",
    "Verif.Tens.C64_add_affine_sum",
    "Verif.Tens.C64_swallowed_error_counterexample",
    "Verif.Tens.C64_flip_eval_counterexample",
    "Verif.Tens.C64_collapse_broadcast_counterexample",
    "Verif.Tens.C64_collapse_partial",
    "Verif.Tens.C64_example_centered",
    "Verif.Tens.C64_fit_poisson",
    "Verif.Tens.C64_fit_zeroInflatedPoisson",
    "Verif.Tens.C64_fit_logistic",
    "Verif.Tens.C64_fit_negativeBinomial",
    "Verif.Tens.C64_fit_normalizedFinite",
    "Verif.Tens.C64_fit_finite",
    "Verif.Tens.C64_flip_call_partial",
    "Verif.Tens.C64_flip_grad",
    "Verif.Tens.C64_flip_counterexample",
    "Verif.Tens.C64_X",
    "Verif.Tens.C64_Exp",
    "Verif.Tens.C64_Log",
    "Verif.Tens.C64_Logistic",
    "Verif.Tens.C64_ArcTan",
    "Verif.Tens.C64_Poisson",
    "Verif.Tens.C64_LogNegativeBinomial",
    "Verif.Tens.C64_Constant",
    "Verif.Tens.C64_Vector",
    "Verif.Tens.C64_Scalar",
    "Verif.Tens.C64_affine",
    "Verif.Tens.C64_sum_partial",
    "Verif.Tens.C64_wrap_partial",
    "Verif.Tens.C64_example_poisson",
    "Verif.Tens.C64_example_normalizedFinite"
   ],
   "note": "FuncWrap (increasing param_map, injective feat_map and dim_map, no feat_flip for the derivatives), Affine, Sum (offset 0, any weights), the elementary functions, and all six likelihood classes on a model built from them; the methods are modelled as the Tensor operations they execute. With feat_flip: calling returns the reversed values (C64_flip_call_partial), but grad raises NotImplementedError and eval fails as soon as a feature of a parameter axis is flipped (C64_flip_grad, C64_flip_counterexample). Collapse is covered as a constraint or penalty (C67_collapse_*), as outer function (C65), and as an atom of Sum or FuncWrap when all arrays of the summed function have full size and its second derivatives are Tensors or GenericTensors in which the axes of each parameter occur in some element (C64_collapse_partial, C64_example_centered, C68_example_centered). Collapse of a function whose derivatives are broadcast, such as a_i + b_j, has wrong derivatives (C64_collapse_broadcast_counterexample, executed by the kernel); FuncWrap.grad reports 0 for a function whose grad raises ValueError (C64_swallowed_error_counterexample); with feat_flip of an axis of size 1, eval returns two derivatives for one parameter (C64_flip_eval_counterexample). Missing: Collapse of a function with GenericTensor second derivatives inside a Sum (Product is C66). Finite needs a model whose arrays are not broadcast along an outcome axis; with one, like is wrong (C63_finite_like_broadcast). Sum.add of a Sum or of a * Sum, which takes the argument apart, adds the weighted function (C64_add_sum, C64_add_affine_sum)."
  },
  {
   "property": "C65",
   "status": "partial",
   "theorems": [
    "Verif.Tens.C65_CollapseMatrix_acts_partial",
    "Verif.Tens.C65_equal_features",
    "Verif.Tens.C65_example_kullback_leibler",
    "Verif.Tens.C65_example_markov_kullback_leibler",
    "Verif.Tens.C65_CollapseMatrix_partial",
    "Verif.Tens.C65_matrix_parameter_counterexample",
    "Verif.Tens.C65_separate_counterexample",
    "Verif.Tens.C65_linear_outer_counterexample",
    "Verif.Tens.C65_three_features_counterexample",
    "Verif.Tens.C65_vector_counterexample",
    "Verif.Tens.C65_compose_partial",
    "Verif.Tens.C65_Exp",
    "Verif.Tens.C65_Log",
    "Verif.Tens.C65_Logistic",
    "Verif.Tens.C65_ArcTan",
    "Verif.Tens.C65_Poisson",
    "Verif.Tens.C65_LogNegativeBinomial",
    "Verif.Tens.C65_compose_acts_partial",
    "Verif.Tens.C65_NegativeBinomial",
    "Verif.Tens.C65_MarkovVector",
    "Verif.Tens.C65_MarkovMatrix_partial",
    "Verif.Tens.C65_example_markov_vector",
    "Verif.Tens.C65_example_markov_matrix",
    "Verif.Tens.C65_set_chain_partial",
    "Verif.Tens.C65_example_set_normalized",
    "Verif.Tens.C65_example_set_finite",
    "Verif.Tens.C65_Collapse_partial",
    "Verif.Tens.C65_Game_partial",
    "Verif.Tens.C65_TieBreak_partial",
    "Verif.Tens.C65_Set_partial",
    "Verif.Tens.C65_example_finite",
    "Verif.Tens.C65_example_negativeBinomial",
    "Verif.Tens.C65_example_poisson_sum"
   ],
   "note": "Compose as the Tensor operations it executes, for outer functions whose derivatives are not null and inner functions in which every parameter occurs and every parameter axis is mapped (with an unmapped axis the Hessian can be wrong, C52); examples: the models of test_finite, test_finite_negative_binomial, test_poisson_sum, test_markov_vector, test_markov_matrix, test_kullback_leibler and test_markov_kullback_leibler. CollapseMatrix() as the outer function for at most two features, or more features of equal size (precisely: sizes that do not change if the features are moved by two places). MarkovVector and MarkovMatrix (symmetric skew) as outer functions on the rates their assertions accept. Game, TieBreak, Set and Collapse(_, False) as outer functions on arrays with one axis (C65_example_set_*; for two axes see C33). False of the code, with counterexamples executed by the kernel: an inner function that sums over the axes of a matrix parameter (wrong Hessian), a parameter that does not occur in one of the inner functions (AssertionError), X as outer function (the Hessian is a number, Sum.eval raises AttributeError), CollapseMatrix() on three features (ValueError), Vector on a parameter that is not a number. Missing: Game/TieBreak/Set on three or more axes."
  },
  {
   "property": "C66",
   "status": "proved",
   "theorems": [
    "Verif.Tens.C66_product",
    "Verif.Tens.C66_example_matrix",
    "Verif.Tens.C66_example_poisson3"
   ],
   "note": "Product as the Tensor operations it executes, for any positive number of atoms each of which (wrapped, C64_wrap_partial) returns its function with its derivatives, however they are stored; K', Store.prod only record which storage facts survive. The likelihood part is C64_fit_* applied to the result; examples: the models of test_poisson_matrix, test_poisson2 and test_poisson3. Flattening of nested Products in add is C28. Not covered: Product() with no atoms (reduce raises)."
  },
  {
   "property": "C67",
   "status": "partial",
   "theorems": [
    "Verif.Tens.C67_collapse_penalty",
    "Verif.Tens.C67_collapse_constraint",
    "Verif.Tens.C67_example_exponentials",
    "Verif.Tens.C67_decreasing_counterexample",
    "Verif.Tens.C67_whole_poisson",
    "Verif.Tens.C67_whole_zeroInflatedPoisson",
    "Verif.Tens.C67_whole_logistic",
    "Verif.Tens.C67_whole_negativeBinomial",
    "Verif.Tens.C67_whole_normalizedFinite",
    "Verif.Tens.C67_whole_finite",
    "Verif.Tens.C67_linear_penalty_counterexample",
    "Verif.Tens.C67_repeated_counterexample",
    "Verif.Tens.C67_collapse_broadcast_counterexample",
    "Verif.Tens.C67_unused_penalty_counterexample",
    "Verif.Tens.C67_flat_partial",
    "Verif.Tens.C67_flat",
    "Verif.Tens.C67_linear",
    "Verif.Tens.C67_quadratic",
    "Verif.Tens.C67_example_poisson_sum",
    "Verif.Tens.C67_affine_constraint",
    "Verif.Tens.C67_affine_penalty",
    "Verif.Tens.C67_linear_value",
    "Verif.Tens.C67_quadratic_strength",
    "Verif.Tens.C67_quadratic_constraint",
    "Verif.Tens.C67_scalar_constraint",
    "Verif.Tens.C67_shifted_scalar_counterexample"
   ],
   "note": "flat_grad and flat_hess as the Tensor operations they execute; C67_flat has no error case: it needs the likelihood's arrays to have the parameters' shapes, and C67_whole_* proves this for the six likelihoods if every parameter occurs in the model. Terms: Linear, Quadratic, Scalar, Collapse(f) for every f of C64-C66 without broadcast axes (C67_collapse_*; example: the exponentials of the entries sum to c), and a * f + b of a term whose grad and hess are not null functions (C67_affine_*); C67_shifted_scalar_counterexample: Scalar() - c raises TypeError. Terms whose param_map is not in increasing order make flat_hess raise, for all six likelihoods and every function (C67_decreasing_counterexample). Missing: terms with a repeated param_map (wrong blocks: C16), and models in which an array parameter does not occur: then flat_grad raises IndexError unless a regularisation has the parameter (C68_unused_*); with one, C67_flat_partial (the same result or IndexError) Also false, executed by the kernel: the regularisation Linear (AttributeError), a term that names a parameter twice (half the second derivative), Collapse of a broadcast function (wrong gradient), a regularised array parameter that does not occur in the model (flat_hess raises IndexError)."
  },
  {
   "property": "C68",
   "status": "proved",
   "theorems": [
    "Verif.Tens.C68_example_centered",
    "Verif.Tens.C68_decreasing_counterexample",
    "Verif.Tens.C68_example_poisson",
    "Verif.Tens.C68_example_poisson2",
    "Verif.Tens.C68_example_poisson3",
    "Verif.Tens.C68_example_poisson_reg",
    "Verif.Tens.C68_example_zeroInflatedPoisson",
    "Verif.Tens.C68_example_logistic",
    "Verif.Tens.C68_example_negativeBinomial",
    "Verif.Tens.C68_example_finite",
    "Verif.Tens.C68_example_finiteNegativeBinomial",
    "Verif.Tens.C68_example_poisson_matrix",
    "Verif.Tens.C68_example_kullback_leibler",
    "Verif.Tens.C68_example_markov_vector",
    "Verif.Tens.C68_example_markov_matrix",
    "Verif.Tens.C68_example_markov_kullback_leibler",
    "Verif.Tens.C68_example_set",
    "Verif.Tens.C68_example_logistic_cross",
    "Verif.Tens.C68_objective",
    "Verif.Tens.C68_newton_step",
    "Verif.Tens.C68_step_zero_iff",
    "Verif.Tens.C68_optimum_kept",
    "Verif.Tens.C68_never_decreases",
    "Verif.Tens.C68_constraints",
    "Verif.Tens.C68_outcomes",
    "Verif.Tens.C68_solver_poisson",
    "Verif.Tens.C68_solver_zeroInflatedPoisson",
    "Verif.Tens.C68_solver_logistic",
    "Verif.Tens.C68_solver_negativeBinomial",
    "Verif.Tens.C68_solver_normalizedFinite",
    "Verif.Tens.C68_solver_finite",
    "Verif.Tens.C68_example",
    "Verif.Tens.C68_example_fit",
    "Verif.Tens.C68_kept_only",
    "Verif.Tens.C68_affine_constraints",
    "Verif.Tens.C68_linear_value_affine",
    "Verif.Tens.C68_example_value",
    "Verif.Tens.C68_unused_poisson",
    "Verif.Tens.C68_unused_zeroInflatedPoisson",
    "Verif.Tens.C68_unused_logistic",
    "Verif.Tens.C68_unused_negativeBinomial",
    "Verif.Tens.C68_unused_normalizedFinite",
    "Verif.Tens.C68_unused_finite",
    "Verif.Tens.C68_example_unused"
   ],
   "note": "fit with Newton's method on Tensors end to end, in exact real arithmetic (np.linalg.solve returns the unique solution or raises LinAlgError). C68_solver_*: the six likelihoods with any model that Computes its function (C64-C66) are such problems; C68_example, C68_example_fit: the model of test_poisson_sum; C68_example_*: the problems of the other fitting tests of the repository (test_poisson, poisson_reg, zero-inflated, logistic, negative binomial, finite, matrix, Kullback-Leibler, Markov, tennis set, logistic_cross, poisson2, poisson3). The log-likelihood must be defined at the points tried (dom); the constraint part is for constraints that are affine functions of the parameters (C68_affine_constraints; Linear(w) - c is one). C68_decreasing_counterexample: a term that lists its parameters in another than increasing order makes every fit raise. C68_kept_only: the converse of C68_optimum_kept. C68_unused_*: if the model does not depend on an array parameter and no regularisation has it, fit raises IndexError with both methods."
  },
  {
   "property": "C69",
   "status": "proved",
   "theorems": [
    "Verif.Tens.C69_after_fit",
    "Verif.Tens.C69_step_exists",
    "Verif.Tens.C69_criteria",
    "Verif.Tens.C69_symmetric",
    "Verif.Tens.C69_smooth",
    "Verif.Tens.C69_smooth_poisson",
    "Verif.Tens.C69_smooth_zeroInflatedPoisson",
    "Verif.Tens.C69_smooth_logistic",
    "Verif.Tens.C69_smooth_negativeBinomial",
    "Verif.Tens.C69_smooth_normalizedFinite",
    "Verif.Tens.C69_smooth_finite",
    "Verif.Tens.C69_example_smooth"
   ],
   "note": "std_error, fisher_matrix, error_matrix and the criteria on the Hessian that a Newton fit on Tensors (C68) stored, in exact arithmetic. That second derivatives of the same parameter commute is a hypothesis of C69_after_fit (SymmetricHess); it holds whenever the penalised log-likelihood is twice continuously differentiable (C69_symmetric, C69_smooth; C69_smooth_*: the six likelihoods of a smooth model; C69_example_smooth: test_poisson_sum); for std_error the objective must curve downwards along the constraints (otherwise NaN). fisher_matrix() returns the Hessian itself (minus the observed information); the Hessian kept is that of the point before the last step (C59); without constraints std_error() raises TypeError (C05). C70_errors has instances."
  },
  {
   "property": "C70",
   "status": "proved",
   "theorems": [
    "Verif.Tens.C70_never_singular",
    "Verif.Tens.C70_errors",
    "Verif.Tens.C70_global_maximum",
    "Verif.Tens.C70_poisson",
    "Verif.Tens.C70_logistic",
    "Verif.Tens.C70_negativeBinomial",
    "Verif.Tens.C70_zeroInflatedPoisson",
    "Verif.Tens.C70_example_poisson",
    "Verif.Tens.C70_example_poisson_reg",
    "Verif.Tens.C70_example_logistic",
    "Verif.Tens.C70_example_negativeBinomial",
    "Verif.Tens.C70_example_fit"
   ],
   "note": "Linear models with Poisson, ZeroInflatedPoisson, Logistic, NegativeBinomial, Linear constraints and Quadratic penalties (C70_poisson, C70_zeroInflatedPoisson, C70_logistic, C70_negativeBinomial give ConcaveProblem). C70_example_*: the problems of test_poisson, test_poisson_reg, test_logistic and test_negative_binomial; foo_wellPosed, C70_example_fit: they are well posed for all sizes, masks and positive weights if vector has two distinct numbers. Exact arithmetic. Not claimed: that the iteration converges."
  },
  {
   "property": "C71",
   "status": "proved",
   "theorems": [
    "Verif.Tens.C71_run",
    "Verif.Tens.C71_reuse",
    "Verif.Tens.C71_first_step",
    "Verif.Tens.C71_optimum_kept",
    "Verif.Tens.C71_example",
    "Verif.Tens.C71_concave_maximum_kept",
    "Verif.Tens.C71_example_broyden",
    "Verif.Tens.C71_decreases_counterexample",
    "Verif.Tens.C71_stored_hessian_counterexample"
   ],
   "note": "Runs of fit(method='broyden') on Tensors in exact arithmetic: C71_run from an object without a usable stored Hessian, C71_reuse from one with a stored square matrix of the right size (as a run that returned leaves it). exactPinvh is the Moore-Penrose inverse of the symmetric matrix with the lower triangle. If a step does not change the derivatives at all, Python goes on with NaN until ConvergenceError; the model raises it at once (constructor stuck of BroydenEnd). Counterexamples: the objective may decrease (C71_decreases_counterexample); with a constraint the stored matrix, hence fisher_matrix(), may be wrong although the problem is exactly quadratic (C71_stored_hessian_counterexample). Not claimed: convergence."
  },
  {
   "property": "C72",
   "status": "partial",
   "theorems": [
    "Verif.Tens.C72_left",
    "Verif.Tens.C72_add_sub",
    "Verif.Tens.C72_mul_values",
    "Verif.Tens.C72_right",
    "Verif.Tens.C72_np_right",
    "Verif.Tens.C72_np_left",
    "Verif.Tens.C72_np_left_counterexample",
    "Verif.Tens.C72_unary",
    "Verif.Tens.C72_unary_refused",
    "Verif.Tens.C72_extremum_number",
    "Verif.Tens.C72_extremum_array",
    "Verif.Tens.C72_extremum_recursion",
    "Verif.Tens.C72_pow",
    "Verif.Tens.C72_pow_zero_counterexample"
   ],
   "note": "Operators and numpy functions with a number or an array on either side (C72_left, C72_right, C72_np_right), functions of one argument, np.maximum/np.minimum with the Tensor first, positive powers; two Tensors (C72_add_sub, C72_mul_values; in general C50, C51, C57). Findings: np.add/subtract/multiply/divide with a Tensor as first argument ignore the second one (C72_np_left, _counterexample), np.maximum/np.minimum with a Tensor as second argument recurse without end (C72_extremum_recursion), t ** 0 is 0 off the stored diagonal. Not modelled: negative exponents, integer dtypes."
  },
  {
   "property": "C73",
   "status": "proved",
   "theorems": [
    "Verif.Protocol.C73_same_parameters",
    "Verif.Protocol.C73_passed_on",
    "Verif.Protocol.C73_grad_list",
    "Verif.Protocol.C73_hess_triangle",
    "Verif.Protocol.C73_hess_one_index",
    "Verif.Protocol.C73_default_eval",
    "Verif.Protocol.C73_no_call",
    "Verif.Protocol.C73_not_inherited",
    "Verif.Protocol.C73_null_func",
    "Verif.Protocol.C73_null_method",
    "Verif.Protocol.C73_library",
    "Verif.Protocol.C73_stored_eval_not_wrapped",
    "Verif.Protocol.C73_list_is_not_one_parameter",
    "Verif.Protocol.C73_example"
   ],
   "note": "The wrappers and FuncMeta.__new__ for arbitrary method bodies. C73_library: with the functions of the library (Model/FuncOpTensor) the wrapped methods are gradAll, hessAll and the default eval that C64-C68 talk about. C73_no_call, C73_not_inherited, C73_null_method, C73_stored_eval_not_wrapped, C73_list_is_not_one_parameter are the exceptions of the statement. Keyword arguments and the six.with_metaclass helper are not modelled."
  },
  {
   "property": "C74",
   "status": "proved",
   "theorems": [
    "Verif.Tens.C74_history",
    "Verif.Tens.C74_get_params",
    "Verif.Tens.C74_fit",
    "Verif.Tens.C74_refits",
    "Verif.Tens.C74_example",
    "Verif.Tens.C74_failed_fit_counterexample",
    "Verif.Tens.C74_problem"
   ],
   "note": "Induction on the sequence of calls, whatever the intermediate fits return. add_param in the forms of C06 (a number or array without mask, an array with a mask array); indices in param_map are natural numbers; the keyword arguments of fit are the data names of the class, as arrays. C74_failed_fit_counterexample: fit is not atomic as to the data. Not modelled: keyword arguments named like other attributes (fit(params=...) overwrites them), data given as Tensors."
  },
  {
   "property": "C75",
   "status": "proved",
   "theorems": [
    "Verif.Tens.C75_aggregate",
    "Verif.Tens.C75_probabilities",
    "Verif.Tens.C75_observations",
    "Verif.Tens.C75_series",
    "Verif.Tens.C75_weighted_series",
    "Verif.Tens.C75_dataframe",
    "Verif.Tens.C75_example"
   ],
   "note": "C75_aggregate (cells to observations), C75_probabilities (normalisation), C75_series, C75_weighted_series, C75_dataframe (from pandas to the problem of the fit), C75_example (a whole program with repeated fits). ZeroInflatedPoisson with s > 0 and prepare_series only (prepare_dataframe cannot count zeros with weights); Logistic with observations 0 and 1. Real numbers, exact arithmetic."
  },
  {
   "property": "C76",
   "status": "proved",
   "theorems": [
    "Verif.Tens.C76_concave",
    "Verif.Tens.C76_estimate",
    "Verif.Tens.C76_never_singular",
    "Verif.Tens.C76_example"
   ],
   "note": "C76_concave (the log-probability of the observations is a concave problem, from C75 and C70), C76_estimate (a zero Newton step characterises the estimate), C76_never_singular (sessions), C76_example (prepare_series, a log-linear Poisson model with b[0] fixed, any fits: unique maximum likelihood estimate). Exact arithmetic; not claimed: that the iteration reaches a zero step."
  },
  {
   "property": "C77",
   "status": "proved",
   "theorems": [
    "Verif.Tens.C77_criteria",
    "Verif.Tens.C77_constant",
    "Verif.Tens.C77_compare",
    "Verif.Tens.C77_raised",
    "Verif.Tens.C77_before",
    "Verif.Tens.C77_errors",
    "Verif.Tens.C77_test_program"
   ],
   "note": "C77_criteria, C77_constant, C77_compare (criteria), C77_before, C77_raised, C77_errors (errors), C77_test_program (the whole of test_poisson, and of the tests of the other concave classes with that model, for any data whose pairs of labels are linked). All entries, fixed or free, count as parameters in the criteria (C18); the matrix that std_error uses is that of a point that the fit visited, not the last one (C59); without constraints std_error raises TypeError (C05). Exact arithmetic."
  },
  {
   "property": "C78",
   "status": "proved",
   "theorems": [
    "Verif.Tens.C78_far_start",
    "Verif.Tens.C78_example_plain",
    "Verif.Tens.C78_example_infeasible",
    "Verif.Tens.C78_example_ends",
    "Verif.Tens.C78_converges",
    "Verif.Tens.C78_regular",
    "Verif.Tens.C78_infeasible",
    "Verif.Tens.C78_steps",
    "Verif.Tens.C78_ends"
   ],
   "note": "C78_converges with C78_regular (near; hypotheses met by C78_example_plain), C78_steps and C78_ends (number of steps; C78_example_ends), C78_far_start (a start from which every fit raises), C78_infeasible with C78_example_infeasible. In real arithmetic; the radius of the neighbourhood is shown to exist, not computed."
  },
  {
   "property": "C79",
   "status": "proved",
   "theorems": [
    "Verif.Tens.C79_fit",
    "Verif.Tens.C79_errors",
    "Verif.Tens.C79_example_expressions",
    "Verif.Tens.C79_example_transposed"
   ],
   "note": "C79_fit (course and result of the fit) and C79_errors (fisher_matrix, error_matrix, std_error afterwards), with C79_example_expressions (test_poisson and test_poisson2 write one model in two ways) and C79_example_transposed (a transposed table with its rows in another order). In real arithmetic, for problems whose log-likelihood is defined and C2 everywhere (C69_smooth_* show it for the six likelihoods). Newton's method only: for Broyden `scipy.linalg.pinvh` is a parameter of the model, about which nothing relates its values on two matrices."
  },
  {
   "property": "C80",
   "status": "proved",
   "theorems": [
    "Verif.Tens.C80_fit",
    "Verif.Tens.C80_path",
    "Verif.Tens.C80_errors",
    "Verif.Tens.C80_logistic",
    "Verif.Tens.C80_finite",
    "Verif.Tens.C80_normalizedFinite",
    "Verif.Tens.C80_poisson",
    "Verif.Tens.C80_zeroInflatedPoisson",
    "Verif.Tens.C80_negativeBinomial",
    "Verif.Tens.C80_example_logistic",
    "Verif.Tens.C80_example_poisson",
    "Verif.Tens.C80_session",
    "Verif.Tens.C80_repeated_rows",
    "Verif.Tens.C80_example_repeated"
   ],
   "note": "C80_fit (course and result), C80_path (with an added constant, for Poisson, ZeroInflatedPoisson and NegativeBinomial), C80_errors (fisher_matrix, error_matrix, std_error); C80_logistic \u2026 C80_negativeBinomial: what the factor does to the six log-likelihoods; C80_session and C80_repeated_rows: the same for the methods of an object with any history, and for a table all of whose rows are given n times, from prepare_series to std_error; C80_example_logistic, C80_example_poisson and C80_example_repeated: the models of the tests. In real arithmetic, for problems whose log-likelihood is defined and C2 everywhere; Newton's method only, as for C79."
  },
  {
   "property": "C81",
   "status": "proved",
   "theorems": [
    "Verif.Prep.C81_series_order",
    "Verif.Prep.C81_plain_order",
    "Verif.Prep.C81_transformations",
    "Verif.Prep.C81_dataframe_order",
    "Verif.Prep.C81_split",
    "Verif.Prep.C81_repeated",
    "Verif.Prep.C81_counterexample_first"
   ],
   "note": "C81_series_order, C81_plain_order, C81_dataframe_order, C81_transformations, C81_split, C81_repeated; C81_counterexample_first: the order matters for a transformation that depends on it. Values in any commutative semiring, real arithmetic for C81_repeated."
  },
  {
   "property": "C82",
   "status": "proved",
   "theorems": [
    "Verif.Copula.C82_negligible",
    "Verif.Copula.C82_accepted",
    "Verif.Copula.C82_nonneg",
    "Verif.Copula.C82_marginals",
    "Verif.Copula.C82_total",
    "Verif.Copula.C82_independent",
    "Verif.Copula.C82_exchanged"
   ],
   "note": "C82_accepted, C82_nonneg, C82_marginals, C82_total, C82_independent, C82_exchanged, C82_negligible. Real arithmetic; the compiled routines `ndtri` and `mvnun` are replaced by the functions they compute (normal quantile, Mathlib's multivariate normal distribution)."
  },
  {
   "property": "C83",
   "status": "proved",
   "theorems": [
    "Verif.Tens.C83_errors",
    "Verif.Tens.C83_example_poisson",
    "Verif.Tens.C83_example_logistic",
    "Verif.Tens.C83_example_start",
    "Verif.Tens.C83_fit"
   ],
   "note": "C83_fit (points, lines, result), C83_errors (fisher_matrix, error_matrix, std_error); C83_example_poisson and C83_example_logistic: the models of the tests with a standardised covariate (C83_example_start: objects that meet the hypotheses). In real arithmetic, for problems whose objective and constraints are defined and C2 everywhere; Newton's method only (a gradient or Broyden step is not invariant under a change of parameters)."
  },
  {
   "property": "C84",
   "status": "partial",
   "theorems": [
    "Verif.Memory.C84_mask_counterexample",
    "Verif.Memory.C84_reused_mask_counterexample",
    "Verif.Memory.C84_result_mask_counterexample",
    "Verif.Memory.C84_view_counterexample",
    "Verif.Memory.C84_example_rejected",
    "Verif.Memory.C84_example_careful",
    "Verif.Memory.C84_state",
    "Verif.Memory.C84_fit",
    "Verif.Memory.C84_methods_do_not_write",
    "Verif.Memory.C84_values_frozen",
    "Verif.Memory.C84_data_frozen",
    "Verif.Memory.C84_get_params_read_only"
   ],
   "note": "C84_state, C84_fit: for programs that write into no mask of a parameter and give arrays without writeable aliases, the object behaves as after the same calls on the contents of the arrays at the time of the call; C84_methods_do_not_write, C84_values_frozen, C84_data_frozen, C84_get_params_read_only hold for all programs. False without these hypotheses (C84_mask_counterexample, C84_reused_mask_counterexample, C84_result_mask_counterexample, C84_view_counterexample). Example: C84_example_careful."
  },
  {
   "property": "C85",
   "status": "proved",
   "theorems": [
    "Verif.Tens.C85_fit",
    "Verif.Tens.C85_errors",
    "Verif.Tens.C85_example_poisson"
   ],
   "note": "C85_fit (points, lines, result, estimates), C85_errors (error_matrix, std_error); C85_example_poisson: test_poisson with `h` fixed at `c` or constrained by `Linear([1]) - c`. In real arithmetic, Newton's method, objective defined and C2 everywhere, at least one free entry, the new constraints after the old ones. (std_error of the problem with fixed entries raises if it has no constraint at all: C05.)"
  },
  {
   "property": "C86",
   "status": "proved",
   "theorems": [
    "Verif.Tens.C86_score",
    "Verif.Tens.C86_poisson",
    "Verif.Tens.C86_logistic",
    "Verif.Tens.C86_example_poisson",
    "Verif.Tens.C86_example",
    "Verif.Tens.C86_mean"
   ],
   "note": "C86_score (per observation, four classes), C86_poisson, C86_logistic (per cell, real-valued data), C86_mean (the means are those of the class's probabilities), C86_example (prepare_series, a log-linear Poisson model, any Newton fits: fitted totals equal observed totals for every label), C86_example_poisson (test_poisson). In real arithmetic, for a Newton step that is exactly zero."
  }
 ]
}