C01 | proved | both directions, plus: too short vectors are rejected
C02 | proved | every outcome, both methods, and over histories of fit calls
C03 | proved | index-level layout; ranks are injective and in range (freeRank_lt, freeRank_injective)
C04 | proved | _reshape_matrix with scalar fill, used by fisher_matrix and error_matrix
C05 | partial | false of the code without constraints (-None is a TypeError): counterexample proved; proved for >= 1 constraint
C06 | partial | false of the code for list arguments (parameters erased, unbounded recursion): counterexample proved; proved for array arguments over all histories
C07 | partial | Newton and invalid method: full; Broyden stores params before a pinvh that may raise: counterexample + partial
C08 | partial | proved under hypotheses: comparison transitive, model.eval agrees with model(); counterexample shows the latter is needed
C09 | proved | budget, honesty, and classification of outcomes for non-raising callbacks
C10 | partial | false of the code (Newton never sets the flag; stale flag): counterexamples; Broyden part proved
C11 | partial | false of the code for Broyden (NameError): counterexample; Newton proved
C12 | proved | slice arithmetic for every nfree >= 1 and every number of constraints; edge case nfree = 0 documented
C59 | partial | false of the code: the stored Hessian is one step behind; counterexample + what holds
C13 | proved | single step scaling and whole Newton trajectory, exact arithmetic and exact solver (hypothesis)
C14 | proved | list model of the update; any ordered field, non-zero gradient change
C15 | proved | index-level layout, any numbers of parameters, constraints, regularisations
C16 | partial | proved for increasing parameter maps; repeated indices give an asymmetric matrix (counterexample), decreasing ones raise (C17)
C17 | partial | false of the code for the Hessian (IndexError for every decreasing map): counterexample; proved for the flat gradient
C18 | partial | false of the code with fixed entries or regularisations: counterexamples; proved otherwise
C19 | proved | six classes, partial derivatives with respect to every parameter entry (dense semantics of the Tensor operations)
C20 | proved | six classes
C21 | proved | Poisson, Logistic, NegativeBinomial (and ZeroInflatedPoisson with s >= 1)
C22 | proved | both halves
C23 | proved | Every nesting of the operators around any object evaluates to the arithmetic on its value, is one Affine layer, and scales gradient/Hessian by the slope. Func.__div__ is Python-2-only and not modelled.
C24 | partial | Proved for offset-free objects and any sequence of additions; C24_add_exact states the exact error otherwise and C24_add_correct_iff when it vanishes. The full claim is false (two counterexamples): Sum.add adds foo.b without the weight.
C25 | partial | Proved for every expression over the six combinators with offset-free Sums and order-compatible FuncWraps. False for every Sum with an offset (Sum.eval ignores self.b) and FuncWrap.eval raises for decreasing maps.
C26 | partial | Proved for every expression over the six combinators (first and second derivatives, along every curve and as partial derivatives) except FuncWrap with repeated indices, where it is false, or permuted maps around functions that provide only the lower triangle.
C27 | partial | Zero derivative for unlisted parameters (all maps), true gradients for repetition-free maps, true Hessians and eval for increasing ones; repeated indices give a wrong gradient and decreasing maps make eval raise (counterexamples).
C28 | proved | For every sequence of additions and nesting; a Product without atoms (which raises in Python) has value 1 in the model.
C29 | proved | All eleven functions: gradient, Hessian, eval consistency and null flags (AtomOk), Log where entries are non-zero, Linear with as many (scalar) weights as parameters. Linear with fewer weights and array weights are not modelled.
C30 | proved | Values, first and second derivatives of every component for every size; eval; NegativeBinomial = Exp @ LogNegativeBinomial.
C31 | partial | Game and TieBreak for every p; Set inside its clipping interval [1e-10, 1-1e-10]. False outside: the value is clipped, the gradient is not (counterexample).
C32 | proved | Totals for every real p (and t), non-negativity for probabilities; Set including its clipping.
C33 | partial | Proved for 0 and 1 feature axes and for rotation-invariant parameters; C33_rotated_cell states which entry is read in general; false for two axes (counterexample): np.stack(g).swapaxes(0, -1). For the model of test_set (Set @ [Collapse(Game), Collapse(TieBreak)] @ Logistic on an antisymmetric matrix of log-odds) the values and first derivatives are right in spite of it, for game probabilities that Set does not clip (C33_test_set_partial); the second derivatives, which std_error uses, are not (C33_test_set_hess_counterexample).
C34 | proved | Both functions, every size, steps, skew in [0,1], array of parameters; exactly which parameters are accepted, and positivity of every cell for positive rates.
C35 | proved | One in-place sweep = one synchronous step of the walk of Spec/Markov.lean for every state, and the returned frames are its distribution after `steps` steps.
C36 | partial | MarkovVector: all derivatives, every skew. MarkovMatrix: gradients and both pure second derivatives for every skew; the mixed one for symmetric skew (the default); false otherwise (counterexample; C36_matrix_mixed_iff says exactly when, C36_matrix_repaired proves the one-line repair).
C37 | partial | Default conditions: values, total, linear gradient, and the gradient's axes for at most two feature axes (rotated for more, C37_grad_layout_rotated). User supplied conditions raise AttributeError (counterexample).
C38 | proved | All four classes, any lengths, non-negative weights with positive total (numpy's 0/inf conventions at weight 0 modelled explicitly); AkiMikhailHaq(1) with both first weights zero (nan) excluded. Gaussian calls compiled routines and is not modelled; C38_any_function covers the wrapper for it.
C39 | proved | Same quantifier as C38; convexity for Clayton and Gumbel, direct for Frank and AkiMikhailHaq.
C40 | proved | poisson_vector rows, poisson_cdf, poisson_mid_cdf with HasDerivAt for the second component; cdf within [0,1]
C41 | partial | table identities, strict/non-strict weights and derivatives proved for every size, and for the public functions at the size that the tolerance gives (C41_pair_call, C41_cdf_call); the documented sign (X - Y) is wrong: the quantities are for Y - X (C41_sign_counterexample, C41_exchanged)
C42 | partial | every number returned is a positive root within tol, loop ends within 51 iterations; but invalid targets and non-convergence RETURN the exception class instead of raising (C42_invalid_target_counterexample)
C43 | proved | |tol| < 1; returned pairs are positive roots for the tables used, at most 51 iterations, ValueError on invalid targets
C44 | partial | a returned value is a root for the table sizes of the last iteration; termination is false (count is never incremented): C44_diverges_counterexample
C45 | proved | MultiIndex and plain index; cells, axes, totals and counts
C46 | partial | proved except for a transformation called "N", whose result is overwritten by the weights (C46_name_clash_counterexample)
C47 | partial | one row per observation, one True per row, columns below size-2 right; the last two columns are exchanged (np.insert at -1) for every size (C47_overflow_counterexample, C47_last_columns); size = 1 raises
C48 | proved | every Tensor in diagonal storage; C48_needs_diagonal_storage shows the hypothesis is needed
C49 | partial | proved except for scalar / Tensor, which leaves zeros off the diagonal (C49_rdiv_counterexample)
C50 | partial | proved except for a scalar Tensor on the left of a Tensor with maps (C50_scalar_left_counterexample)
C52 | partial | proved when one of the spaces is empty or both have one axis; for every other pair of axis counts the moveaxis loop mixes the axes (C52_transpose_counterexample)
C53 | proved | value axes and dim axes, and exactly when expand raises
C54 | proved | flip of distinct existing axes, twice, and refusal of mapped axes
C60 | proved | drop_dim
C51 | partial | proved for the products and quotients formed by the package (value Tensors, gradients in different spaces, equal maps) and whenever the diagonal can be taken; counterexamples for diagonals of inner axes, y maps with x axes, maps of different lengths; C51_cross_raises for different maps
C55 | partial | proved for sum over all value axes, over lists containing all mapped axes, over dim only; findings: sum(False, False) drops dim, a mapped axis that is not summed loses its map, two axes mapped to the same value axis
C56 | partial | proved for dot, dot_left, dot_right with vector-like operands with injective maps and diagonals along mapped axes (both branches of dot_left, the transposed case, dot_right); findings: dot_right/dot_left raise IndexError when the operand is diagonal beyond the map, diagonal lost for a map with unmapped axes, two axes mapped to one value axis
C57 | partial | proved for GenericTensors built from Tensors (all expressions of +, -, unary minus and products with value Tensors, C57_expressions; products of GenericTensors when C51 applies to the elements); finding: arrays are appended as they are, later products raise AttributeError
C58 | partial | toarray() is the represented array when all elements have the full layout and no diagonal is broadcast (counterexamples for both: the trailing-axes alignment of toarray and the broadcast diagonal); sum(True, …) is the sum over the value (and dim) axes counting broadcast elements, sum(False, True) over the dim axes; sum raises IndexError when an element lacks axes, miscounts when its dim axis is taken for a value axis (counterexample), ignores partial lists of axes, and sum(0, False) returns the tensor unchanged. Missing: elements without value axes, broadcast diagonals and non-injective maps, for which the claim is false.
C61 | partial | expand, flip and drop_dim proved for elements with all the value (or dim) axes; transpose for at most one x and one y axis (otherwise Tensor.transpose is wrong, C52); counterexample: drop_dim of an element with a dim axis but no value axes.
C62 | proved | grad_tensor and hess_tensor, all three kinds of maps, dense array and shapes; toarray of the diagonal case; rejected iff values has too few axes. Finding (C62_map_out_of_range): a map pointing past the value axes is accepted and yields a malformed tensor.
C63 | partial | proved for all six likelihood classes, the methods modelled as the sequence of Tensor operations they execute; models may be stored with axes of size 1, for Finite with feature axes of size 1; missing: Finite when the model or a derivative is stored with outcome axes of size 1, for which the claim is false (C63_finite_like_broadcast, C63_finite_grad_broadcast)
C64 | partial | FuncWrap (increasing param_map, injective feat_map and dim_map, no feat_flip for the derivatives), Affine, Sum (offset 0, any weights), the elementary functions, and all six likelihood classes on a model built from them; the methods are modelled as the Tensor operations they execute. With feat_flip: calling returns the reversed values (C64_flip_call_partial), but grad raises NotImplementedError and eval fails as soon as a feature of a parameter axis is flipped (C64_flip_grad, C64_flip_counterexample). Collapse is covered as a constraint or penalty (C67_collapse_*), as outer function (C65), and as an atom of Sum or FuncWrap when all arrays of the summed function have full size and its second derivatives are Tensors or GenericTensors in which the axes of each parameter occur in some element (C64_collapse_partial, C64_example_centered, C68_example_centered). Collapse of a function whose derivatives are broadcast, such as a_i + b_j, has wrong derivatives (C64_collapse_broadcast_counterexample, executed by the kernel); FuncWrap.grad reports 0 for a function whose grad raises ValueError (C64_swallowed_error_counterexample); with feat_flip of an axis of size 1, eval returns two derivatives for one parameter (C64_flip_eval_counterexample). Missing: Collapse of a function with GenericTensor second derivatives inside a Sum (Product is C66). Finite needs a model whose arrays are not broadcast along an outcome axis; with one, like is wrong (C63_finite_like_broadcast). Sum.add of a Sum or of a * Sum, which takes the argument apart, adds the weighted function (C64_add_sum, C64_add_affine_sum).
C65 | partial | Compose as the Tensor operations it executes, for outer functions whose derivatives are not null and inner functions in which every parameter occurs and every parameter axis is mapped (with an unmapped axis the Hessian can be wrong, C52); examples: the models of test_finite, test_finite_negative_binomial, test_poisson_sum, test_markov_vector, test_markov_matrix, test_kullback_leibler and test_markov_kullback_leibler. CollapseMatrix() as the outer function for at most two features, or more features of equal size (precisely: sizes that do not change if the features are moved by two places). MarkovVector and MarkovMatrix (symmetric skew) as outer functions on the rates their assertions accept. Game, TieBreak, Set and Collapse(_, False) as outer functions on arrays with one axis (C65_example_set_*; for two axes see C33). False of the code, with counterexamples executed by the kernel: an inner function that sums over the axes of a matrix parameter (wrong Hessian), a parameter that does not occur in one of the inner functions (AssertionError), X as outer function (the Hessian is a number, Sum.eval raises AttributeError), CollapseMatrix() on three features (ValueError), Vector on a parameter that is not a number. Missing: Game/TieBreak/Set on three or more axes.
C66 | proved | Product as the Tensor operations it executes, for any positive number of atoms each of which (wrapped, C64_wrap_partial) returns its function with its derivatives, however they are stored; K', Store.prod only record which storage facts survive. The likelihood part is C64_fit_* applied to the result; examples: the models of test_poisson_matrix, test_poisson2 and test_poisson3. Flattening of nested Products in add is C28. Not covered: Product() with no atoms (reduce raises).
C67 | partial | flat_grad and flat_hess as the Tensor operations they execute; C67_flat has no error case: it needs the likelihood's arrays to have the parameters' shapes, and C67_whole_* proves this for the six likelihoods if every parameter occurs in the model. Terms: Linear, Quadratic, Scalar, Collapse(f) for every f of C64-C66 without broadcast axes (C67_collapse_*; example: the exponentials of the entries sum to c), and a * f + b of a term whose grad and hess are not null functions (C67_affine_*); C67_shifted_scalar_counterexample: Scalar() - c raises TypeError. Terms whose param_map is not in increasing order make flat_hess raise, for all six likelihoods and every function (C67_decreasing_counterexample). Missing: terms with a repeated param_map (wrong blocks: C16), and models in which an array parameter does not occur: then flat_grad raises IndexError unless a regularisation has the parameter (C68_unused_*); with one, C67_flat_partial (the same result or IndexError) Also false, executed by the kernel: the regularisation Linear (AttributeError), a term that names a parameter twice (half the second derivative), Collapse of a broadcast function (wrong gradient), a regularised array parameter that does not occur in the model (flat_hess raises IndexError).
C68 | proved | fit with Newton's method on Tensors end to end, in exact real arithmetic (np.linalg.solve returns the unique solution or raises LinAlgError). C68_solver_*: the six likelihoods with any model that Computes its function (C64-C66) are such problems; C68_example, C68_example_fit: the model of test_poisson_sum; C68_example_*: the problems of the other fitting tests of the repository (test_poisson, poisson_reg, zero-inflated, logistic, negative binomial, finite, matrix, Kullback-Leibler, Markov, tennis set, logistic_cross, poisson2, poisson3). The log-likelihood must be defined at the points tried (dom); the constraint part is for constraints that are affine functions of the parameters (C68_affine_constraints; Linear(w) - c is one). C68_decreasing_counterexample: a term that lists its parameters in another than increasing order makes every fit raise. C68_kept_only: the converse of C68_optimum_kept. C68_unused_*: if the model does not depend on an array parameter and no regularisation has it, fit raises IndexError with both methods.
C69 | proved | std_error, fisher_matrix, error_matrix and the criteria on the Hessian that a Newton fit on Tensors (C68) stored, in exact arithmetic. That second derivatives of the same parameter commute is a hypothesis of C69_after_fit (SymmetricHess); it holds whenever the penalised log-likelihood is twice continuously differentiable (C69_symmetric, C69_smooth; C69_smooth_*: the six likelihoods of a smooth model; C69_example_smooth: test_poisson_sum); for std_error the objective must curve downwards along the constraints (otherwise NaN). fisher_matrix() returns the Hessian itself (minus the observed information); the Hessian kept is that of the point before the last step (C59); without constraints std_error() raises TypeError (C05). C70_errors has instances.
C70 | proved | Linear models with Poisson, ZeroInflatedPoisson, Logistic, NegativeBinomial, Linear constraints and Quadratic penalties (C70_poisson, C70_zeroInflatedPoisson, C70_logistic, C70_negativeBinomial give ConcaveProblem). C70_example_*: the problems of test_poisson, test_poisson_reg, test_logistic and test_negative_binomial; foo_wellPosed, C70_example_fit: they are well posed for all sizes, masks and positive weights if vector has two distinct numbers. Exact arithmetic. Not claimed: that the iteration converges.
C71 | proved | Runs of fit(method='broyden') on Tensors in exact arithmetic: C71_run from an object without a usable stored Hessian, C71_reuse from one with a stored square matrix of the right size (as a run that returned leaves it). exactPinvh is the Moore-Penrose inverse of the symmetric matrix with the lower triangle. If a step does not change the derivatives at all, Python goes on with NaN until ConvergenceError; the model raises it at once (constructor stuck of BroydenEnd). Counterexamples: the objective may decrease (C71_decreases_counterexample); with a constraint the stored matrix, hence fisher_matrix(), may be wrong although the problem is exactly quadratic (C71_stored_hessian_counterexample). Not claimed: convergence.
C72 | partial | Operators and numpy functions with a number or an array on either side (C72_left, C72_right, C72_np_right), functions of one argument, np.maximum/np.minimum with the Tensor first, positive powers; two Tensors (C72_add_sub, C72_mul_values; in general C50, C51, C57). Findings: np.add/subtract/multiply/divide with a Tensor as first argument ignore the second one (C72_np_left, _counterexample), np.maximum/np.minimum with a Tensor as second argument recurse without end (C72_extremum_recursion), t ** 0 is 0 off the stored diagonal. Not modelled: negative exponents, integer dtypes.
C73 | proved | The wrappers and FuncMeta.__new__ for arbitrary method bodies. C73_library: with the functions of the library (Model/FuncOpTensor) the wrapped methods are gradAll, hessAll and the default eval that C64-C68 talk about. C73_no_call, C73_not_inherited, C73_null_method, C73_stored_eval_not_wrapped, C73_list_is_not_one_parameter are the exceptions of the statement. Keyword arguments and the six.with_metaclass helper are not modelled.
C74 | proved | Induction on the sequence of calls, whatever the intermediate fits return. add_param in the forms of C06 (a number or array without mask, an array with a mask array); indices in param_map are natural numbers; the keyword arguments of fit are the data names of the class, as arrays. C74_failed_fit_counterexample: fit is not atomic as to the data. Not modelled: keyword arguments named like other attributes (fit(params=...) overwrites them), data given as Tensors.
C75 | proved | C75_aggregate (cells to observations), C75_probabilities (normalisation), C75_series, C75_weighted_series, C75_dataframe (from pandas to the problem of the fit), C75_example (a whole program with repeated fits). ZeroInflatedPoisson with s > 0 and prepare_series only (prepare_dataframe cannot count zeros with weights); Logistic with observations 0 and 1. Real numbers, exact arithmetic.
C76 | proved | C76_concave (the log-probability of the observations is a concave problem, from C75 and C70), C76_estimate (a zero Newton step characterises the estimate), C76_never_singular (sessions), C76_example (prepare_series, a log-linear Poisson model with b[0] fixed, any fits: unique maximum likelihood estimate). Exact arithmetic; not claimed: that the iteration reaches a zero step.
C77 | proved | C77_criteria, C77_constant, C77_compare (criteria), C77_before, C77_raised, C77_errors (errors), C77_test_program (the whole of test_poisson, and of the tests of the other concave classes with that model, for any data whose pairs of labels are linked). All entries, fixed or free, count as parameters in the criteria (C18); the matrix that std_error uses is that of a point that the fit visited, not the last one (C59); without constraints std_error raises TypeError (C05). Exact arithmetic.
C78 | proved | C78_converges with C78_regular (near; hypotheses met by C78_example_plain), C78_steps and C78_ends (number of steps; C78_example_ends), C78_far_start (a start from which every fit raises), C78_infeasible with C78_example_infeasible. In real arithmetic; the radius of the neighbourhood is shown to exist, not computed.
C79 | proved | C79_fit (course and result of the fit) and C79_errors (fisher_matrix, error_matrix, std_error afterwards), with C79_example_expressions (test_poisson and test_poisson2 write one model in two ways) and C79_example_transposed (a transposed table with its rows in another order). In real arithmetic, for problems whose log-likelihood is defined and C2 everywhere (C69_smooth_* show it for the six likelihoods). Newton's method only: for Broyden `scipy.linalg.pinvh` is a parameter of the model, about which nothing relates its values on two matrices.
C80 | proved | C80_fit (course and result), C80_path (with an added constant, for Poisson, ZeroInflatedPoisson and NegativeBinomial), C80_errors (fisher_matrix, error_matrix, std_error); C80_logistic … C80_negativeBinomial: what the factor does to the six log-likelihoods; C80_session and C80_repeated_rows: the same for the methods of an object with any history, and for a table all of whose rows are given n times, from prepare_series to std_error; C80_example_logistic, C80_example_poisson and C80_example_repeated: the models of the tests. In real arithmetic, for problems whose log-likelihood is defined and C2 everywhere; Newton's method only, as for C79.
C81 | proved | C81_series_order, C81_plain_order, C81_dataframe_order, C81_transformations, C81_split, C81_repeated; C81_counterexample_first: the order matters for a transformation that depends on it. Values in any commutative semiring, real arithmetic for C81_repeated.
C82 | proved | C82_accepted, C82_nonneg, C82_marginals, C82_total, C82_independent, C82_exchanged, C82_negligible. Real arithmetic; the compiled routines `ndtri` and `mvnun` are replaced by the functions they compute (normal quantile, Mathlib's multivariate normal distribution).
C83 | proved | C83_fit (points, lines, result), C83_errors (fisher_matrix, error_matrix, std_error); C83_example_poisson and C83_example_logistic: the models of the tests with a standardised covariate (C83_example_start: objects that meet the hypotheses). In real arithmetic, for problems whose objective and constraints are defined and C2 everywhere; Newton's method only (a gradient or Broyden step is not invariant under a change of parameters).
C84 | partial | C84_state, C84_fit: for programs that write into no mask of a parameter and give arrays without writeable aliases, the object behaves as after the same calls on the contents of the arrays at the time of the call; C84_methods_do_not_write, C84_values_frozen, C84_data_frozen, C84_get_params_read_only hold for all programs. False without these hypotheses (C84_mask_counterexample, C84_reused_mask_counterexample, C84_result_mask_counterexample, C84_view_counterexample). Example: C84_example_careful.
C85 | proved | C85_fit (points, lines, result, estimates), C85_errors (error_matrix, std_error); C85_example_poisson: test_poisson with `h` fixed at `c` or constrained by `Linear([1]) - c`. In real arithmetic, Newton's method, objective defined and C2 everywhere, at least one free entry, the new constraints after the old ones. (std_error of the problem with fixed entries raises if it has no constraint at all: C05.)
C86 | proved | C86_score (per observation, four classes), C86_poisson, C86_logistic (per cell, real-valued data), C86_mean (the means are those of the class's probabilities), C86_example (prepare_series, a log-linear Poisson model, any Newton fits: fitted totals equal observed totals for every label), C86_example_poisson (test_poisson). In real arithmetic, for a Newton step that is exactly zero.
