{"id": "C01", "title": "Free/fixed round trip of parameters", "statement": "Flattening the free entries of a model's parameters and rebuilding the parameters from that flat vector gives back exactly the same parameters; conversely rebuilding from any flat vector of the right length and flattening again gives back that vector.", "quantifier": "every tuple of parameters, every shape, every pattern of fixed entries (none, some, all), every flat vector of the right length", "why_tests_cant": "the number of parameters, their shapes and the fixed patterns are unbounded; the np.insert index arithmetic can be right on the sampled masks and wrong on others", "anchors": ["maxlike/maxlike_base.py:MaxLike._reshape_params", "maxlike/maxlike_base.py:MaxLike._reshape_array", "maxlike/maxlike_base.py:Param.compressed"]}
{"id": "C02", "title": "Fixed parameter entries are never changed by fit", "statement": "After fit() returns, every parameter entry marked as fixed has exactly the value it had before the call, and shapes, masks, number and order of the parameters are unchanged, for both methods.", "quantifier": "every model, data, starting point, mask, method, number of iterations", "why_tests_cant": "depends on every iterate of an unbounded optimisation and on every mask", "anchors": ["maxlike/maxlike_base.py:MaxLike.fit", "maxlike/maxlike_base.py:MaxLike._reshape_params"]}
{"id": "C03", "title": "Flat vectors are laid out on the parameters in order", "statement": "An array of free-parameter quantities (e.g. std_error) is laid out so that the k-th free entry, counted in row-major order through the parameters in the order they were added, receives the k-th flat value, and every fixed entry receives the fill value.", "quantifier": "every list of parameters, masks and flat arrays", "why_tests_cant": "quantifies over all masks and positions", "anchors": ["maxlike/maxlike_base.py:MaxLike._reshape_array", "maxlike/maxlike_base.py:MaxLike.std_error"]}
{"id": "C04", "title": "fisher_matrix / error_matrix block layout", "statement": "Block (i, j) of fisher_matrix()/error_matrix() holds, at each pair of free entries of parameters i and j, the entry of the flat matrix for these two free parameters, and the fill value wherever either entry is fixed; rows belonging to constraints never appear.", "quantifier": "every list of parameters, masks, number of constraints and flat matrices", "why_tests_cant": "quantifies over all masks, block pairs and sizes", "anchors": ["maxlike/maxlike_base.py:MaxLike._reshape_matrix", "maxlike/maxlike_base.py:MaxLike.fisher_matrix", "maxlike/maxlike_base.py:MaxLike.error_matrix"]}
{"id": "C05", "title": "std_error works for every fitted model", "statement": "After a successful fit, std_error() returns one masked array per parameter holding the square roots of the diagonal of minus the inverse Hessian restricted to the free parameters, whatever the number of constraints (including none).", "quantifier": "every number of constraints (including zero), parameters and masks", "why_tests_cant": "the unit tests always add a constraint", "anchors": ["maxlike/maxlike_base.py:MaxLike.std_error"]}
{"id": "C06", "title": "add_param appends and a failed call leaves the model unchanged", "statement": "add_param(values, fixed) appends one parameter with these values and mask after those already present; when the arguments are rejected an exception is raised and the previously added parameters are still there.", "quantifier": "every history of add_param/reset_params calls, every form of values and fixed accepted by the docstring (lists included)", "why_tests_cant": "needs every call history and every argument kind", "anchors": ["maxlike/maxlike_base.py:MaxLike.add_param", "maxlike/maxlike_base.py:MaxLike.reset_params", "maxlike/maxlike_base.py:Param.__init__"]}
{"id": "C07", "title": "fit is atomic on failure", "statement": "If fit() raises, get_params() returns the same values as before the call.", "quantifier": "every model, method, data, failure point (any step, any model evaluation raising, no convergence, invalid method)", "why_tests_cant": "the failure can happen at any of unboundedly many points", "anchors": ["maxlike/maxlike_base.py:MaxLike.fit"]}
{"id": "C08", "title": "A successful Newton fit never decreases the objective", "statement": "When fit(method='Newton') returns True the objective g at the fitted parameters is at least the objective at the parameters before the call.", "quantifier": "every model, data, starting point, tolerance, max_steps and linear-solver behaviour", "why_tests_cant": "must hold along every possible trajectory", "anchors": ["maxlike/maxlike_base.py:MaxLike.fit", "maxlike/maxlike_base.py:MaxLike.newton_step", "maxlike/maxlike_base.py:MaxLike.g"]}
{"id": "C09", "title": "fit terminates within its step budget and reports honestly", "statement": "fit() performs at most max_steps outer steps and, for Newton, at most five trial evaluations per step; it either returns True after its convergence test passed on the stored parameters or raises, and raises ConvergenceError if the budget is exhausted.", "quantifier": "every model, tolerance and max_steps", "why_tests_cant": "liveness over all trajectories", "anchors": ["maxlike/maxlike_base.py:MaxLike.fit"]}
{"id": "C10", "title": "converged flag tells whether the last fit succeeded", "statement": "After any sequence of fit() calls, model.converged is True exactly when the last call returned True.", "quantifier": "every history of fit calls with either method", "why_tests_cant": "needs all histories", "anchors": ["maxlike/maxlike_base.py:MaxLike.fit"]}
{"id": "C11", "title": "verbosity does not change the outcome of fit", "statement": "fit(verbose=v) ends with the same result, parameters and exceptions for every v.", "quantifier": "every verbosity, model, method", "why_tests_cant": "tests run with verbosity off", "anchors": ["maxlike/maxlike_base.py:MaxLike.fit"]}
{"id": "C12", "title": "The Newton and Broyden steps move exactly the free parameters", "statement": "The part of the solved step applied to the parameters has one component per free parameter entry and discards exactly the constraint multipliers.", "quantifier": "every number of free entries >= 1 and every number of constraints", "why_tests_cant": "modular slice arithmetic over all sizes", "anchors": ["maxlike/maxlike_base.py:MaxLike.newton_step", "maxlike/maxlike_base.py:MaxLike.fit"]}
{"id": "C13", "title": "Linear constraints hold after a full Newton step", "statement": "With Linear constraints, one accepted Newton step with multiplier m scales each constraint residual by (1-m); hence after a full step the constraints hold exactly, a residual never grows during fit, and a start satisfying the constraints gives only iterates satisfying them.", "quantifier": "every model, weights, masks, parameters and trajectory (exact arithmetic)", "why_tests_cant": "holds along every trajectory", "anchors": ["maxlike/maxlike_base.py:MaxLike.flat_grad", "maxlike/maxlike_base.py:MaxLike.flat_hess", "maxlike/maxlike_base.py:MaxLike.newton_step", "maxlike/func/func.py:Linear"]}
{"id": "C14", "title": "Broyden update satisfies the secant equation", "statement": "After each Broyden iteration the updated inverse-Hessian approximation maps the observed change of gradient to the step taken, and acts unchanged on directions orthogonal to the change of gradient.", "quantifier": "every dimension, matrix, step and non-zero gradient change", "why_tests_cant": "algebraic identity over all matrices", "anchors": ["maxlike/maxlike_base.py:MaxLike.fit"]}
{"id": "C15", "title": "flat_grad layout and meaning", "statement": "The flat gradient lists, parameter by parameter, the free entries of the log-likelihood gradient minus the regularisation gradients, followed by one constraint residual per constraint in the order they were added.", "quantifier": "every number of parameters, masks, constraints, regularisations", "why_tests_cant": "quantifies over all configurations", "anchors": ["maxlike/maxlike_base.py:MaxLike.flat_grad"]}
{"id": "C16", "title": "flat_hess is the symmetric bordered Hessian", "statement": "The flat Hessian is a symmetric square matrix: free/free block = likelihood Hessian minus regularisation Hessians, border rows/columns = constraint gradients, and a zero corner block.", "quantifier": "every number of parameters, masks, constraints, regularisations", "why_tests_cant": "quantifies over all configurations", "anchors": ["maxlike/maxlike_base.py:MaxLike.flat_hess"]}
{"id": "C17", "title": "Constraints and regularisations may list their parameters in any order", "statement": "add_constraint / add_regularization with a permuted list of parameter indices (and a correspondingly permuted function) gives the same flat gradient and Hessian.", "quantifier": "every parameter list and permutation", "why_tests_cant": "tests use increasing lists", "anchors": ["maxlike/maxlike_base.py:MaxLike.add_constraint", "maxlike/maxlike_base.py:MaxLike.add_regularization", "maxlike/maxlike_base.py:MaxLike.flat_hess"]}
{"id": "C18", "title": "Information criteria", "statement": "akaine_information_criterion() times n equals 2k - 2 ln L + 2k(k+1)/(n-k-1) and bayesian_information_criterion() times n equals k ln n - 2 ln L, where k counts the free parameter entries plus extra parameters minus constraints.", "quantifier": "every sample size, parameters, masks, extra parameters, constraints", "why_tests_cant": "algebraic identity over all values; tests have no fixed entry", "anchors": ["maxlike/maxlike_base.py:MaxLike.akaine_information_criterion", "maxlike/maxlike_base.py:MaxLike.bayesian_information_criterion"]}
{"id": "C19", "title": "Likelihood gradients are the derivatives of the likelihoods", "statement": "For Poisson, ZeroInflatedPoisson, Logistic, NegativeBinomial, Finite and NormalizedFinite models, grad_like returns, for each parameter entry, the derivative of like along that entry when der is the derivative of the model values.", "quantifier": "every data array, model values in the domain, every differentiable model", "why_tests_cant": "calculus identity over all reals and all models", "anchors": ["maxlike/maxlike.py:*.like", "maxlike/maxlike.py:*.grad_like"]}
{"id": "C20", "title": "Likelihood Hessians are the second derivatives of the likelihoods", "statement": "For the same six classes hess_like returns the mixed second derivative of like when der/hess are the first and second derivatives of the model values.", "quantifier": "every data array, model values in the domain, every twice differentiable model", "why_tests_cant": "calculus identity over all reals and all models", "anchors": ["maxlike/maxlike.py:*.hess_like"]}
{"id": "C21", "title": "Log-likelihoods of log-linear models are concave", "statement": "With non-negative counts, for models linear in the parameters the Hessian returned by Poisson, Logistic and NegativeBinomial hess_like is negative semidefinite.", "quantifier": "every data array with 0<=X, 0<=N, every linear model and direction", "why_tests_cant": "quantifies over all directions", "anchors": ["maxlike/maxlike.py:Poisson.hess_like", "maxlike/maxlike.py:Logistic.hess_like", "maxlike/maxlike.py:NegativeBinomial.hess_like"]}
{"id": "C22", "title": "Finite likelihood ignores the normalisation of the model", "statement": "Finite.like is unchanged when the unnormalised probabilities of each feature cell are multiplied by any positive factor of that cell, and equals NormalizedFinite.like of the normalised probabilities.", "quantifier": "every data, positive model values, positive factors per cell", "why_tests_cant": "identity over all reals", "anchors": ["maxlike/maxlike.py:Finite.like", "maxlike/maxlike.py:NormalizedFinite.like"]}
{"id": "C23", "title": "Func arithmetic means arithmetic on values", "statement": "f + b, b + f, f - b, b - f, -f, a * f, f * a evaluate to the corresponding arithmetic on f's values, with gradient and Hessian scaled accordingly, for any nesting of these operators.", "quantifier": "every Func, every nesting depth, every scalars", "why_tests_cant": "Affine flattening must be right at every depth", "anchors": ["maxlike/func/func_base.py:Affine", "maxlike/func/func_base.py:Func.__add__", "maxlike/func/func_base.py:Func.__rsub__"]}
{"id": "C24", "title": "Sum evaluates to the weighted sum of what was added", "statement": "After any sequence of Sum.add(foo, param_map, feat_map, weight) calls, calling the Sum returns the sum of weight * foo(mapped params) expanded on the mapped features, also when foo is itself a Sum or an affine combination of one.", "quantifier": "every sequence of additions and nesting of Sum/Affine, every weight", "why_tests_cant": "needs all nestings; the flattening of offsets is only exercised with zero offsets", "anchors": ["maxlike/func/func_op.py:Sum.add", "maxlike/func/func_op.py:Sum.__call__"]}
{"id": "C25", "title": "eval agrees with call, grad and hess", "statement": "For every Func built by Affine, Sum, Product, Collapse, FuncWrap and Compose, eval(params) returns exactly (call, all gradients, lower triangle of Hessians) that the separate methods return.", "quantifier": "every Func expression of any depth, all parameters", "why_tests_cant": "the tests compare a handful of literals", "anchors": ["maxlike/func/func_base.py:Compose.eval", "maxlike/func/func_op.py:Sum.eval", "maxlike/func/func_op.py:Product.eval", "maxlike/func/func_op.py:FuncWrap.eval", "maxlike/func/func_op.py:Collapse.eval", "maxlike/func/func_base.py:Affine.eval"]}
{"id": "C26", "title": "Gradients of composite Funcs are true derivatives", "statement": "If the atoms return their true derivatives then so do Affine, Sum, Product, Compose, FuncWrap and Collapse of them (first and second derivatives).", "quantifier": "every Func expression of any depth, all parameters where atoms are differentiable", "why_tests_cant": "calculus over all expressions", "anchors": ["maxlike/func/func_base.py:Compose.grad", "maxlike/func/func_base.py:Compose.hess", "maxlike/func/func_op.py:Product.grad", "maxlike/func/func_op.py:Product.hess", "maxlike/func/func_op.py:Sum.grad"]}
{"id": "C27", "title": "Wrapped functions may use any selection of the parameters", "statement": "FuncWrap(foo, param_map) has zero derivative with respect to unlisted parameters and the true derivative with respect to listed ones, for every param_map (any order, repeated indices allowed), and eval succeeds.", "quantifier": "every param_map including permuted and repeated ones", "why_tests_cant": "tests only use increasing maps", "anchors": ["maxlike/func/func_op.py:FuncWrap.grad", "maxlike/func/func_op.py:FuncWrap.hess", "maxlike/func/func_op.py:FuncWrap.eval"]}
{"id": "C28", "title": "Product flattening", "statement": "After any sequence of Product.add calls, including adding Products, calling the Product returns the product of what was added.", "quantifier": "every sequence of additions and nesting", "why_tests_cant": "needs all nestings", "anchors": ["maxlike/func/func_op.py:Product.add", "maxlike/func/func_op.py:Product.__call__"]}
{"id": "C29", "title": "Elementary functions return true derivatives", "statement": "Exp, Log, Logistic, ArcTan, Sigmoid('arctan'), X, Scalar, Vector, Constant, Linear and Quadratic return gradients and Hessians that are the derivatives of their values.", "quantifier": "every parameter value in the domain", "why_tests_cant": "calculus over all reals", "anchors": ["maxlike/func/func.py:Exp", "maxlike/func/func.py:Log", "maxlike/func/func.py:Quadratic", "maxlike/func/func.py:Linear", "maxlike/func/sigmoid.py:Logistic", "maxlike/func/sigmoid.py:ArcTan"]}
{"id": "C30", "title": "Poisson and negative binomial vectors and their derivatives", "statement": "Poisson(size) returns lambda^x/x! and LogNegativeBinomial(size, r) the log-probabilities, and their grad/hess are the first and second derivatives in the parameter, component by component.", "quantifier": "every size, r > 0, parameter value", "why_tests_cant": "calculus over all reals and sizes; shift logic at the boundary", "anchors": ["maxlike/func/func_proba.py:Poisson", "maxlike/func/func_proba.py:LogNegativeBinomial"]}
{"id": "C31", "title": "Tennis functions: derivatives", "statement": "grad and hess of Game, TieBreak and Set are the first and second derivatives of their values.", "quantifier": "every 0<p<1 (and t)", "why_tests_cant": "closed forms must hold for every p", "anchors": ["maxlike/func/tennis.py:Game", "maxlike/func/tennis.py:TieBreak", "maxlike/func/tennis.py:Set"]}
{"id": "C32", "title": "Tennis functions are probability distributions", "statement": "The outcomes of Game (TieBreak, Set) for a player and for the opponent are non-negative and together sum to one.", "quantifier": "every 0<=p<=1, 0<=t<=1", "why_tests_cant": "identity over all reals", "anchors": ["maxlike/func/tennis.py:Game.__call__", "maxlike/func/tennis.py:TieBreak.__call__", "maxlike/func/tennis.py:Set.__call__"]}
{"id": "C33", "title": "Tennis functions act elementwise", "statement": "The value returned for feature cell (i, j, ...) depends only on the point probability of that same cell, for parameters with any number of feature axes.", "quantifier": "every parameter shape", "why_tests_cant": "every number of axes; tests only use antisymmetric two-axis inputs", "anchors": ["maxlike/func/tennis.py:Game.__call__", "maxlike/func/tennis.py:TieBreak.__call__", "maxlike/func/tennis.py:Set.__call__"]}
{"id": "C34", "title": "Markov matrices are probability distributions", "statement": "MarkovMatrix and MarkovVector return non-negative values that sum to one for every accepted parameters, size, number of steps and skew with values in [0, 1].", "quantifier": "every size, steps, skew in [0,1], s1,s2>0 with s1+s2<1", "why_tests_cant": "induction over all steps and sizes", "anchors": ["maxlike/func/matrix.py:MarkovMatrix.__call__", "maxlike/func/matrix.py:MarkovVector.__call__"]}
{"id": "C35", "title": "Markov in-place sweep performs one simultaneous chain step", "statement": "Each sweep of the in-place loops of MarkovMatrix / MarkovVector computes exactly one synchronous step of the random walk with reflecting upper (both) ends, i.e. no probability moves twice in one sweep.", "quantifier": "every size, state and skew", "why_tests_cant": "depends on loop order for every size", "anchors": ["maxlike/func/matrix.py:MarkovMatrix.__call__", "maxlike/func/matrix.py:MarkovVector.__call__"]}
{"id": "C36", "title": "Markov derivatives are true derivatives", "statement": "The gradients and Hessians returned by MarkovMatrix.eval and MarkovVector.eval are the first and second derivatives of the returned distribution with respect to the two parameters, for every skew.", "quantifier": "every size, steps, skew, parameters", "why_tests_cant": "induction over all steps and sizes; tests use uniform skew", "anchors": ["maxlike/func/matrix.py:MarkovMatrix.eval", "maxlike/func/matrix.py:MarkovVector.eval"]}
{"id": "C37", "title": "CollapseMatrix partitions the matrix", "statement": "CollapseMatrix() returns the total weight above, on and below the diagonal of each frame; the three values sum to the total of the frame, and user supplied conditions are honoured.", "quantifier": "every frame size and values, every list of conditions", "why_tests_cant": "all sizes; tests never pass conditions", "anchors": ["maxlike/func/matrix.py:CollapseMatrix"]}
{"id": "C38", "title": "Copula joint tables have the right marginals", "statement": "The table returned by Clayton, Gumbel, Frank and AkiMikhailHaq for two unnormalised positive marginals has these marginals (normalised) as row and column sums and sums to one.", "quantifier": "every marginals of any length with positive weights, every admissible parameter", "why_tests_cant": "all lengths and reals", "anchors": ["maxlike/func/copula.py:copulaWrap", "maxlike/func/copula.py:Clayton", "maxlike/func/copula.py:Gumbel", "maxlike/func/copula.py:Frank", "maxlike/func/copula.py:AkiMikhailHaq"]}
{"id": "C39", "title": "Copula joint tables are non-negative", "statement": "All entries of the table returned by a copula for positive marginals are non-negative.", "quantifier": "every marginals and admissible parameter", "why_tests_cant": "2-increasing property over all reals", "anchors": ["maxlike/func/copula.py:Clayton", "maxlike/func/copula.py:Gumbel", "maxlike/func/copula.py:Frank", "maxlike/func/copula.py:AkiMikhailHaq"]}
{"id": "C40", "title": "Poisson probabilities and their derivative", "statement": "poisson_vector(a, size)/poisson_cdf(a, n)/poisson_mid_cdf(a, n) return the Poisson probabilities/cdf/mid-cdf and, in the second component, their derivative in a.", "quantifier": "every a, size, n", "why_tests_cant": "calculus over all reals and sizes", "anchors": ["maxlike/skellam.py:poisson_vector", "maxlike/skellam.py:poisson_cdf", "maxlike/skellam.py:poisson_mid_cdf"]}
{"id": "C41", "title": "Skellam tables", "statement": "skellam_cdf(a, b, n) and skellam_cdf(a, b, n+1, inverse=True) add up to the table total; skellam_cdf_pair returns the weights strictly below and strictly above n; further components are the derivatives in a and b for the table size used; the quantities refer to X - Y as documented.", "quantifier": "every a, b, n, table size", "why_tests_cant": "all integers and sizes", "anchors": ["maxlike/skellam.py:skellam_cdf", "maxlike/skellam.py:skellam_cdf_pair", "maxlike/skellam.py:skellam_frame"]}
{"id": "C42", "title": "poisson_cdf_root returns a root or raises", "statement": "poisson_cdf_root(target, n, tol) returns a positive a whose poisson_cdf is within tol of target, and signals invalid targets or non-convergence with an exception.", "quantifier": "every target, n, tol, behaviour of the distribution function", "why_tests_cant": "must hold along every trajectory and error path", "anchors": ["maxlike/skellam.py:poisson_cdf_root"]}
{"id": "C43", "title": "skellam_cdf_root returns a root or raises", "statement": "skellam_cdf_root(t1, t2, n, tol) returns positive (a, b) whose skellam_cdf_pair is within tol of the targets, after at most 51 iterations, and raises on invalid targets or non-convergence.", "quantifier": "every targets, n, tol", "why_tests_cant": "must hold along every trajectory", "anchors": ["maxlike/skellam.py:skellam_cdf_root"]}
{"id": "C44", "title": "conditional_skellam_cdf_root returns a root or raises", "statement": "conditional_skellam_cdf_root(b, target, tol) returns a value within tol of the target and always terminates (raising ConvergenceError after its step limit).", "quantifier": "every b, target, tol", "why_tests_cant": "termination over all inputs", "anchors": ["maxlike/skellam.py:conditional_skellam_cdf_root"]}
{"id": "C45", "title": "prepare_series aggregates each cell exactly once", "statement": "prepare_series returns arrays whose cell for labels (l1,...,lk) is the transformation applied to exactly the observations with these labels, zero where there is none, in the sorted order of the returned axes; with np.sum the array total is the total of the observations, with np.size their number.", "quantifier": "every series of observations, labels, levels and extra axis labels", "why_tests_cant": "all multisets of observations", "anchors": ["maxlike/preprocessing.py:prepare_series"]}
{"id": "C46", "title": "prepare_dataframe aggregates weights and weighted results", "statement": "prepare_dataframe returns N with the total weight per cell and the transformations of result*weight per cell, in the sorted axes order; every requested transformation is returned under its name.", "quantifier": "every frame, weights, results, labels, transformations", "why_tests_cant": "all multisets of observations", "anchors": ["maxlike/preprocessing.py:prepare_dataframe"]}
{"id": "C47", "title": "df_count one-hot encodes counts with the last column for overflow", "statement": "df_count(series, size) has one row per observation with exactly one True; column v is True iff the observation equals v for v < size-1 and the last column iff it is none of 0..size-2.", "quantifier": "every series and size", "why_tests_cant": "all sizes and values", "anchors": ["maxlike/preprocessing.py:df_count"]}
{"id": "C48", "title": "toarray expands the diagonal storage", "statement": "Tensor.toarray() has at position (x, y, n, d) the stored value if every mapped x/y axis agrees with the axis it is mapped to, and zero otherwise.", "quantifier": "every shape, number of axes and mapping", "why_tests_cant": "arbitrary ranks and mappings", "anchors": ["maxlike/tensor/tensor.py:Tensor.toarray", "maxlike/tensor/tensor.py:arr_expand_diag"]}
{"id": "C49", "title": "Scalar arithmetic commutes with toarray", "statement": "Negation and addition, subtraction, multiplication and division with scalars (either side) of a Tensor give the same array as performing them on toarray(), including the special cases 0 and 1.", "quantifier": "every Tensor, scalar, operation", "why_tests_cant": "arbitrary ranks, mappings and scalars", "anchors": ["maxlike/tensor/tensor.py:Tensor.bin_op", "maxlike/tensor/tensor.py:Tensor.__neg__"]}
{"id": "C50", "title": "Addition and subtraction of Tensors commute with toarray", "statement": "a + b, a - b between Tensors (result a Tensor or a GenericTensor) represent the sum/difference of the arrays; a + b and b + a represent the same array.", "quantifier": "every pair of Tensors of compatible shapes, any mappings", "why_tests_cant": "arbitrary ranks and mapping combinations", "anchors": ["maxlike/tensor/tensor.py:Tensor.bin_op"]}
{"id": "C51", "title": "Multiplication of Tensors commutes with toarray", "statement": "a * b between Tensors represents the elementwise product of the arrays, whatever mappings each operand carries.", "quantifier": "every pair of Tensors of compatible shapes, any mappings and ranks", "why_tests_cant": "arbitrary ranks and mapping combinations", "anchors": ["maxlike/tensor/tensor.py:Tensor.bin_op", "maxlike/tensor/tensor.py:arr_take_diag", "maxlike/tensor/tensor.py:arr_expand_cross_diag"]}
{"id": "C52", "title": "transpose swaps the x and y spaces", "statement": "t.transpose() has at (y, x, n, d) the entry of t at (x, y, n, d), for any numbers of x and y axes, and transposing twice gives the original array.", "quantifier": "every Tensor, any x_dim and y_dim", "why_tests_cant": "tests use at most one axis in each space", "anchors": ["maxlike/tensor/tensor.py:Tensor.transpose"]}
{"id": "C53", "title": "expand places axes where asked", "statement": "t.expand(where, newsize) represents the array whose value at (n_0..n_{newsize-1}) is t's value at (n_{where[0]}, n_{where[1]}, ...), for value axes and for dim axes.", "quantifier": "every Tensor, injective where list in any order, newsize", "why_tests_cant": "arbitrary permutations", "anchors": ["maxlike/tensor/tensor.py:Tensor.expand", "maxlike/tensor/tensor.py:compose_mappings"]}
{"id": "C54", "title": "flip reverses the requested axes only", "statement": "t.flip(where) reverses the listed value (or dim) axes and leaves everything else unchanged; flipping twice restores the array; flipping a mapped axis is refused.", "quantifier": "every Tensor and list of distinct axes", "why_tests_cant": "arbitrary ranks", "anchors": ["maxlike/tensor/tensor.py:Tensor.flip"]}
{"id": "C55", "title": "sum collapses the value and dim spaces", "statement": "t.sum() equals the sum of toarray() over all value and dim axes; sum(False) over the dim axes only; sum(list) over the listed value axes; the remaining structure (including dim) is preserved.", "quantifier": "every Tensor, mapping, selection of axes", "why_tests_cant": "arbitrary ranks, mappings, selections", "anchors": ["maxlike/tensor/tensor.py:Tensor.sum"]}
{"id": "C56", "title": "dot_left / dot_right are tensor contractions", "statement": "f.dot_left(g) represents sum_n g(x, n) f(n, y, m) and f.dot_right(h) represents sum_n h(x, y, n) f(n, m), whatever mappings the operands carry.", "quantifier": "every pair of Tensors of compatible shapes and mappings", "why_tests_cant": "arbitrary ranks and mappings", "anchors": ["maxlike/tensor/tensor.py:Tensor.dot_left", "maxlike/tensor/tensor.py:Tensor.dot_right"]}
{"id": "C57", "title": "GenericTensor arithmetic represents the sum of its elements", "statement": "Adding, subtracting, negating and multiplying GenericTensors (with scalars, Tensors or GenericTensors, either side) represents the corresponding operation on the represented arrays.", "quantifier": "every list of elements and operation sequences", "why_tests_cant": "arbitrary histories of operations", "anchors": ["maxlike/tensor/tensor.py:GenericTensor.bin_op", "maxlike/tensor/tensor.py:GenericTensor.__neg__"]}
{"id": "C58", "title": "GenericTensor.toarray and sum", "statement": "GenericTensor.toarray() is the array represented (sum of the elements in the common x,y,n,dim layout), and sum() equals the sum of that array over the value axes, accounting for broadcast axes.", "quantifier": "every list of compatible elements", "why_tests_cant": "arbitrary shapes", "anchors": ["maxlike/tensor/tensor.py:GenericTensor.toarray", "maxlike/tensor/tensor.py:GenericTensor.sum"]}
{"id": "C59", "title": "The Hessian kept after a Newton fit belongs to the fitted parameters", "statement": "After fit(method='Newton') returns True, fisher_matrix(), error_matrix() and std_error() are computed from the Hessian of the objective at the fitted parameters.", "quantifier": "every model, data, starting point, number of iterations", "why_tests_cant": "near the optimum the Hessian at the last and at the previous iterate nearly coincide, so tolerance-based tests pass; the claim is about every run", "anchors": ["maxlike/maxlike_base.py:MaxLike.fit", "maxlike/maxlike_base.py:MaxLike.fisher_matrix"]}
{"id": "C60", "title": "drop_dim moves the dim axes to the value space", "statement": "t.drop_dim() represents the same array; its dim axes become the last value axes, and the x and y maps keep their meaning.", "quantifier": "every Tensor in diagonal storage, any number of axes in each space", "why_tests_cant": "Unbounded shapes, axis counts and maps.", "anchors": ["maxlike/tensor/tensor.py:Tensor.drop_dim"]}
{"id": "C61", "title": "Structural operations of GenericTensors act on the represented array", "statement": "expand, flip, transpose and drop_dim of a GenericTensor represent the same operation on the represented array: expand places the value (or dim) axes, flip reverses the listed axes of the common array also when some elements broadcast them and refuses mapped axes, transpose exchanges x and y axes, drop_dim appends the dim axes to the value axes.", "quantifier": "every list of elements, every selection of axes", "why_tests_cant": "arbitrary numbers of elements, axes, sizes and maps", "anchors": ["maxlike/tensor/tensor.py:GenericTensor.expand", "maxlike/tensor/tensor.py:GenericTensor.flip", "maxlike/tensor/tensor.py:GenericTensor.transpose", "maxlike/tensor/tensor.py:GenericTensor.drop_dim"]}
{"id": "C62", "title": "grad_tensor and hess_tensor build the diagonal derivative arrays", "statement": "grad_tensor(values, params, i, pmap, dim) (hess_tensor likewise with two parameters) returns a tensor whose dense array has the entry values[cell] where every mapped parameter index equals the cell index it is mapped to, and zero elsewhere (an unmapped parameter axis is read from the leading axes of values); it is rejected exactly when values has too few axes.", "quantifier": "every array of values, every parameter, map (True, a list, absent) and number of dim axes", "why_tests_cant": "arbitrary numbers of axes, sizes and maps", "anchors": ["maxlike/func/func_base.py:grad_tensor", "maxlike/func/func_base.py:hess_tensor"]}
{"id": "C63", "title": "The likelihood methods, executed on Tensors, return the likelihood and its derivatives", "statement": "For data, a model and model derivatives given as Tensors in any of the layouts the library produces (diagonal or dense parameter axes, broadcast axes, Tensors or GenericTensors), like returns a number, grad_like one array per parameter with the first derivatives of that number, and hess_like the lower triangle of arrays with its second derivatives; none of the calls raises.", "quantifier": "every number of axes, axis sizes, number of parameters, diagonal map, sum of Tensors, data and parameter value", "why_tests_cant": "arbitrary numbers of axes, sizes, layouts, parameters and real values", "anchors": ["maxlike/maxlike.py:Poisson", "maxlike/maxlike.py:ZeroInflatedPoisson", "maxlike/maxlike.py:Logistic", "maxlike/maxlike.py:NegativeBinomial", "maxlike/maxlike.py:Finite", "maxlike/maxlike.py:NormalizedFinite", "maxlike/tensor/tensor.py:Tensor.bin_op"]}
{"id": "C64", "title": "Functions assembled from the library, executed on Tensors, return their value with its derivatives, and likelihoods of such models are exact", "statement": "A function built from X, Exp, Log, Logistic, ArcTan, Poisson, LogNegativeBinomial, Constant, Vector and Scalar with FuncWrap, Affine and Sum returns, by its three methods and by eval, Tensors that represent the function, its derivatives with respect to every entry of every parameter, and the lower triangle of its second derivatives; used as the model of a likelihood class, like, grad_like and hess_like return the log likelihood of the data under that function, its gradient and its Hessian.", "quantifier": "every nesting of the combinators, every number and shape of parameters, features and outcomes, every parameter value in the domain of the functions, all data", "why_tests_cant": "arbitrary expressions, numbers of axes, sizes and real values", "anchors": ["maxlike/func/func_op.py:FuncWrap", "maxlike/func/func_op.py:Sum", "maxlike/func/func_base.py:Affine", "maxlike/func/func_base.py:grad_tensor", "maxlike/func/func.py:X", "maxlike/func/func_proba.py:Poisson", "maxlike/maxlike_base.py:MaxLike"]}
{"id": "C65", "title": "Compositions, executed on Tensors, return their value with its derivatives", "statement": "For a function f that acts on each position of its array arguments separately (Exp, Log, Logistic, ArcTan, Poisson, LogNegativeBinomial, NegativeBinomial, and compositions of such functions), f @ [g_1, ..., g_r] returns, by its three methods and by eval, Tensors that represent the composed function, its derivatives with respect to every entry of every parameter, and the lower triangle of its second derivatives, with the outcome axes of f after those of the g_k; no call raises. Used as the model of a likelihood class, like, grad_like and hess_like are exact.", "quantifier": "every number of inner functions and parameters, every number and size of axes, all parameters in the domain, inner functions whose derivatives are stored diagonally, broadcast or as GenericTensors", "why_tests_cant": "the chain rule is executed as a loop of dot_left, dot_right, transpose and GenericTensor additions whose correctness depends on the axes, maps and storage of all factors; tests check a handful of shapes", "anchors": ["maxlike/func/func_base.py:Compose", "maxlike/tensor/tensor.py:Tensor.dot_left", "maxlike/tensor/tensor.py:Tensor.dot_right", "maxlike/tensor/tensor.py:GenericTensor.dot_left", "maxlike/func/func_proba.py:NegativeBinomial"]}
{"id": "C66", "title": "Products, executed on Tensors, return their value with its derivatives", "statement": "Product(n_feat, n_dim) of any positive number of wrapped functions returns, by its three methods and by eval, Tensors that represent the product of the functions, its derivatives with respect to every entry of every parameter, and the lower triangle of its second derivatives; no call raises. Used as the model of Poisson, Logistic or NegativeBinomial (alone, or inside Sum and Compose), or of Finite when the axes are stored in full, like, grad_like and hess_like are exact.", "quantifier": "every number of factors, parameters and axes, every size, all parameters in the domain, factors stored with full axes, broadcast, diagonally or as GenericTensors", "why_tests_cant": "each term multiplies Tensors with different broadcast axes, parameter maps and storage, some transposed; the result depends on all the combinations, tests check a handful of shapes", "anchors": ["maxlike/func/func_op.py:Product", "maxlike/func/func_op.py:Product._prod", "maxlike/func/func_op.py:FuncWrap", "maxlike/tensor/tensor.py:Tensor.__mul__", "maxlike/tensor/tensor.py:GenericTensor.__mul__"]}
{"id": "C67", "title": "flat_grad and flat_hess are the derivatives of the penalised log-likelihood on the free entries", "statement": "For a fit whose like, grad_like and hess_like return the log-likelihood with its derivatives (C63-C66), flat_grad returns, for the free entries of all parameters in order, the first derivatives of the log-likelihood minus the regularisations, followed by the values of the constraints; flat_hess returns the symmetric matrix of the second derivatives on the free entries, bordered by the derivatives of the constraints, with a zero corner. Linear (weights per parameter) as constraint and Quadratic (with any mean and scale) as regularisation satisfy what is required of them.", "quantifier": "every likelihood and model, every number, shape and mask of parameters, every list of constraints and regularisations, all parameter values in the domain", "why_tests_cant": "the blocks are Tensors with different parameter axes, shapes broadcast from size 1, and masks; whether the entries land in the right row depends on every combination of shapes and masks", "anchors": ["maxlike/maxlike_base.py:MaxLike.flat_grad", "maxlike/maxlike_base.py:MaxLike.flat_hess", "maxlike/maxlike_base.py:MaxLike.add_constraint", "maxlike/maxlike_base.py:MaxLike.add_regularization", "maxlike/func/func.py:Linear", "maxlike/func/func.py:Quadratic"]}
{"id": "C68", "title": "A Newton fit of a model on Tensors maximises the penalised log-likelihood under the constraints", "statement": "Take a MaxLike object whose like, grad_like and hess_like are those of C63-C66, with any constraints and regularisations of the kinds of C67. In exact arithmetic: the objective that fit(method='Newton') maximises is (log-likelihood - penalties) / N.sum(); every step it takes is the unique solution of the Newton system of the penalised log-likelihood bordered by the constraints (LinAlgError when there is no unique solution, and newton_step raises nothing else); the step is zero exactly at the points that satisfy the first order (Lagrange) conditions, so a fit started there returns True and leaves the parameters alone; a fit that returns has not decreased the penalised log-likelihood, its last step changed it by a factor within the tolerance of 1, and it has not moved any fixed entry nor increased the residual of a linear constraint; otherwise it raises LinAlgError, ZeroDivisionError (objective exactly 0) or one of the two ConvergenceErrors.", "quantifier": "every likelihood class, model, data with positive total weight, parameters, masks, constraints and regularisations as in C67, every start point, max_steps, tolerance and verbosity", "why_tests_cant": "tests run a few fits to convergence and compare with stored numbers; the relation between each step, the derivatives of the model and the stopping rule must hold at every point the iteration can visit", "anchors": ["maxlike/maxlike_base.py:MaxLike.fit", "maxlike/maxlike_base.py:MaxLike.newton_step", "maxlike/maxlike_base.py:MaxLike.g", "maxlike/maxlike_base.py:MaxLike.flat_grad", "maxlike/maxlike_base.py:MaxLike.flat_hess"]}
{"id": "C69", "title": "Standard errors, covariances, Fisher matrix and information criteria are those of the constrained estimate", "statement": "Take a MaxLike object as in C68, after a Newton fit that returned. The Hessian it keeps is that of the penalised log-likelihood at a point the fit visited. fisher_matrix() returns its second derivatives per pair of parameters, 0 at fixed entries. error_matrix() returns the covariance matrix of the constrained estimate (the inverse of the information on the directions that keep the constraints), NaN at fixed entries. std_error() of a problem with at least one constraint returns, for each free entry, the largest change of that entry among the directions that keep the constraints and have information at most 1 (the constrained standard error), NaN for fixed entries. The Newton step exists wherever the objective curves downwards along the constraints and these are independent. akaine_/bayesian_information_criterion return the documented formula divided by N.sum(), with the penalised log-likelihood, counting all entries minus the constraints.", "quantifier": "every likelihood, model, data, parameters, masks, constraints and regularisations as in C68, every fit that returned, every value of nb_extra_params", "why_tests_cant": "tests compare a few stored standard errors; that the bordered inverse restricted to the free entries is the constrained covariance depends on every mask, constraint and layout", "anchors": ["maxlike/maxlike_base.py:MaxLike.std_error", "maxlike/maxlike_base.py:MaxLike.fisher_matrix", "maxlike/maxlike_base.py:MaxLike.error_matrix", "maxlike/maxlike_base.py:MaxLike._reshape_matrix", "maxlike/maxlike_base.py:MaxLike.akaine_information_criterion", "maxlike/maxlike_base.py:MaxLike.bayesian_information_criterion"]}
{"id": "C70", "title": "With a linear model the Poisson, logistic and negative binomial fits are well behaved: no singular step, one maximum, valid errors", "statement": "Take Poisson, ZeroInflatedPoisson, Logistic or NegativeBinomial with a model that is linear in the parameters, weights (and for NegativeBinomial counts) that are not negative, Linear constraints and Quadratic regularisations. If the data, the penalties and the constraints determine the free entries and the constraints are independent, a Newton fit from any start point never raises LinAlgError; if it returns, std_error() and error_matrix() succeed and are the constrained standard errors and covariances. A point where the Newton step is zero is a global maximum among all points with the same fixed entries that satisfy the constraints, and the only one.", "quantifier": "every such problem, all data sizes, parameter shapes, masks, start points, tolerances and step limits", "why_tests_cant": "a finite set of fits cannot show that no start point or data set leads to a singular system or to another local maximum", "anchors": ["maxlike/maxlike.py:Poisson", "maxlike/maxlike.py:Logistic", "maxlike/maxlike.py:NegativeBinomial", "maxlike/maxlike_base.py:MaxLike.newton_step", "maxlike/maxlike_base.py:MaxLike.fit", "maxlike/maxlike_base.py:MaxLike.std_error", "maxlike/maxlike_base.py:MaxLike.error_matrix"]}
{"id": "C71", "title": "fit with method='broyden' is Broyden's method on the first order conditions of the constrained problem", "statement": "Take a MaxLike object as in C68. A call of fit(method='broyden') starts with the pseudo-inverse of the symmetric matrix with the lower triangle of the bordered second derivatives (of the stored matrix, if converged is True and it has the right size); each step is minus this matrix times the vector of first derivatives (free entries) and constraint values, and moves exactly the free entries; each update satisfies the secant equation and changes nothing in the orthogonal directions. If the bordered matrix is symmetric and invertible the first point tried is the full Newton step. A start that satisfies the first order conditions is returned unchanged. The call returns True (the last two objective values agree to within tol, the last point is stored and converged is set), or raises ConvergenceError, ZeroDivisionError (objective exactly 0) or, with verbose, NameError, with parameters unchanged and converged False; it never raises LinAlgError. It may decrease the objective, and with constraints the matrix it stores need not be the Hessian.", "quantifier": "every likelihood, model, data, parameters, masks, constraints, regularisations and domain as in C68, every start point, tolerance and step limit", "why_tests_cant": "the one test of Broyden's method compares one run with stored numbers (its standard errors differ from those of Newton's method at the same estimate); the claims are about every iterate of every run", "anchors": ["maxlike/maxlike_base.py:MaxLike.fit", "maxlike/maxlike_base.py:MaxLike.flat_grad", "maxlike/maxlike_base.py:MaxLike.flat_hess", "maxlike/maxlike_base.py:MaxLike.fisher_matrix"]}
{"id": "C72", "title": "Operators and numpy functions on Tensors mean the operation on the represented arrays, on either side", "statement": "For a Tensor or GenericTensor t and a number or numpy array y, whenever t + y, t - y, t * y, t / y or y + t, y - t, y * t, y / t, np.add(y, t), np.subtract(y, t), ... return, the result represents the operation at every position (quotients where the divisor is not zero). np.exp(t), np.log(t), ... of a Tensor without x and y axes apply the function at every position and keep the layout, and are refused (InvalidOperation) for Tensors with x or y axes and for GenericTensors. np.maximum(t, y), np.minimum(t, y) are the function at every position. t ** a for a positive exponent is the power at every position, also off a stored diagonal.", "quantifier": "every Tensor in diagonal storage, every GenericTensor built from them, every number and array of any shape for which the operation returns, every position", "why_tests_cant": "the result depends on which of the two operands numpy asks first and on the storage of the Tensor (maps, dummy axes); the tests use a few small arrays and only the operators", "anchors": ["maxlike/tensor/tensor.py:BaseTensor.__add__", "maxlike/tensor/tensor.py:BaseTensor.__rsub__", "maxlike/tensor/tensor.py:Tensor.__array_ufunc__", "maxlike/tensor/tensor.py:GenericTensor.__array_ufunc__", "maxlike/tensor/tensor.py:Tensor.__pow__", "maxlike/tensor/tensor.py:Tensor.dot"]}
{"id": "C73", "title": "Parameters and indices mean the same for every function, however they are passed", "statement": "For every class of functions, f(params), f.grad(params, i), f.hess(params, i, j) and f.eval(params) give the same result for a tuple and a list of the same parameters, for one parameter passed alone and in a list, and for None, nothing and an empty list. f.grad(params) is the list of f.grad(params, k) and f.hess(params) the lower triangle of f.hess(params, k, l), for the parameters passed; f.hess(params, i) with one index is also the whole triangle. A class that does not define eval gets one that returns these three. Methods that are null_func stay recognisable as null. Exceptions, stated as theorems: a class that does not define __call__ is a KeyError and one that does not define grad or hess has none, whatever its base class; a parameter that is a Python list is taken as several; null_method(self) returns one Tensor(0) where a list is expected; the eval that Compose stores in the object for an outer function with null hess does not accept a single parameter.", "quantifier": "all class bodies (any subset of the four methods, arbitrary functions), all objects, all parameter lists, all indices", "why_tests_cant": "a test passes parameters in one way to one class; the claim is about all classes, also the user's own, and all ways of passing parameters", "anchors": ["maxlike/func/func_base.py:call_wrap", "maxlike/func/func_base.py:vector_wrap", "maxlike/func/func_base.py:matrix_wrap", "maxlike/func/func_base.py:eval_wrap", "maxlike/func/func_base.py:FuncMeta.__new__", "maxlike/func/func_base.py:null_method", "maxlike/func/func_base.py:Compose.__init__"]}
{"id": "C74", "title": "A session means what its calls say", "statement": "After any sequence of the calls ml.model = f, add_param, reset_params, add_constraint, add_regularization and fit on an object, the problem that the next fit solves is the one read off the calls: the model assigned last, the constraints and regularisations in the order in which they were added (i means [i]), for each name the data given last to fit, and parameters with the shapes, masks and fixed values with which they were added since the last reset_params. get_params returns them as masked arrays with these masks. Any number of further Newton fits without new data, whether each of them returns or raises, never lowers the penalised objective of that problem and keeps the fixed entries. A fit that raises has nevertheless stored its data.", "quantifier": "all sequences of calls of any length, all arguments (arrays with as many axes as the class requires), all six likelihood classes, all outcomes of the intermediate fits", "why_tests_cant": "tests use a fresh object and one fit; the claim is about all histories, with failing and repeated fits, replaced data and models", "anchors": ["maxlike/maxlike_base.py:MaxLike.__init__", "maxlike/maxlike_base.py:MaxLike.add_param", "maxlike/maxlike_base.py:MaxLike.get_params", "maxlike/maxlike_base.py:MaxLike.reset_params", "maxlike/maxlike_base.py:MaxLike.add_constraint", "maxlike/maxlike_base.py:MaxLike.add_regularization", "maxlike/maxlike_base.py:MaxLike.fit", "maxlike/maxlike.py:Poisson.__init__"]}
{"id": "C75", "title": "From the observations to the fit: the probability of the data is maximised", "statement": "For a series of counts prepared with prepare_series(g, {'N': np.size, 'X': np.sum, 'Z': number of zeros}) (or occurrences prepared with {'N': np.sum}, or weighted observations prepared with prepare_dataframe) and passed on with fit(**kwargs), the objective of the fit (without penalties) is, up to a constant that does not depend on the parameters, the sum over the observations of the (weighted) log-probability that the class gives to the observation at the value of the model in the cell with its labels; the weight by which the objective is divided is the number (total weight) of the observations. These are probabilities: they add up to 1 over the counts or outcomes. So Newton fits never lower the probability of the observations (with penalties: their penalised log-probability).", "quantifier": "all series and frames (any number of rows, levels and labels, any added labels), all six likelihood classes, all models for which C64-C66 hold, all sessions, all parameters", "why_tests_cant": "the statement is about every data set and an identity of functions of the parameters; the tests fit four data files", "anchors": ["maxlike/preprocessing.py:prepare_series", "maxlike/preprocessing.py:prepare_dataframe", "maxlike/maxlike_base.py:MaxLike.fit", "maxlike/maxlike.py:Poisson.like", "maxlike/maxlike.py:ZeroInflatedPoisson.like", "maxlike/maxlike.py:Logistic.like", "maxlike/maxlike.py:Finite.like", "maxlike/maxlike.py:NormalizedFinite.like", "maxlike/maxlike.py:NegativeBinomial.like"]}
{"id": "C76", "title": "The fixed point of the fits is the maximum likelihood estimate of the observations", "statement": "For Poisson, ZeroInflatedPoisson, Logistic and NegativeBinomial with a model linear in the parameters, Linear constraints and Quadratic penalties: after any session that gives the object the aggregated observations (C75), if the Newton step at the current parameters is zero, then no parameters that satisfy the constraints and have the same fixed entries give the observations a larger (penalised) probability, and, if the observed cells, penalties and constraints determine the free entries, every other such point gives them a strictly smaller one. In that case a Newton fit never raises LinAlgError: it returns True, or raises ConvergenceError, or divides by an average objective that is exactly 0.", "quantifier": "all observations with weights that are not negative, all sizes, labels, masks, start points, linear models, constraints and penalties, all histories of calls", "why_tests_cant": "it compares the fitted point with every other point of the parameter space, for every data set", "anchors": ["maxlike/maxlike_base.py:MaxLike.fit", "maxlike/maxlike_base.py:MaxLike.__step", "maxlike/maxlike.py:Poisson", "maxlike/maxlike.py:ZeroInflatedPoisson", "maxlike/maxlike.py:Logistic", "maxlike/maxlike.py:NegativeBinomial", "maxlike/preprocessing.py:prepare_series"]}
{"id": "C77", "title": "Standard errors and information criteria of a session", "statement": "After any session: akaine_information_criterion and bayesian_information_criterion return the (corrected) criteria, per observation, of the penalised log-likelihood of the current model, parameters and data; with the data of C75 that log-likelihood is the log-probability of the observations plus a number that depends only on the class and the data, so that the differences of the criteria of two models for the same data are the true differences. Before any fit has returned, std_error, error_matrix and fisher_matrix raise AttributeError. A Newton fit that raises leaves get_params and the results of these three methods as they were (those of the last fit that returned, even if the data have changed since). After a Newton fit that returned, for the classes and models of C76 with at least one constraint, std_error and error_matrix return the standard errors and covariances of the constrained estimate, NaN for fixed entries.", "quantifier": "all histories of calls, all data, sizes, masks, models of C76 (criteria: of C75), constraints, penalties, arguments of fit and nb_extra_params", "why_tests_cant": "it relates the numbers to the probability of every possible data set and to every history of earlier fits, returning or raising", "anchors": ["maxlike/maxlike_base.py:MaxLike.std_error", "maxlike/maxlike_base.py:MaxLike.error_matrix", "maxlike/maxlike_base.py:MaxLike.fisher_matrix", "maxlike/maxlike_base.py:MaxLike.akaine_information_criterion", "maxlike/maxlike_base.py:MaxLike.bayesian_information_criterion", "maxlike/maxlike_base.py:MaxLike.fit"]}
{"id": "C78", "title": "When a Newton fit converges", "statement": "For Poisson, ZeroInflatedPoisson, Logistic and NegativeBinomial with a model linear in the parameters, Linear constraints and Quadratic penalties that together determine the free entries: (near) there is a neighbourhood of the maximum such that fit(method='newton') from every point in it that satisfies the constraints returns True, for every tol and every max_steps larger than log_8(1/tol), with an objective within tol/5 (relative) of the maximum. (steps) For any problem whose penalised log-likelihood is at most c < 0 everywhere, max_steps of at least log(P(start)/c)/log(1 + tol) is enough: fit does not raise for the number of steps, and in the concave case either returns True or raises in the line search. (far) From a start far from the maximum a fit can raise: Poisson with one cell and the model X() raises for every start at least 5 below the estimate. (infeasible) A fit that starts at the maximum without the constraints, where a constraint does not hold, raises and leaves the parameters.", "quantifier": "all problems of the kind, sizes, data, tolerances, starts in the neighbourhood, numbers of steps", "why_tests_cant": "a test runs one start and one tolerance; convergence for every start near the maximum is a statement about a limit, and the failures need particular starts", "anchors": ["maxlike/maxlike_base.py:fit", "maxlike/maxlike_base.py:MaxLikeBase.fit (newton loop and line search)", "maxlike/maxlike.py:MaxLike"]}
{"id": "C79", "title": "The estimates do not depend on how the problem is written down", "statement": "Two solvers describe the same problem if, up to a rearrangement of the entries of the parameters (parameters added in another order, categories listed in another order, axes of the table exchanged, the same numbers in one array or in several), they have the same penalised log-likelihood, the same constraints and the same total weight, and the same entries are free: for instance the same model written with other classes or expressions. fit(method='newton') from the same start then tries the same points, prints the same number of lines, returns the same value or raises the same exception, and leaves the same estimates, rearranged. If it returns, fisher_matrix(), error_matrix() and (with at least one constraint) std_error() return the same numbers, rearranged.", "quantifier": "all problems whose log-likelihood is defined and twice continuously differentiable everywhere, all rearrangements, starts, tolerances, numbers of steps", "why_tests_cant": "a test compares two spellings of one model on one table; independence of the spelling ranges over all models, tables and rearrangements", "anchors": ["maxlike/maxlike_base.py:MaxLike.fit", "maxlike/maxlike_base.py:newton_step", "maxlike/maxlike_base.py:flat_grad", "maxlike/maxlike_base.py:flat_hess"]}
{"id": "C80", "title": "Multiplying all the weights", "statement": "If every count and weight is multiplied by the same positive number c (for instance because every observation is given c times) and there are no penalties (or the penalties are multiplied by c too), fit(method='newton') with Logistic, Finite or NormalizedFinite from the same start tries the same points, returns the same value or raises the same exception, and leaves the same estimates; fisher_matrix() is multiplied by c, error_matrix() divided by c and std_error() divided by the square root of c. With Poisson, ZeroInflatedPoisson and NegativeBinomial the log-likelihood is multiplied by c and a constant is added: the points tried are the same as long as both fits go on, and the estimates are the same if both return after the same number of steps.", "quantifier": "all models, tables and numbers c for which the log-likelihood is defined and twice continuously differentiable everywhere, all starts, tolerances, numbers of steps", "why_tests_cant": "a test compares one table with one multiple of it; the claim ranges over all tables, models and multiples", "anchors": ["maxlike/maxlike_base.py:MaxLike.fit", "maxlike/maxlike_base.py:fisher_matrix", "maxlike/maxlike_base.py:error_matrix", "maxlike/maxlike_base.py:std_error", "maxlike/maxlike.py:Logistic", "maxlike/maxlike.py:Poisson"]}
{"id": "C81", "title": "The tables depend only on the collection of the observations", "statement": "prepare_series and prepare_dataframe return exactly the same arrays and axes for the same rows in any order, and if pandas keeps the labels of the index levels in another order, whenever the transformations do not depend on the order of their argument (sums, numbers of observations, numbers of zeros do not). An observation of weight w1 + w2 can be given as two observations of weights w1 and w2. If every observation is given n times then sums, numbers of observations and numbers of zeros are multiplied by n and the axes stay the same.", "quantifier": "all sets of observations and labels, all orders of the rows, all splittings, all n, all extra axes", "why_tests_cant": "a test has one table and perhaps one permutation of it; the claim ranges over all tables and permutations", "anchors": ["maxlike/preprocessing.py:prepare_series", "maxlike/preprocessing.py:prepare_dataframe"]}
{"id": "C82", "title": "The Gaussian copula", "statement": "Gaussian(rho)([p, q]) accepts exactly the correlations from -1 to 1 and marginals that are not empty. For marginals with non-negative weights of positive sum the table has no negative entries, its row and column sums are the normalised marginals and its sum is one, up to 4 exp(-999^2/2) (the quantiles are clipped to [-999, 999]); for rho = 0 the entries are, up to the same bound, the products of the normalised marginals; exchanging the marginals transposes the table.", "quantifier": "every correlation, every pair of marginals of any lengths", "why_tests_cant": "all reals and lengths", "anchors": ["maxlike/func/copula.py:Gaussian", "maxlike/func/copula.py:gauss_bivar", "maxlike/func/copula.py:copulaWrap"]}
{"id": "C83", "title": "A change of parameters", "statement": "If one problem is another one with its parameters replaced by an invertible linear function of them plus a constant (other units, a standardised covariate, sums and differences of effects, another sign), with the same data, the constraints and penalties rewritten accordingly and the free entries corresponding to each other, then fit() with Newton's method from the corresponding start goes through the corresponding points, prints the same number of lines, and returns the same value or raises the same exception, with the corresponding estimates; error_matrix() changes to B E B^T, fisher_matrix() to its inverse counterpart and std_error() to the square roots of the diagonal.", "quantifier": "all problems, all invertible affine changes of the parameters, all starting points, all numbers of steps", "why_tests_cant": "a test compares two parametrisations of one model at a few points; the claim ranges over all models, all linear changes and all histories of the loop", "anchors": ["maxlike/maxlike_base.py:MaxLike.fit", "maxlike/maxlike_base.py:MaxLike.flat_grad", "maxlike/maxlike_base.py:MaxLike.flat_hess", "maxlike/maxlike_base.py:MaxLike.error_matrix", "maxlike/maxlike_base.py:MaxLike.fisher_matrix", "maxlike/maxlike_base.py:MaxLike.std_error"]}
{"id": "C84", "title": "The object and the user's arrays", "statement": "The state of a MaxLike object, and what fit() does, depends on the arrays given to add_param() and fit() only through the contents that they had when the call was made: whatever the user does with arrays later (slices, assignments, reuse of buffers, writes to results of get_params()) does not change the object. No method writes into an existing array of the user. Arrays of values accepted by add_param(), data given to fit() and the values returned by get_params() are read-only from then on (assignment raises ValueError).", "quantifier": "all programs: every interleaving of creating, slicing and assigning arrays with calls of the methods", "why_tests_cant": "aliasing bugs appear only for particular interleavings of writes and calls; a test has one of them", "anchors": ["maxlike/maxlike_base.py:Param.__init__", "maxlike/maxlike_base.py:Param.value", "maxlike/maxlike_base.py:MaxLike.add_param", "maxlike/maxlike_base.py:MaxLike.get_params", "maxlike/maxlike_base.py:MaxLike.fit", "maxlike/tensor/tensor.py:Tensor.__init__"]}
{"id": "C85", "title": "Fixing an entry and constraining it", "statement": "Fixing entries of the parameters at their values (the mask of add_param), or leaving them free and adding one linear constraint per entry that it equals this value, is the same: fit() with Newton's method goes through the same points, prints the same number of lines, and returns the same value or raises the same exception, with the same estimates; error_matrix() has the same covariances for the entries that are free in both problems and 0 for the constrained ones, std_error() has the same standard errors and 0 for the constrained ones.", "quantifier": "all problems, all sets of entries, all starting points that meet the added constraints, all numbers of steps", "why_tests_cant": "a test compares the two formulations for one model and one entry; the claim ranges over all models, all sets of entries and all histories of the loop", "anchors": ["maxlike/maxlike_base.py:Param", "maxlike/maxlike_base.py:MaxLike.add_constraint", "maxlike/maxlike_base.py:MaxLike.fit", "maxlike/maxlike_base.py:MaxLike.flat_hess", "maxlike/maxlike_base.py:MaxLike.error_matrix", "maxlike/maxlike_base.py:MaxLike.std_error"]}
{"id": "C86", "title": "Observed and fitted totals", "statement": "When the Newton step of fit() is zero, for Poisson, ZeroInflatedPoisson, Logistic and NegativeBinomial with a linear model, linear constraints and quadratic penalties, the parameters satisfy the score equations: along every change of the parameters that keeps the constraints and the fixed entries, the sum over the observations of the residual (the observation less its mean) times the change of the value of the model (and, for NegativeBinomial, times r / (r + mean)) equals the change of the penalties to the first order. So with a model that is a sum of one parameter per feature, the fitted totals of every label are the observed ones.", "quantifier": "all linear models, data, weights that are not negative, constraints, penalties, masks, parameters and histories of fits", "why_tests_cant": "the tests compare the estimates with stored numbers to a tolerance; the identity ranges over all models, all data and all admissible directions", "anchors": ["maxlike/maxlike_base.py:MaxLike.fit", "maxlike/maxlike_base.py:MaxLike.flat_grad", "maxlike/maxlike.py:Poisson", "maxlike/maxlike.py:Logistic", "maxlike/maxlike.py:ZeroInflatedPoisson", "maxlike/maxlike.py:NegativeBinomial", "maxlike/func/func.py:Linear", "maxlike/func/func.py:Quadratic"]}
