# Formal model of jpceia/maxlike in Lean 4

## Layout

* `lean/Verif/Model/*.lean`  – the model: one definition per function of /repo, each citing file and lines.
* `lean/Verif/Spec/*.lean`   – small independent specifications (dense-array meaning, calculus notions …).
* `lean/Verif/Lemmas/*.lean` – helper lemmas.
* `lean/Verif/Props/*.lean`  – the property theorems `Cnn_…` and, beside each, `example`s showing the
  hypotheses are met by concrete non-trivial cases, and the counterexamples for properties the code violates.

## Modelling conventions

* Floating point numbers are modelled by exact numbers: an arbitrary field / linearly ordered field where
  the code only computes, `ℝ` where calculus is needed, and an abstract type with an arbitrary `>=`
  test (so that NaN-like behaviour is allowed) in the control flow of `fit` and of the root finders.
  Rounding, overflow, NaN propagation through arithmetic are NOT modelled.
* Exceptions are values (`Except`/`Option`); a Python `for … else` / `while` is structural recursion or takes fuel.
* numpy, scipy and pandas are modelled by their documented behaviour (trusted, see below).
* Where a property is false of the code, the negation is proved on a concrete witness (named `…_counterexample`
  or `not_…`), and what remains true is proved as `…_partial`.

## Properties: what is modelled, how it is proved

| id | model | proof |
|----|-------|-------|
| C01 | `Param`, `np.insert`, `_reshape_array`, `_reshape_params` on flat row-major data | induction on the mask, then on the parameter list |
| C02 | `fit` (Newton, Broyden) as state machine over an abstract model | invariant "every iterate is `_reshape_params` of something" |
| C03 | same as C01 | positions of the k-th free / fixed entry, induction on the mask |
| C04 | `_reshape_matrix` | two applications of the insert lemma (rows, columns) |
| C05 | `std_error` incl. the `cut = None` slice | counterexample for no constraint; partial for >= 1 constraint |
| C06 | `add_param`, `Param.__init__`, with the `except AttributeError` recursion (fuel) | induction over histories; non-termination + erased params for list arguments as counterexample |
| C07–C11 | `fit` as a function on the object's state returning outcome × state, every callback may raise | case analysis / induction over the loop; counterexamples: Newton never sets `converged`, Broyden prints an undefined name |
| C12 | slice arithmetic over `Int` | `omega`-style modular arithmetic |
| C13 | KKT system assembled by `flat_grad`/`flat_hess` for `Linear` constraints, `np.linalg.solve` as parameter with its specification | linear algebra over finite sums, induction over the trajectory |
| C14 | rank one update | finite sums |
| C15–C17 | block assembly of `flat_grad`, `flat_hess` (vstack/hstack, masks), lower-triangular storage with `IndexError` | induction over blocks; counterexample for decreasing param_map |
| C18 | AIC/BIC | field algebra; counterexample for fixed entries (np.ma.count ignores the mask) |
| C19–C22 | per-cell kernels of the six likelihoods and their sums over cells | `HasDerivAt`, finite sums |
| C23–C28 | Func objects as syntax trees / dense semantics | structural induction; derivative along arbitrary differentiable curves |
| C29–C33 | leaf functions | `HasDerivAt`, `field_simp`/`ring`; the `swapaxes(0,-1)` layout on the array model |
| C34–C37 | in-place loops of matrix.py as folds over cells | loop invariants |
| C38–C39 | `copulaWrap` + the four closed-form copulas (Gaussian: C82) | telescoping sums; convexity of generators |
| C40–C44 | skellam.py; root finders parameterised by the distribution function evaluations | `HasDerivAt`; loop invariants; divergence proof |
| C45–C47 | groupby/agg/reindex/fillna/reshape over lists of labelled rows | list/multiset sums |
| C48–C58, C60, C61 | n-dimensional arrays (`ndim`, `shape`, `get`), numpy primitives, `Tensor`, `GenericTensor`, statement by statement | entry-wise semantics against the dense array of `Spec/Tensor.lean`, index arithmetic, induction over element lists |
| C59 | Newton loop of `fit`, which Hessian is stored when | loop invariant; counterexample (the Hessian is the one of the step before) |
| C62 | `grad_tensor`, `hess_tensor` with the three kinds of map arguments | entry-wise semantics of the constructed Tensor |
| C63 | the methods `like`, `grad_like`, `hess_like` of the six classes of maxlike.py as the sequence of Tensor operations they execute, on Tensors in any layout (`Spec/Layout.lean`) | per operation lemmas "the result represents the operation on the dense arrays and is again in the layout" (Lemmas/TensorPiece, NumPiece, NumSum, ValueTensor, Blocks, Cells, Outcomes), then the calculus of C19/C20 |
| C64 | FuncWrap, Affine, Sum and the elementary functions as the Tensor operations they execute (`Model/FuncOpTensor.lean`, `Model/LeavesTensor.lean`); `Sum.add` of a `Sum` or an `Affine` of one (`Model/AddTensor.lean`); MaxLike's use of the model (`Model/FitTensor.lean`) | `Computes` (Spec/FuncTensor.lean): for all parameters in the domain, the results are arrays of the layout of C63 with the values and derivatives; each constructor preserves `Computes`; then C63 with C19/C20; examples for tables of any size in Props/TwoFactor.lean |
| C65 | `Compose` (func_base.py:242-347) as the Tensor operations it executes (`Model/ComposeTensor.lean`), with dot_left/dot_right/drop_dim of Tensors and GenericTensors | `Acts` (Spec/Acts.lean): f computes a function of the numbers at each position, with derivatives along curves; Lemmas/Sheet, Stack (contractions of arrays with parameter axes of size 1), ComposeKit (the loops), ActsCompose (Acts is closed under Compose), ComposeNum, then Props/FuncComposeTensor: Compose of an `Acts` function with `Computes` functions is `Computes`; models of the test suite in Props/TestModels.lean; MarkovVector and MarkovMatrix as outer functions in Model/MarkovTensor.lean, Props/MarkovTensor.lean; CollapseMatrix in Model/CollapseTensor.lean, Lemmas/Wall (contractions with two unmapped axes), Lemmas/CollapseLeaf, Props/CollapseTensor, CollapseActs, CollapseModels; Game/TieBreak/Set/Collapse in Model/TennisTensor.lean, Lemmas/Tennis.lean, Props/TennisTensor.lean, and the model of test_set in Props/TennisSet.lean |
| C66 | `Product` (func_op.py:223-300) as the Tensor operations it executes (`Model/ProductTensor.lean`) | `Store.firm`/`Store.prod` (Spec/ProductTensor.lean) say which storage the product has; Lemmas/ArrMul, ArrStep, ProdAlgebra (products and sums of represented arrays, the product rule for partial products), Props/FuncProductTensor: a Product of `Computes` functions is `Computes` for the product; models of the test suite in Props/ProductModels.lean |
| C67 | `flat_grad`, `flat_hess` (maxlike_base.py:321-416) on the Tensors that `grad_like`/`hess_like` and the constraint and regularisation functions return (`Model/FlatTensor.lean`, `Model/COrder.lean`); `Linear`, `Quadratic`, `Scalar` (func.py:6-50, 77-85) and `Affine` of them | the loops over constraints and regularisations keep every block a representation of its derivatives (Lemmas/FlatLoops, FlatMain, FlatHessMain), mask selection and stacking give the entries at their ranks (FlatAssembly); Linear/Quadratic in LinQuad, LinQuadTerms; the blocks have the shapes of the parameters (Lemmas/Span: sums and products keep all parameter axes), so nothing is broadcast and no `IndexError` is raised |
| C68 | the callbacks of the fit loop of `Model/Fit.lean` (C02, C08-C14) instantiated with the Tensor models of C63-C67 (`Model/FitFull.lean`): `g` (maxlike_base.py:94-104) with its `Tensor / Tensor` and `float`, `model.eval`, `flat_grad`, `flat_hess`; `np.linalg.solve` is exact (the unique solution or `LinAlgError`) | the system solved is shown equivalent to the step equations written with sums over free entries (Lemmas/FitFull: `system_iff`); the loop by induction on the steps with a property of the visited points |
| C69 | `std_error`, `fisher_matrix`, `error_matrix`, the criteria (maxlike_base.py:159-211, 295-319) on the matrix that the fit of C68 stored (`Model/ErrorsTensor.lean`); `np.linalg.inv` and `pinvh` are exact | the bordered matrix is invertible because the last Newton system had a unique solution; the columns of its inverse are shown to solve the constrained problem; `covariance_greatest` by Cauchy-Schwarz on the tangent directions; Props/Symmetry.lean: symmetry of second derivatives from C² (Mathlib's `isSymmSndFDerivAt` in the plane of two entries) |
| C70 | problems of C68 whose model is linear in the parameters (`Spec/Concave.lean`) | the second derivatives are `-Σ w x x'` minus the penalties (uniqueness of derivatives); concavity gives the steps (C69) and the global maximum by the tangent inequality at each cell |
| C71 | `fit(method='broyden')` (maxlike_base.py:508-562) with the callbacks of C68 and the exact `pinvh` of C69; specification in `Spec/Broyden.lean` | induction over the loop with the run as witness; the pseudo-inverse exists by the spectral theorem; C14 for the update; gradients from `model(params)`, `model.grad(params)` (`modelGradCall`) are those of `eval` by uniqueness of derivatives |
| C72 | tensor.py: the operators of `BaseTensor`, `__array_ufunc__`, `__pow__`, `dot` (`Model/Operators.lean`); specification: the operation on numbers and the represented arrays | case analysis on the dispatch, then C50, C51, C57; induction on the recursion depth for `np.maximum` |
| C73 | func_base.py: the four wrappers, `FuncMeta.__new__`, `null_func`, `null_method`, method lookup (`Model/Protocol.lean`), for arbitrary methods; specification: which parameters an object means (`Spec/Protocol.lean`) | case analysis on the body of the class; induction on the list of parameters for the list and the triangle; `C73_library` links it to the functions of the other models |
| C74 | maxlike_base.py: `MaxLike.__init__`, the six constructors of maxlike.py, `add_param`, `reset_params`, `get_params`, `add_constraint`, `add_regularization`, the keyword arguments of `fit`, as one state machine (`Model/Session.lean`); specification: the problem read off the list of calls (`Spec/Session.lean`) | induction on the list of calls from the right; C02, C06, C07 for the parameters; C68 for repeated fits |
| C75 | preprocessing.py followed by `fit(**kwargs)`: the arrays of C45/C46 as the data of the sessions of C74 (`Model/Pipeline.lean`); specification: the probability of one observation (`Spec/Observations.lean`) | the log-likelihoods are linear in the cell sums, so the sum over cells is a sum over observations (induction on the rows); cells and labels correspond one to one; normalisation by the exponential and the binomial series |
| C76 | the problems of C75 whose model is linear in the parameters; specification as C70 and C75 | the sums over the observations in a cell are concave functions of the value of the model (second derivatives, for each class), then C70 and C68 |
| C77 | the methods that read the result of a fit, in the sessions of C74; specification as C69, C70 and C75; `Linked` (chains of observed pairs) for the example | C69 and C70 through the invariant of C74; the constant of C75 does not depend on the model |
| C78 | the Newton loop and the line search of C68 with the concave problems of C70; specification: `RegularCells` (continuous second derivatives), `Close` | local contraction of the Newton step in the norm of the second order form at the maximum (induction over the loop); the ratio test bounds the number of steps; one-cell problems for the failures |
| C79 | the Newton loop of C68, run on two problems; specification: `Spec/Rearrange` (`SameProblem`, `SamePoint`, `SameFree`: an equivalence between the entries of the parameters) | the first derivatives agree by uniqueness, the second ones by uniqueness and Schwarz's theorem (C69_symmetric), so a solution of one Newton system gives one of the other; induction over the line search and the loop |
| C80 | the Newton loop of C68 on two problems; specification: `Spec/Rearrange` (`ScaledProblem`, `SamePath`) | as C79: the Newton systems are proportional except for the multipliers, so they have the same steps; the test for convergence is a ratio of objectives, unchanged by the factor (but not by an added constant); `C80_repeated_rows` composes it with C45, C74 and C81 |
| C81 | `prepareSeries`, `prepareSeriesPlain`, `prepareDataframe` of `Model/Preprocessing` | each cell is a function of the list of its observations (C45), which a permutation of the rows permutes; sorted lists of the same labels are equal |
| C82 | `Gaussian` (copula.py:22-25, 60-86) with exact normal quantiles and Mathlib's `multivariateGaussian` in place of `ndtri` and `mvnun` | the copula function is the probability of an intersection of two strips; marginals of the normal vector are standard normal; Chernoff bound for the clipped mass; characteristic functions for the exchange |
| C83 | `fit` with Newton's method, `error_matrix`, `fisher_matrix`, `std_error` of two problems with objective P'(Bθ + b) = P(θ) | the Newton system in weak form (linear and bilinear forms on the free directions, `Lemmas/Directional.lean`) is equivariant; induction over the loop |
| C84 | arrays as references to buffers (views, `WRITEABLE` flags), `add_param`, `get_params`, `reset_params`, `fit` on references, the user's own slices and assignments (`Model/Memory.lean`) | refinement: invariant of guarded arrays, induction over the program, to the histories of calls of `Model/Session.lean`; unconditional invariants for flags and contents; counterexamples for shared masks and views |
| C85 | `fit` with Newton's method, `error_matrix`, `std_error` of a problem with fixed entries and of the problem with these entries free and constrained | the bordered Newton system is solvable uniquely for one problem iff it is for the other, with the same step (the constraint rows force the entries to stand still, their multipliers absorb the gradient); induction over the loop (shared with C83) |
| C86 | a Newton step of `fit` that is zero, for the four classes with a log-concave probability, linear models, linear constraints and quadratic penalties (Spec/Score.lean: means and link weights) | the point is a maximum along every admissible line (C70/C76), so the derivative along the line, calculated from the log-probabilities of the observations, is 0; `C86_mean` sums the series `v P(v)` |

## Modules

| module | what it models (files of /repo/maxlike) |
|--------|------------------------------------------|
| `Model/Params` | maxlike_base.py: `Param`, `add_param`, `reset_params`, `_reshape_array`, `_reshape_params`, `_reshape_matrix`, `std_error`; `np.insert`, slices, reshape on row-major lists |
| `Model/Fit` | maxlike_base.py: `g`, `newton_step`, `fit` (Newton and Broyden, all branches, exceptions, stored attributes) over abstract callbacks that may raise |
| `Model/Flat` | maxlike_base.py: `flat_grad`, `flat_hess`, `add_constraint`, `add_regularization` (as data), `akaine_/bayesian_information_criterion`, the Broyden update |
| `Model/Likelihood` | maxlike.py, the six classes, dense semantics (functions on cells) |
| `Model/LikeTensor` | maxlike.py, the six classes, as Tensor operations |
| `Model/FitFull` | maxlike_base.py: `g`, `newton_step` and `fit` with the Tensor operations as callbacks (C68) |
| `Model/ErrorsTensor` | maxlike_base.py: `std_error`, `fisher_matrix`, `error_matrix`, the information criteria on the results of `Model/FitFull` (C69) |
| `Model/Operators` | tensor.py: operators of `BaseTensor`, `__array_ufunc__`, `__pow__`, `Tensor.dot` |
| `Model/Protocol` | func_base.py: `call_wrap`, `vector_wrap`, `matrix_wrap`, `eval_wrap`, `FuncMeta.__new__`, `null_func`, `null_method` |
| `Model/Session` | maxlike_base.py: the object under a sequence of calls (C74) |
| `Model/Pipeline` | the arrays of the preprocessing as keyword arguments of `fit` (C75) |
| `Model/SessionErrors` | the methods of a session that read the result of a fit (C77): maxlike_base.py `std_error`, `error_matrix`, `fisher_matrix`, the criteria |
| `Model/Func` | func_base.py and func_op.py: `Func` operators, `Affine`, `Compose`, `FuncWrap`, `Collapse`, `Sum`, `Product` (`__call__`, `grad`, `hess`, `eval`, `add`), dense semantics |
| `Model/FuncTensor` | func_base.py: `grad_tensor`, `hess_tensor` |
| `Model/Leaves` | func.py, sigmoid.py, func_proba.py, tennis.py |
| `Model/Markov` | matrix.py: `MarkovMatrix`, `MarkovVector`, `CollapseMatrix` (in-place loops cell by cell) |
| `Model/Copula`, `Model/CopulaGaussian` | copula.py: `copulaWrap`, Clayton, Gumbel, Frank, AkiMikhailHaq; Gaussian (with the functions that `ndtri` and `mvnun` compute) |
| `Model/Skellam` | skellam.py, all functions |
| `Model/Preprocessing` | preprocessing.py, all functions |
| `Model/NDArray` | the numpy primitives used by tensor.py |
| `Model/Tensor` | tensor.py: all helper functions, `Tensor` and `GenericTensor` |

Specifications, independent of the model's helpers: `Spec/Params` (free positions), `Spec/Flat` (layout of flat
vectors), `Spec/Calculus` and `Spec/Derivatives` (what "derivative of" means), `Spec/Func` (value and derivative of an
expression), `Spec/Markov` (the random walk), `Spec/Tensor` (the dense array a Tensor stands for), `Spec/Layout`
(layouts of data, models and derivatives in a fit), `Spec/FitFull` (Newton steps), `Spec/Rearrange`, `Spec/Reparam` and `Spec/Pin`
(when two problems are the same one in other words).

## Trusted base

1. Lean 4.33's kernel (and, for reading the statements, its elaborator) and the definitions of Mathlib used in
   statements (`HasDerivAt`, `Finset.sum`, `Real.exp`, `Real.log`, `Real.Gamma`, …).
2. Axioms: only `propext`, `Classical.choice`, `Quot.sound`.  `AXIOMS.txt` (generated by `tools/axioms.py` with
   `collectAxioms`) lists them for each theorem.  No axioms are added, nothing is admitted, no compiled evaluation.
3. The correspondence between the definitions of `Model/` and the Python text: each definition cites file and lines and
   says where it simplifies.  It was checked by reading only; the code was not run.
4. numpy, scipy and pandas behave as documented: broadcasting, `insert`, `reshape`, `moveaxis`, `swapaxes`, `diagonal`,
   `transpose`, `expand_dims`, `eye`, `sum(axis)`, `linalg.solve` (C13: returns a solution), `pinvh`, `gammaln`
   (`Real.log (Gamma _)`), `groupby`/`agg`/`reindex`/`fillna` (C45–C47).
5. Floating point numbers are exact: no rounding, no overflow, no NaN except where a definition says so
   (comparisons of `fit` and the root finders are arbitrary relations; the 0/inf conventions of Gumbel and Clayton at
   weight 0 are explicit).

### Not modelled

* The numerical errors of scipy's compiled `mvnun` and `ndtri` (`Model/CopulaGaussian` has the functions they compute);
  `no_divwarn`, `vectorize` (numpy warnings, `np.frompyfunc`).
* `Func.__div__` (Python 2 only), `__str__`, `__hash__`, `__setattr__`/`__delattr__` (immutability flags),
  `set_dtype`, memory layout, aliasing of numpy views inside the Tensor operations (that between the user's arrays and
  the object is C84); the 127-axis limit of int8 maps.
* tensor.py: ufuncs other than the unary ones, the four operations, `maximum` and `minimum`.
* `MaxLike.fit`'s printed text (only the `NameError` it can raise is modelled), logging, wall-clock time.
* keyword arguments of `fit` with names of other attributes (they overwrite them) and data given as Tensors.
* setup.py, tests/.

## Status of the theorems

`MANIFEST.json` (generated by `tools/manifest.py` from `tools/claims.txt`) lists the theorems for each property.
"proved": the statement of properties.jsonl holds of the model and is proved.  "partial": either the full claim is
false of the code – then a `…_counterexample` theorem refutes it on a concrete input, and `…_partial` theorems prove the
claim with the hypothesis that is missing – or a part of the domain is not covered (said in the note).

### Claims that are false of the code (each refuted by a theorem)

| property | finding |
|----------|---------|
| C05 | `std_error()` without constraints: `-None` raises TypeError |
| C06 | `add_param` with lists: parameters erased, unbounded recursion |
| C07, C10, C11 | Broyden stores parameters before a step that may raise; Newton never sets `converged`; Broyden with `verbose` raises NameError |
| C71 | Broyden's method may decrease the objective (it goes to a minimum as well); with constraints the stored matrix is not the Hessian even for a quadratic objective and a linear constraint: the update uses the step of the multipliers, `pinvh` reads one triangle of a matrix that is not symmetric (the standard errors recorded in tests/data/test_poisson_broyden.csv differ from those in test_poisson.csv at the same estimate) |
| C63 | `Finite` with arrays stored with outcome axes of size 1: `y.sum(dim)` counts the stored value once, not once per outcome, so `like` and `grad_like` are those of another function (`C63_finite_like_broadcast`, `C63_finite_grad_broadcast`) |
| C08 | the step control compares values of `model.eval` with values of `model()`; when they differ the objective may decrease |
| C16, C17 | a constraint listing parameters in decreasing order raises IndexError in `flat_hess`; with repeated indices the matrix is not symmetric |
| C18 | fixed entries are counted as free parameters |
| C24, C25 | `Sum.add` adds the offset without its weight; `Sum.eval` ignores the offset |
| C26, C27 | `FuncWrap` with repeated indices has a wrong gradient; `eval` raises for decreasing maps |
| C31 | `Set` clips its value but not its gradient |
| C33, C37 | the `swapaxes(0, -1)` after `np.stack` rotates the feature axes (two or more axes); in the model of test_set the values and gradients are right, the second derivatives wrong |
| C36 | mixed second derivative of `MarkovMatrix` for asymmetric skew |
| C37 | `CollapseMatrix` with user supplied conditions raises AttributeError |
| C41 | the documented sign of the difference is reversed |
| C42 | `poisson_cdf_root` returns the exception class instead of raising |
| C44 | `conditional_skellam_cdf_root` may loop forever |
| C46, C47 | a transformation called "N" is overwritten; the last two columns of `df_count` are exchanged |
| C49–C52, C55–C58, C61 | Tensor operations outside the layouts used by the package (see the notes in MANIFEST.json) |
| C59 | the Hessian kept after a Newton fit is the one before the last step |
| C64 | `FuncWrap` with `feat_flip`: the values are reversed, but `grad` and `eval` raise NotImplementedError, so that the function cannot be used in a fit |
| C65 | `Compose`: with an inner function that sums over a matrix parameter the Hessian has its entries in the wrong places; if a parameter does not occur in one of the inner functions `hess` and `eval` raise AssertionError; with `X()` as outer function the Hessian is a number and `Sum.eval` raises AttributeError; `CollapseMatrix()` on three features of different sizes raises ValueError in `grad` and `eval` (Props/ComposeCounterexamples.lean, evaluated by the kernel over ℚ) |
| C64 | `FuncWrap.grad` takes every ValueError as "not in the map": a `Sum` reports the derivative 0 for an atom whose `grad` raises ValueError; with `feat_flip` of an axis stored with size 1, `eval` returns two derivatives for one parameter, `grad` is right (Props/CollapseCounterexamples.lean) |
| C64, C67 | `Collapse(f)` has wrong derivatives if those of `f` are stored with an axis of size 1: for `a_i + b_j` the derivatives are 1 instead of the number of cells (Props/CollapseCounterexamples.lean) |
| C67 | `Linear` as regularisation raises AttributeError; a term with `param_map=[0, 0]` enters `flat_hess` with half its second derivative; `flat_hess` raises IndexError for a regularised array parameter that does not occur in the model (Props/FlatCounterexamples.lean) |
| C67 | the constraint `Scalar() - c` raises `TypeError` in `flat_hess`: `Affine` of a null `hess` returns one `Tensor(0)` where a list is expected |
| C67, C68 | a constraint or regularisation that does not list its parameters in increasing order makes `flat_hess` and every `fit` raise, whatever its function |
| C68 | a model that does not depend on one of the array parameters cannot be fitted: `flat_grad` and `fit` raise `IndexError` (unless a regularisation has the parameter) |
| C72 | `np.add(t, y)` and the like with a Tensor first ignore `y`; `np.maximum(y, t)` recurses without end; `t ** 0` is 0 off a stored diagonal |
| C73 | a subclass does not inherit `grad`/`hess`/`eval`; `Compose(f, g).eval(x)` raises TypeError where `eval([x])` works if `f.hess` is null; a parameter that is a Python list is taken as several parameters |
| C74 | a `fit` that raises is not undone: its data stay stored and are used by the next `fit` |
| C77 | after a `fit` that raises, `std_error`, `error_matrix` and `fisher_matrix` return the values of the previous fit, although the data may be others (`C77_raised`); the criteria use the new data |
| C78 | a Newton fit of a concave, well posed problem does not converge from every start (`C78_far_start`: `Poisson`, one cell, model `X()`, start 5 below the estimate); adding a constraint that the estimate violates makes the next fit raise (`C78_infeasible`) |
| C84 | `add_param` keeps `fixed` by reference and leaves it writeable (a mask array filled in turn for two parameters gives the first one the mask of the second); `get_params()[i].mask` is the object's own mask; values passed as a slice can be changed through the base array |

### What the partial theorems leave open (neither proved nor refuted)

| property | missing |
|----------|---------|
| C63 | `Finite` when the model or a derivative is stored with outcome axes of size 1 (false: `C63_finite_like_broadcast`, `C63_finite_grad_broadcast`) |
| C64 | Collapse inside a Sum of a function whose second derivatives are GenericTensors in which the axes of a parameter are missing from all elements (otherwise Props/CollapseModel.lean); derivatives with `feat_flip` (the code raises NotImplementedError); Finite with models broadcast along outcome axes (false, C63) |
| C65 | MarkovMatrix with another skew; Game/TieBreak/Set on arrays with two or more axes (C33) |
| C68 | convergence to a maximum (Newton's method need not converge) |
| C70, C76 | convergence of the iteration; Finite, NormalizedFinite (not concave in general) |
| C71 | convergence; NaN after a step that changes nothing is modelled as an immediate ConvergenceError |

## Seeded errors

`seeded/mutants_*.json` are edits of the model; `tools/mutate.py` applies each in a scratch copy, removes the proofs that
break and reports every property theorem that depends on a removed proof.  `seeded/LOG.jsonl` has one line per edit.
