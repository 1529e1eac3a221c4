import Verif.Model.Session
import Verif.Model.ErrorsTensor

/-!
# The methods of a `MaxLike` object that read the result of a fit
-/

namespace Verif.Tens
open Verif.Params

/-- `std_error()` (maxlike_base.py:309-319): `flat_hess_` does not exist before a fit has stored it.  (Simplification: an object without `params` raises the same
`AttributeError`, after the inversion.) -/
noncomputable def Session.stdError (s : Session) (nan : ℝ) : Except Err (List (Param ℝ)) :=
  match s.flatHess, s.params with
  | none, _ => .error .attribute
  | _, none => .error .attribute
  | some J, some ps => stdErrorT s.problem ps J nan

/-- `fisher_matrix()` (maxlike_base.py:295-296) -/
def Session.fisherMatrix (s : Session) : Except Err (List (List (List (List ℝ)))) :=
  match s.flatHess, s.params with
  | none, _ => .error .attribute
  | _, none => .error .attribute
  | some J, some ps => fisherMatrixT ps J

/-- `error_matrix()` (maxlike_base.py:298-307): the `AttributeError` of a missing `flat_hess_` is caught in line 304 and raised again by line 307. -/
noncomputable def Session.errorMatrix (s : Session) (nan : ℝ) : Except Err (List (List (List (List ℝ)))) :=
  match s.flatHess, s.params with
  | none, _ => .error .attribute
  | _, none => .error .attribute
  | some J, some ps => errorMatrixT ps J nan

/-- `akaine_information_criterion(nb_extra_params)` (maxlike_base.py:159-188); `None` has no `sum` when `N` has not been given. -/
noncomputable def Session.aic (s : Session) (extra : Int) : Except Err ℝ :=
  match s.params, s.data .N with
  | none, _ => .error .attribute
  | _, none => .error .attribute
  | some ps, some _ => aicT s.problem ps extra

/-- `bayesian_information_criterion(nb_extra_params)` (maxlike_base.py:190-211) -/
noncomputable def Session.bic (s : Session) (extra : Int) : Except Err ℝ :=
  match s.params, s.data .N with
  | none, _ => .error .attribute
  | _, none => .error .attribute
  | some ps, some _ => bicT s.problem ps extra

end Verif.Tens
