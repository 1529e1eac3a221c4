import Verif.Model.FitFull
import Verif.Model.Params
import Mathlib.LinearAlgebra.Matrix.Notation
import Mathlib.Analysis.SpecialFunctions.Log.Basic
import Mathlib.Analysis.SpecialFunctions.Sqrt

/-!
# Model of `std_error`, `error_matrix`, `fisher_matrix` and the information criteria after a fit on Tensors

`maxlike/maxlike_base.py`: 159-211, 295-319.  The linear algebra is exact: `np.linalg.inv` returns the inverse or raises `LinAlgError`, `scipy.linalg.pinvh` returns
the Moore-Penrose inverse of the symmetric matrix that has the given lower triangle.
-/

namespace Verif.Tens
open Verif.Params (Err Param)

/-- A square array as a matrix. -/
def toMat (n : Nat) (M : List (List ℝ)) : Matrix (Fin n) (Fin n) ℝ := fun r c => (M.getD r []).getD c 0

/-- An `n` by `n` array. -/
def Square (n : Nat) (M : List (List ℝ)) : Prop := M.length = n ∧ ∀ l ∈ M, l.length = n

/-- The conditions of Penrose: `B` is the pseudo-inverse of `A`. -/
structure IsPinv {n : Nat} (A B : Matrix (Fin n) (Fin n) ℝ) : Prop where
  one : A * B * A = A
  two : B * A * B = B
  three : (A * B).transpose = A * B
  four : (B * A).transpose = B * A

/-- The symmetric matrix with the lower triangle of `A`: `pinvh` reads the lower triangle only. -/
def lowerOf {n : Nat} (A : Matrix (Fin n) (Fin n) ℝ) : Matrix (Fin n) (Fin n) ℝ := fun r c => if c ≤ r then A r c else A c r

open scoped Classical in
/-- `np.linalg.inv(M)` in exact arithmetic: `LinAlgError` unless `M` is square and has an inverse. -/
noncomputable def exactInv (M : List (List ℝ)) : Except Err (List (List ℝ)) :=
  if h : Square M.length M ∧ ∃ B, Square M.length B ∧ toMat M.length M * toMat M.length B = 1 then .ok h.2.choose else .error .linAlg

open scoped Classical in
/-- `scipy.linalg.pinvh(M)` in exact arithmetic; `ValueError` if `M` is not square. -/
noncomputable def exactPinvh (M : List (List ℝ)) : Except Err (List (List ℝ)) :=
  if h : Square M.length M ∧ ∃ B, Square M.length B ∧ IsPinv (lowerOf (toMat M.length M)) (toMat M.length B) then .ok h.2.choose else .error .valueError

/-- `np.diag(M)` for a square array -/
def diagOf (M : List (List ℝ)) : List ℝ := (List.range M.length).map fun k => (M.getD k []).getD k 0

/-- `-M` -/
def negMat (M : List (List ℝ)) : List (List ℝ) := M.map fun l => l.map fun x => -x

/-- `np.sqrt` of a number: NaN for a negative number -/
noncomputable def npSqrt (nan x : ℝ) : ℝ := if x < 0 then nan else Real.sqrt x

/-- `std_error()` (maxlike_base.py:309-319), after a fit that has stored `flatHess` in `flat_hess_`.  `nan` stands for NaN. -/
noncomputable def stdErrorT (M : MaxLikeT ℝ) (params : List (Param ℝ)) (flatHess : List (List ℝ)) (nan : ℝ) : Except Err (List (Param ℝ)) :=
  Params.stdError params M.constraint.length (do let B ← exactInv flatHess; pure (diagOf (negMat B))) (npSqrt nan) nan

/-- `fisher_matrix()` (maxlike_base.py:295-296) -/
def fisherMatrixT (params : List (Param ℝ)) (flatHess : List (List ℝ)) : Except Err (List (List (List (List ℝ)))) :=
  Params.reshapeMatrix params flatHess 0

/-- `error_matrix()` (maxlike_base.py:298-307); an `ndarray` has no `mask`, so `mask` is `None`. -/
noncomputable def errorMatrixT (params : List (Param ℝ)) (flatHess : List (List ℝ)) (nan : ℝ) : Except Err (List (List (List (List ℝ)))) := do
  let B ← exactPinvh flatHess
  Params.reshapeMatrix params (negMat B) nan

/-- `k` (maxlike_base.py:183-185, 206-208): `np.ma.count` of a `Param` counts all of its entries, see `Model/Flat.lean`. -/
def dofT (M : MaxLikeT ℝ) (params : List (Param ℝ)) (extra : Int) : Int :=
  ((params.map fun p => p.values.length).sum : Nat) + extra - M.constraint.length

/-- `akaine_information_criterion(nb_extra_params)` (maxlike_base.py:159-188); a division by 0 is not modelled. -/
noncomputable def aicT (M : MaxLikeT ℝ) (params : List (Param ℝ)) (extra : Int) : Except Err ℝ := do
  let k : ℝ := (dofT M params extra : Int)
  let n ← M.N.sumAll
  let n ← (Py.arr n).float
  let y ← callT M params
  let l ← objT M params y
  pure (2 * k / (n - k - 1) - 2 * l)

/-- `bayesian_information_criterion(nb_extra_params)` (maxlike_base.py:190-211) -/
noncomputable def bicT (M : MaxLikeT ℝ) (params : List (Param ℝ)) (extra : Int) : Except Err ℝ := do
  let k : ℝ := (dofT M params extra : Int)
  let n ← M.N.sumAll
  let n ← (Py.arr n).float
  let y ← callT M params
  let l ← objT M params y
  pure (k * Real.log n / n - 2 * l)

end Verif.Tens
