import Verif.Model.FuncOpTensor
import Verif.Model.Func

/-!
# Model: `Sum.add` (func_op.py:151-197) with the Tensor operations of the functions

`Model/Func.lean` has `Sum.add` on functions of positions (C23, C24); here the atoms are the functions of `Model/FuncOpTensor.lean`, which work on Tensors.
-/

namespace Verif.Tens
open Verif.Params (Err)
open Verif.Func (mapThrough)

variable {α : Type} [Field α] [DecidableEq α]

/-- The argument `foo` of `Sum.add`: an `Affine`, a `Sum` (its atoms and its offset), or any other function.  The base of an `Affine` is a `Sum` or another function
(func_base.py:216-219: `Affine.__init__` takes an `Affine` apart). -/
inductive Addend (α : Type) where
  | other (f : TFunc α)
  | sum (atoms : Atoms α) (b : α)
  | affine (base : Addend α) (a b : α)

/-- A `Sum`: its attributes `atoms`, `b`, `n_feat`, `n_dim` (func_op.py:145-149). -/
structure SumObj (α : Type) where
  atoms : Atoms α
  b : α
  nFeat : Nat
  nDim : Nat

/-- `Sum(n_feat, n_dim)` -/
def SumObj.empty (nFeat nDim : Nat) : SumObj α := ⟨[], 0, nFeat, nDim⟩

/-- The `for w, atom in foo.atoms` loop (func_op.py:186-192): the maps of the atom are read through those of the argument (`IndexMap.__call__`); `foo` of an atom is
neither an `Affine` nor a `Sum`, since those are taken apart when they are added. -/
def SumObj.addAtoms (s : SumObj α) (pm fm dm : List Nat) (weight : α) : Atoms α → Except Err (SumObj α)
  | [] => .ok s
  | (w, f, g) :: l => do
    let p ← mapThrough g.pm pm
    let q ← mapThrough g.fm fm
    let r ← mapThrough g.dm dm
    SumObj.addAtoms { s with atoms := s.atoms ++ [(w * weight, f, ⟨p, q, s.nFeat, r, s.nDim, []⟩)] } pm fm dm weight l

/-- `Sum.add(foo, param_map, feat_map, dim_map, weight)` (func_op.py:151-197), the maps given as lists. -/
def SumObj.add (s : SumObj α) : Addend α → List Nat → List Nat → List Nat → α → Except Err (SumObj α)
  | .other f, pm, fm, dm, weight => .ok { s with atoms := s.atoms ++ [(weight, f, ⟨pm, fm, s.nFeat, dm, s.nDim, []⟩)] }
  | .sum atoms b, pm, fm, dm, weight => SumObj.addAtoms { s with b := s.b + b } pm fm dm weight atoms
  | .affine base a b, pm, fm, dm, weight => SumObj.add { s with b := s.b + b } base pm fm dm (weight * a)

/-- The methods of a `Sum` (func_op.py:199-220). -/
def SumObj.func (s : SumObj α) : TFunc α := sumT s.atoms s.b

end Verif.Tens
