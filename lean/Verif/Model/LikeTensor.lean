import Verif.Model.Likelihood
import Verif.Model.Tensor
import Mathlib.Data.Real.Basic

/-!
# Model of the six likelihood classes (maxlike/maxlike.py) in terms of Tensor operations

`Model/Likelihood.lean` models the same methods with arrays that are dense and have the full shape.  Here they are modelled
operation by operation, with the Tensors and GenericTensors that the code computes with: diagonal storage,
broadcasting, `transpose()`, `sum()` and the special cases of the arithmetic.  `X`, `N` and `Z` are the Tensors that `fit`
stores (maxlike_base.py:462-464).  Numbers are real.
-/

namespace Verif.Tens
open Verif.Params (Err)

section
variable {α : Type} [Field α] [DecidableEq α]

/-- `np.exp(t)`, `np.log(t)`, `gammaln(t)` of a Tensor (tensor.py:933-943) -/
def Tensor.ufunc (f : α → α) (t : Tensor α) : Except Err (Tensor α) :=
  if 0 < t.xDim ∨ 0 < t.yDim then .error .invalidOperation
  else mkTensor (t.values.map f) 0 0 t.dim [] []

/-- The same; GenericTensors do not support these functions (tensor.py:426-437). -/
def Num.ufunc (f : α → α) : Num α → Except Err (Num α)
  | .tensor t =>
    match t.ufunc f with
    | .error e => .error e
    | .ok r => .ok (.tensor r)
  | .generic _ => .error .invalidOperation

/-- `t + c`, `c + t`, `t - c`, `c - t`, … for a number `c` (tensor.py:186-208, 356-406, 804-834) -/
def Num.scalarOp (t : Num α) (op : Op) (c : α) : Except Err (Num α) :=
  match t with
  | .tensor t =>
    match t.binScalar c op with
    | .error e => .error e
    | .ok r => .ok (.tensor r)
  | .generic g =>
    match g.binPrim (.scalar c) op with
    | .error e => .error e
    | .ok r => .ok (.generic r)

/-- `t.sum(sum_val, sum_dim)` (tensor.py:233-282, 484-534) -/
def Num.sum (t : Num α) (sumVal : SumVal) (sumDim : Bool) : Except Err (Num α) :=
  match t with
  | .tensor t =>
    match t.sum sumVal sumDim with
    | .error e => .error e
    | .ok r => .ok (.tensor r)
  | .generic g => g.sum sumVal sumDim

/-- `t.sum()` -/
def Num.sumAll (t : Num α) : Except Err (Num α) := t.sum .all true

/-- `t.sum(False)` -/
def Num.sumOutcomes (t : Num α) : Except Err (Num α) := t.sum .none true

/-- `t.transpose()` (tensor.py:296-299, 617-623) -/
def Num.transpose : Num α → Num α
  | .tensor t => .tensor t.transpose
  | .generic g => .generic g.transpose

/-- `l[i]` -/
def pick {β : Type} (l : List β) (i : Nat) : Except Err β :=
  match l[i]? with
  | none => .error .indexError
  | some x => .ok x

/-- `[f(i, j) for j in range(i + 1)] for i in range(n)` -/
def blocks (n : Nat) (f : Nat → Nat → Except Err (Num α)) : Except Err (List (List (Num α))) :=
  (List.range n).mapM fun i => (List.range (i + 1)).mapM fun j => f i j

/-- `[(d * delta).sum() for d in der]` -/
def gradBlocks (der : List (Num α)) (delta : Num α) : Except Err (List (Num α)) :=
  der.mapM fun d => do
    let s ← d.bin delta .mul
    s.sumAll

/-- `hess[i][j]` -/
def pick2 {β : Type} (l : List (List β)) (i j : Nat) : Except Err β := do
  let row ← pick l i
  pick row j

/-- `(hess[i][j] * delta ∓ der[i] * der[j].transpose() * delta2).sum()` for `j ≤ i` -/
def hessBlocks (op : Op) (der : List (Num α)) (hess : List (List (Num α))) (delta delta2 : Num α) :
    Except Err (List (List (Num α))) :=
  blocks der.length fun i j => do
    let h ← pick2 hess i j
    let di ← pick der i
    let dj ← pick der j
    let t1 ← h.bin delta .mul
    let t2 ← di.bin dj.transpose .mul
    let t3 ← t2.bin delta2 .mul
    let s ← t1.bin t3 op
    s.sumAll

end

namespace PoissonT

/-- maxlike.py:15-17 -/
noncomputable def like (X N y : Num ℝ) : Except Err (Num ℝ) := do
  let a ← X.bin y .mul
  let e ← y.ufunc Real.exp
  let b ← N.bin e .mul
  let c ← a.bin b .sub
  let x1 ← X.scalarOp .add 1
  let g ← x1.ufunc Like.gammaln
  let s ← c.bin g .sub
  s.sumAll

/-- maxlike.py:19-21 -/
noncomputable def gradLike (X N y : Num ℝ) (der : List (Num ℝ)) : Except Err (List (Num ℝ)) := do
  let e ← y.ufunc Real.exp
  let b ← N.bin e .mul
  let delta ← X.bin b .sub
  gradBlocks der delta

/-- maxlike.py:23-28 -/
noncomputable def hessLike (X N y : Num ℝ) (der : List (Num ℝ)) (hess : List (List (Num ℝ))) :
    Except Err (List (List (Num ℝ))) := do
  let e ← y.ufunc Real.exp
  let delta2 ← N.bin e .mul
  let delta ← X.bin delta2 .sub
  hessBlocks .sub der hess delta delta2

end PoissonT

namespace ZeroInflatedPoissonT

/-- maxlike.py:45-48 -/
noncomputable def like (s : ℝ) (X N Z y : Num ℝ) : Except Err (Num ℝ) := do
  let a ← X.bin y .mul
  let b ← Z.scalarOp .mul (Real.log s)
  let c ← a.bin b .add
  let e ← y.ufunc Real.exp
  let e ← e.ufunc Real.exp
  let e ← e.scalarOp .add s
  let e ← e.scalarOp .sub 1
  let l ← e.ufunc Real.log
  let d ← N.bin l .mul
  let f ← c.bin d .sub
  let x1 ← X.scalarOp .add 1
  let g ← x1.ufunc Like.gammaln
  let s ← f.bin g .sub
  s.sumAll

/-- `np.exp(-exp_y)` -/
noncomputable def expNeg (e : Num ℝ) : Except Err (Num ℝ) := e.neg.ufunc Real.exp

/-- `1 + (self.s - 1) * np.exp(-exp_y)` -/
noncomputable def denom (s : ℝ) (e : Num ℝ) : Except Err (Num ℝ) := do
  let n ← expNeg e
  let m ← n.scalarOp .mul (s - 1)
  m.scalarOp .add 1

/-- maxlike.py:50-53 -/
noncomputable def gradLike (s : ℝ) (X N y : Num ℝ) (der : List (Num ℝ)) : Except Err (List (Num ℝ)) := do
  let e ← y.ufunc Real.exp
  let a ← N.bin e .mul
  let q ← denom s e
  let b ← a.bin q .div
  let delta ← X.bin b .sub
  gradBlocks der delta

/-- maxlike.py:55-62 -/
noncomputable def hessLike (s : ℝ) (X N y : Num ℝ) (der : List (Num ℝ)) (hess : List (List (Num ℝ))) :
    Except Err (List (List (Num ℝ))) := do
  let e ← y.ufunc Real.exp
  let q ← denom s e
  let t ← e.bin q .div
  let a ← N.bin t .mul
  let delta ← X.bin a .sub
  let b ← N.bin t .mul
  let c ← t.scalarOp .mul (s - 1)
  let n ← expNeg e
  let c ← c.bin n .mul
  let c ← c.scalarOp .add 1
  let delta2 ← b.bin c .mul
  hessBlocks .sub der hess delta delta2

end ZeroInflatedPoissonT

namespace LogisticT

/-- `1 + np.exp(-y)` -/
noncomputable def denom (y : Num ℝ) : Except Err (Num ℝ) := do
  let e ← y.neg.ufunc Real.exp
  e.scalarOp .add 1

/-- maxlike.py:74-81 -/
noncomputable def like (X N y : Num ℝ) : Except Err (Num ℝ) := do
  let q ← denom y
  let l ← q.ufunc Real.log
  let a ← N.bin l .mul
  let d ← N.bin X .sub
  let b ← d.bin y .mul
  let s ← a.bin b .add
  let r ← s.sumAll
  return r.neg

/-- maxlike.py:83-86 -/
noncomputable def gradLike (X N y : Num ℝ) (der : List (Num ℝ)) : Except Err (List (Num ℝ)) := do
  let q ← denom y
  let a ← N.bin q .div
  let delta ← X.bin a .sub
  gradBlocks der delta

/-- maxlike.py:88-96 -/
noncomputable def hessLike (X N y : Num ℝ) (der : List (Num ℝ)) (hess : List (List (Num ℝ))) :
    Except Err (List (List (Num ℝ))) := do
  let q ← denom y
  let p ← q.scalarOp .rdiv 1
  let a ← p.bin N .mul
  let delta ← X.bin a .sub
  let b ← p.scalarOp .rsub 1
  let c ← p.bin b .mul
  let delta2 ← c.bin N .mul
  hessBlocks .sub der hess delta delta2

end LogisticT

namespace FiniteT

/-- maxlike.py:116-125 -/
noncomputable def like (N y : Num ℝ) : Except Err (Num ℝ) := do
  let z ← y.sumOutcomes
  let a ← y.ufunc Real.log
  let b ← z.ufunc Real.log
  let c ← a.bin b .sub
  let s ← N.bin c .mul
  s.sumAll

/-- maxlike.py:127-139 -/
noncomputable def gradLike (N y : Num ℝ) (der : List (Num ℝ)) : Except Err (List (Num ℝ)) := do
  let z ← y.sumOutcomes
  der.mapM fun d => do
    let dz ← d.sumOutcomes
    let a ← d.bin y .div
    let b ← dz.bin z .div
    let c ← a.bin b .sub
    let s ← N.bin c .mul
    s.sumAll

/-- maxlike.py:141-154 (`len(params)` is the length of `der`) -/
noncomputable def hessLike (N y : Num ℝ) (der : List (Num ℝ)) (hess : List (List (Num ℝ))) :
    Except Err (List (List (Num ℝ))) := do
  let z ← y.sumOutcomes
  let dz ← der.mapM fun d => d.sumOutcomes
  blocks der.length fun i j => do
    let h ← pick2 hess i j
    let hz ← h.sumOutcomes
    let di ← pick der i
    let dj ← pick der j
    let a ← di.bin dj.transpose .mul
    let a ← a.bin y .div
    let a ← h.bin a .sub
    let h1 ← a.bin y .div
    let dzi ← pick dz i
    let dzj ← pick dz j
    let b ← dzi.bin dzj.transpose .mul
    let b ← b.bin z .div
    let b ← hz.bin b .sub
    let h2 ← b.bin z .div
    let c ← h1.bin h2 .sub
    let s ← N.bin c .mul
    s.sumAll

end FiniteT

namespace NormalizedFiniteT

/-- maxlike.py:170-177 -/
noncomputable def like (N y : Num ℝ) : Except Err (Num ℝ) := do
  let a ← y.ufunc Real.log
  let s ← N.bin a .mul
  s.sumAll

/-- maxlike.py:179-180 -/
noncomputable def gradLike (N y : Num ℝ) (der : List (Num ℝ)) : Except Err (List (Num ℝ)) :=
  der.mapM fun d => do
    let a ← N.bin d .mul
    let s ← a.bin y .div
    s.sumAll

/-- maxlike.py:182-190 (`len(params)` is the length of `der`) -/
noncomputable def hessLike (N y : Num ℝ) (der : List (Num ℝ)) (hess : List (List (Num ℝ))) :
    Except Err (List (List (Num ℝ))) :=
  blocks der.length fun i j => do
    let h ← pick2 hess i j
    let di ← pick der i
    let dj ← pick der j
    let a ← di.bin dj.transpose .mul
    let a ← a.bin y .div
    let a ← h.bin a .sub
    let a ← a.bin y .div
    let s ← N.bin a .mul
    s.sumAll

end NormalizedFiniteT

namespace NegativeBinomialT

/-- maxlike.py:204-212 -/
noncomputable def like (r : ℝ) (X N y : Num ℝ) : Except Err (Num ℝ) := do
  let a ← X.scalarOp .add r
  let a ← a.ufunc Like.gammaln
  let b ← X.scalarOp .add 1
  let b ← b.ufunc Like.gammaln
  let c ← a.bin b .sub
  let c ← c.scalarOp .add (r * Real.log r)
  let c ← c.scalarOp .sub (Like.gammaln r)
  let d ← X.bin y .mul
  let c ← c.bin d .add
  let n ← N.scalarOp .mul r
  let f ← X.bin n .add
  let e ← y.ufunc Real.exp
  let e ← e.scalarOp .add r
  let l ← e.ufunc Real.log
  let g ← f.bin l .mul
  let s ← c.bin g .sub
  s.sumAll

/-- maxlike.py:214-221 -/
noncomputable def gradLike (r : ℝ) (X N y : Num ℝ) (der : List (Num ℝ)) : Except Err (List (Num ℝ)) := do
  let m ← y.ufunc Real.exp
  let n ← N.scalarOp .mul r
  let a ← X.bin n .add
  let a ← a.bin m .mul
  let q ← m.scalarOp .add r
  let b ← a.bin q .div
  let delta ← X.bin b .sub
  gradBlocks der delta

/-- maxlike.py:223-234 -/
noncomputable def hessLike (r : ℝ) (X N y : Num ℝ) (der : List (Num ℝ)) (hess : List (List (Num ℝ))) :
    Except Err (List (List (Num ℝ))) := do
  let m ← y.ufunc Real.exp
  let q ← m.scalarOp .add r
  let s ← m.bin q .div
  let n ← N.scalarOp .mul r
  let a ← X.bin n .add
  let b ← a.bin s .mul
  let delta ← X.bin b .sub
  let n ← N.scalarOp .mul r
  let a ← X.bin n .add
  let b ← a.bin s .mul
  let c ← b.bin s .mul
  let c ← c.bin X .sub
  let delta2 ← c.bin delta .add
  hessBlocks .add der hess delta delta2

end NegativeBinomialT

end Verif.Tens
