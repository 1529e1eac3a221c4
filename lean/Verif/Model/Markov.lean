import Verif.Model.Func
import Mathlib.Algebra.Field.Basic
import Mathlib.Data.Sign.Defs

/-!
# Model of maxlike/func/matrix.py: `MarkovMatrix`, `MarkovVector`, `CollapseMatrix`

The leading axes of the numpy arrays (one frame per entry of the parameters) are modelled by a
function of the entry's multi-index; all operations of the loops act on each frame separately.
Arithmetic is that of a field `K` (floating point is not modelled).  `skew` arrays are functions,
read only at in-range indices.
-/

namespace Verif.Markov
open Verif.Params (Err)

variable {K : Type} [Field K]

/-- One frame, `M[ix]`, of an array with two trailing axes. -/
abbrev Mat (K : Type) := Nat → Nat → K
/-- One frame of an array with one trailing axis. -/
abbrev Vec (K : Type) := Nat → K

/-- `M[..., i, j] += v` -/
def addAt (M : Mat K) (i j : Nat) (v : K) : Mat K :=
  fun a b => if a = i ∧ b = j then M a b + v else M a b

/-- `M[..., i, j] -= v` -/
def subAt (M : Mat K) (i j : Nat) (v : K) : Mat K :=
  fun a b => if a = i ∧ b = j then M a b - v else M a b

/-- `v[..., i] += w` -/
def addAtV (M : Vec K) (i : Nat) (v : K) : Vec K := fun a => if a = i then M a + v else M a

/-- `v[..., i] -= w` -/
def subAtV (M : Vec K) (i : Nat) (v : K) : Vec K := fun a => if a = i then M a - v else M a

/-- All multi-indices of an array of the given shape. -/
def indices : List Nat → List (List Nat)
  | [] => [[]]
  | d :: ds => (List.range d).flatMap fun i => (indices ds).map (i :: ·)

/-! ### MarkovMatrix -/

/-- The body of the inner loop of `MarkovMatrix.__call__` (matrix.py:80-91). -/
def mmCell (size : Nat) (skew : Mat K) (s1 s2 : K) (M : Mat K) (x y : Nat) : Mat K :=
  let x' := min (x + 1) (size - 1)
  let y' := min (y + 1) (size - 1)
  let f1 := skew x y
  let f2 := skew y x
  let m := M x y
  let M := addAt M x' y (s1 * f1 * m)
  let M := addAt M x y' (s2 * f2 * m)
  subAt M x y ((s1 * f1 + s2 * f2) * m)

/-- The two inner `for` loops over a frame, `x = size - idx - 1`, `y = size - jdx - 1`
(matrix.py:79-91, 117-156), for any loop body. -/
def mmSweep {σ : Type} (size : Nat) (cell : σ → Nat → Nat → σ) (S : σ) : σ :=
  (List.range size).foldl (fun S idx =>
    (List.range size).foldl (fun S jdx => cell S (size - idx - 1) (size - jdx - 1)) S) S

/-- `for step in range(self.steps)` -/
def repeatSteps {σ : Type} (steps : Nat) (sweep : σ → σ) (S : σ) : σ :=
  (List.range steps).foldl (fun S _ => sweep S) S

/-- `np.zeros(...)` with `M[..., 0, 0] = 1.0` (matrix.py:75-77, 108-115) -/
def mmStart : Mat K := fun a b => if a = 0 ∧ b = 0 then 1 else 0

/-- A frame of the result of `MarkovMatrix.__call__` (matrix.py:68-93) for one entry `p1`, `p2` of
the parameters (assertions: `markovMatrix`). -/
def mmFrame (size steps : Nat) (skew : Mat K) (p1 p2 : K) : Mat K :=
  repeatSteps steps (mmSweep size (mmCell size skew (p1 / steps) (p2 / steps))) mmStart

/-- The assertions of `__call__` and `eval` (matrix.py:71-74, 104-107; 185-188, 215-218):
equal shapes, `s1 > 0`, `s2 > 0`, `s1 + s2 < 1` at every entry. -/
def accepted [LT K] (steps : Nat) (sh1 sh2 : List Nat) (p1 p2 : List Nat → K) : Prop :=
  sh1 = sh2 ∧ (∀ ix ∈ indices sh1, 0 < p1 ix / steps) ∧ (∀ ix ∈ indices sh1, 0 < p2 ix / steps) ∧
    ∀ ix ∈ indices sh1, p1 ix / steps + p2 ix / steps < 1

instance [LT K] [DecidableRel (α := K) (· < ·)] (steps : Nat) (sh1 sh2 : List Nat)
    (p1 p2 : List Nat → K) : Decidable (accepted steps sh1 sh2 p1 p2) := by
  unfold accepted; infer_instance

/-- `MarkovMatrix(size, steps, skew)([p1, p2])` (matrix.py:68-93).  `size = 0` makes
`M[..., 0, 0] = 1.0` raise `IndexError`.  (`steps = 0`: the division gives `nan`/`inf`, or raises, and
the assertions fail; `x / 0 = 0` fails them too.) -/
def markovMatrix [LT K] [DecidableRel (α := K) (· < ·)] (size steps : Nat) (skew : Mat K)
    (sh1 sh2 : List Nat) (p1 p2 : List Nat → K) : Except Err (List Nat → Mat K) :=
  if accepted steps sh1 sh2 p1 p2 then
    if size = 0 then .error .indexError
    else .ok fun ix => mmFrame size steps skew (p1 ix) (p2 ix)
  else .error .assertion

/-- The six arrays of `MarkovMatrix.eval` (matrix.py:108-113), one frame. -/
structure MState (K : Type) where
  M : Mat K
  D1 : Mat K
  D2 : Mat K
  H11 : Mat K
  H12 : Mat K
  H22 : Mat K

/-- The body of the inner loop of `MarkovMatrix.eval` (matrix.py:118-156), in program order. -/
def mmEvalCell (size : Nat) (skew : Mat K) (s1 s2 : K) (S : MState K) (x y : Nat) : MState K :=
  let x' := min (x + 1) (size - 1)
  let y' := min (y + 1) (size - 1)
  let f1 := skew x y
  let f2 := skew y x
  let m := S.M x y
  let dm1 := S.D1 x y
  let dm2 := S.D2 x y
  let hm11 := S.H11 x y
  let hm12 := S.H12 x y
  let hm22 := S.H22 x y
  { H11 := subAt (addAt (addAt S.H11 x' y (s1 * f1 * hm11 + 2 * f1 * dm1)) x y' (s2 * f2 * hm11))
      x y (2 * f1 * dm1 + (s1 * f1 + s2 * f2) * hm11)
    H12 := subAt (addAt (addAt S.H12 x' y (s1 * f1 * hm12 + f1 * dm2)) x y' (s2 * f2 * hm12 + f2 * dm1))
      x y (f1 * dm1 + f2 * dm2 + (s1 * f1 + s2 * f2) * hm12)
    H22 := subAt (addAt (addAt S.H22 x' y (s1 * f1 * hm22)) x y' (s2 * f2 * hm22 + 2 * f2 * dm2))
      x y (2 * f2 * dm2 + (s1 * f1 + s2 * f2) * hm22)
    D1 := subAt (addAt (addAt S.D1 x' y (s1 * f1 * dm1 + f1 * m)) x y' (s2 * f2 * dm1))
      x y (f1 * m + (s1 * f1 + s2 * f2) * dm1)
    D2 := subAt (addAt (addAt S.D2 x' y (s1 * f1 * dm2)) x y' (s2 * f2 * dm2 + f2 * m))
      x y (f2 * m + (s1 * f1 + s2 * f2) * dm2)
    M := subAt (addAt (addAt S.M x' y (s1 * f1 * m)) x y' (s2 * f2 * m))
      x y ((s1 * f1 + s2 * f2) * m) }

/-- All arrays zero except `M[..., 0, 0] = 1.0` (matrix.py:108-115). -/
def mmEvalStart : MState K :=
  ⟨mmStart, fun _ _ => 0, fun _ _ => 0, fun _ _ => 0, fun _ _ => 0, fun _ _ => 0⟩

/-- The loops of `eval` without the final scaling. -/
def mmEvalLoop (size steps : Nat) (skew : Mat K) (s1 s2 : K) : MState K :=
  repeatSteps steps (mmSweep size (mmEvalCell size skew s1 s2)) mmEvalStart

/-- `MarkovMatrix.eval` for one entry of the parameters (matrix.py:101-169); the tensors returned
are the diagonal ones of `grad_tensor(.., True)`, `hess_tensor(.., True, True)`. -/
def mmEvalFrame (size steps : Nat) (skew : Mat K) (p1 p2 : K) : MState K :=
  let S := mmEvalLoop size steps skew (p1 / steps) (p2 / steps)
  { M := S.M
    D1 := fun a b => S.D1 a b / steps
    D2 := fun a b => S.D2 a b / steps
    H11 := fun a b => S.H11 a b / (steps * steps)
    H12 := fun a b => S.H12 a b / (steps * steps)
    H22 := fun a b => S.H22 a b / (steps * steps) }

/-! ### MarkovVector -/

/-- The body of the loop of `MarkovVector.__call__` (matrix.py:193-201); the second component is the
carried variable `e`. -/
def mvCell (size : Nat) (skew : Vec K) (s1 s2 : K) (S : Vec K × K) (x : Nat) : Vec K × K :=
  let x' := max (x - 1) 0
  let f1 := skew x
  let f2 := skew (2 * size - 2 - x)
  let m := S.1 x
  let M := addAtV S.1 x' (m * s2 * f2)
  let M := subAtV M x (m * (s1 * f1 + s2 * f2))
  let M := addAtV M x S.2
  (M, m * s1 * f1)

/-- One iteration of `for step` (matrix.py:191-202): `e = 0`, the loop, `M[..., -1] += e`. -/
def mvSweep (size : Nat) (skew : Vec K) (s1 s2 : K) (M : Vec K) : Vec K :=
  let S := (List.range (2 * size - 1)).foldl (mvCell size skew s1 s2) (M, 0)
  addAtV S.1 (2 * size - 1 - 1) S.2

/-- `M[..., self.size - 1] = 1` (matrix.py:189-190) -/
def mvStart (size : Nat) : Vec K := fun a => if a = size - 1 then 1 else 0

/-- A frame of the result of `MarkovVector.__call__` (matrix.py:182-204). -/
def mvFrame (size steps : Nat) (skew : Vec K) (p1 p2 : K) : Vec K :=
  repeatSteps steps (mvSweep size skew (p1 / steps) (p2 / steps)) (mvStart size)

/-- `MarkovVector(size, steps, skew)([p1, p2])` (matrix.py:172-204); `__init__` asserts
`size > 0`. -/
def markovVector [LT K] [DecidableRel (α := K) (· < ·)] (size steps : Nat) (skew : Vec K)
    (sh1 sh2 : List Nat) (p1 p2 : List Nat → K) : Except Err (List Nat → Vec K) :=
  if size = 0 then .error .assertion
  else if accepted steps sh1 sh2 p1 p2 then
    .ok fun ix => mvFrame size steps skew (p1 ix) (p2 ix)
  else .error .assertion

/-- Six vectors, or the six carried numbers. -/
structure VState (α : Type) where
  M : α
  D1 : α
  D2 : α
  H11 : α
  H12 : α
  H22 : α

/-- The body of the loop of `MarkovVector.eval` (matrix.py:235-275). -/
def mvEvalCell (size : Nat) (skew : Vec K) (s1 s2 : K) (P : VState (Vec K) × VState K) (x : Nat) :
    VState (Vec K) × VState K :=
  let S := P.1
  let E := P.2
  let x' := max (x - 1) 0
  let f1 := skew x
  let f2 := skew (2 * size - 2 - x)
  let m := S.M x
  let d1 := S.D1 x
  let d2 := S.D2 x
  let h11 := S.H11 x
  let h22 := S.H22 x
  let h12 := S.H12 x
  ({ M := addAtV (subAtV (addAtV S.M x' (m * s2 * f2)) x (m * (s1 * f1 + s2 * f2))) x E.M
     D1 := addAtV (subAtV (addAtV S.D1 x' (d1 * s2 * f2)) x
        (d1 * (s1 * f1 + s2 * f2) + m * f1)) x E.D1
     D2 := addAtV (subAtV (addAtV S.D2 x' ((m + d2 * s2) * f2)) x
        (d2 * (s1 * f1 + s2 * f2) + m * f2)) x E.D2
     H11 := addAtV (subAtV (addAtV S.H11 x' (h11 * s2 * f2)) x
        (h11 * (s1 * f1 + s2 * f2) + 2 * d1 * f1)) x E.H11
     H12 := addAtV (subAtV (addAtV S.H12 x' (h12 * s2 * f2 + d1 * f2)) x
        (h12 * (s1 * f1 + s2 * f2) + d2 * f1 + d1 * f2)) x E.H12
     H22 := addAtV (subAtV (addAtV S.H22 x' ((2 * d2 + h22 * s2) * f2)) x
        (h22 * (s1 * f1 + s2 * f2) + 2 * d2 * f2)) x E.H22 },
   { M := m * s1 * f1
     D1 := (m + d1 * s1) * f1
     D2 := d2 * s1 * f1
     H11 := (2 * d1 + h11 * s1) * f1
     H12 := (d2 + h12 * s1) * f1
     H22 := h22 * s1 * f1 })

/-- One step of `MarkovVector.eval` (matrix.py:228-282). -/
def mvEvalSweep (size : Nat) (skew : Vec K) (s1 s2 : K) (S : VState (Vec K)) : VState (Vec K) :=
  let P := (List.range (2 * size - 1)).foldl (mvEvalCell size skew s1 s2) (S, ⟨0, 0, 0, 0, 0, 0⟩)
  let z := 2 * size - 1 - 1
  { M := addAtV P.1.M z P.2.M
    D1 := addAtV P.1.D1 z P.2.D1
    D2 := addAtV P.1.D2 z P.2.D2
    H11 := addAtV P.1.H11 z P.2.H11
    H12 := addAtV P.1.H12 z P.2.H12
    H22 := addAtV P.1.H22 z P.2.H22 }

/-- The loops of `MarkovVector.eval`. -/
def mvEvalLoop (size steps : Nat) (skew : Vec K) (s1 s2 : K) : VState (Vec K) :=
  repeatSteps steps (mvEvalSweep size skew s1 s2)
    ⟨mvStart size, fun _ => 0, fun _ => 0, fun _ => 0, fun _ => 0, fun _ => 0⟩

/-- `MarkovVector.eval` for one entry of the parameters (matrix.py:212-295). -/
def mvEvalFrame (size steps : Nat) (skew : Vec K) (p1 p2 : K) : VState (Vec K) :=
  let S := mvEvalLoop size steps skew (p1 / steps) (p2 / steps)
  { M := S.M
    D1 := fun a => S.D1 a / steps
    D2 := fun a => S.D2 a / steps
    H11 := fun a => S.H11 a / (steps * steps)
    H12 := fun a => S.H12 a / (steps * steps)
    H22 := fun a => S.H22 a / (steps * steps) }

/-! ### The two classes as Func objects -/

open Verif.Func in
/-- A Func of two parameters computed entry by entry: cell `c` belongs to the frame of entry
`src c`; `grad_tensor(.., True)`, `hess_tensor(.., True, True)` are diagonal (func_base.py:21-69).
`hess(0, 1)` is `eval(params)[2][0][1]`, an `IndexError`; only the lower triangle is meaningful. -/
def pairwise {ι : Type} [DecidableEq ι] (src : ι → ι) (φ : ι → ℝ → ℝ → ℝ)
    (ψ : ι → ℝ → ℝ → VState ℝ) : Fn ι where
  call θ c := φ c (θ 0 (src c)) (θ 1 (src c))
  grad θ i e c := if e = src c then
    (if i = 0 then (ψ c (θ 0 (src c)) (θ 1 (src c))).D1
     else (ψ c (θ 0 (src c)) (θ 1 (src c))).D2) else 0
  hess θ i j e e' c := if e = src c ∧ e' = src c then
    (if i = 0 then (ψ c (θ 0 (src c)) (θ 1 (src c))).H11
     else if j = 0 then (ψ c (θ 0 (src c)) (θ 1 (src c))).H12
     else (ψ c (θ 0 (src c)) (θ 1 (src c))).H22) else 0
  eval _ θ := .ok
    ⟨fun c => (ψ c (θ 0 (src c)) (θ 1 (src c))).M,
     fun i e c => if e = src c then
      (if i = 0 then (ψ c (θ 0 (src c)) (θ 1 (src c))).D1
       else (ψ c (θ 0 (src c)) (θ 1 (src c))).D2) else 0,
     fun i j e e' c => if e = src c ∧ e' = src c then
      (if i = 0 then (ψ c (θ 0 (src c)) (θ 1 (src c))).H11
       else if j = 0 then (ψ c (θ 0 (src c)) (θ 1 (src c))).H12
       else (ψ c (θ 0 (src c)) (θ 1 (src c))).H22) else 0⟩
  gradNull := false
  hessNull := false

/-- Element `x, y` of the six arrays. -/
def MState.at (S : MState K) (x y : Nat) : VState K :=
  ⟨S.M x y, S.D1 x y, S.D2 x y, S.H11 x y, S.H12 x y, S.H22 x y⟩

/-- Element `x` of the six arrays. -/
def VState.at (S : VState (Vec K)) (x : Nat) : VState K :=
  ⟨S.M x, S.D1 x, S.D2 x, S.H11 x, S.H12 x, S.H22 x⟩

open Verif.Func in
/-- `MarkovMatrix` as a Func object (parameters satisfying the assertions); `row c`, `col c` are the
last two indices of position `c`. -/
noncomputable def markovMatrixFn {ι : Type} [DecidableEq ι] (size steps : Nat) (skew : Mat ℝ)
    (src : ι → ι) (row col : ι → Nat) : Fn ι :=
  pairwise src (fun c p1 p2 => mmFrame size steps skew p1 p2 (row c) (col c))
    (fun c p1 p2 => (mmEvalFrame size steps skew p1 p2).at (row c) (col c))

open Verif.Func in
/-- `MarkovVector` as a Func object. -/
noncomputable def markovVectorFn {ι : Type} [DecidableEq ι] (size steps : Nat) (skew : Vec ℝ)
    (src : ι → ι) (pos : ι → Nat) : Fn ι :=
  pairwise src (fun c p1 p2 => mvFrame size steps skew p1 p2 (pos c))
    (fun c p1 p2 => (mvEvalFrame size steps skew p1 p2).at (pos c))

/-! ### CollapseMatrix -/

/-- A condition `sign(x*i + y*j + c) == s`. -/
structure Cond where
  x : Int
  y : Int
  c : Int
  s : Int
deriving DecidableEq, Repr

/-- `np.sign(x * rng_x[:, None] + y * rng_y[None, :] + c) == s` at row `i`, column `j`. -/
def Cond.holds (q : Cond) (i j : Nat) : Bool := (q.x * i + q.y * j + q.c).sign == q.s

/-- `self.conditions` after `CollapseMatrix.__init__` (matrix.py:11-21): the attribute is set only
when no conditions are given. -/
def collapseInit : Option (List Cond) → Option (List Cond)
  | none => some [⟨1, -1, 0, 1⟩, ⟨1, -1, 0, 0⟩, ⟨1, -1, 0, -1⟩]
  | some _ => none

/-- `(arr * filt).sum((-1, -2))` for a frame of `h` rows and `w` columns. -/
def collapseSum (h w : Nat) (arr : Mat K) (q : Cond) : K :=
  ∑ i ∈ Finset.range h, ∑ j ∈ Finset.range w, arr i j * if q.holds i j then 1 else 0

/-- `CollapseMatrix.__call__` on one frame (matrix.py:23-37).  `np.stack([])` raises `ValueError`. -/
def collapseCall (conditions : Option (List Cond)) (h w : Nat) (arr : Mat K) :
    Except Err (List K) :=
  match collapseInit conditions with
  | none => .error .attribute
  | some [] => .error .valueError
  | some qs => .ok (qs.map (collapseSum h w arr))

/-- `CollapseMatrix.grad` on one frame (matrix.py:39-56): `ones * filt`, one array per condition. -/
def collapseGrad (conditions : Option (List Cond)) : Except Err (List (Mat K)) :=
  match collapseInit conditions with
  | none => .error .attribute
  | some [] => .error .valueError
  | some qs => .ok (qs.map fun q i j => 1 * if q.holds i j then 1 else 0)

/-- `a.swapaxes(i, j)` on a shape. -/
def swapaxesShape (sh : List Nat) (i j : Nat) : List Nat :=
  (sh.set i (sh.getD j 0)).set j (sh.getD i 0)

/-- Shape of `val[idx]` in `CollapseMatrix.grad` (matrix.py:48-56) for a parameter of shape
`features ++ [h, w]` and `k` conditions: stack, the two `swapaxes`, leading axes of length 1.  The
returned Tensor reads it as `x_dim = len(features) + 2` parameter axes, then one axis per feature,
then the axis of the conditions. -/
def collapseGradShape (features : List Nat) (h w k : Nat) : List Nat :=
  let xDim := features.length + 2
  let sh := features ++ [h, w, k]
  let sh := swapaxesShape sh 0 (xDim - 2)
  let sh := swapaxesShape sh 1 (xDim - 1)
  List.replicate (xDim - 2) 1 ++ sh

end Verif.Markov
