import Verif.Model.Params
import Mathlib.Algebra.BigOperators.Group.Finset.Basic
import Mathlib.Algebra.Field.Defs

/-!
# numpy arrays

The numpy operations used by maxlike/tensor/tensor.py.  An array has a number of axes, the sizes of
its axes and a value for every multi-index; the multi-index is a function from axis numbers to
positions, of which only the first `ndim` entries are read.
-/

namespace Verif.Tens
open Verif.Params (Err)

/-- `np.ndarray` -/
structure NDArray (α : Type) where
  ndim : Nat
  /-- size of each axis (below `ndim`) -/
  shape : Nat → Nat
  /-- values; use `get` to read -/
  raw : (Nat → Nat) → α

namespace NDArray

variable {α β : Type}

/-- `a[idx]`: entries of `idx` beyond the number of axes are ignored. -/
def get (a : NDArray α) (idx : Nat → Nat) : α := a.raw fun k => if k < a.ndim then idx k else 0

/-- Reading with broadcasting: axes of size 1 are read at 0. -/
def bget (a : NDArray α) (idx : Nat → Nat) : α := a.get fun k => if a.shape k = 1 then 0 else idx k

/-- A 0-dimensional array. -/
def scalar (c : α) : NDArray α := ⟨0, fun _ => 1, fun _ => c⟩

/-- An array with the same values in other axes: axis `j` of `a` is axis `pos j` of the result. -/
def reaxis (a : NDArray α) (ndim : Nat) (shape : Nat → Nat) (pos : Nat → Nat) : NDArray α :=
  ⟨ndim, shape, fun idx => a.get fun j => idx (pos j)⟩

/-- `a.swapaxes(i, j)` -/
def swapaxes (a : NDArray α) (i j : Nat) : NDArray α :=
  a.reaxis a.ndim (fun k => a.shape (if k = i then j else if k = j then i else k))
    (fun k => if k = i then j else if k = j then i else k)

/-- `np.expand_dims(a, i)` -/
def expandDims (a : NDArray α) (i : Nat) : NDArray α :=
  a.reaxis (a.ndim + 1) (fun k => if k < i then a.shape k else if k = i then 1 else a.shape (k - 1))
    (fun j => if j < i then j else j + 1)

/-- `np.moveaxis(a, src, dst)` for `dst ≤ src`. -/
def moveaxis (a : NDArray α) (src dst : Nat) : NDArray α :=
  a.reaxis a.ndim
    (fun k => a.shape (if k < dst then k else if k = dst then src else if k ≤ src then k - 1 else k))
    (fun j => if j < dst then j else if j < src then j + 1 else if j = src then dst else j)

/-- Position of the `j`-th `slice(None)` of an index tuple (`true`: `slice(None)`, `false`: `None`);
missing entries are `slice(None)`. -/
def posOf : List Bool → Nat → Nat
  | [], j => j
  | true :: _, 0 => 0
  | true :: l, j + 1 => posOf l j + 1
  | false :: l, j => posOf l j + 1

/-- The axis that the `k`-th entry of an index tuple selects; `none` for a new axis. -/
def axisOf : List Bool → Nat → Option Nat
  | [], k => some k
  | true :: _, 0 => some 0
  | true :: l, k + 1 => (axisOf l k).map (· + 1)
  | false :: _, 0 => none
  | false :: l, k + 1 => axisOf l k

/-- `a[idx]` for a tuple of `slice(None)` (`true`) and `None` (`false`); `IndexError` if it has more
slices than `a` has axes. -/
def newAxes (a : NDArray α) (l : List Bool) : Except Err (NDArray α) :=
  if a.ndim < l.count true then .error .indexError
  else .ok (a.reaxis (a.ndim + l.count false)
    (fun k => match axisOf l k with | none => 1 | some j => a.shape j) (posOf l))

/-- `a.transpose(axes)` for a permutation `axes` of the axes. -/
def transpose (a : NDArray α) (axes : List Nat) : NDArray α :=
  a.reaxis a.ndim (fun k => a.shape (axes.getD k k)) (fun j => axes.idxOf j)

/-- `np.diagonal(a, 0, a1, a2)` for `a1 < a2`: both axes are removed and the diagonal becomes the last
axis. -/
def diagonal (a : NDArray α) (a1 a2 : Nat) : NDArray α :=
  a.reaxis (a.ndim - 1)
    (fun k => if k = a.ndim - 2 then min (a.shape a1) (a.shape a2)
      else a.shape (if k < a1 then k else if k + 1 < a2 then k + 1 else k + 2))
    (fun j => if j = a1 ∨ j = a2 then a.ndim - 2
      else if j < a1 then j else if j < a2 then j - 1 else j - 2)

/-- `np.flip(a, k)` -/
def flip (a : NDArray α) (i : Nat) : NDArray α :=
  ⟨a.ndim, a.shape, fun idx => a.get fun k => if k = i then a.shape i - 1 - idx i else idx k⟩

/-- Sum over all multi-indices below the given sizes. -/
def sumOver [AddCommMonoid α] : List Nat → (List Nat → α) → α
  | [], F => F []
  | s :: ss, F => ∑ i ∈ Finset.range s, sumOver ss fun l => F (i :: l)

/-- `a.sum(tuple(axes))` for distinct axes. -/
def sumAxes [AddCommMonoid α] (a : NDArray α) (axes : List Nat) : NDArray α :=
  ⟨a.ndim - axes.length,
   fun k => a.shape (((List.range a.ndim).filter fun j => j ∉ axes).getD k 0),
   fun idx => sumOver (axes.map a.shape) fun l => a.get fun j =>
     if j ∈ axes then l.getD (axes.idxOf j) 0 else idx (j - (axes.filter (· < j)).length)⟩

/-- A unary `ufunc`. -/
def map (f : α → β) (a : NDArray α) : NDArray β := ⟨a.ndim, a.shape, fun idx => f (a.get idx)⟩

/-- Broadcasting of two arrays with the same number of axes; `ValueError` if the shapes do not fit. -/
def zipWith (f : α → α → α) (a b : NDArray α) : Except Err (NDArray α) :=
  if ∀ k < a.ndim, a.shape k = b.shape k ∨ a.shape k = 1 ∨ b.shape k = 1 then
    .ok ⟨a.ndim, fun k => if a.shape k = 1 then b.shape k else a.shape k,
      fun idx => f (a.bget idx) (b.bget idx)⟩
  else .error .valueError

/-- Axes of size 1 in front (numpy's alignment of the trailing axes). -/
def padFront (a : NDArray α) (nd : Nat) : NDArray α :=
  a.reaxis nd (fun k => if k < nd - a.ndim then 1 else a.shape (k - (nd - a.ndim)))
    (fun j => j + (nd - a.ndim))

/-- A binary `ufunc` on arrays of any numbers of axes. -/
def binary (f : α → α → α) (a b : NDArray α) : Except Err (NDArray α) :=
  zipWith f (a.padFront (max a.ndim b.ndim)) (b.padFront (max a.ndim b.ndim))

/-- `np.eye(n)` reshaped such that its axes are the axes `i` and `j` of `nd` axes. -/
def eyeAt [Zero α] [One α] (nd n i j : Nat) : NDArray α :=
  ⟨nd, fun k => if k = i ∨ k = j then n else 1, fun idx => if idx i = idx j then 1 else 0⟩

/-- `np.broadcast_to(np.eye(n), sizes)`, where `sizes` is `n` at the axes `i` and `j` and 1 elsewhere:
the eye occupies the last two axes, so `ValueError` unless these are `i` and `j` or `n = 1`. -/
def broadcastEye [Zero α] [One α] (nd n i j : Nat) : Except Err (NDArray α) :=
  if n = 1 then .ok ⟨nd, fun _ => 1, fun _ => 1⟩
  else if 2 ≤ nd ∧ ((i = nd - 2 ∧ j = nd - 1) ∨ (i = nd - 1 ∧ j = nd - 2)) then .ok (eyeAt nd n i j)
  else .error .valueError

end NDArray

end Verif.Tens
