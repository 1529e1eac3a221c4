import Verif.Spec.Tensor

/-!
# Specification: Tensors whose parameter axes all have size 1

The derivatives of the functions that act on each position separately are stored in this way.
-/

namespace Verif.Tens

/-- The position in the first `len` axes. -/
def cut (len : Nat) (s : Nat → Nat) : Nat → Nat := fun j => if j < len then s j else 0

/-- The position in the value axes and in the `dim` axes, as one position. -/
def joinAt (n : Nat) (i j : Nat → Nat) : Nat → Nat := fun k => if k < n then i k else j (k - n)

/-- `[0, …, q - 1]` -/
def idMap (q : Nat) : List Int := (List.range q).map (Nat.cast : Nat → Int)

variable {α : Type} [Field α] [DecidableEq α]

/-- `G` are the entries of the Tensor `t` (with `nx` and `ny` parameter axes of size 1, maps `xm` and `ym`) at the positions in
the `len` other axes, of which the last `d` are `dim` axes; these axes have the sizes `S` or 1. -/
structure Slab (S : Nat → Nat) (nx ny len d : Nat) (xm ym : List Int) (t : Tensor α) (G : (Nat → Nat) → α) : Prop where
  hx : t.xDim = nx
  hy : t.yDim = ny
  hd : t.dim = d
  hxm : t.xMap = xm
  hym : t.yMap = ym
  nd : t.values.ndim = nx + ny + len
  le : d ≤ len
  one : ∀ k < nx + ny, t.values.shape k = 1
  size : ∀ j < len, t.values.shape (nx + ny + j) = S j ∨ t.values.shape (nx + ny + j) = 1
  get : ∀ idx, (∀ j < len, idx (nx + ny + j) < S j) → t.values.bget idx = G (cut len fun j => idx (nx + ny + j))

/-- The same with all axes in full size. -/
structure Sheet (S : Nat → Nat) (nx ny len d : Nat) (xm ym : List Int) (t : Tensor α) (G : (Nat → Nat) → α) : Prop
    extends Slab S nx ny len d xm ym t G where
  full : ∀ j < len, t.values.shape (nx + ny + j) = S j

end Verif.Tens
