import Verif.Model.Tensor

/-!
# Specification of Tensors: the array a Tensor represents

A position is given separately in the four spaces `x`, `y`, value (`n`) and `dim` (`d`).  The array
represented by a Tensor has, at a position where every mapped `x`/`y` axis agrees with the value axis it
is mapped to, the stored value (axes of size 1 are broadcast), and zero elsewhere.
-/

namespace Verif.Tens
open NDArray

/-- A position in the four spaces. -/
structure Idx where
  x : Nat → Nat
  y : Nat → Nat
  n : Nat → Nat
  d : Nat → Nat

/-- The multi-index of a position, for an array with `xDim`, then `yDim`, then `n` axes, then `dim`
axes. -/
def flat (xDim yDim n : Nat) (i : Idx) (k : Nat) : Nat :=
  if k < xDim then i.x k
  else if k < xDim + yDim then i.y (k - xDim)
  else if k < xDim + yDim + n then i.n (k - xDim - yDim)
  else i.d (k - xDim - yDim - n)

/-- The axes mapped by `m` agree with the value axes they are mapped to (`-1`: not mapped). -/
def Agrees (m : List Int) (v n : Nat → Nat) : Prop :=
  ∀ k < m.length, 0 ≤ m.getD k (-1) → v k = n (m.getD k (-1)).toNat

instance (m : List Int) (v n : Nat → Nat) : Decidable (Agrees m v n) :=
  inferInstanceAs (Decidable (∀ k < m.length, _))

/-- The position as a multi-index of the Tensor's own axes. -/
def Tensor.flat {α : Type} (t : Tensor α) (i : Idx) : Nat → Nat := Tens.flat t.xDim t.yDim t.n i

/-- The array represented by a Tensor. -/
def Tensor.dense {α : Type} [Zero α] (t : Tensor α) (i : Idx) : α :=
  if Agrees t.xMap i.x i.n ∧ Agrees t.yMap i.y i.n then t.values.bget (t.flat i) else 0

/-- Tensors in diagonal storage: at most one entry per axis in each map, pointing to existing value
axes, and mapped axes are stored with size 1 (`grad_tensor`, `hess_tensor` build such Tensors). -/
structure Tensor.WF {α : Type} (t : Tensor α) : Prop where
  ndim : t.xDim + t.yDim + t.dim ≤ t.values.ndim
  xLen : t.xMap.length ≤ t.xDim
  yLen : t.yMap.length ≤ t.yDim
  xRange : ∀ f ∈ t.xMap, f < t.n
  yRange : ∀ f ∈ t.yMap, f < t.n
  xOne : ∀ k < t.xMap.length, 0 ≤ t.xMap.getD k (-1) → t.values.shape k = 1
  yOne : ∀ k < t.yMap.length, 0 ≤ t.yMap.getD k (-1) → t.values.shape (t.xDim + k) = 1

/-- The shape of the array represented by a Tensor: mapped axes have the size of their value axis. -/
def Tensor.fullShape {β : Type} (t : Tensor β) (k : Nat) : Nat :=
  if k < t.xDim then
    (if 0 ≤ t.xMap.getD k (-1) then t.values.shape (t.xDim + t.yDim + (t.xMap.getD k (-1)).toNat)
     else t.values.shape k)
  else if k < t.xDim + t.yDim then
    (if 0 ≤ t.yMap.getD (k - t.xDim) (-1) then
      t.values.shape (t.xDim + t.yDim + (t.yMap.getD (k - t.xDim) (-1)).toNat)
     else t.values.shape k)
  else t.values.shape k

/-- The multi-index lies inside the array. -/
def InRange {α : Type} (a : NDArray α) (idx : Nat → Nat) : Prop := ∀ k < a.ndim, idx k < a.shape k

/-- Two sizes can be broadcast. -/
abbrev Bcast (a b : Nat) : Prop := a = b ∨ a = 1 ∨ b = 1

/-- The sizes of the axes that both arrays have can be broadcast. -/
def ShapesFit {α : Type} (t : Tensor α) (v : NDArray α) (o : Tensor α) (w : NDArray α) : Prop :=
  (t.xDim ≠ 0 → o.xDim ≠ 0 → ∀ k < t.xDim, Bcast (v.shape k) (w.shape k)) ∧
  (t.yDim ≠ 0 → o.yDim ≠ 0 → ∀ k < t.yDim, Bcast (v.shape (t.xDim + k)) (w.shape (o.xDim + k))) ∧
  (t.n ≠ 0 → o.n ≠ 0 → ∀ k < t.n,
    Bcast (v.shape (t.xDim + t.yDim + k)) (w.shape (o.xDim + o.yDim + k))) ∧
  (t.dim ≠ 0 → o.dim ≠ 0 → ∀ k < t.dim,
    Bcast (v.shape (t.xDim + t.yDim + t.n + k)) (w.shape (o.xDim + o.yDim + o.n + k)))

/-- Compatible numbers of axes (the assertions of `bin_op`). -/
def Compat {α : Type} (t o : Tensor α) : Prop :=
  (t.xDim = 0 ∨ o.xDim = 0 ∨ t.xDim = o.xDim) ∧ (t.yDim = 0 ∨ o.yDim = 0 ∨ t.yDim = o.yDim) ∧
  (t.n = 0 ∨ o.n = 0 ∨ t.n = o.n) ∧ (t.dim = 0 ∨ o.dim = 0 ∨ t.dim = o.dim)

/-- The position lies inside the array represented by the Tensor. -/
def Tensor.InBox {α : Type} (t : Tensor α) (i : Idx) : Prop :=
  ∀ k < t.values.ndim, t.flat i k < t.fullShape k

/-- The array represented by a GenericTensor: the sum of its elements, each read in its own axes
(arrays are Tensors without `x`, `y` and `dim` axes). -/
def elemDense {α : Type} [Zero α] : Tensor α ⊕ NDArray α → Idx → α
  | .inl t, i => t.dense i
  | .inr a, i => (⟨a, 0, 0, 0, [], []⟩ : Tensor α).dense i

/-- The array represented by a GenericTensor. -/
def Generic.dense {α : Type} [AddCommMonoid α] (g : Generic α) (i : Idx) : α :=
  (g.elements.map fun e => elemDense e i).sum

/-- The array represented by a result of arithmetic. -/
def Num.dense {α : Type} [AddCommMonoid α] : Num α → Idx → α
  | .tensor t, i => t.dense i
  | .generic g, i => g.dense i

/-- The sum of `F` over all positions of the listed axes (of the given sizes); the positions of the other
axes are those of `idx`. -/
def sumAt {α : Type} [AddCommMonoid α] (size : Nat → Nat) : List Nat → ((Nat → Nat) → α) → (Nat → Nat) → α
  | [], F, idx => F idx
  | a :: axes, F, idx => ∑ i ∈ Finset.range (size a), sumAt size axes F (Function.update idx a i)

/-- The sum of the array represented by `t` over the value axes `sel` and, if `sumDim`, over all `dim` axes;
the value axes that remain keep their order (axis `f` moves to the position `f` minus the number of
summed axes before it). -/
def Tensor.sumDense {α : Type} [AddCommMonoid α] (t : Tensor α) (sel : List Nat) (sumDim : Bool) (i : Idx) : α :=
  sumAt (fun f => t.values.shape (t.xDim + t.yDim + f)) sel
    (fun n => sumAt (fun k => t.values.shape (t.xDim + t.yDim + t.n + k)) (if sumDim then List.range t.dim else [])
      (fun d => t.dense ⟨i.x, i.y, n, d⟩) i.d)
    fun f => i.n (f - (sel.filter (· < f)).length)

/-- The size of an axis after broadcasting. -/
abbrev bsize (a b : Nat) : Nat := if a = 1 then b else a

/-- The contraction `∑ₙ o(x, n, d) · t(n, y, m, d)` of the value axes of `o` with the `x` axes of `t`, on the
represented arrays (axes of size 1 are broadcast). -/
def contractLeft {α : Type} [Semiring α] (t o : Tensor α) (i : Idx) : α :=
  sumAt (fun k => bsize (o.values.shape (o.xDim + o.yDim + k)) (t.fullShape k)) (List.range t.xDim)
    (fun n => o.dense ⟨i.x, i.y, n, i.d⟩ * t.dense ⟨n, i.y, i.n, i.d⟩) fun _ => 0

/-- The contraction `∑ₙ o(x, n, d) · t(x', n, m, d)` of the value axes of `o` with the `y` axes of `t`: the `x`
axes of `t` become the `y` axes of the result. -/
def contractLeftY {α : Type} [Semiring α] (t o : Tensor α) (i : Idx) : α :=
  sumAt (fun k => bsize (o.values.shape (o.xDim + o.yDim + k)) (t.fullShape (t.xDim + k))) (List.range t.yDim)
    (fun n => o.dense ⟨i.x, i.y, n, i.d⟩ * t.dense ⟨i.y, n, i.n, i.d⟩) fun _ => 0

/-- The contraction `∑ₙ o(x, y, n, d) · t(n, m, d)` of the value axes of `o` with the `x` axes of `t` (which has
no `y` axes): `x` and `y` axes of the result are those of `o`. -/
def contractRight {α : Type} [Semiring α] (t o : Tensor α) (i : Idx) : α :=
  sumAt (fun k => bsize (o.values.shape (o.xDim + o.yDim + k)) (t.fullShape k)) (List.range t.xDim)
    (fun n => o.dense ⟨i.x, i.y, n, i.d⟩ * t.dense ⟨n, fun _ => 0, i.n, i.d⟩) fun _ => 0

/-- Scalars and arrays as Tensors: an array has only value axes. -/
def Prim.asTensor {α : Type} : Prim α → Tensor α
  | .scalar c => ⟨NDArray.scalar c, 0, 0, 0, [], []⟩
  | .array a => ⟨a, 0, 0, 0, [], []⟩
  | .tensor t => t

/-- The array represented by an operand. -/
def Prim.dense {α : Type} [Zero α] (p : Prim α) (i : Idx) : α := p.asTensor.dense i

/-- GenericTensors as they are built from Tensors: every element is a Tensor in diagonal storage that is not a
scalar. -/
def Generic.Good {α : Type} (g : Generic α) : Prop :=
  ∀ e ∈ g.elements, ∃ t, e = .inl t ∧ t.WF ∧ t.values.ndim ≠ 0

/-- The common size of the axis `k` (counted from the first value axis) of the elements of a GenericTensor. -/
def Generic.size {α : Type} (g : Generic α) (k : Nat) : Nat :=
  (g.elements.map fun e => match e with
    | .inl t => t.values.shape (t.xDim + t.yDim + k)
    | .inr a => a.shape k).foldl max 1

/-- The sum of the array represented by `g` over all value axes and, if `sumDim`, all `dim` axes: elements whose
axes have size 1 are repeated. -/
def Generic.sumDense {α : Type} [AddCommMonoid α] (g : Generic α) (sumDim : Bool) (i : Idx) : α :=
  sumAt g.size (List.range g.n)
    (fun n => sumAt (fun k => g.size (g.n + k)) (if sumDim then List.range g.dim else [])
      (fun d => g.dense ⟨i.x, i.y, n, d⟩) i.d) fun _ => 0

end Verif.Tens
