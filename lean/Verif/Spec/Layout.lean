import Verif.Spec.Tensor
import Mathlib.Algebra.BigOperators.Group.Finset.Basic

/-!
# Specification: Tensors of one problem

The Tensors that occur in the likelihood of one problem: a fixed number of feature axes (`n`) and outcome axes
(`d`), with the sizes `S`, and two parameters with the shapes `PX` (`a` axes) and `PY` (`b` axes).
-/

namespace Verif.Tens

/-- The sizes of a problem.  `S k` is the size of the value axis `k` for `k < n`, and of the outcome axis `k - n`
for `n ≤ k < n + d`. -/
structure Layout where
  a : Nat
  b : Nat
  n : Nat
  d : Nat
  S : Nat → Nat
  PX : Nat → Nat
  PY : Nat → Nat

/-- The position lies in the parameters, in the features and in the outcomes. -/
def Layout.In (L : Layout) (i : Idx) : Prop :=
  (∀ k < L.a, i.x k < L.PX k) ∧ (∀ k < L.b, i.y k < L.PY k) ∧ (∀ k < L.n, i.n k < L.S k) ∧
    ∀ k < L.d, i.d k < L.S (L.n + k)

/-- Without the second parameter. -/
def Layout.noY (L : Layout) : Layout := { L with b := 0 }

/-- Without the first parameter. -/
def Layout.noX (L : Layout) : Layout := { L with a := 0 }

/-- With the parameters exchanged. -/
def Layout.flip (L : Layout) : Layout := { L with a := L.b, b := L.a, PX := L.PY, PY := L.PX }

/-- Every axis of the features and of the outcomes has at least one position, and there is at least one such axis. -/
structure Layout.Ok (L : Layout) : Prop where
  pos : ∀ k < L.n + L.d, L.S k ≠ 0
  some : 0 < L.n

/-- A Tensor of the problem: in diagonal storage, with injective maps, with all value axes (some of them possibly of
size 1, to be broadcast), all or none of the other axes, and parameter axes of the right size (a mapped axis has
the size of its value axis). -/
structure Piece {α : Type} (L : Layout) (t : Tensor α) : Prop where
  wf : t.WF
  inj : (t.xMap.filter fun f => 0 ≤ f).Nodup ∧ (t.yMap.filter fun f => 0 ≤ f).Nodup
  hx : t.xDim = 0 ∨ t.xDim = L.a
  hy : t.yDim = 0 ∨ t.yDim = L.b
  hn : t.n = L.n
  hd : t.dim = 0 ∨ t.dim = L.d
  size : ∀ k < L.n + t.dim, t.values.shape (t.xDim + t.yDim + k) = L.S k ∨ t.values.shape (t.xDim + t.yDim + k) = 1
  px : ∀ k < t.xDim, (0 ≤ t.xMap.getD k (-1) → L.S (t.xMap.getD k (-1)).toNat = L.PX k) ∧
    (t.xMap.getD k (-1) < 0 → t.values.shape k = L.PX k)
  py : ∀ k < t.yDim, (0 ≤ t.yMap.getD k (-1) → L.S (t.yMap.getD k (-1)).toNat = L.PY k) ∧
    (t.yMap.getD k (-1) < 0 → t.values.shape (t.xDim + k) = L.PY k)

/-- No axis of the features and outcomes is broadcast. -/
def Tensor.Full {α : Type} (L : Layout) (t : Tensor α) : Prop :=
  t.dim = L.d ∧ ∀ k < L.n + L.d, t.values.shape (t.xDim + t.yDim + k) = L.S k

/-- An array of numbers, one for every position of the features and outcomes (`X`, `N`, the values of the model). -/
structure IsValue {α : Type} (L : Layout) (t : Tensor α) : Prop where
  piece : Piece L t
  full : t.Full L
  hx : t.xDim = 0
  hy : t.yDim = 0

/-- `Tensor(0)`, which functions return for derivatives that vanish. -/
def Tensor.IsZero {α : Type} [Zero α] (t : Tensor α) : Prop :=
  t.WF ∧ t.values.ndim = 0 ∧ t.values.get (fun _ => 0) = 0

/-- A Tensor of the problem or `Tensor(0)`. -/
def Item {α : Type} [Zero α] (L : Layout) (t : Tensor α) : Prop := Piece L t ∨ t.IsZero

/-- A derivative array of the problem: a Tensor, `Tensor(0)`, or a GenericTensor of such Tensors. -/
def NumPiece {α : Type} [Zero α] (L : Layout) : Num α → Prop
  | .tensor t => Item L t
  | .generic g => (g.xDim = 0 ∨ g.xDim = L.a) ∧ (g.yDim = 0 ∨ g.yDim = L.b) ∧ g.n = L.n ∧ (g.dim = 0 ∨ g.dim = L.d) ∧
      g.elements ≠ [] ∧
      ∀ e ∈ g.elements, ∃ t, e = .inl t ∧ Item L t ∧ t.xDim ≤ g.xDim ∧ t.yDim ≤ g.yDim ∧ t.dim ≤ g.dim

/-- Every Tensor of `v` is stored with all outcome axes in full size (`Finite` sums over them). -/
def OutcomesFull {α : Type} [Zero α] (L : Layout) : Num α → Prop
  | .tensor t => t.IsZero ∨ (t.dim = L.d ∧ ∀ k < L.d, t.values.shape (t.xDim + t.yDim + (L.n + k)) = L.S (L.n + k))
  | .generic g => g.dim = L.d ∧ ∀ e ∈ g.elements, ∃ t, e = .inl t ∧ t.n = L.n ∧ t.dim = L.d ∧
      ∀ k < L.d, t.values.shape (t.xDim + t.yDim + (L.n + k)) = L.S (L.n + k)

/-! ### problems with several parameters -/

/-- The sizes of a problem: `n` feature axes and `d` outcome axes with the sizes `S`; parameter `p` has `nd p` axes
with the sizes `P p`. -/
structure Problem where
  n : Nat
  d : Nat
  S : Nat → Nat
  nd : Nat → Nat
  P : Nat → Nat → Nat

/-- The sizes for the second derivatives with respect to the parameters `p` and `q`. -/
def Problem.layout (pr : Problem) (p q : Nat) : Layout := ⟨pr.nd p, pr.nd q, pr.n, pr.d, pr.S, pr.P p, pr.P q⟩

/-- There is at least one feature, and no feature or outcome axis is empty. -/
def Problem.Ok (pr : Problem) : Prop := 0 < pr.n ∧ ∀ k < pr.n + pr.d, pr.S k ≠ 0

/-- The cells of the data: a position in every feature axis and in every outcome axis. -/
abbrev Problem.Cell (pr : Problem) : Type :=
  (∀ k : Fin pr.n, Fin (pr.S k)) × (∀ k : Fin pr.d, Fin (pr.S (pr.n + k)))

/-- The position of a cell, for the entries `x` and `y` of the parameters. -/
def Problem.at (pr : Problem) (x y : Nat → Nat) (c : pr.Cell) : Idx :=
  ⟨x, y, fun k => if h : k < pr.n then c.1 ⟨k, h⟩ else 0, fun k => if h : k < pr.d then c.2 ⟨k, h⟩ else 0⟩

/-- `x` is the position of an entry of parameter `p` (positions are 0 in the axes that the parameter does not
have). -/
def Problem.Entry (pr : Problem) (p : Nat) (x : Nat → Nat) : Prop :=
  (∀ k < pr.nd p, x k < pr.P p k) ∧ ∀ k ≥ pr.nd p, x k = 0

/-- `v` is a data array (`X`, `N`, `Z`): one number for every cell. -/
def Problem.IsData {α : Type} (pr : Problem) (v : Num α) : Prop := ∃ t, v = .tensor t ∧ IsValue (pr.layout 0 0) t

/-- `v` has the values of the model: one number for every cell; axes of size 1 are broadcast. -/
def Problem.IsModel {α : Type} (pr : Problem) (v : Num α) : Prop :=
  ∃ t, v = .tensor t ∧ Piece (pr.layout 0 0) t ∧ t.xDim = 0 ∧ t.yDim = 0

/-- `v` has the derivatives of the model with respect to parameter `p`. -/
def Problem.IsDer {α : Type} [Zero α] (pr : Problem) (p : Nat) (v : Num α) : Prop := NumPiece (pr.layout p p).noY v

/-- `v` has the second derivatives of the model with respect to the parameters `p` and `q`. -/
def Problem.IsHess {α : Type} [Zero α] (pr : Problem) (p q : Nat) (v : Num α) : Prop := NumPiece (pr.layout p q) v

/-- `v` is an array with one number for every entry of parameter `p`.  `e p a` is the position of entry number `a`, and
its number is `F a`.  (The array has no axes if the derivative with respect to `p` vanishes everywhere; an axis of size 1 is
broadcast.) -/
def Problem.IsGrad {α : Type} [Zero α] (pr : Problem) (e : Nat → Nat → Nat → Nat) (p : Nat) (v : Num α) (F : Nat → α) :
    Prop :=
  ∃ r, v = .tensor r ∧ r.WF ∧ (r.xDim = 0 ∨ r.xDim = pr.nd p) ∧ r.yDim = 0 ∧ r.n = 0 ∧ r.dim = 0 ∧
    (r.xMap = [] ∧ r.yMap = [] ∧ ∀ k < r.xDim, r.values.shape k = pr.P p k ∨ r.values.shape k = 1) ∧
    ∀ a i, i.x = e p a → pr.Entry p (e p a) → r.dense i = F a

/-- The same for two parameters. -/
def Problem.IsBlock {α : Type} [Zero α] (pr : Problem) (e : Nat → Nat → Nat → Nat) (p q : Nat) (v : Num α)
    (F : Nat → Nat → α) : Prop :=
  ∃ r, v = .tensor r ∧ r.WF ∧ (r.xDim = 0 ∨ r.xDim = pr.nd p) ∧ (r.yDim = 0 ∨ r.yDim = pr.nd q) ∧ r.n = 0 ∧ r.dim = 0 ∧
    (r.xMap = [] ∧ r.yMap = [] ∧ (∀ k < r.xDim, r.values.shape k = pr.P p k ∨ r.values.shape k = 1) ∧
      ∀ k < r.yDim, r.values.shape (r.xDim + k) = pr.P q k ∨ r.values.shape (r.xDim + k) = 1) ∧
    ∀ a b i, i.x = e p a → i.y = e q b → pr.Entry p (e p a) → pr.Entry q (e q b) → r.dense i = F a b

/-- A Tensor of `v` has the `a` axes of a parameter (and is not the number `Tensor(0)`). -/
def Num.Spans {α : Type} [Zero α] (a : Nat) : Num α → Prop
  | .tensor t => ¬ t.IsZero ∧ t.xDim = a
  | .generic g => ∃ t, .inl t ∈ g.elements ∧ ¬ t.IsZero ∧ t.xDim = a

/-- The array has all entries of parameter `p`: no axis is missing or broadcast. -/
def Problem.Whole {α : Type} (pr : Problem) (p : Nat) (v : Num α) : Prop :=
  ∃ r, v = .tensor r ∧ r.xDim = pr.nd p ∧ r.yDim = 0 ∧ ∀ k < pr.nd p, r.values.shape k = pr.P p k

/-- The same for two parameters. -/
def Problem.Whole2 {α : Type} (pr : Problem) (p q : Nat) (v : Num α) : Prop :=
  ∃ r, v = .tensor r ∧ r.xDim = pr.nd p ∧ r.yDim = pr.nd q ∧ (∀ k < pr.nd p, r.values.shape k = pr.P p k) ∧
    ∀ k < pr.nd q, r.values.shape (pr.nd p + k) = pr.P q k

/-- The derivatives `der` as functions of the cell. -/
def Problem.derOf {α : Type} [AddCommMonoid α] (pr : Problem) (e : Nat → Nat → Nat → Nat) (der : Nat → Num α)
    (p a : Nat) (c : pr.Cell) : α :=
  (der p).dense (pr.at (e p a) (fun _ => 0) c)

/-- The second derivatives `hess` as functions of the cell. -/
def Problem.hessOf {α : Type} [AddCommMonoid α] (pr : Problem) (e : Nat → Nat → Nat → Nat) (hess : Nat → Nat → Num α)
    (p q a b : Nat) (c : pr.Cell) : α :=
  (hess p q).dense (pr.at (e p a) (e q b) c)

/-- `[g(0), …, g(m - 1)]` -/
def row {β : Type} (m : Nat) (g : Nat → β) : List β := (List.range m).map g

/-- `[[g(0, 0)], [g(1, 0), g(1, 1)], …]`: the lower triangle -/
def triangle {β : Type} (m : Nat) (g : Nat → Nat → β) : List (List β) := row m fun i => row (i + 1) (g i)

/-- The number represented by an array without axes. -/
def IsNumber {α : Type} [Zero α] (v : Num α) (c : α) : Prop :=
  ∃ r, v = .tensor r ∧ r.WF ∧ r.values.ndim = 0 ∧ r.values.get (fun _ => 0) = c

/-- A data array as a function of the cell. -/
def Problem.val {α : Type} [AddCommMonoid α] (pr : Problem) (v : Num α) (c : pr.Cell) : α :=
  v.dense (pr.at (fun _ => 0) (fun _ => 0) c)

end Verif.Tens
