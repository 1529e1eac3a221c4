import Verif.Spec.Derivatives
import Verif.Model.FuncOpTensor

/-!
# Specification: functions of the parameters that return Tensors

What it means for a `Func` object to compute a function of the parameters together with its first and second
derivatives.
-/

namespace Verif.Tens
open Verif.Params (Err)

/-- The entries of the parameters are numbered: `e p a` is the position of entry number `a` of parameter `p`, and
`num p x` is the number of the entry at position `x`. -/
structure Numbering (pr : Problem) (m : Nat) where
  e : Nat → Nat → Nat → Nat
  num : Nat → (Nat → Nat) → Nat
  e_num : ∀ p < m, ∀ x, pr.Entry p x → e p (num p x) = x
  num_e : ∀ p < m, ∀ a, pr.Entry p (e p a) → num p (e p a) = a

/-- `n` is a position in the features and `d` a position in the outcomes (0 in the axes that do not exist). -/
def Problem.Pos (pr : Problem) (n d : Nat → Nat) : Prop :=
  (∀ k < pr.n, n k < pr.S k) ∧ (∀ k ≥ pr.n, n k = 0) ∧ (∀ k < pr.d, d k < pr.S (pr.n + k)) ∧ ∀ k ≥ pr.d, d k = 0

/-- The list `ps` passed to a function has the `m` parameters `θ`: arrays with the entries of `θ`. -/
def Numbering.IsParams {pr : Problem} {m : Nat} (N : Numbering pr m) (θ : Theta) (ps : List (Tensor ℝ)) : Prop :=
  ps.length = m ∧ ∀ p < m, ∃ v : NDArray ℝ, ps[p]? = some ⟨v, 0, 0, 0, [], []⟩ ∧ v.ndim = pr.nd p ∧
    (∀ k < pr.nd p, v.shape k = pr.P p k) ∧ ∀ a, pr.Entry p (N.e p a) → v.get (N.e p a) = θ p a

/-- A function of the parameters `θ` and of the position `(n, d)`. -/
abbrev Val := Theta → (Nat → Nat) → (Nat → Nat) → ℝ

/-- A function of the parameters, of an entry of a parameter and of the position. -/
abbrev Der := Theta → Nat → Nat → (Nat → Nat) → (Nat → Nat) → ℝ

/-- A function of the parameters, of two entries (parameters first) and of the position. -/
abbrev Hes := Theta → Nat → Nat → Nat → Nat → (Nat → Nat) → (Nat → Nat) → ℝ

/-- `der` are the derivatives of `val` and `hess` the second derivatives, for parameters in `dom`. -/
structure Smooth (pr : Problem) {m : Nat} (N : Numbering pr m) (dom : Theta → Prop) (val : Val) (der : Der)
    (hess : Hes) : Prop where
  hd : ∀ θ, dom θ → ∀ p < m, ∀ a, pr.Entry p (N.e p a) → ∀ n d, pr.Pos n d →
    HasPartial (fun θ => val θ n d) θ p a (der θ p a n d)
  hh : ∀ θ, dom θ → ∀ p < m, ∀ q ≤ p, ∀ a b, pr.Entry p (N.e p a) → pr.Entry q (N.e q b) → ∀ n d, pr.Pos n d →
    HasPartial (fun θ => der θ p a n d) θ q b (hess θ p q a b n d)

/-- The Tensors of `v` have all outcome axes, and the feature and outcome axes `K` are not broadcast. -/
def Solid {α : Type} [Zero α] (K : Nat → Prop) (L : Layout) : Num α → Prop
  | .tensor t => t.IsZero ∨ (Piece L t ∧ t.dim = L.d ∧
      ∀ k < L.n + L.d, K k → t.values.shape (t.xDim + t.yDim + k) = L.S k)
  | .generic g => 0 < L.n ∧ ∀ e ∈ g.elements, ∃ t, e = .inl t ∧ (t.IsZero ∨ (Piece L t ∧ t.dim = L.d ∧
      ∀ k < L.n + L.d, K k → t.values.shape (t.xDim + t.yDim + k) = L.S k))

/-- `V`, `D` and `H` are arrays of the problem with the values of `val`, `der` and `hess`. -/
structure Values (pr : Problem) {m : Nat} (N : Numbering pr m) (K : Nat → Prop) (θ : Theta) (val : Val) (der : Der)
    (hess : Hes) (V : Tensor ℝ) (D : Nat → Num ℝ) (H : Nat → Nat → Num ℝ) : Prop where
  vx : V.xDim = 0
  vy : V.yDim = 0
  vs : Solid K (pr.layout 0 0) (.tensor V)
  v : ∀ n d, pr.Pos n d → ∀ x y, V.dense ⟨x, y, n, d⟩ = val θ n d
  dp : ∀ p < m, pr.IsDer p (D p)
  ds : ∀ p < m, Solid K (pr.layout p p).noY (D p)
  d : ∀ p < m, ∀ a, pr.Entry p (N.e p a) → ∀ n d, pr.Pos n d → ∀ y, (D p).dense ⟨N.e p a, y, n, d⟩ = der θ p a n d
  hp : ∀ p < m, ∀ q ≤ p, pr.IsHess p q (H p q)
  hs : ∀ p < m, ∀ q ≤ p, Solid K (pr.layout p q) (H p q)
  h : ∀ p < m, ∀ q ≤ p, ∀ a b, pr.Entry p (N.e p a) → pr.Entry q (N.e q b) → ∀ n d, pr.Pos n d →
    (H p q).dense ⟨N.e p a, N.e q b, n, d⟩ = hess θ p q a b n d

/-! ### how the results are stored -/

/-- Every parameter axis of the Tensor is mapped to a value axis (and so stored with size 1). -/
def Tensor.Mapped {α : Type} (t : Tensor α) : Prop :=
  (∀ k < t.xDim, 0 ≤ t.xMap.getD k (-1)) ∧ ∀ k < t.yDim, 0 ≤ t.yMap.getD k (-1)

/-- The same for all Tensors of `v`. -/
def Num.Mapped {α : Type} : Num α → Prop
  | .tensor t => t.Mapped
  | .generic g => ∀ e ∈ g.elements, ∃ t, e = .inl t ∧ t.Mapped

/-- The derivative is not the number `Tensor(0)`. -/
def Num.Live {α : Type} [Zero α] : Num α → Prop
  | .tensor t => ¬ t.IsZero
  | .generic _ => True

/-- No element of a GenericTensor is `Tensor(0)`. -/
def Num.Clean {α : Type} [Zero α] : Num α → Prop
  | .tensor _ => True
  | .generic g => ∀ e ∈ g.elements, ∃ t, e = .inl t ∧ ¬ t.IsZero

/-- The derivative is the number `Tensor(0)`. -/
def Num.Dead {α : Type} [Zero α] : Num α → Prop
  | .tensor t => t.IsZero
  | .generic _ => False

/-- The derivative is a Tensor and not a GenericTensor. -/
def Num.Single {α : Type} : Num α → Prop
  | .tensor _ => True
  | .generic _ => False

/-- Every Tensor of `v` that is not `Tensor(0)` has all `a` axes of the parameter. -/
def Num.Wide {α : Type} [Zero α] (a : Nat) : Num α → Prop
  | .tensor t => t.IsZero ∨ t.xDim = a
  | .generic g => ∀ e ∈ g.elements, ∃ t, e = .inl t ∧ (t.IsZero ∨ t.xDim = a)

/-- What is known about the way in which results are stored: `tot`: the values are an array with all axes of the problem (and not
the number `Tensor(0)`); `full`: in these value axes the values are then stored in full size (and not broadcast); `mapped`: the parameter
axes of the derivatives are mapped to value axes; `used p`: the derivative with respect to the parameter `p` is not stored as `Tensor(0)`: one of its Tensors has all axes of the parameter;
`clean`: no `Tensor(0)` is an element of a GenericTensor, and the derivatives have all axes of the parameter unless they are `Tensor(0)`; `single p`: the derivative with respect to `p` is a Tensor; `dead p`: it is
`Tensor(0)`; `curved p q`: the second derivative with respect to `p` and `q` is not `Tensor(0)`. -/
structure Store where
  tot : Prop
  full : Nat → Prop
  mapped : Prop
  used : Nat → Prop
  clean : Prop
  single : Nat → Prop
  dead : Nat → Prop
  curved : Nat → Nat → Prop

/-- All axes are there, in full size and mapped, and nothing is stored as `Tensor(0)`; the derivatives with respect to the parameters `S` are
Tensors. -/
def Store.whole (S : Nat → Prop) : Store := ⟨True, fun _ => True, True, fun _ => True, True, S, fun _ => False, fun _ _ => False⟩

/-- The same, and no second derivative is stored as `Tensor(0)`. -/
def Store.solid (S : Nat → Prop) : Store := { Store.whole S with curved := fun _ _ => True }

/-- The same as `Store.whole`, if nothing is known about the derivatives being Tensors or GenericTensors. -/
def Store.all : Store := Store.whole fun _ => False

/-- How the elementary functions store their results: the derivatives are not `Tensor(0)` unless the arrays have no axes. -/
def Store.leaf (pr : Problem) : Store := ⟨True, fun _ => True, True, fun _ => 0 < pr.n + pr.d, True, fun _ => True, fun _ => False, fun _ _ => False⟩

/-- How the results of a function are stored whose derivatives are `Tensor(0)`. -/
def Store.constant : Store := ⟨True, fun _ => True, True, fun _ => False, True, fun _ => True, fun _ => True, fun _ _ => False⟩

/-- How the results of a `FuncWrap` are stored: the function has the parameters `pm`, the features `fm` and the outcomes
`dm`; `pr0` is its problem and `pr` the problem of the `FuncWrap`. -/
def Store.wrap (s : Store) (pr0 pr : Problem) (pm fm dm : List Nat) : Store :=
  ⟨s.tot ∧ 0 < pr0.n + pr0.d,
    fun k => (∃ j < pr0.n, k = fm.getD j 0 ∧ s.full j) ∨ ∃ j < pr0.d, k = pr.n + dm.getD j 0 ∧ s.full (pr0.n + j),
    s.mapped, fun p => ∃ k < pm.length, pm.getD k 0 = p ∧ s.used k, s.clean,
    fun p => ∀ k < pm.length, pm.getD k 0 = p → s.single k, fun p => ∀ k < pm.length, pm.getD k 0 = p → s.dead k,
    fun p q => ∃ k < pm.length, ∃ l < pm.length, pm.getD k 0 = p ∧ pm.getD l 0 = q ∧ s.curved k l⟩

/-- How the results of a function, multiplied with the number `c`, are stored: all Tensors are `Tensor(0)` if `c` is zero. -/
def Store.times (s : Store) (c : ℝ) : Store :=
  ⟨s.tot ∧ c ≠ 0, s.full, s.mapped, fun p => s.used p ∧ c ≠ 0, s.clean ∧ c ≠ 0, s.single, fun p => s.dead p ∨ c = 0 ∧ s.single p,
    fun p q => s.curved p q ∧ c ≠ 0⟩

/-- How the results of a sum of `r` functions are stored. -/
def Store.sum (r : Nat) (s : Nat → Store) : Store :=
  ⟨∃ i < r, (s i).tot, fun k => ∃ i < r, (s i).tot ∧ (s i).full k, ∀ i < r, (s i).mapped, fun p => ∃ i < r, (s i).used p,
    ∀ i < r, (s i).clean, fun p => ∃ i < r, (s i).single p ∧ ∀ j < r, j ≠ i → (s j).dead p, fun p => ∀ i < r, (s i).dead p,
    fun p q => ∃ i < r, (s i).curved p q⟩

/-- The results `V`, `D`, `H` are stored as `s` says. -/
structure Stored (pr : Problem) (m : Nat) (s : Store) (V : Tensor ℝ) (D : Nat → Num ℝ) (H : Nat → Nat → Num ℝ) : Prop where
  tot : s.tot → Piece (pr.layout 0 0) V ∧ V.dim = pr.d ∧
    ∀ k < pr.n + pr.d, s.full k → V.values.shape (V.xDim + V.yDim + k) = pr.S k
  mapD : s.mapped → ∀ p < m, (D p).Mapped
  mapH : s.mapped → ∀ p < m, ∀ q ≤ p, (H p q).Mapped
  live : ∀ p < m, s.used p → (D p).Spans (pr.nd p)
  cleanD : s.clean → ∀ p < m, (D p).Clean
  cleanH : s.clean → ∀ p < m, ∀ q ≤ p, (H p q).Clean
  single : ∀ p < m, s.single p → (D p).Single
  dead : ∀ p < m, s.dead p → (D p).Dead
  liveH : ∀ p < m, ∀ q ≤ p, s.curved p q → (H p q).Live
  wide : s.clean → ∀ p < m, (D p).Wide (pr.nd p)

/-- `x` (the result of `eval`, or of the three methods) consists of the values, the list of the derivatives with respect
to the parameters, and the lower triangle of the second derivatives, stored as `s` says. -/
def Returns (pr : Problem) {m : Nat} (N : Numbering pr m) (K : Nat → Prop) (s : Store) (θ : Theta) (val : Val)
    (der : Der) (hess : Hes) (x : Except Err (Ev3 ℝ)) : Prop :=
  ∃ V D H, x = .ok ⟨.arr (.tensor V), row m fun p => .arr (D p), triangle m fun p q => .arr (H p q)⟩ ∧
    Values pr N K θ val der hess V D H ∧ Stored pr m s V D H

/-- For all parameters in `dom`, `eval` and the three methods of `f` return `val` with its first and second
derivatives. -/
structure Computes (pr : Problem) {m : Nat} (N : Numbering pr m) (K : Nat → Prop) (s : Store)
    (dom : Theta → Prop) (f : TFunc ℝ) (val : Val) : Prop where
  ok : ∃ der hess, Smooth pr N dom val der hess ∧ ∀ θ, dom θ → ∀ ps, N.IsParams θ ps →
    Returns pr N K s θ val der hess (f.eval ps) ∧ Returns pr N K s θ val der hess (f.sep ps)
  gnull : f.gradNull = true → ∀ ps i, f.grad ps i = .ok zeroT
  hnull : f.hessNull = true → ∀ ps i j, f.hess ps i j = .ok zeroT

/-! ### functions of some of the parameters, features and outcomes -/

/-- The position of the axes `l`. -/
def through (l : List Nat) (n : Nat → Nat) : Nat → Nat := fun k => if k < l.length then n (l.getD k 0) else 0

/-- The parameters in the list `pm`. -/
def _root_.Verif.Theta.sub (θ : Theta) (pm : List Nat) : Theta := fun k => if k < pm.length then θ (pm.getD k 0) else fun _ => 0

/-- The parameters of the problem `pr0` are the parameters `pm` of the problem `pr` (with the same numbering of their
entries), its features the features `fm` and its outcomes the outcomes `dm`. -/
structure Inside {pr0 : Problem} {m0 : Nat} (N0 : Numbering pr0 m0) {pr : Problem} {m : Nat} (N : Numbering pr m)
    (pm fm dm : List Nat) : Prop where
  pmS : pm.Pairwise (· < ·)
  pmLt : ∀ p ∈ pm, p < m
  pmLen : pm.length = m0
  nd : ∀ k < m0, pr0.nd k = pr.nd (pm.getD k 0)
  P : ∀ k < m0, ∀ j < pr0.nd k, pr0.P k j = pr.P (pm.getD k 0) j
  e : ∀ k < m0, ∀ a, N0.e k a = N.e (pm.getD k 0) a
  fmN : fm.Nodup
  fmLt : ∀ k ∈ fm, k < pr.n
  fmLen : fm.length = pr0.n
  fmS : ∀ k < pr0.n, pr0.S k = pr.S (fm.getD k 0)
  dmN : dm.Nodup
  dmLt : ∀ k ∈ dm, k < pr.d
  dmLen : dm.length = pr0.d
  dmS : ∀ k < pr0.d, pr0.S (pr0.n + k) = pr.S (pr.n + dm.getD k 0)

/-- Every axis in `K` is an axis of the smaller problem that is in `K0`. -/
def Carries (pr0 pr : Problem) (fm dm : List Nat) (K0 K : Nat → Prop) : Prop :=
  ∀ k < pr.n + pr.d, K k → (∃ j < pr0.n, k = fm.getD j 0 ∧ K0 j) ∨ ∃ j < pr0.d, k = pr.n + dm.getD j 0 ∧ K0 (pr0.n + j)

end Verif.Tens
