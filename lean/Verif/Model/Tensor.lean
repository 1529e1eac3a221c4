import Verif.Model.NDArray
import Mathlib.Data.List.Sort

/-!
# Model of maxlike/tensor/tensor.py: Tensor

Over any field (the code computes with floats).  Values that are not distinguished: integers, floats
and 0-dimensional arrays as scalars.  `dtype`, read-only flags and `__str__` are not modelled.
Maps (`array('b', …)`) are lists of integers; the limit of 127 axes is not modelled.
-/

namespace Verif.Tens
open Verif.Params (Err)
open NDArray

/-- `Tensor` (tensor.py:441-475).  The number `n` of value axes is what the other spaces leave. -/
structure Tensor (α : Type) where
  values : NDArray α
  xDim : Nat
  yDim : Nat
  dim : Nat
  xMap : List Int
  yMap : List Int

/-- `self.n` (tensor.py:459-460) -/
def Tensor.n {α : Type} (t : Tensor α) : Nat := t.values.ndim - t.xDim - t.yDim - t.dim

/-- The constructor (tensor.py:445-475): `n` must not be negative. -/
def mkTensor {α : Type} (values : NDArray α) (xDim yDim dim : Nat) (xMap yMap : List Int) :
    Except Err (Tensor α) :=
  if values.ndim < xDim + yDim + dim then .error .assertion
  else .ok ⟨values, xDim, yDim, dim, xMap, yMap⟩

/-- `Tensor(c)` -/
def Tensor.const {α : Type} (c : α) : Tensor α := ⟨NDArray.scalar c, 0, 0, 0, [], []⟩

/-- `compose_mappings(map1, map2)` (tensor.py:32-36) -/
def composeMappings (map1 map2 : List Int) : Except Err (List Int) :=
  map2.mapM fun (f : Int) => if f < 0 then .ok (-1) else
    match map1[f.toNat]? with
    | none => .error .indexError
    | some g => .ok g

section loops
variable {α : Type}

/-- `arr_swapaxes(arr, q, p, mapping)` (tensor.py:39-43), from position `k` of the mapping on. -/
def arrSwapaxes (q p : Nat) : Nat → List Int → NDArray α → NDArray α
  | _, [], arr => arr
  | k, f :: fs, arr =>
    if 0 ≤ f then arrSwapaxes q p (k + 1) fs (arr.swapaxes (q + k) (p + f.toNat))
    else arrSwapaxes q p (k + 1) fs arr

/-- `arr_take_diag(arr, q, p, mapping)` (tensor.py:46-53) -/
def arrTakeDiag (q p : Nat) : Nat → List Int → NDArray α → NDArray α
  | _, [], arr => arr
  | k, f :: fs, arr =>
    if f < 0 then arrTakeDiag q p (k + 1) fs arr
    else
      let arr := arr.diagonal (q + k) (p + f.toNat)
      let arr := arr.swapaxes (arr.ndim - 1) (p + f.toNat - 1)
      arrTakeDiag q p (k + 1) fs (arr.expandDims k)

variable [Field α]

/-- `arr_expand_diag(arr, q, p, mapping)` (tensor.py:56-67) -/
def arrExpandDiag (q p : Nat) : Nat → List Int → NDArray α → Except Err (NDArray α)
  | _, [], arr => .ok arr
  | k, f :: fs, arr =>
    if f < 0 then arrExpandDiag q p (k + 1) fs arr
    else
      match zipWith (· * ·) arr
        (eyeAt arr.ndim (arr.shape (p + f.toNat)) (q + k) (p + f.toNat)) with
      | .error e => .error e
      | .ok arr => arrExpandDiag q p (k + 1) fs arr

/-- `arr_expand_cross_diag(arr, p, map1, map2)` (tensor.py:70-81), over the zipped maps. -/
def arrExpandCrossDiag (p : Nat) : List (Int × Int) → NDArray α → Except Err (NDArray α)
  | [], arr => .ok arr
  | (i, j) :: l, arr =>
    if i = j then arrExpandCrossDiag p l arr
    else
      let i := ((p : Int) + i).toNat
      let j := ((p : Int) + j).toNat
      match broadcastEye arr.ndim (arr.shape i) i j with
      | .error e => .error e
      | .ok eye =>
        match zipWith (· * ·) arr eye with
        | .error e => .error e
        | .ok arr => arrExpandCrossDiag p l arr

/-- `arr_swapaxes_cross(arr, p, map1, map2)` (tensor.py:84-98), from position `k` of `map2` on. -/
def arrSwapaxesCross (p : Nat) (map1 : List Int) : Nat → List Int → NDArray α → Except Err (NDArray α)
  | _, [], arr => .ok arr
  | k, f :: fs, arr =>
    if f ∈ map1 then
      match broadcastEye arr.ndim (arr.shape k) (map1.idxOf f) (p + k) with
      | .error e => .error e
      | .ok eye =>
        match zipWith (· * ·) arr eye with
        | .error e => .error e
        | .ok arr => arrSwapaxesCross p map1 (k + 1) fs arr
    else arrSwapaxesCross p map1 (k + 1) fs (arr.swapaxes (p + k) ((p : Int) + f).toNat)

end loops

variable {α : Type} [Field α] [DecidableEq α]

/-- `Tensor.toarray` (tensor.py:477-482) -/
def Tensor.toarray (t : Tensor α) : Except Err (NDArray α) :=
  match arrExpandDiag 0 (t.xDim + t.yDim) 0 t.xMap t.values with
  | .error e => .error e
  | .ok arr => arrExpandDiag t.xDim (t.xDim + t.yDim) 0 t.yMap arr

/-! ### structural operations -/

/-- The argument `sum_val`: `True`, `False` or a list of axes (an integer is a list of one). -/
inductive SumVal where
  | all
  | none
  | axes (l : List Nat)

/-- Swapping for `x` (tensor.py:503-505) -/
def sumSwapX (p : Nat) (sel : List Nat) : Nat → List Int → NDArray α → NDArray α
  | _, [], val => val
  | k, f :: fs, val =>
    if 0 ≤ f ∧ f.toNat ∈ sel then sumSwapX p sel (k + 1) fs (val.swapaxes k (p + f.toNat))
    else sumSwapX p sel (k + 1) fs val

/-- Swapping for `y` and the cross map (tensor.py:508-516); the dictionary `cross_map` is a list of
pairs (x axis, y axis). -/
def sumSwapY (p xDim : Nat) (sel : List Nat) (xMap : List Int) :
    Nat → List Int → NDArray α → List (Nat × Nat) → NDArray α × List (Nat × Nat)
  | _, [], val, cross => (val, cross)
  | k, f :: fs, val, cross =>
    if ¬ (0 ≤ f ∧ f.toNat ∈ sel) then sumSwapY p xDim sel xMap (k + 1) fs val cross
    else if f ∈ xMap then
      let l := xMap.idxOf f
      sumSwapY p xDim sel xMap (k + 1) fs val (cross.filter (·.1 ≠ l) ++ [(l, k)])
    else sumSwapY p xDim sel xMap (k + 1) fs (val.swapaxes (xDim + k) (p + f.toNat)) cross

/-- Applying the cross map (tensor.py:527-532) -/
def sumCross (xDim : Nat) : List (Nat × Nat) → NDArray α → Except Err (NDArray α)
  | [], val => .ok val
  | (k, f) :: l, val =>
    match zipWith (· * ·) val (eyeAt val.ndim (val.shape k) k (xDim + f)) with
    | .error e => .error e
    | .ok val => sumCross xDim l val

/-- `Tensor.sum(sum_val, sum_dim)` (tensor.py:484-534); repeated axes are an error of numpy
(`ValueError`), and so are axes that do not exist (`AxisError`).  Negative axes are not modelled. -/
def Tensor.sum (t : Tensor α) (sumVal : SumVal) (sumDim : Bool) : Except Err (Tensor α) :=
  let p := t.xDim + t.yDim
  let dims := (List.range t.dim).map (p + t.n + ·)
  match sumVal with
  | .none =>
    let val := if sumDim then t.values.sumAxes dims else t.values
    mkTensor val t.xDim t.yDim 0 t.xMap t.yMap
  | _ =>
    let sel := match sumVal with
      | .axes l => l
      | _ => List.range t.n
    let val := sumSwapX p sel 0 t.xMap t.values
    let (val, cross) := sumSwapY p t.xDim sel t.xMap 0 t.yMap val []
    let idx := sel.map (p + ·) ++ if sumDim then dims else []
    if ∃ a ∈ idx, t.values.ndim ≤ a then .error .indexError
    else if ¬ idx.Nodup then .error .valueError
    else
      let val := val.sumAxes idx
      match sumCross t.xDim cross val with
      | .error e => .error e
      | .ok val => mkTensor val t.xDim t.yDim (if sumDim then 0 else t.dim) [] []

/-- `np.argsort(where)` for distinct entries -/
def argsort (l : List Nat) : List Nat :=
  (List.range l.length).insertionSort fun i j => l.getD i 0 ≤ l.getD j 0

/-- `rng[start:]`… with the block `[start, start + l.length)` reordered by `argsort`
(tensor.py:551-553, 570-571): the list of axes for `transpose`. -/
def permBlock (nd start : Nat) (l : List Nat) : List Nat :=
  List.range start ++ (argsort l).map (start + ·) ++
    (List.range (nd - (start + l.length))).map (start + l.length + ·)

/-- `[slice(None) if k in where else None for k in range(newsize)]` -/
def whereMask (l : List Nat) (newsize : Nat) : List Bool :=
  (List.range newsize).map fun k => decide (k ∈ l)

/-- `Tensor.expand(where, newsize, dim)` (tensor.py:536-581) -/
def Tensor.expand (t : Tensor α) (wher : List Nat) (newsize : Nat) (dim : Bool) :
    Except Err (Tensor α) :=
  if ¬ ∀ w ∈ wher, w < newsize then .error .assertion
  else if t.values.ndim = 0 ∧ t.values.get (fun _ => 0) = 0 then .ok (Tensor.const 0)
  else if dim then
    if wher.length ≠ t.dim then .error .assertion
    else
      let pn := t.xDim + t.yDim + t.n
      match (t.values.transpose (permBlock t.values.ndim pn wher)).newAxes
        (List.replicate pn true ++ whereMask wher newsize) with
      | .error e => .error e
      | .ok val => mkTensor val t.xDim t.yDim newsize t.xMap t.yMap
  else
    if wher.length ≠ t.n then .error .assertion
    else
      let p := t.xDim + t.yDim
      match composeMappings (wher.map fun (w : Nat) => (w : Int)) t.xMap,
        composeMappings (wher.map fun (w : Nat) => (w : Int)) t.yMap with
      | .ok xMap, .ok yMap =>
        match (t.values.transpose (permBlock t.values.ndim p wher)).newAxes
          (List.replicate p true ++ whereMask wher newsize ++ List.replicate t.dim true) with
        | .error e => .error e
        | .ok val => mkTensor val t.xDim t.yDim t.dim xMap yMap
      | _, _ => .error .indexError

/-- `Tensor.flip(where, dim)` (tensor.py:583-615); `np.flip` raises `AxisError` for an
axis that does not exist: this is a subclass of both `ValueError` and `IndexError`, recorded here as the former because `FuncWrap` catches it.
Negative axes are not modelled. -/
def Tensor.flip (t : Tensor α) (wher : List Nat) (dim : Bool) : Except Err (Tensor α) :=
  if wher = [] then .ok t
  else
    let p := if dim then t.xDim + t.yDim + t.n else t.xDim + t.yDim
    if dim = false ∧ ∃ k ∈ wher, (k : Int) ∈ t.xMap ++ t.yMap then .error .notImplemented
    else if ∃ k ∈ wher, t.values.ndim ≤ p + k then .error .valueError
    else mkTensor (wher.foldl (fun val k => val.flip (p + k)) t.values) t.xDim t.yDim t.dim t.xMap t.yMap

/-- `Tensor.transpose()` (tensor.py:617-623) -/
def Tensor.transpose (t : Tensor α) : Tensor α :=
  let val := if 0 < t.xDim ∧ 0 < t.yDim then
      (List.range t.xDim).foldl (fun val k => val.moveaxis t.xDim k) t.values
    else t.values
  ⟨val, t.yDim, t.xDim, t.dim, t.yMap, t.xMap⟩

/-- `Tensor.drop_dim()` (tensor.py:625-628) -/
def Tensor.dropDim (t : Tensor α) : Tensor α := ⟨t.values, t.xDim, t.yDim, 0, t.xMap, t.yMap⟩

/-! ### contractions -/

/-- `Tensor.dot_left(other)` for a Tensor (tensor.py:691-711), without the case that transposes. -/
def Tensor.dotLeftCore (t other : Tensor α) : Except Err (Tensor α) :=
  let dim := max t.dim other.dim
  let p := t.xDim + t.yDim
  let lIdx := List.replicate (other.xDim + other.n) true ++ List.replicate (t.yDim + t.n) false ++
    List.replicate other.dim true ++ List.replicate (dim - other.dim) false
  let rIdx := List.replicate other.xDim false ++ List.replicate t.values.ndim true ++
    List.replicate (dim - t.dim) false
  let val := arrSwapaxes 0 p 0 t.xMap t.values
  match other.values.newAxes lIdx, val.newAxes rIdx with
  | .ok l, .ok r =>
    match NDArray.binary (· * ·) l r with
    | .error e => .error e
    | .ok val =>
      let val := arrSwapaxes other.xDim (other.xDim + p) 0 t.xMap val
      if t.xMap ≠ [] then
        match composeMappings t.xMap other.xMap with
        | .error e => .error e
        | .ok xMap =>
          mkTensor (val.sumAxes ((List.range other.n).map (other.xDim + ·))) other.xDim t.yDim dim
            xMap t.yMap
      else
        let val := arrSwapaxes 0 other.xDim 0 other.xMap val
        mkTensor (val.sumAxes ((List.range other.n).map (other.xDim + ·))) other.xDim t.yDim dim
          [] t.yMap
  | _, _ => .error .indexError

/-- `Tensor.dot_left(other)` for a Tensor (tensor.py:669-711) -/
def Tensor.dotLeft (t other : Tensor α) : Except Err (Tensor α) :=
  if t.xDim ≠ other.n ∧ t.yDim = other.n then t.transpose.dotLeftCore other
  else t.dotLeftCore other

/-- `Tensor.dot_right(other)` for a Tensor (tensor.py:713-764); `none` stands for the returned
integer 0. -/
def Tensor.dotRight (t other : Tensor α) : Except Err (Option (Tensor α)) :=
  if other.values.ndim = 0 ∧ other.values.get (fun _ => 0) = 0 then .ok none
  else if t.yDim ≠ 0 ∨ t.xDim ≠ other.n then .error .assertion
  else
    let dim := max t.dim other.dim
    let p := other.xDim + other.yDim
    let lIdx := List.replicate (p + other.n) true ++ List.replicate t.n false ++
      List.replicate other.dim true ++ List.replicate (dim - other.dim) false
    let rIdx := List.replicate p false ++ List.replicate (t.xDim + t.n) true ++
      List.replicate (dim - t.dim) false
    let val := arrSwapaxes 0 t.xDim 0 t.xMap t.values
    match other.values.newAxes lIdx, val.newAxes rIdx with
    | .ok l, .ok r =>
      match NDArray.binary (· * ·) l r with
      | .error e => .error e
      | .ok val =>
        let val := arrSwapaxes p (p + t.xDim) 0 t.xMap val
        let cross : Except Err (NDArray α) := if t.xMap = [] then
            arrSwapaxesCross other.xDim other.xMap 0 other.yMap (arrSwapaxes 0 p 0 other.xMap val)
          else .ok val
        match cross with
        | .error e => .error e
        | .ok val =>
          match composeMappings t.xMap other.xMap, composeMappings t.xMap other.yMap with
          | .ok xMap, .ok yMap =>
            match mkTensor (val.sumAxes ((List.range other.n).map (p + ·))) other.xDim other.yDim dim
              xMap yMap with
            | .error e => .error e
            | .ok r => .ok (some r)
          | _, _ => .error .indexError
    | _, _ => .error .indexError

/-! ### arithmetic -/

/-- `Tensor.__neg__` (tensor.py:766-770) -/
def Tensor.neg (t : Tensor α) : Tensor α := { t with values := t.values.map (- ·) }

/-- The binary operations `TensorOp` (tensor.py:101-110). -/
inductive Op where
  | add | sub | rsub | mul | div | rdiv
  deriving DecidableEq

/-- `op_type.value(x, y)` -/
def Op.app : Op → α → α → α
  | .add, x, y => x + y
  | .sub, x, y => x - y
  | .rsub, x, y => y - x
  | .mul, x, y => x * y
  | .div, x, y => x / y
  | .rdiv, x, y => y / x

/-- `GenericTensor` (tensor.py:217-227).  An element is normally a Tensor (`inl`); `bin_op` can append
an array or a scalar as it is (`inr`). -/
structure Generic (α : Type) where
  xDim : Nat
  yDim : Nat
  n : Nat
  dim : Nat
  elements : List (Tensor α ⊕ NDArray α)

/-- What arithmetic returns. -/
inductive Num (α : Type) where
  | tensor (t : Tensor α)
  | generic (g : Generic α)

/-- Scalar operand (tensor.py:804-834) -/
def Tensor.binScalar (t : Tensor α) (c : α) (op : Op) : Except Err (Tensor α) :=
  if c = 0 ∧ (op = .add ∨ op = .sub) then .ok t
  else if c = 0 ∧ op = .rsub then .ok t.neg
  else if c = 0 ∧ (op = .mul ∨ op = .rdiv) then .ok (Tensor.const 0)
  else if c = 0 ∧ op = .div then .error .zeroDivision
  else if c = 1 ∧ (op = .mul ∨ op = .div) then .ok t
  else if op = .add ∨ op = .sub ∨ op = .rsub then
    match t.toarray with
    | .error e => .error e
    | .ok arr => .ok ⟨arr.map fun v => op.app v c, t.xDim, t.yDim, t.dim, [], []⟩
  else .ok { t with values := t.values.map fun v => op.app v c }

/-- `__reshape_idx` (tensor.py:965-988) -/
def Tensor.reshapeIdx (t : Tensor α) (xDim yDim n dim : Nat) : List Bool :=
  List.replicate xDim (decide (0 < t.xDim)) ++ List.replicate yDim (decide (0 < t.yDim)) ++
    List.replicate n (decide (0 < t.n)) ++ List.replicate dim (decide (0 < t.dim))

/-- `l_values[l_idx]` combined with `r_values[r_idx]` -/
def reshapedOp (op : Op) (l : NDArray α) (lIdx : List Bool) (r : NDArray α) (rIdx : List Bool) :
    Except Err (NDArray α) :=
  match l.newAxes lIdx, r.newAxes rIdx with
  | .ok l, .ok r => NDArray.binary op.app l r
  | _, _ => .error .indexError

/-- Multiplication: the `x` space (tensor.py:894-906), for the arrays of the operands. -/
def Tensor.mulX (t other : Tensor α) (l r : NDArray α) :
    Except Err (NDArray α × NDArray α × List Int) :=
  let p := t.xDim + t.yDim
  if t.xMap ≠ [] then
    match arrExpandCrossDiag p (t.xMap.zip other.xMap) l with
    | .error e => .error e
    | .ok l => .ok (l,
      if other.xMap = [] ∧ other.xDim ≠ 0 then arrTakeDiag 0 (other.xDim + other.yDim) 0 t.xMap r
      else r, t.xMap)
  else
    .ok (if other.xMap ≠ [] ∧ t.xDim ≠ 0 then arrTakeDiag 0 p 0 other.xMap l else l, r, other.xMap)

/-- Multiplication: the `y` space (tensor.py:908-918). -/
def Tensor.mulY (t other : Tensor α) (l r : NDArray α) :
    Except Err (NDArray α × NDArray α × List Int) :=
  let p := t.xDim + t.yDim
  if t.yMap ≠ [] then
    match arrExpandCrossDiag p (t.yMap.zip other.yMap) l with
    | .error e => .error e
    | .ok l => .ok (l,
      if other.yMap = [] ∧ other.yDim ≠ 0 then
        arrTakeDiag other.xDim (other.xDim + other.yDim) 0 t.yMap r
      else r, t.yMap)
  else
    .ok (if t.yDim ≠ 0 then arrTakeDiag t.xDim p 0 other.yMap l else l, r, other.yMap)

/-- `Tensor.bin_op` with a Tensor (tensor.py:797-800, 836-923) -/
def Tensor.binTensor (t other : Tensor α) (op : Op) : Except Err (Num α) :=
  if other.values.ndim = 0 then
    match t.binScalar (other.values.get fun _ => 0) op with
    | .error e => .error e
    | .ok r => .ok (.tensor r)
  else if t.values.ndim = 0 then
    match NDArray.binary op.app t.values other.values with
    | .error e => .error e
    | .ok val =>
      match mkTensor val other.xDim other.yDim other.dim other.xMap other.yMap with
      | .error e => .error e
      | .ok r => .ok (.tensor r)
  else if ¬ (t.n = 0 ∨ other.n = 0 ∨ t.n = other.n) ∨ ¬ (t.dim = 0 ∨ other.dim = 0 ∨ t.dim = other.dim) ∨
      ¬ (t.xDim = 0 ∨ other.xDim = 0 ∨ t.xDim = other.xDim) ∨
      ¬ (t.yDim = 0 ∨ other.yDim = 0 ∨ t.yDim = other.yDim) then .error .assertion
  else
    let n := max t.n other.n
    let dim := max t.dim other.dim
    let xDim := max t.xDim other.xDim
    let yDim := max t.yDim other.yDim
    let lIdx := t.reshapeIdx xDim yDim n dim
    let rIdx := other.reshapeIdx xDim yDim n dim
    if op = .add ∨ op = .sub ∨ op = .rsub then
      if t.xMap = other.xMap ∧ t.yMap = other.yMap then
        match reshapedOp op t.values lIdx other.values rIdx with
        | .error e => .error e
        | .ok val =>
          match mkTensor val xDim yDim dim t.xMap t.yMap with
          | .error e => .error e
          | .ok r => .ok (.tensor r)
      else
        .ok (.generic ⟨xDim, yDim, n, dim,
          match op with
          | .add => [.inl t, .inl other]
          | .sub => [.inl t, .inl other.neg]
          | _ => [.inl t.neg, .inl other]⟩)
    else
      match t.mulX other t.values other.values with
      | .error e => .error e
      | .ok (l, r, xMap) =>
        match t.mulY other l r with
        | .error e => .error e
        | .ok (l, r, yMap) =>
          match reshapedOp op l lIdx r rIdx with
          | .error e => .error e
          | .ok val =>
            match mkTensor val xDim yDim dim xMap yMap with
            | .error e => .error e
            | .ok r => .ok (.tensor r)

/-! ### GenericTensor -/

/-- An operand that is not a GenericTensor. -/
inductive Prim (α : Type) where
  | scalar (c : α)
  | array (a : NDArray α)
  | tensor (t : Tensor α)

/-- `Tensor.bin_op` with a scalar, an array or a Tensor (tensor.py:789-834) -/
def Tensor.binPrim (t : Tensor α) (other : Prim α) (op : Op) : Except Err (Num α) :=
  match other with
  | .scalar c =>
    match t.binScalar c op with
    | .error e => .error e
    | .ok r => .ok (.tensor r)
  | .array a =>
    if a.ndim = 0 then
      match t.binScalar (a.get fun _ => 0) op with
      | .error e => .error e
      | .ok r => .ok (.tensor r)
    else t.binTensor ⟨a, 0, 0, 0, [], []⟩ op
  | .tensor o => t.binTensor o op

/-- The operand as an element. -/
def Prim.elem : Prim α → Tensor α ⊕ NDArray α
  | .scalar c => .inr (NDArray.scalar c)
  | .array a => .inr a
  | .tensor t => .inl t

/-- `-other` / `-el` -/
def negElem : Tensor α ⊕ NDArray α → Tensor α ⊕ NDArray α
  | .inl t => .inl t.neg
  | .inr a => .inr (a.map (- ·))

/-- `el.bin_op(other, op)` for an element: arrays have no such method. -/
def elemBin (e : Tensor α ⊕ NDArray α) (other : Prim α) (op : Op) : Except Err (Num α) :=
  match e with
  | .inl t => t.binPrim other op
  | .inr _ => .error .attribute

/-- The loop that merges `other` into the first element it is coherent with (tensor.py:374-388,
391-399): `some` of the new elements, or `none` if there is no such element. -/
def mergeInto (other : Prim α) (op : Op) :
    List (Tensor α ⊕ NDArray α) → Except Err (Option (List (Tensor α ⊕ NDArray α)))
  | [] => .ok none
  | e :: es =>
    match elemBin e other op with
    | .error err => .error err
    | .ok (.tensor r) => .ok (some (.inl r :: es))
    | .ok (.generic _) =>
      match mergeInto other op es with
      | .error err => .error err
      | .ok none => .ok none
      | .ok (some es) => .ok (some (e :: es))

/-- Elementwise multiplication or division (tensor.py:400-402).  A product that is a GenericTensor
cannot occur. -/
def mulAll (other : Prim α) (op : Op) :
    List (Tensor α ⊕ NDArray α) → Except Err (List (Tensor α ⊕ NDArray α))
  | [] => .ok []
  | e :: es =>
    match elemBin e other op with
    | .error err => .error err
    | .ok (.generic _) => .error .invalidOperation
    | .ok (.tensor r) =>
      match mulAll other op es with
      | .error err => .error err
      | .ok es => .ok (.inl r :: es)

/-- The dimensions of the result (tensor.py:360-370) -/
def Generic.dims (g : Generic α) : Prim α → Nat × Nat × Nat × Nat
  | .tensor t => (max g.xDim t.xDim, max g.yDim t.yDim, max g.n t.n, max g.dim t.dim)
  | _ => (g.xDim, g.yDim, g.n, g.dim)

/-- `GenericTensor.bin_op` with a scalar, an array or a Tensor (tensor.py:356-406) -/
def Generic.binPrim (g : Generic α) (other : Prim α) (op : Op) : Except Err (Generic α) :=
  let d := g.dims other
  let make := fun els => (⟨d.1, d.2.1, d.2.2.1, d.2.2.2, els⟩ : Generic α)
  match op with
  | .add | .sub =>
    match mergeInto other op g.elements with
    | .error e => .error e
    | .ok (some els) => .ok (make els)
    | .ok none => .ok (make (g.elements ++ [if op = .add then other.elem else negElem other.elem]))
  | .rsub =>
    match mergeInto other .add (g.elements.map negElem) with
    | .error e => .error e
    | .ok (some els) => .ok (make els)
    | .ok none => .ok (make (g.elements.map negElem ++ [other.elem]))
  | .mul | .div =>
    match mulAll other op g.elements with
    | .error e => .error e
    | .ok els => .ok (make els)
  | .rdiv => .error .invalidOperation

/-- An element as an operand. -/
def elemPrim : Tensor α ⊕ NDArray α → Prim α
  | .inl t => .tensor t
  | .inr a => .array a

/-- `for el in els: gt = gt.bin_op(el, op)` -/
def Generic.foldBin (g : Generic α) (op : Op) : List (Tensor α ⊕ NDArray α) → Except Err (Generic α)
  | [] => .ok g
  | e :: es =>
    match g.binPrim (elemPrim e) op with
    | .error err => .error err
    | .ok g => g.foldBin op es

/-- The loop `for el in other.elements: gt = gt + self * el` (tensor.py:417-420). -/
def Generic.foldMul (self gt : Generic α) : List (Tensor α ⊕ NDArray α) → Except Err (Generic α)
  | [] => .ok gt
  | e :: es =>
    match self.binPrim (elemPrim e) .mul with
    | .error err => .error err
    | .ok m =>
      match gt.foldBin .add m.elements with
      | .error err => .error err
      | .ok gt => self.foldMul gt es

/-- `GenericTensor.bin_op` with a GenericTensor (tensor.py:409-424) -/
def Generic.binGeneric (g other : Generic α) (op : Op) : Except Err (Generic α) :=
  match op with
  | .add | .sub => g.foldBin op other.elements
  | .mul => g.foldMul ⟨max g.xDim other.xDim, max g.yDim other.yDim, max g.n other.n,
      max g.dim other.dim, []⟩ other.elements
  | _ => .error .invalidOperation

/-- `Tensor.bin_op` with a GenericTensor (tensor.py:780-787) -/
def Tensor.binGeneric (t : Tensor α) (g : Generic α) (op : Op) : Except Err (Generic α) :=
  match op with
  | .add | .mul => g.binPrim (.tensor t) op
  | .sub => g.binPrim (.tensor t) .rsub
  | _ => .error .invalidOperation

/-- `GenericTensor.__neg__` (tensor.py:351-354) -/
def Generic.neg (g : Generic α) : Generic α := { g with elements := g.elements.map negElem }

/-- `sum([...])` of the arrays, starting from 0 -/
def sumArrays : List (Tensor α ⊕ NDArray α) → NDArray α → Except Err (NDArray α)
  | [], acc => .ok acc
  | e :: es, acc =>
    let a : Except Err (NDArray α) := match e with
      | .inl t => t.toarray
      | .inr a => .ok a
    match a with
    | .error err => .error err
    | .ok a =>
      match NDArray.binary (· + ·) acc a with
      | .error err => .error err
      | .ok acc => sumArrays es acc

/-- `GenericTensor.toarray` (tensor.py:229-231) -/
def Generic.toarray (g : Generic α) : Except Err (NDArray α) :=
  sumArrays g.elements (NDArray.scalar 0)

/-- `a + b`, `a - b`, `a * b`, `a / b` of Tensors and GenericTensors (tensor.py:186-208 and the `bin_op` of the
class of `a`, tensor.py:356-423, 778-787). -/
def Num.bin (a b : Num α) (op : Op) : Except Err (Num α) :=
  match a, b with
  | .tensor t, .tensor o => t.binTensor o op
  | .tensor t, .generic g =>
    match t.binGeneric g op with
    | .error e => .error e
    | .ok r => .ok (.generic r)
  | .generic g, .tensor o =>
    match g.binPrim (.tensor o) op with
    | .error e => .error e
    | .ok r => .ok (.generic r)
  | .generic g, .generic h =>
    match g.binGeneric h op with
    | .error e => .error e
    | .ok r => .ok (.generic r)

/-- `-a` (tensor.py:351-354, 766-770) -/
def Num.neg : Num α → Num α
  | .tensor t => .tensor t.neg
  | .generic g => .generic g.neg

/-! ### GenericTensor: sums and structural operations -/

/-- The listed axes of `GenericTensor.sum`, counted from the first value axis (tensor.py:238-254) -/
def Generic.sumIdx (g : Generic α) (sumVal : SumVal) (sumDim : Bool) : List Nat :=
  (match sumVal with
    | .none => []
    | .all => List.range g.n
    | .axes l => l) ++ if sumDim then (List.range g.dim).map (g.n + ·) else []

/-- `np.array(el.values.shape)[(p + np.array(idx)).tolist()]` (tensor.py:260): arrays have no `x_dim`,
`IndexError` for an axis that the element does not have. -/
def elemShape (idx : List Nat) : Tensor α ⊕ NDArray α → Except Err (List Nat)
  | .inr _ => .error .attribute
  | .inl t =>
    if ∃ j ∈ idx, t.values.ndim ≤ t.xDim + t.yDim + j then .error .indexError
    else .ok (idx.map fun j => t.values.shape (t.xDim + t.yDim + j))

/-- The loop over the elements (tensor.py:258-262), without the maxima. -/
def elemShapes (idx : List Nat) : List (Tensor α ⊕ NDArray α) → Except Err (List (List Nat))
  | [] => .ok []
  | e :: es =>
    match elemShape idx e with
    | .error err => .error err
    | .ok s =>
      match elemShapes idx es with
      | .error err => .error err
      | .ok l => .ok (s :: l)

/-- The loop that adds the sums of the elements (tensor.py:266-277); `size / el_size` is the number of times
the element is repeated by broadcasting. -/
def sumValues (xDim yDim : Nat) (sumDim : Bool) (size : Nat) :
    List (Tensor α ⊕ NDArray α) → List (List Nat) → NDArray α → Except Err (NDArray α)
  | .inl t :: es, shape :: shapes, acc =>
    match t.sum .all sumDim with
    | .error e => .error e
    | .ok r =>
      match r.values.newAxes (List.replicate (xDim - t.xDim) false ++ List.replicate t.xDim true ++
          List.replicate (yDim - t.yDim) false ++ List.replicate t.yDim true) with
      | .error e => .error e
      | .ok v =>
        match NDArray.binary (· + ·) acc (v.map fun c => c * ((size : α) / (shape.prod : Nat))) with
        | .error e => .error e
        | .ok acc => sumValues xDim yDim sumDim size es shapes acc
  | _, _, acc => .ok acc

/-- `[el.sum(False, sum_dim) * (size / el_size) …]` (tensor.py:280-282) -/
def scaleAll (sumDim : Bool) (size : Nat) :
    List (Tensor α ⊕ NDArray α) → List (List Nat) → Except Err (List (Tensor α ⊕ NDArray α))
  | .inl t :: es, shape :: shapes =>
    match t.sum .none sumDim with
    | .error e => .error e
    | .ok r =>
      match r.binScalar ((size : α) / (shape.prod : Nat)) .mul with
      | .error e => .error e
      | .ok r =>
        match scaleAll sumDim size es shapes with
        | .error e => .error e
        | .ok l => .ok (.inl r :: l)
  | _, _ => .ok []

/-- `GenericTensor.sum(sum_val, sum_dim)` (tensor.py:233-282) for `True`, `False` or a list of axes.  (`np.int`,
which current versions of numpy do not have, is taken to be an integer type.)  Empty axes are not modelled
faithfully (`el_size = 0`). -/
def Generic.sum (g : Generic α) (sumVal : SumVal) (sumDim : Bool) : Except Err (Num α) :=
  let nothing : Bool := match sumVal with
    | .none => true
    | .axes l => l.isEmpty
    | .all => false
  if nothing && !sumDim then .ok (.generic g)
  else
    let all : Bool := match sumVal with
      | .all => true
      | .none => false
      | .axes l => l.length == g.n
    let idx := g.sumIdx sumVal sumDim
    match elemShapes idx g.elements with
    | .error e => .error e
    | .ok shapes =>
      let size := (shapes.foldl (List.zipWith max) (List.replicate idx.length 1)).prod
      if all then
        match sumValues g.xDim g.yDim sumDim size g.elements shapes (NDArray.scalar 0) with
        | .error e => .error e
        | .ok values =>
          match mkTensor values g.xDim g.yDim (if sumDim then 0 else g.dim) [] [] with
          | .error e => .error e
          | .ok r => .ok (.tensor r)
      else
        match scaleAll sumDim size g.elements shapes with
        | .error e => .error e
        | .ok els => .ok (.generic ⟨g.xDim, g.yDim, g.n, 0, els⟩)

/-- `GenericTensor.sum(k, sum_dim)` for an integer `k`: `not 0` is true (tensor.py:235-236). -/
def Generic.sumInt (g : Generic α) (k : Nat) (sumDim : Bool) : Except Err (Num α) :=
  if k = 0 ∧ sumDim = false then .ok (.generic g) else g.sum (.axes [k]) sumDim

/-- `[f(el) for el in self.elements]` for a method that arrays do not have. -/
def mapElems (f : Tensor α → Except Err (Tensor α)) :
    List (Tensor α ⊕ NDArray α) → Except Err (List (Tensor α ⊕ NDArray α))
  | [] => .ok []
  | .inr _ :: _ => .error .attribute
  | .inl t :: es =>
    match f t with
    | .error e => .error e
    | .ok r =>
      match mapElems f es with
      | .error e => .error e
      | .ok es => .ok (.inl r :: es)

/-- `GenericTensor.expand` (tensor.py:284-289) -/
def Generic.expand (g : Generic α) (wher : List Nat) (newsize : Nat) (dim : Bool) : Except Err (Generic α) :=
  match mapElems (fun t => t.expand wher newsize dim) g.elements with
  | .error e => .error e
  | .ok els => .ok ⟨g.xDim, g.yDim, if dim then g.n else newsize, if dim then newsize else g.dim, els⟩

/-- `GenericTensor.flip` (tensor.py:291-294) -/
def Generic.flip (g : Generic α) (wher : List Nat) (dim : Bool) : Except Err (Generic α) :=
  match mapElems (fun t => t.flip wher dim) g.elements with
  | .error e => .error e
  | .ok els => .ok ⟨g.xDim, g.yDim, g.n, g.dim, els⟩

/-- `el.transpose()`: arrays have a method of this name, which reverses all axes. -/
def transposeElem : Tensor α ⊕ NDArray α → Tensor α ⊕ NDArray α
  | .inl t => .inl t.transpose
  | .inr a => .inr (a.transpose (List.range a.ndim).reverse)

/-- `GenericTensor.transpose` (tensor.py:296-299) -/
def Generic.transpose (g : Generic α) : Generic α :=
  ⟨g.yDim, g.xDim, g.n, g.dim, g.elements.map transposeElem⟩

/-- `GenericTensor.drop_dim` (tensor.py:301-304) -/
def Generic.dropDim (g : Generic α) : Except Err (Generic α) :=
  match mapElems (fun t => .ok t.dropDim) g.elements with
  | .error e => .error e
  | .ok els => .ok ⟨g.xDim, g.yDim, g.n + g.dim, 0, els⟩

end Verif.Tens
