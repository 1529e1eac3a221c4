/-!
# Model of parameters and of the flat <-> shaped conversions

Models `maxlike/maxlike_base.py`: `Param` (lines 17-51), `MaxLike._reshape_array`
(213-254), `MaxLike._reshape_params` (256-259), `MaxLike._reshape_matrix` (261-293),
`MaxLike.std_error` (309-319), `MaxLike.add_param` (106-122), `MaxLike.reset_params` (91-92).

Arrays are represented by their shape and their row-major flattening, because the code only uses
`.flatten()`, `.reshape(shape)` (both row-major) and boolean-mask indexing (row-major order).
-/

namespace Verif.Params

/-- The kinds of Python exceptions the model distinguishes. -/
inductive Err where
  | valueError
  | indexError
  | typeError
  | nameError
  | zeroDivision
  | assertion
  | attribute
  | recursion
  | linAlg
  | notImplemented
  | invalidOperation
  | convergence
  | convergenceStep
  | other (msg : String)
deriving Repr, DecidableEq

deriving instance DecidableEq for Except

/-- `Param` (maxlike_base.py:17-51): values and boolean mask (`True` = fixed) of one shape.
Row-major flattened.  The random `hash` and the read-only flag are not modelled. -/
structure Param (α : Type) where
  shape : List Nat
  values : List α
  mask : List Bool
deriving Repr, DecidableEq

/-- numpy boolean-mask indexing `arr[mask]` on flattened data: the entries whose mask is `True`,
in row-major order. -/
def sel {α : Type} : List Bool → List α → List α
  | true :: ms, a :: as => a :: sel ms as
  | false :: ms, _ :: as => sel ms as
  | _, _ => []

/-- `~mask` -/
def notMask (m : List Bool) : List Bool := m.map (!·)

/-- `Param.compressed` (maxlike_base.py:32-33): `self.values[~self.mask]`. -/
def Param.compressed {α : Type} (p : Param α) : List α := sel (notMask p.mask) p.values

/-- `Param.count` (maxlike_base.py:35-36): `(~self.mask).sum()`. -/
def Param.count {α : Type} (p : Param α) : Nat := (notMask p.mask).count true

/-- `p.mask.sum()` -/
def Param.fixedCount {α : Type} (p : Param α) : Nat := p.mask.count true

/-- `np.arange(x.size)[x]` for a boolean vector `x` (maxlike_base.py:226): the positions of `True`. -/
def whereTrue (m : List Bool) : List Nat := sel m (List.range m.length)

/-- `fix_map` (maxlike_base.py:224-226): `x - np.arange(x.size)` for `x` the positions of `True`. -/
def fixMap (m : List Bool) : List Nat :=
  List.zipWith (· - ·) (whereTrue m) (List.range (whereTrue m).length)

/-- numpy fancy assignment target: the value assigned to position `p` by the pairs. -/
def lookupPos {β : Type} (pairs : List (Nat × β)) (p : Nat) : Option β :=
  (pairs.find? (fun q => q.1 == p)).map (·.2)

/-- Second half of `np.insert`: walk through the new positions; the positions listed in `pairs`
take the new value (`new[indices] = values`), the others the next old element
(`new[old_mask] = arr`). -/
def interleave {β : Type} (pairs : List (Nat × β)) : List Nat → List β → List β
  | [], _ => []
  | p :: ps, arr =>
    match lookupPos pairs p with
    | some v => v :: interleave pairs ps arr
    | none =>
      match arr with
      | a :: as => a :: interleave pairs ps as
      | [] => []

/-- `np.insert(arr, idx, vals)` along the leading axis for an integer index vector (numpy
documentation and `numpy/lib/function_base.py`): indices refer to the array before insertion, they
are sorted (here: the callers only pass non-decreasing indices, for which the stable `argsort` is the
identity), `indices[order] += arange`, and new and old elements are scattered.
Indices beyond the length raise `IndexError`; a value vector of the wrong length raises `ValueError`. -/
def npInsert {β : Type} (arr : List β) (idx : List Nat) (vals : List β) : Except Err (List β) :=
  if idx.any (fun i => arr.length < i) then .error .indexError
  else if vals.length ≠ idx.length then .error .valueError
  else
    let pos := List.zipWith (· + ·) idx (List.range idx.length)
    .ok (interleave (pos.zip vals) (List.range (arr.length + idx.length)) arr)

/-- `np.insert` with a scalar `val`: the scalar is broadcast over the insertion points. -/
def npInsertScalar {β : Type} (arr : List β) (idx : List Nat) (val : β) : Except Err (List β) :=
  npInsert arr idx (List.replicate idx.length val)

/-- `a[lo:hi]` for `0 <= lo <= hi`. -/
def slice {β : Type} (l : List β) (lo hi : Nat) : List β := (l.drop lo).take (hi - lo)

/-- `.reshape(shape)`: row-major, so the flat data are unchanged; fails unless the sizes agree. -/
def reshape {β : Type} (l : List β) (shape : List Nat) : Except Err (List β) :=
  if l.length = shape.prod then .ok l else .error .valueError

/-- The fill argument `val` of `_reshape_array`: a scalar or an array. -/
inductive Fill (α : Type) where
  | scalar (v : α)
  | array (vs : List α)

/-- Loop body and loop of `_reshape_array` (maxlike_base.py:231-254), `s0`, `f0` being the running
offsets of the Python loop. -/
def reshapeArrayFrom {α : Type} (flat : List α) (val : Fill α) :
    Nat → Nat → List (Param α) → Except Err (List (Param α))
  | _, _, [] => .ok []
  | s0, f0, p :: ps => do
    let s1 := s0 + p.count
    let f1 := f0 + p.fixedCount
    let data ← match val with
      | .scalar v => npInsertScalar (slice flat s0 s1) (fixMap p.mask) v
      | .array vs => npInsert (slice flat s0 s1) (fixMap p.mask) (slice vs f0 f1)
    let data ← reshape data p.shape
    let rest ← reshapeArrayFrom flat val s1 f1 ps
    pure ({ shape := p.shape, values := data, mask := p.mask } :: rest)

/-- `_reshape_array` (maxlike_base.py:213-254). -/
def reshapeArray {α : Type} (params : List (Param α)) (flat : List α) (val : Fill α) :
    Except Err (List (Param α)) :=
  reshapeArrayFrom flat val 0 0 params

/-- `np.concatenate` of a list of vectors: `ValueError` when the list is empty. -/
def npConcatenate {β : Type} (ls : List (List β)) : Except Err (List β) :=
  if ls.isEmpty then .error .valueError else .ok ls.flatten

/-- `_reshape_params` (maxlike_base.py:256-259): fill with the fixed values
`np.concatenate([p.values[p.mask] for p in self.params])`. -/
def reshapeParams {α : Type} (params : List (Param α)) (flat : List α) :
    Except Err (List (Param α)) := do
  let fixed ← npConcatenate (params.map (fun p => sel p.mask p.values))
  reshapeArray params flat (.array fixed)

/-- `np.concatenate([p.compressed() for p in params])` (maxlike_base.py:473). -/
def flatParams {α : Type} (params : List (Param α)) : Except Err (List α) :=
  npConcatenate (params.map Param.compressed)

/-- A block of `_reshape_matrix` for a scalar `val` (maxlike_base.py:279-283):
`np.insert(np.insert(matrix[s_i:s_i', s_j:s_j'], val_map[i], val, 0), val_map[j], val, 1)`;
the final `.reshape(p_i.shape + p_j.shape)` does not change the row-major data: the result is kept
as the list of rows (one per entry of parameter `i`, each with one element per entry of `j`). -/
def reshapeBlock {α : Type} (matrix : List (List α)) (si si' sj sj' : Nat) (mi mj : List Bool)
    (val : α) : Except Err (List (List α)) := do
  let block := (slice matrix si si').map (fun row => slice row sj sj')
  let rows ← npInsertScalar block (fixMap mi) (List.replicate (sj' - sj) val)
  let full ← rows.mapM (fun row => npInsertScalar row (fixMap mj) val)
  if full.length = mi.length ∧ full.all (fun r => r.length = mj.length) then pure full
  else throw .valueError

/-- The offsets `s_` (maxlike_base.py:268-272). -/
def offsets {α : Type} : Nat → List (Param α) → List Nat
  | s, [] => [s]
  | s, p :: ps => s :: offsets (s + p.count) ps

/-- `_reshape_matrix` for scalar `val` (maxlike_base.py:261-285).  The array-valued `val` branch
(286-293) is not reachable from the public API and is not modelled. -/
def reshapeMatrix {α : Type} (params : List (Param α)) (matrix : List (List α)) (val : α) :
    Except Err (List (List (List (List α)))) :=
  if matrix.any (fun r => r.length ≠ matrix.length) then .error .valueError
  else
    let s := offsets 0 params
    (params.zipIdx).mapM fun (pi, i) =>
      (params.zipIdx).mapM fun (pj, j) =>
        reshapeBlock matrix (s.getD i 0) (s.getD (i + 1) 0) (s.getD j 0) (s.getD (j + 1) 0)
          pi.mask pj.mask val

/-- `std_error` (maxlike_base.py:309-319).  `invDiag` stands for
`np.diag(-np.linalg.inv(self.flat_hess_))` (may raise `LinAlgError`), `sqrt` for `np.sqrt`.
With `nConstraints = 0` the code sets `cut = None` and evaluates `-cut`, a `TypeError`
(`np.linalg.inv` is evaluated before the slice). -/
def stdError {α : Type} (params : List (Param α)) (nConstraints : Nat)
    (invDiag : Except Err (List α)) (sqrt : α → α) (nan : α) : Except Err (List (Param α)) := do
  let d ← invDiag
  let cut : Option Nat := if nConstraints = 0 then none else some nConstraints
  match cut with
  | none => throw .typeError
  | some c => reshapeArray params ((d.take (d.length - c)).map sqrt) (.scalar nan)

/-! ## add_param / reset_params -/

/-- The kinds of arguments `add_param` can receive for `values`/`fixed`: something with a `.shape`
(ndarray, pandas Series) or something without (list, float). -/
inductive Arg (β : Type) where
  | array (shape : List Nat) (data : List β)
  | plain (shape : List Nat) (data : List β)

/-- `np.asarray` of an argument: shape and row-major data. -/
def Arg.data {β : Type} : Arg β → List Nat × List β
  | .array s d => (s, d)
  | .plain s d => (s, d)

/-- attribute access `x.shape` -/
def Arg.shapeAttr {β : Type} : Arg β → Except Err (List Nat)
  | .array s _ => .ok s
  | .plain _ _ => .error .attribute

/-- `Param.__init__` (maxlike_base.py:19-30).  `mask = none` stands for `None`/`False`. -/
def mkParam {α : Type} (values : Arg α) (mask : Option (Arg Bool)) : Except Err (Param α) :=
  match mask with
  | none => .ok { shape := values.data.1, values := values.data.2,
                  mask := List.replicate values.data.2.length false }
  | some m => do
    let ms ← m.shapeAttr
    let vs ← values.shapeAttr
    if ms = vs then pure { shape := vs, values := values.data.2, mask := m.data.2 }
    else throw .assertion

/-- The `params` attribute of a `MaxLike` object: absent (`none`) until the first
`add_param`/`reset_params` (`MaxLike.__init__`, lines 61-71, does not set it). -/
abbrev ParamsAttr (α : Type) := Option (List (Param α))

/-- `add_param` (maxlike_base.py:106-122).  The first argument is the remaining Python recursion
depth: the handler of `AttributeError` sets `self.params = ()` and calls `add_param` again. -/
def addParam {α : Type} : Nat → ParamsAttr α → Arg α → Option (Arg Bool) →
    Except Err Unit × ParamsAttr α
  | 0, st, _, _ => (.error .recursion, st)
  | depth + 1, st, values, fixed =>
    match st with
    | none => addParam depth (some []) values fixed
    | some ps =>
      match mkParam values fixed with
      | .ok p => (.ok (), some (ps ++ [p]))
      | .error .attribute => addParam depth (some []) values fixed
      | .error e => (.error e, some ps)

/-- `reset_params` (maxlike_base.py:91-92). -/
def resetParams {α : Type} (_ : ParamsAttr α) : ParamsAttr α := some []

end Verif.Params
