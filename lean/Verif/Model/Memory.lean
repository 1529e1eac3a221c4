import Verif.Model.Session
import Verif.Model.Pipeline

/-!
# Model of the arrays that the user shares with the object

The other models have values in place of arrays.  Here arrays are objects that refer to memory: `np.asarray` (maxlike_base.py:26-27, tensor.py:456) returns the array that it is given, so the
object keeps the user's own arrays; `flags["WRITEABLE"] = False` (maxlike_base.py:30, tensor.py:457) makes them read-only; `np.ma.array(self.values, mask=self.mask)` (maxlike_base.py:38-39)
returns views of the object's arrays; `Param(data, mask=p.mask)` (maxlike_base.py:239, 251) shares the masks.

Simplified: arrays of floats and of booleans have separate memories; basic slices only (an index array copies: `newValues`); arrays are never made writeable again (`setflags`); `fit` stores
new arrays of values even if it raised before the first store (the code keeps the old ones).
-/

namespace Verif.Memory
open Verif.Params
open Verif.Tens (Session Name FitArgs TFunc PMap SessionOp Kind NDArray Tensor mkTensor)

/-- An `ndarray`: the buffer that it reads, the positions in it (in C order), the shape, and `flags["WRITEABLE"]`. -/
structure ArrObj where
  buf : Nat
  pos : List Nat
  shape : List Nat
  writeable : Bool

/-- The memory: buffers and the arrays that exist.  An array is referred to by its number. -/
structure Mem (α : Type) where
  bufs : List (List α)
  arrs : List ArrObj

variable {α : Type}

/-- The entries of an array. -/
def Mem.read (m : Mem α) (r : Nat) : List α :=
  match m.arrs[r]? with
  | none => []
  | some a => a.pos.filterMap fun k => (m.bufs.getD a.buf [])[k]?

/-- `x.shape` -/
def Mem.shape (m : Mem α) (r : Nat) : List Nat := ((m.arrs[r]?).map ArrObj.shape).getD []

/-- A new array with its own memory; its number is `m.arrs.length`. -/
def Mem.alloc (m : Mem α) (shape : List Nat) (data : List α) : Mem α := ⟨m.bufs ++ [data], m.arrs ++ [⟨m.bufs.length, List.range data.length, shape, true⟩]⟩

/-- `np.array(data).reshape(shape)` -/
def Mem.new (m : Mem α) (shape : List Nat) (data : List α) : Except Err Unit × Mem α :=
  if data.length = shape.prod then (.ok (), m.alloc shape data) else (.error .valueError, m)

/-- A slice of an array: a new array on the same memory, writeable if and only if the array is. -/
def Mem.slice (m : Mem α) (r : Nat) (idx : List Nat) (shape : List Nat) : Except Err Unit × Mem α :=
  match m.arrs[r]? with
  | none => (.error .nameError, m)
  | some a =>
    match idx.mapM fun k => a.pos[k]? with
    | none => (.error .indexError, m)
    | some pos => if pos.length = shape.prod then (.ok (), ⟨m.bufs, m.arrs ++ [⟨a.buf, pos, shape, a.writeable⟩]⟩) else (.error .valueError, m)

/-- A view of the whole array. -/
def Mem.whole (m : Mem α) (r : Nat) : Mem α :=
  match m.arrs[r]? with
  | none => m
  | some a => ⟨m.bufs, m.arrs ++ [a]⟩

/-- `x[k] = v` for the entry `k` (in C order): "ValueError: assignment destination is read-only". -/
def Mem.assign (m : Mem α) (r k : Nat) (v : α) : Except Err Unit × Mem α :=
  match m.arrs[r]? with
  | none => (.error .nameError, m)
  | some a =>
    if a.writeable then
      match a.pos[k]? with
      | none => (.error .indexError, m)
      | some q => (.ok (), ⟨m.bufs.modify a.buf fun l => l.set q v, m.arrs⟩)
    else (.error .valueError, m)

/-- `x.flags["WRITEABLE"] = False` -/
def Mem.freeze (m : Mem α) (r : Nat) : Mem α := ⟨m.bufs, m.arrs.modify r fun a => { a with writeable := false }⟩

/-- A `Param` (maxlike_base.py:17-30): references to the two arrays. -/
structure ParamRef where
  values : Nat
  mask : Nat
  shape : List Nat

/-- The user's arrays and the object.  The fields `params` and `data` of `base` are not used: these attributes refer to the memory. -/
structure World where
  vals : Mem ℝ
  masks : Mem Bool
  base : Session
  params : Option (List ParamRef)
  data : Name → Option Nat

/-- A new object, no arrays. -/
def World.new (k : Kind) : World := ⟨⟨[], []⟩, ⟨[], []⟩, Session.new k, none, fun _ => none⟩

/-- The array as a function of the position. -/
def Mem.array (m : Mem ℝ) (r : Nat) : NDArray ℝ := (⟨m.shape r, m.read r⟩ : Prep.Arr ℝ).ndarray

/-- What the object reads in its parameter. -/
def World.param (w : World) (p : ParamRef) : Param ℝ := ⟨p.shape, w.vals.read p.values, w.masks.read p.mask⟩

/-- `self.params` with the values that the arrays have now. -/
def World.readParams (w : World) : ParamsAttr ℝ := w.params.map fun ps => ps.map w.param

/-- `self.X`, `self.N`, … with the values that the arrays have now. -/
def World.readData (w : World) (n : Name) : Option (Tensor ℝ) := (w.data n).map fun r => ⟨w.vals.array r, 0, 0, w.base.kind.dim, [], []⟩

/-- The object with the values that its arrays have now. -/
def World.session (w : World) : Session := { w.base with params := w.readParams, data := w.readData }

/-- `add_param` (maxlike_base.py:106-122) with `Param.__init__` (19-30) for arrays: `self.params` is created if it does not exist (the handler of AttributeError). -/
def World.addParam (w : World) (v : Nat) (fixed : Option Nat) : Except Err Unit × World :=
  match w.vals.arrs[v]? with
  | none => (.error .nameError, w)
  | some _ =>
    match fixed with
    | none =>
      (.ok (), { w with
        vals := w.vals.freeze v
        masks := w.masks.alloc (w.vals.shape v) (List.replicate (w.vals.read v).length false)
        params := some (w.params.getD [] ++ [⟨v, w.masks.arrs.length, w.vals.shape v⟩]) })
    | some r =>
      match w.masks.arrs[r]? with
      | none => (.error .nameError, w)
      | some _ =>
        if w.masks.shape r = w.vals.shape v then
          (.ok (), { w with vals := w.vals.freeze v, params := some (w.params.getD [] ++ [⟨v, r, w.vals.shape v⟩]) })
        else (.error .assertion, { w with params := some (w.params.getD []) })

/-- `get_params` (maxlike_base.py:124-125): the returned masked arrays have views of the object's arrays as data and as masks. -/
def World.getParams (w : World) : Except Err Unit × World :=
  match w.params with
  | none => (.error .attribute, w)
  | some ps => (.ok (), { w with vals := ps.foldl (fun m p => m.whole p.values) w.vals, masks := ps.foldl (fun m p => m.whole p.mask) w.masks })

/-- `for k in kwargs: self.__dict__[k] = Tensor(kwargs[k], dim=dim)` (maxlike_base.py:462-464; tensor.py:456-460: the array is read-only even if the constructor raises) -/
def World.setData (w : World) : List (Name × Nat) → Except Err Unit × World
  | [] => (.ok (), w)
  | (k, r) :: kw =>
    match mkTensor (w.vals.array r) 0 0 w.base.kind.dim [] [] with
    | .error e => (.error e, { w with vals := w.vals.freeze r })
    | .ok _ => World.setData { w with vals := w.vals.freeze r, data := Function.update w.data k (some r) } kw

/-- `Param(data, mask=p.mask)` for each parameter (maxlike_base.py:231-254): new arrays of values (read-only), the masks of the old parameters. -/
def storeParams (m : Mem ℝ) : List ParamRef → List (Param ℝ) → Mem ℝ × List ParamRef
  | p :: ps, q :: qs =>
    let r := storeParams ((m.alloc p.shape q.values).freeze m.arrs.length) ps qs
    (r.1, ⟨m.arrs.length, p.mask, p.shape⟩ :: r.2)
  | _, _ => (m, [])

/-- `fit` (maxlike_base.py:432-562): the data are stored first, then the loop runs on the values that the arrays have. -/
noncomputable def World.fit (w : World) (kw : List (Name × Nat)) (a : FitArgs) : Except Err Unit × World :=
  if kw.all fun x => decide (x.2 < w.vals.arrs.length) then
    match w.setData kw with
    | (.error e, w) => (.error e, w)
    | (.ok _, w) =>
      let r := w.session.fit { a with kwargs := [] }
      match w.params, r.2.params with
      | some refs, some ps =>
        let st := storeParams w.vals refs ps
        (r.1.map fun _ => (), { w with vals := st.1, params := some st.2, base := r.2 })
      | _, _ => (r.1.map fun _ => (), { w with base := r.2 })
  else (.error .nameError, w)

/-- What a program does with its arrays and with the object. -/
inductive Op where
  | newValues (shape : List Nat) (data : List ℝ)
  | newMask (shape : List Nat) (data : List Bool)
  | sliceValues (r : Nat) (idx : List Nat) (shape : List Nat)
  | sliceMask (r : Nat) (idx : List Nat) (shape : List Nat)
  | assignValues (r k : Nat) (v : ℝ)
  | assignMask (r k : Nat) (v : Bool)
  | addParam (values : Nat) (fixed : Option Nat)
  | getParams
  | resetParams
  | setModel (f : TFunc ℝ)
  | addConstraint (pm : PMap) (g : TFunc ℝ)
  | addRegularization (pm : PMap) (h : TFunc ℝ)
  | fit (kwargs : List (Name × Nat)) (a : FitArgs)

/-- One operation: the exception if there is one, and what is there afterwards. -/
noncomputable def World.step (w : World) : Op → Except Err Unit × World
  | .newValues s d => ((w.vals.new s d).1, { w with vals := (w.vals.new s d).2 })
  | .newMask s d => ((w.masks.new s d).1, { w with masks := (w.masks.new s d).2 })
  | .sliceValues r i s => ((w.vals.slice r i s).1, { w with vals := (w.vals.slice r i s).2 })
  | .sliceMask r i s => ((w.masks.slice r i s).1, { w with masks := (w.masks.slice r i s).2 })
  | .assignValues r k v => ((w.vals.assign r k v).1, { w with vals := (w.vals.assign r k v).2 })
  | .assignMask r k v => ((w.masks.assign r k v).1, { w with masks := (w.masks.assign r k v).2 })
  | .addParam v f => w.addParam v f
  | .getParams => w.getParams
  | .resetParams => (.ok (), { w with params := some [] })
  | .setModel f => (.ok (), { w with base := { w.base with model := some f } })
  | .addConstraint pm g => (.ok (), { w with base := w.base.addConstraint pm g })
  | .addRegularization pm h => (.ok (), { w with base := w.base.addRegularization pm h })
  | .fit kw a => w.fit kw a

/-- A program that goes on after exceptions. -/
noncomputable def World.run (w : World) (ops : List Op) : World := ops.foldl (fun w op => (w.step op).2) w

end Verif.Memory
