import Verif.Model.Params

/-!
# Model of the classes of functions: how parameters and indices are passed

`call_wrap`, `vector_wrap`, `matrix_wrap`, `eval_wrap`, `FuncMeta.__new__`, `null_func`, `null_method`, `isnull`
(maxlike/func/func_base.py:9-18, 72-167) and the lookup of methods.  `V` is the type of the objects that are neither `None` nor a list
nor a tuple, `T` is what `__call__`, `grad(params, i)` and `hess(params, i, j)` return, `Obj` what the methods read from `self`.
-/

namespace Verif.Protocol
open Verif.Params (Err)

/-- A Python object passed as `params`. -/
inductive PyVal (V : Type) where
  | none
  | atom (v : V)
  | list (l : List (PyVal V))
  | tuple (l : List (PyVal V))

/-- The four cases at the start of each wrapper (func_base.py:76-83, 91-98, 109-116, 128-135): `params` as a tuple. -/
def packParams {V : Type} : PyVal V → List (PyVal V)
  | .tuple l => l
  | .list l => l
  | .none => []
  | .atom v => [.atom v]

/-- What `grad` and `hess` return: one result, a list, or a list of lists. -/
inductive Ret (T : Type) where
  | one (t : T)
  | row (l : List T)
  | rows (l : List (List T))

/-- A method with the attribute `null`; `functools.wraps` copies the attributes of a function to its wrapper. -/
structure Meth (F : Type) where
  fn : F
  null : Bool

section
variable (Obj V T : Type)

/-- The methods that the body of a class defines. -/
structure Body where
  call : Option (Obj → List (PyVal V) → Except Err T)
  grad : Option (Meth (Obj → List (PyVal V) → Int → Except Err T))
  hess : Option (Meth (Obj → List (PyVal V) → Int → Int → Except Err T))
  eval : Option (Obj → List (PyVal V) → Except Err (T × Ret T × Ret T))

/-- The methods of the class that `FuncMeta` makes of it. -/
structure Cls where
  call : Obj → PyVal V → Except Err T
  grad : Meth (Obj → PyVal V → Option Int → Except Err (Ret T))
  hess : Meth (Obj → PyVal V → Option Int → Option Int → Except Err (Ret T))
  eval : Obj → PyVal V → Except Err (T × Ret T × Ret T)

/-- An object: its class, what the methods read from `self`, and the methods that its constructor has stored in it
(func_base.py:210-214, 257-285; func_op.py:44-62). -/
structure Inst where
  cls : Cls Obj V T
  self : Obj
  grad : Option (Meth (PyVal V → Option Int → Except Err (Ret T))) := none
  hess : Option (Meth (PyVal V → Option Int → Option Int → Except Err (Ret T))) := none
  eval : Option (PyVal V → Except Err (T × Ret T × Ret T)) := none

end

section
variable {Obj V T : Type}

/-- `call_wrap(f)` (func_base.py:72-85) -/
def callWrap (f : Obj → List (PyVal V) → Except Err T) (o : Obj) (params : PyVal V) : Except Err T := f o (packParams params)

/-- `vector_wrap(g)` (func_base.py:88-103); `i = none` if no index is passed -/
def vectorWrap (g : Meth (Obj → List (PyVal V) → Int → Except Err T)) : Meth (Obj → PyVal V → Option Int → Except Err (Ret T)) where
  fn o params i :=
    match i with
    | some i => (g.fn o (packParams params) i).map .one
    | none => ((List.range (packParams params).length).mapM fun (k : Nat) => g.fn o (packParams params) (k : Int)).map .row
  null := g.null

/-- `matrix_wrap(h)` (func_base.py:106-122) -/
def matrixWrap (h : Meth (Obj → List (PyVal V) → Int → Int → Except Err T)) : Meth (Obj → PyVal V → Option Int → Option Int → Except Err (Ret T)) where
  fn o params i j :=
    match i, j with
    | some i, some j => (h.fn o (packParams params) i j).map .one
    | _, _ => ((List.range (packParams params).length).mapM fun (k : Nat) =>
      (List.range (k + 1)).mapM fun (l : Nat) => h.fn o (packParams params) (k : Int) (l : Int)).map .rows
  null := h.null

/-- `eval_wrap(e)` (func_base.py:125-137) -/
def evalWrap (e : Obj → List (PyVal V) → Except Err (T × Ret T × Ret T)) (o : Obj) (params : PyVal V) : Except Err (T × Ret T × Ret T) :=
  e o (packParams params)

/-- `FuncMeta.__new__` (func_base.py:143-167).  `attrs['__call__']` raises KeyError if the body does not define it; a missing `grad` or `hess` is
`not_implemented_foo`.  `eval_func` looks `attrs['__call__']`, `attrs['grad']`, `attrs['hess']` up when it is called: they are the wrapped methods then.
The base classes are not looked at. -/
def newClass (b : Body Obj V T) : Except Err (Cls Obj V T) :=
  match b.call with
  | none => .error (.other "KeyError")
  | some c =>
    let call := callWrap c
    let grad := match b.grad with
      | some g => vectorWrap g
      | none => ⟨fun _ _ _ => .error .notImplemented, false⟩
    let hess := match b.hess with
      | some h => matrixWrap h
      | none => ⟨fun _ _ _ _ => .error .notImplemented, false⟩
    let eval := match b.eval with
      | some e => evalWrap e
      | none => evalWrap fun o params => do
        let v ← call o (.tuple params)
        let g ← grad.fn o (.tuple params) none
        let h ← hess.fn o (.tuple params) none none
        .ok (v, g, h)
    .ok ⟨call, grad, hess, eval⟩

/-- `null_func` as an attribute of a class body, as in `hess = null_func` (func_base.py:9-10; func.py:62, 73-74) -/
def nullGrad (zero : T) : Meth (Obj → List (PyVal V) → Int → Except Err T) := ⟨fun _ _ _ => .ok zero, true⟩

/-- The same for `hess`. -/
def nullHess (zero : T) : Meth (Obj → List (PyVal V) → Int → Int → Except Err T) := ⟨fun _ _ _ _ => .ok zero, true⟩

/-- `null_method(self)` as `self.grad` (func_base.py:12-13) -/
def nullMethodGrad (zero : T) : Meth (PyVal V → Option Int → Except Err (Ret T)) := ⟨fun _ _ => .ok (.one zero), true⟩

/-- The same for `self.hess`. -/
def nullMethodHess (zero : T) : Meth (PyVal V → Option Int → Option Int → Except Err (Ret T)) := ⟨fun _ _ _ => .ok (.one zero), true⟩

/-- `f(params)`: Python looks `__call__` up in the class only. -/
def Inst.call (f : Inst Obj V T) (params : PyVal V) : Except Err T := f.cls.call f.self params

/-- `f.grad`: the object first, then the class; with the attribute `null` that `isnull` reads (func_base.py:15-16). -/
def Inst.gradM (f : Inst Obj V T) : Meth (PyVal V → Option Int → Except Err (Ret T)) :=
  f.grad.getD ⟨f.cls.grad.fn f.self, f.cls.grad.null⟩

/-- `f.hess` -/
def Inst.hessM (f : Inst Obj V T) : Meth (PyVal V → Option Int → Option Int → Except Err (Ret T)) :=
  f.hess.getD ⟨f.cls.hess.fn f.self, f.cls.hess.null⟩

/-- `f.eval` -/
def Inst.evalM (f : Inst Obj V T) : PyVal V → Except Err (T × Ret T × Ret T) := f.eval.getD (f.cls.eval f.self)

/-- `len(params)`, if `size` says what `len` of the other objects is -/
def PyVal.len (size : V → Option Nat) : PyVal V → Except Err Nat
  | .none => .error .typeError
  | .list l => .ok l.length
  | .tuple l => .ok l.length
  | .atom v => match size v with
    | .some n => .ok n
    | .none => .error .typeError

/-- `eval` of a `Compose` whose outer function has a null `hess`, as the constructor stores it in the object (func_base.py:269-285): it is not wrapped, and begins with
`n = len(params)`; the rest of the method is `rest`. -/
def storedEval (size : V → Option Nat) (rest : Nat → PyVal V → Except Err (T × Ret T × Ret T)) (params : PyVal V) : Except Err (T × Ret T × Ret T) := do
  let n ← params.len size
  rest n params

end

end Verif.Protocol
