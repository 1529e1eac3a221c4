import Verif.Model.FitFull
import Verif.Model.LikeTensor

/-!
# Model of the object that the user works with

Models `MaxLike.__init__`, `reset_params`, `add_param`, `get_params`, `add_constraint`, `add_regularization` (maxlike_base.py:61-71, 91-92, 106-157) and the treatment of
the keyword arguments of `fit` (maxlike_base.py:462-464), on top of the fit loop (`Model/Fit.lean`, `Model/FitFull.lean`), and the constructors of the six
likelihood classes (maxlike.py:11-13, 38-43, 70-72, 112-114, 166-168, 199-202).  A session is a sequence of calls.

Not modelled: keyword arguments of `fit` that are names of other attributes or methods of the object (`params`, `model`, `reg`, …: the code overwrites them), arguments that
are Tensors already, negative indices in a `param_map`, `feat_dico` and `g_last` (never read).
-/

namespace Verif.Tens
open Verif.Params

/-- The likelihood classes with the arguments of their constructors. -/
inductive Kind where
  | poisson
  | zeroInflatedPoisson (s : ℝ)
  | logistic
  | finite (dim : Nat)
  | normalizedFinite (dim : Nat)
  | negativeBinomial (scale : ℝ)

/-- `getattr(self, 'dim', 0)` (maxlike_base.py:462; `self.dim`: maxlike.py:113, 167) -/
def Kind.dim : Kind → Nat
  | .finite d => d
  | .normalizedFinite d => d
  | _ => 0

/-- The keyword arguments of `fit`: the attributes that the likelihoods read, and any other name that the object does not use. -/
inductive Name where
  | X
  | N
  | Z
  | other (name : String)
deriving DecidableEq

/-- The attributes of the object (maxlike_base.py:61-71).  `data` are the entries of `__dict__` that `fit` has set; `X`, `N` and `Z` are `None` before. -/
structure Session where
  kind : Kind
  model : Option (TFunc ℝ)
  params : ParamsAttr ℝ
  constraint : List (TTerm ℝ)
  reg : List (TTerm ℝ)
  data : Name → Option (Tensor ℝ)
  flatHess : Option (List (List ℝ))
  converged : Bool

/-- The constructors (maxlike_base.py:61-71, maxlike.py:11-13, 38-43, 70-72, 112-114, 166-168, 199-202). -/
def Session.new (k : Kind) : Session := ⟨k, none, none, [], [], fun _ => none, none, false⟩

/-- The argument `param_map` of `add_constraint` and `add_regularization`. -/
inductive PMap where
  | int (i : Nat)
  | list (l : List Nat)

/-- `if isinstance(param_map, int): param_map = [param_map]` (maxlike_base.py:138-139, 154-155) -/
def PMap.toList : PMap → List Nat
  | .int i => [i]
  | .list l => l

/-- `add_constraint` (maxlike_base.py:127-141) -/
def Session.addConstraint (s : Session) (pm : PMap) (g : TFunc ℝ) : Session := { s with constraint := s.constraint ++ [⟨pm.toList, g⟩] }

/-- `add_regularization` (maxlike_base.py:143-157) -/
def Session.addRegularization (s : Session) (pm : PMap) (h : TFunc ℝ) : Session := { s with reg := s.reg ++ [⟨pm.toList, h⟩] }

/-- `get_params` (maxlike_base.py:124-125) with `Param.as_masked` (38-39): the masked arrays, as shape, values and mask. -/
def Session.getParams (s : Session) : Except Err (List (List Nat × List ℝ × List Bool)) :=
  match s.params with
  | none => .error .attribute
  | some ps => .ok (ps.map fun p => (p.shape, p.values, p.mask))

/-- What a method of a likelihood does when `self.X`, `self.N` or `self.Z` is still `None`. -/
def missing {β : Type} : Except Err β := .error (.other "no data")

/-- `self.model` when it is still `None` -/
def noModel : TFunc ℝ := .ofMethods (fun _ => .error .typeError) (fun _ _ => .error .typeError) (fun _ _ _ => .error .typeError) false false

/-- The methods of the class (maxlike.py), with the attributes that they read. -/
noncomputable def Session.problem (s : Session) : MaxLikeT ℝ :=
  let f := s.model.getD noModel
  let Nw : Num ℝ := .tensor ((s.data .N).getD (Tensor.const 0))
  let none' : MaxLikeT ℝ := ⟨f, fun _ => missing, fun _ _ => missing, fun _ _ _ => missing, Nw, s.constraint, s.reg⟩
  match s.kind, s.data .X, s.data .N, s.data .Z with
  | .poisson, some X, some N, _ =>
    ⟨f, PoissonT.like (.tensor X) (.tensor N), PoissonT.gradLike (.tensor X) (.tensor N), PoissonT.hessLike (.tensor X) (.tensor N), Nw, s.constraint, s.reg⟩
  | .zeroInflatedPoisson a, some X, some N, some Z =>
    ⟨f, ZeroInflatedPoissonT.like a (.tensor X) (.tensor N) (.tensor Z), ZeroInflatedPoissonT.gradLike a (.tensor X) (.tensor N),
      ZeroInflatedPoissonT.hessLike a (.tensor X) (.tensor N), Nw, s.constraint, s.reg⟩
  | .logistic, some X, some N, _ =>
    ⟨f, LogisticT.like (.tensor X) (.tensor N), LogisticT.gradLike (.tensor X) (.tensor N), LogisticT.hessLike (.tensor X) (.tensor N), Nw, s.constraint, s.reg⟩
  | .finite _, _, some N, _ => ⟨f, FiniteT.like (.tensor N), FiniteT.gradLike (.tensor N), FiniteT.hessLike (.tensor N), Nw, s.constraint, s.reg⟩
  | .normalizedFinite _, _, some N, _ =>
    ⟨f, NormalizedFiniteT.like (.tensor N), NormalizedFiniteT.gradLike (.tensor N), NormalizedFiniteT.hessLike (.tensor N), Nw, s.constraint, s.reg⟩
  | .negativeBinomial r, some X, some N, _ =>
    ⟨f, NegativeBinomialT.like r (.tensor X) (.tensor N), NegativeBinomialT.gradLike r (.tensor X) (.tensor N), NegativeBinomialT.hessLike r (.tensor X) (.tensor N), Nw,
      s.constraint, s.reg⟩
  | _, _, _, _ => none'

/-- `for k in kwargs: self.__dict__[k] = Tensor(kwargs[k], dim=dim)` (maxlike_base.py:462-464): the arrays before one with too few axes are stored when it raises. -/
def Session.setData (s : Session) : List (Name × NDArray ℝ) → Except Err Unit × Session
  | [] => (.ok (), s)
  | (k, v) :: kw =>
    match mkTensor v 0 0 s.kind.dim [] [] with
    | .error e => (.error e, s)
    | .ok t => Session.setData { s with data := Function.update s.data k (some t) } kw

/-- The arguments of `fit`; `pinvh` is scipy's pseudo-inverse. -/
structure FitArgs where
  kwargs : List (Name × NDArray ℝ)
  pinvh : List (List ℝ) → Except Err (List (List ℝ))
  tol : ℝ
  maxSteps : Nat
  verbose : Nat
  method : Fit.Method

/-- `fit` (maxlike_base.py:432-562): the data are stored first. -/
noncomputable def Session.fit (s : Session) (a : FitArgs) : Except Err Bool × Session :=
  match s.setData a.kwargs with
  | (.error e, s) => (.error e, s)
  | (.ok _, s) =>
    match s.params with
    | none => (.error .attribute, s)
    | some ps =>
      let r := Fit.fit (s.problem.env a.pinvh a.tol) ⟨ps, s.flatHess, s.converged⟩ a.maxSteps a.verbose a.method
      (r.outcome, { s with params := some r.obj.params, flatHess := r.obj.flatHess, converged := r.obj.converged })

/-- A call that may change the object.  (`add_param` with the forms of the arguments for which C06 holds.) -/
inductive SessionOp where
  | setModel (f : TFunc ℝ)
  | addFree (values : Arg ℝ)
  | addMasked (shape : List Nat) (values : List ℝ) (mshape : List Nat) (mask : List Bool)
  | resetParams
  | addConstraint (pm : PMap) (g : TFunc ℝ)
  | addRegularization (pm : PMap) (h : TFunc ℝ)
  | fit (a : FitArgs)

/-- The object after the call (which may have raised an exception).  `depth` is the recursion limit of Python (`add_param`). -/
noncomputable def Session.step (depth : Nat) (s : Session) : SessionOp → Session
  | .setModel f => { s with model := some f }
  | .addFree v => { s with params := (addParam depth s.params v none).2 }
  | .addMasked sh v ms m => { s with params := (addParam depth s.params (.array sh v) (some (.array ms m))).2 }
  | .resetParams => { s with params := Params.resetParams s.params }
  | .addConstraint pm g => s.addConstraint pm g
  | .addRegularization pm h => s.addRegularization pm h
  | .fit a => (s.fit a).2

end Verif.Tens
