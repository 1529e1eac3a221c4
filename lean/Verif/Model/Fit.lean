import Verif.Model.Params

/-!
# Model of `MaxLike.fit` and `MaxLike.newton_step` (maxlike_base.py:418-562)

The statistical content (model evaluation, likelihood, assembly of gradient and Hessian, linear
algebra) is a record of callbacks, each of which may raise; the control flow, the bookkeeping of
parameters, flags and the step slicing are modelled statement by statement.

Not modelled: the assignment of the keyword data (`self.__dict__[k] = Tensor(kwargs[k])`,
lines 463-465), which precedes everything below and does not touch `params`, `flat_hess_` or
`converged`: the callbacks are those of the object after that assignment.  Printing is an event
that is only counted.
-/

namespace Verif.Fit
open Verif.Params

/-- Everything `fit` calls.  `α`: numbers of the parameters, `G`: type of the objective value,
`Y D H`: results of `model(params)`, `model.grad`, `model.hess`, `M`: flat Hessians. -/
structure Env (α G Y D H M : Type) where
  /-- `self.model.eval(params)` -/
  modelEval : List (Param α) → Except Err (Y × D × H)
  /-- `self.model(params)` -/
  modelCall : List (Param α) → Except Err Y
  /-- `self.model.grad(params)` -/
  modelGrad : List (Param α) → Except Err D
  /-- `self.g(params, y)` (maxlike_base.py:94-104) for a given `y` -/
  obj : List (Param α) → Y → Except Err G
  /-- `self.flat_grad(params, y, der)` -/
  flatGrad : List (Param α) → Y → D → Except Err (List α)
  /-- `self.flat_hess(params, y, der, hess)` -/
  flatHess : List (Param α) → Y → D → H → Except Err M
  /-- `np.linalg.solve` -/
  solve : M → List α → Except Err (List α)
  /-- `scipy.linalg.pinvh` -/
  pinvh : M → Except Err M
  /-- `flat_hess_.shape[0]` -/
  dim : M → Nat
  /-- `-np.dot(J, grad)` (maxlike_base.py:533) -/
  direction : M → List α → Except Err (List α)
  /-- the update of `J` from `step`, `grad`, `grad_prev` (maxlike_base.py:549-551) -/
  update : M → List α → List α → List α → Except Err M
  /-- `len(self.constraint)` -/
  nConstraints : Nat
  /-- `a >= b` on objective values (arbitrary, so that NaN is allowed) -/
  ge : G → G → Bool
  /-- `abs(prev_g / g - 1) < tol`, `ZeroDivisionError` when `g == 0` -/
  conv : G → G → Except Err Bool
  /-- `1` and `.5` of the numbers -/
  one : α
  half : α

/-- The attributes of the `MaxLike` object `fit` reads or writes. -/
structure Obj (α M : Type) where
  params : List (Param α)
  flatHess : Option M
  converged : Bool

/-- What a call of `fit` produced: return value or exception, the object afterwards, and (ghost)
the parameters at which the objective was tried, grouped by outer step. -/
structure Result (α M : Type) where
  outcome : Except Err Bool
  obj : Obj α M
  trace : List (List (List (Param α)))
  /-- (ghost) number of executed `print` calls -/
  prints : Nat

section
variable {α G Y D H M : Type} [Add α] [Sub α] [Mul α]

/-- Elementwise binary operation of two numpy vectors: equal lengths, or one of length one
(broadcasting), otherwise `ValueError`. -/
def bzip (f : α → α → α) (a b : List α) : Except Err (List α) :=
  if a.length = b.length then .ok (List.zipWith f a b)
  else match a, b with
    | [x], b => .ok (b.map (f x))
    | a, [y] => .ok (a.map (fun x => f x y))
    | _, _ => .error .valueError

/-- In-place `a += b` of numpy vectors: the result must have the length of `a`. -/
def inplaceAdd (a b : List α) : Except Err (List α) := do
  let r ← bzip (· + ·) a b
  if r.length = a.length then pure r else throw .valueError

/-- `(-(c_len + 1) % L) + 1` with Python's modulo (maxlike_base.py:428, 527);
`ZeroDivisionError` when `L = 0`. -/
def stepCut (c L : Nat) : Except Err Nat :=
  if L = 0 then .error .zeroDivision
  else .ok ((-((c : Int) + 1)) % (L : Int) + 1).toNat

/-- `self.g(params, self.model(params))` (maxlike_base.py:489 and, through the default `y=None`,
98-99). -/
def objective (env : Env α G Y D H M) (ps : List (Param α)) : Except Err G := do
  let y ← env.modelCall ps
  env.obj ps y

/-- `newton_step` (maxlike_base.py:418-430). -/
def newtonStep (env : Env α G Y D H M) (ps : List (Param α)) :
    Except Err (List α × G × List α × M) := do
  let (y, der, hess) ← env.modelEval ps
  let g ← env.obj ps y
  let lgrad ← env.flatGrad ps y der
  let lhess ← env.flatHess ps y der hess
  let step ← env.solve lhess lgrad
  let i ← stepCut env.nConstraints step.length
  pure (step.take i, g, lgrad, lhess)

/-- The `for _ in range(max_inner_steps)` loop (maxlike_base.py:485-501).  `ps0` is `self.params`
(read by `_reshape_params`).  `none` is the `else` branch of the loop.  The second component lists
the parameters at which the objective was evaluated, the third counts the messages printed. -/
def inner (env : Env α G Y D H M) (verbose : Nat) (ps0 : List (Param α)) (flat step : List α)
    (prevG : G) :
    Nat → α → Except Err (Option (List α × List (Param α) × G)) × List (List (Param α)) × Nat
  | 0, _ => (.ok none, [], 0)
  | n + 1, mult =>
    match bzip (· - ·) flat (step.map (mult * ·)) with
    | .error e => (.error e, [], 0)
    | .ok newFlat =>
      match reshapeParams ps0 newFlat with
      | .error e => (.error e, [], 0)
      | .ok ps =>
        match objective env ps with
        | .error e => (.error e, [ps], 0)
        | .ok g =>
          if env.ge g prevG then (.ok (some (newFlat, ps, g)), [ps], 0)
          else
            let r := inner env verbose ps0 flat step prevG n (mult * env.half)
            (r.1, ps :: r.2.1, (if verbose > 1 then 1 else 0) + r.2.2)

/-- The Newton loop (maxlike_base.py:478-506) followed by the code after the `if` (560-562); the
first argument is the number of remaining outer steps. -/
def newtonLoop (env : Env α G Y D H M) (verbose : Nat) (o : Obj α M) :
    Nat → List (Param α) → List α → Result α M
  | 0, _, _ => ⟨.error .convergence, { o with converged := false }, [], 0⟩
  | k + 1, ps, flat =>
    match newtonStep env ps with
    | .error e => ⟨.error e, o, [[]], 0⟩
    | .ok (step, prevG, _, hess) =>
      let p1 : Nat := if verbose > 0 then 1 else 0
      match inner env verbose o.params flat step prevG 5 env.one with
      | (.error e, tr, pr) => ⟨.error e, o, [tr], p1 + pr⟩
      | (.ok none, tr, pr) =>
        ⟨.error .convergenceStep, { o with converged := false }, [tr], p1 + pr⟩
      | (.ok (some (flat', ps', g)), tr, pr) =>
        match env.conv prevG g with
        | .error e => ⟨.error e, o, [tr], p1 + pr⟩
        | .ok true => ⟨.ok true, { o with params := ps', flatHess := some hess }, [tr], p1 + pr⟩
        | .ok false =>
          let r := newtonLoop env verbose o k ps' flat'
          { r with trace := tr :: r.trace, prints := p1 + pr + r.prints }

/-- Body of the Broyden loop (maxlike_base.py:529-551) including the code after it.  All exceptions
are handled by the `except` clause (553-555) in `broyden` below. `o` already carries the Hessian
stored at 519-522. -/
def broydenLoop (env : Env α G Y D H M) (o : Obj α M) (verbose : Nat) (i1 : Nat) :
    Nat → List α → List α → M → G → Result α M
  | 0, _, _, _, _ => ⟨.error .convergence, { o with converged := false }, [], 0⟩
  | k + 1, flat, grad, J, prevG =>
    let fail (e : Err) (tr : List (List (Param α))) : Result α M :=
      ⟨.error e, { o with converged := false }, [tr], 0⟩
    match env.direction J grad with
    | .error e => fail e []
    | .ok step =>
      match inplaceAdd flat (step.take i1) with
      | .error e => fail e []
      | .ok flat' =>
        match reshapeParams o.params flat' with
        | .error e => fail e []
        | .ok ps =>
          match objective env ps with
          | .error e => fail e [ps]
          | .ok g =>
            -- `print(k + 1, new_g)`: `new_g` is not defined anywhere (line 539)
            if verbose > 0 then fail .nameError [ps]
            else match env.conv prevG g with
              | .error e => fail e [ps]
              | .ok true =>
                match env.pinvh J with
                -- `self.params = params` has already been executed (line 542)
                | .error e => ⟨.error e, { o with params := ps, converged := false }, [[ps]], 0⟩
                | .ok h => ⟨.ok true, ⟨ps, some h, true⟩, [[ps]], 0⟩
              | .ok false =>
                match (do
                    let y ← env.modelCall ps
                    let der ← env.modelGrad ps
                    let grad' ← env.flatGrad ps y der
                    let J' ← env.update J step grad' grad
                    pure (grad', J') : Except Err (List α × M)) with
                | .error e => fail e [ps]
                | .ok (grad', J') =>
                  let r := broydenLoop env o verbose i1 k flat' grad' J' g
                  { r with trace := [ps] :: r.trace }

/-- The condition of maxlike_base.py:519-521: reuse the stored Hessian. -/
def reuseHess (env : Env α G Y D H M) (o : Obj α M) (n : Nat) : Bool :=
  match o.flatHess with
  | some h => o.converged && (env.dim h == n)
  | none => false

/-- The Broyden branch (maxlike_base.py:508-555, 560-562). -/
def broyden (env : Env α G Y D H M) (o : Obj α M) (verbose maxSteps : Nat) (flat : List α) :
    Result α M :=
  match objective env o.params with
  -- outside of the `try`: the flag is not touched
  | .error e => ⟨.error e, o, [], 0⟩
  | .ok g =>
    -- `print(0, g)`
    let p0 : Nat := if verbose > 0 then 1 else 0
    match (do
        let (y, der, hess) ← env.modelEval o.params
        let grad ← env.flatGrad o.params y der
        pure (y, der, hess, grad) : Except Err (Y × D × H × List α)) with
    | .error e => ⟨.error e, { o with converged := false }, [], p0⟩
    | .ok (y, der, hess, grad) =>
      let h0 : Except Err (Option M) :=
        if reuseHess env o grad.length then .ok o.flatHess
        else match env.flatHess o.params y der hess with
          | .ok h => .ok (some h)
          | .error e => .error e
      match h0 with
      | .error e => ⟨.error e, { o with converged := false }, [], p0⟩
      | .ok fh =>
        let o' : Obj α M := { o with flatHess := fh }
        match (do
            let h ← match fh with
              | some h => pure h
              | none => throw .attribute
            let J ← env.pinvh h
            let i1 ← stepCut env.nConstraints grad.length
            pure (J, i1) : Except Err (M × Nat)) with
        | .error e => ⟨.error e, { o' with converged := false }, [], p0⟩
        | .ok (J, i1) =>
          let r := broydenLoop env o' verbose i1 maxSteps flat grad J g
          { r with prints := p0 + r.prints }

/-- The `method` argument, after `.lower()`. -/
inductive Method where
  | newton
  | broyden
  | invalid
deriving DecidableEq, Repr

/-- `fit` (maxlike_base.py:432-562).  Newton's `verbose` only prints (482-483, 495-496). -/
def fit (env : Env α G Y D H M) (o : Obj α M) (maxSteps verbose : Nat) (method : Method) :
    Result α M :=
  match flatParams o.params with
  | .error e => ⟨.error e, o, [], 0⟩
  | .ok flat =>
    match method with
    | .newton => newtonLoop env verbose o maxSteps o.params flat
    | .broyden => broyden env o verbose maxSteps flat
    | .invalid => ⟨.error .valueError, o, [], 0⟩

end
end Verif.Fit
