import Verif.Model.Session
import Verif.Spec.Params

/-!
# Specification: what the calls of a session mean

Read off the sequence of calls, without the object.
-/

namespace Verif.Tens
open Verif.Params

/-- The number of axes of the data that count outcomes, not features: `Finite(dim)` and `NormalizedFinite(dim)`. -/
def Kind.axes : Kind → Nat
  | .poisson => 0
  | .zeroInflatedPoisson _ => 0
  | .logistic => 0
  | .finite dim => dim
  | .normalizedFinite dim => dim
  | .negativeBinomial _ => 0

/-- The model is the one assigned last. -/
def lastModel (ops : List SessionOp) : Option (TFunc ℝ) :=
  (ops.filterMap fun | .setModel f => some f | _ => none).getLast?

/-- The constraints are those added, in order; `i` is the same as `[i]`. -/
def constraintsOf (ops : List SessionOp) : List (TTerm ℝ) :=
  ops.filterMap fun
    | .addConstraint (.int i) g => some ⟨[i], g⟩
    | .addConstraint (.list l) g => some ⟨l, g⟩
    | _ => none

/-- The regularisations are those added, in order. -/
def regularizationsOf (ops : List SessionOp) : List (TTerm ℝ) :=
  ops.filterMap fun
    | .addRegularization (.int i) h => some ⟨[i], h⟩
    | .addRegularization (.list l) h => some ⟨l, h⟩
    | _ => none

/-- The arrays given in all calls of `fit`, in order. -/
def arraysOf (ops : List SessionOp) : List (Name × NDArray ℝ) :=
  ops.flatMap fun | .fit a => a.kwargs | _ => []

/-- The data called `k` are the array given last under this name. -/
def lastData (ops : List SessionOp) (k : Name) : Option (NDArray ℝ) :=
  ((arraysOf ops).filterMap fun x => if x.1 = k then some x.2 else none).getLast?

/-- The parameters as they were added: those since the last `reset_params`; a call that is rejected (mask of another shape) adds nothing. -/
def initialParams (ops : List SessionOp) : List (Param ℝ) :=
  ops.foldl (fun ps op => match op with
    | .addFree v => ps ++ [⟨v.data.1, v.data.2, List.replicate v.data.2.length false⟩]
    | .addMasked s v ms m => if ms = s then ps ++ [⟨s, v, m⟩] else ps
    | .resetParams => []
    | _ => ps) []

/-- The arguments of the calls are arrays: as many entries as the shapes say, and at least as many axes as the outcome has. -/
def SessionOp.Proper (dim : Nat) : SessionOp → Prop
  | .addFree v => v.data.2.length = v.data.1.prod
  | .addMasked s v ms m => v.length = s.prod ∧ m.length = ms.prod
  | .fit a => ∀ x ∈ a.kwargs, dim ≤ x.2.ndim
  | _ => True

/-- The maximum likelihood problem that the calls describe: the methods of the class `k` with the model, the terms and the data. -/
noncomputable def problemOf (k : Kind) (ops : List SessionOp) : MaxLikeT ℝ :=
  Session.problem ⟨k, lastModel ops, none, constraintsOf ops, regularizationsOf ops, fun n => (lastData ops n).map fun v => ⟨v, 0, 0, k.axes, [], []⟩, none, false⟩

end Verif.Tens
