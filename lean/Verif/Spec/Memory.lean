import Verif.Model.Memory

/-!
# Vocabulary for C84: the object and the user's arrays
-/

namespace Verif.Memory
open Verif.Params
open Verif.Tens (Session SessionOp FitArgs)

/-- The two arrays use the same buffer. -/
def SameBuffer {α : Type} (m : Mem α) (r r' : Nat) : Prop := ∃ a a', m.arrs[r]? = some a ∧ m.arrs[r']? = some a' ∧ a'.buf = a.buf

/-- No other array can write into the memory of `r`. -/
def Sole {α : Type} (m : Mem α) (r : Nat) : Prop := ∀ r' a', SameBuffer m r r' → r' ≠ r → m.arrs[r']? = some a' → a'.writeable = false

/-- The operation is a careful one: arrays of values and of data that are given to the object have no writeable views (and are not views of writeable arrays), and the user
does not write into the mask of a parameter. -/
def Careful (w : World) : Op → Prop
  | .addParam v _ => Sole w.vals v
  | .fit kw _ => ∀ x ∈ kw, Sole w.vals x.2
  | .assignMask r _ _ => ∀ ps, w.params = some ps → ∀ p ∈ ps, ¬SameBuffer w.masks r p.mask
  | _ => True

/-- All operations of the program are careful ones. -/
def CarefulRun (w : World) : List Op → Prop
  | [] => True
  | op :: ops => Careful w op ∧ CarefulRun (w.step op).2 ops

/-- The method call, with the contents that its arguments have now; `none` if the operation is not a call that changes the object (or an array does not exist). -/
def World.call (w : World) : Op → Option SessionOp
  | .addParam v none => if v < w.vals.arrs.length then some (.addFree (.array (w.vals.shape v) (w.vals.read v))) else none
  | .addParam v (some r) =>
    if v < w.vals.arrs.length ∧ r < w.masks.arrs.length then some (.addMasked (w.vals.shape v) (w.vals.read v) (w.masks.shape r) (w.masks.read r)) else none
  | .resetParams => some .resetParams
  | .setModel f => some (.setModel f)
  | .addConstraint pm g => some (.addConstraint pm g)
  | .addRegularization pm h => some (.addRegularization pm h)
  | .fit kw a => if ∀ x ∈ kw, x.2 < w.vals.arrs.length then some (.fit { a with kwargs := kw.map fun x => (x.1, w.vals.array x.2) }) else none
  | _ => none

/-- The method calls of a program, each with the contents of the arrays at the time of the call. -/
noncomputable def World.calls (w : World) : List Op → List SessionOp
  | [] => []
  | op :: ops => (w.call op).toList ++ World.calls (w.step op).2 ops

end Verif.Memory
