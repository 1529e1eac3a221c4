import Verif.Model.Params

/-!
Specification vocabulary for the flat <-> shaped conversions.  Nothing here mentions `np.insert`,
`fix_map` or running offsets.
-/

namespace Verif.Params

variable {α : Type}

/-- A well-formed parameter: as many values and mask bits as the shape says. -/
def Param.WF (p : Param α) : Prop :=
  p.values.length = p.shape.prod ∧ p.mask.length = p.shape.prod

/-- Entry `j` (row-major) of parameter `i` exists and is free. -/
def isFree (params : List (Param α)) (i j : Nat) : Prop :=
  ∃ p, params[i]? = some p ∧ p.mask[j]? = some false

/-- Entry `j` (row-major) of parameter `i` exists and is fixed. -/
def isFixed (params : List (Param α)) (i j : Nat) : Prop :=
  ∃ p, params[i]? = some p ∧ p.mask[j]? = some true

/-- The value stored at entry `j` of parameter `i`. -/
def entry (params : List (Param α)) (i j : Nat) : Option α :=
  params[i]?.bind fun p => p.values[j]?

/-- Number of free entries. -/
def totalFree (params : List (Param α)) : Nat :=
  (params.map fun p => p.mask.count false).sum

/-- How many free entries come before entry `j` of parameter `i`, counting row-major through the
parameters in order. -/
def freeRank (params : List (Param α)) (i j : Nat) : Nat :=
  totalFree (params.take i) + ((params[i]?.map fun p => (p.mask.take j).count false).getD 0)

/-- Two parameter lists have the same number, order, shapes and masks. -/
def SameLayout (ps qs : List (Param α)) : Prop :=
  ps.map (fun p => (p.shape, p.mask)) = qs.map (fun p => (p.shape, p.mask))

end Verif.Params
