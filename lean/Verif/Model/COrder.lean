import Verif.Model.NDArray

/-!
# The order in which numpy lists the entries of an array
-/

namespace Verif.Tens

/-- The number of the entry at position `x` in an array with the sizes `l`, in C order. -/
def ravel : List Nat → (Nat → Nat) → Nat
  | [], _ => 0
  | _ :: l, x => x 0 * l.prod + ravel l fun k => x (k + 1)

/-- The position of entry number `a`. -/
def unravel : List Nat → Nat → Nat → Nat
  | [], a, _ => if a = 0 then 0 else 1
  | _ :: l, a, 0 => a / l.prod
  | _ :: l, a, k + 1 => unravel l (a % l.prod) k

end Verif.Tens
