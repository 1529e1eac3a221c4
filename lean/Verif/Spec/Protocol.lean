import Verif.Model.Protocol

/-!
# Specification: which parameters are meant
-/

namespace Verif.Protocol

/-- The object `a`, passed as `params`, means the parameters `l`: a tuple or a list of them, one object for one parameter, `None` (or nothing) for none. -/
inductive Means {V : Type} : PyVal V → List (PyVal V) → Prop
  | tuple (l : List (PyVal V)) : Means (.tuple l) l
  | list (l : List (PyVal V)) : Means (.list l) l
  | one (v : V) : Means (.atom v) [.atom v]
  | none : Means .none []

end Verif.Protocol
