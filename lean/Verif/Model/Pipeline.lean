import Verif.Props.Preprocessing
import Verif.Model.Session

/-!
# From prepared data to the keyword arguments of `fit`

`kwargs, axis = prepare_series(...)`, `mle.fit(**kwargs)` (tests/tests.py:32, 52).  The preprocessing model stores an array as its entries in C order, the Tensor model as a
function of the position: `Arr.ndarray` is the same array.
-/

namespace Verif.Tens

/-- The array with these entries in C order (preprocessing.py:52, 69: `reshape(shape)`). -/
def _root_.Verif.Prep.Arr.ndarray (a : Prep.Arr ℝ) : NDArray ℝ :=
  ⟨a.shape.length, fun k => a.shape.getD k 1, fun idx => a.data.getD (Prep.ravel a.shape ((List.range a.shape.length).map idx)) 0⟩

/-- The names of the attributes that `fit` sets (maxlike_base.py:463-464). -/
def kwargName (s : String) : Name := if s = "X" then .X else if s = "N" then .N else if s = "Z" then .Z else .other s

/-- `**kwargs` -/
def kwargsOf (res : List (String × Prep.Arr ℝ)) : List (Name × NDArray ℝ) := res.map fun x => (kwargName x.1, x.2.ndarray)

open Classical in
/-- `lambda x: (x == 0).sum()` (tests/tests.py:262) -/
noncomputable def npZeros (l : List ℝ) : Option ℝ := some ((l.filter fun x => x = 0).length : ℝ)

end Verif.Tens
