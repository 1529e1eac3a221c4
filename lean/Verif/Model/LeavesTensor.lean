import Verif.Model.Leaves
import Verif.Model.FuncOpTensor

/-!
# Model of the elementary functions that return Tensors

The functions of one number are those of `Model/Leaves.lean`.
-/

namespace Verif.Tens
open Verif.Func

/-- `Exp` (func.py:102-119) -/
noncomputable def expT : TFunc ℝ := entryT Real.exp Real.exp Real.exp

/-- `Log` (func.py:122-133) -/
noncomputable def logT : TFunc ℝ := entryT Real.log (fun y => 1 / y) fun y => -1 / y ^ 2

/-- `Logistic` (sigmoid.py:16-34) -/
noncomputable def logisticT : TFunc ℝ :=
  entryT expit (fun y => expit y * (1 - expit y)) fun y => expit y * (1 - expit y) * (1 - 2 * expit y)

/-- `ArcTan` (sigmoid.py:38-51) -/
noncomputable def arctanT : TFunc ℝ := entryT Real.arctan (fun y => 1 / (1 + y * y)) fun y => -2 * y / (1 + y * y) ^ 2

/-- `Poisson(size)` (func_proba.py:8-47) -/
noncomputable def poissonT (size : Nat) : TFunc ℝ := rowT (poissonRow size) (poissonGradRow size) (poissonHessRow size) size

/-- `LogNegativeBinomial(size, r)` (func_proba.py:50-107) -/
noncomputable def logNegBinT (size : Nat) (r : ℝ) : TFunc ℝ :=
  rowT (logNegBinRow size r) (logNegBinGradRow size r) (logNegBinHessRow size r) size

end Verif.Tens
