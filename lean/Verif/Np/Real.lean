import Verif.Np.FV
import Mathlib.Analysis.SpecialFunctions.Log.Basic
import Mathlib.Analysis.Real.Sqrt

/-! # Elementary functions on floats over ℝ -/
set_option linter.unusedSectionVars false

namespace Pyirf.FV

/-- `np.log`: -inf at 0, NaN for negative arguments. -/
noncomputable def log : FV ℝ → FV ℝ
  | nan => nan
  | ninf => nan
  | pinf => pinf
  | fin x => if x = 0 then ninf else if x < 0 then nan else fin (Real.log x)

/-- `np.sqrt`: NaN for negative arguments. -/
noncomputable def sqrt : FV ℝ → FV ℝ
  | nan => nan
  | ninf => nan
  | pinf => pinf
  | fin x => if x < 0 then nan else fin (Real.sqrt x)

end Pyirf.FV
