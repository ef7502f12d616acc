import Verif.Np.FV
import Mathlib.Algebra.Order.Group.Abs

/-!
# numpy contract: isclose / allclose
-/
set_option linter.unusedSectionVars false

namespace Pyirf.Np
variable {K : Type*} [Field K] [LinearOrder K]

/-- `np.isclose(a, b, rtol, atol)`: finite values are compared with `|a-b| <= atol + rtol*|b|`,
infinities by equality, NaN is close to nothing. -/
def isclose (rtol atol : K) : FV K → FV K → Bool
  | .fin a, .fin b => decide (|a - b| ≤ atol + rtol * |b|)
  | a, b => FV.beq a b

/-- `np.allclose` of two equally long sequences. -/
def allclose (rtol atol : K) (a b : List (FV K)) : Bool := (List.zipWith (isclose rtol atol) a b).all id

end Pyirf.Np
