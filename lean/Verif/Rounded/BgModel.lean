import Verif.Rounded.CoefModel
import Verif.Sensitivity.Model

/-!
# Model: interpolation between nodes and the background estimate in rounded arithmetic

Finite nodes, angles in radians, no fused multiply-add.
-/
set_option linter.unusedSectionVars false

namespace Pyirf.Rounded
open Pyirf Pyirf.Np

/-- The line through two nodes as numpy and `scipy.interpolate.interp1d` compute it: `slope * (x - x0) + f0`. -/
noncomputable def lineAt (R : Rounding) (a b : ℝ × ℝ) (x : ℝ) : ℝ :=
  R.add (R.mul (R.div (R.sub b.2 a.2) (R.sub b.1 a.1)) (R.sub x a.1)) a.2

/-- The search part of `np.interp`: nodes are pairs of position and value, `x` is not below the first node; a position equal to that of a node gives its value. -/
noncomputable def interpGo (R : Rounding) : List (ℝ × ℝ) → ℝ → ℝ
  | [], _ => 0
  | [a], _ => a.2
  | a :: b :: l, x => if x < b.1 then (if x = a.1 then a.2 else lineAt R a b x) else interpGo R (b :: l) x

/-- `np.interp(x, xp, fp)` for finite nodes with increasing positions, /repo/pyirf/sensitivity.py:335. (numpy raises ValueError without nodes; here 0.) -/
noncomputable def interp (R : Rounding) (nodes : List (ℝ × ℝ)) (x : ℝ) : ℝ :=
  match nodes with
  | [] => 0
  | a :: l => if x < a.1 then a.2 else interpGo R (a :: l) x

/-- `size_ratio` of `estimate_background` for one bin, /repo/pyirf/sensitivity.py:337-341: `pi` and `cos` are numpy's; a division by 0 gives an infinity or NaN. -/
noncomputable def sizeRatio (R : Rounding) (pi : ℝ) (cos : ℝ → ℝ) (theta offMin offMax : ℝ) : FV ℝ :=
  rdFV R (.fin (coneSolidAngle R pi cos theta) / .fin (R.sub (coneSolidAngle R pi cos offMax) (coneSolidAngle R pi cos offMin)))

/-- One entry of a scaled column of `estimate_background`, /repo/pyirf/sensitivity.py:330-345, from the content `n` of the column in the bin with the given center. -/
noncomputable def backgroundCell (R : Rounding) (pi : ℝ) (cos : ℝ → ℝ) (cuts : List (ℝ × ℝ)) (center offMin offMax alpha n : ℝ) : FV ℝ :=
  rdFV R (rdFV R (.fin n * sizeRatio R pi cos (interp R cuts center) offMin offMax) / .fin alpha)

end Pyirf.Rounded
