import Verif.Rounded.MorphModel
import Verif.Interpolation.CoefModel

/-!
# Model: barycentric coefficients and linear extrapolation in rounded arithmetic

Finite grid points, targets and parameters; one entry of the parameters. Divisions by 0 give infinities and NaN as in IEEE arithmetic.
-/
set_option linter.unusedSectionVars false

namespace Pyirf.Rounded
open Pyirf Pyirf.Np

/-- The rounded value of a number; infinities and NaN stay. -/
noncomputable def rdFV (R : Rounding) : FV ℝ → FV ℝ
  | .fin x => .fin (R.rd x)
  | .nan => .nan
  | .ninf => .ninf
  | .pinf => .pinf

/-- The denominator of `barycentric_2D_interpolation_coefficients`, /repo/pyirf/interpolation/moment_morph_interpolator.py:160-174, for the distance vectors `a = d13` and `b = d23`. -/
noncomputable def crossDen (R : Rounding) (a b : ℝ × ℝ) : ℝ := R.add (R.mul b.2 a.1) (R.mul (-b.1) a.2)

/-- `barycentric_2D_interpolation_coefficients`, /repo/pyirf/interpolation/moment_morph_interpolator.py:138-181. -/
noncomputable def barycentric (R : Rounding) (g : Fin 3 → ℝ × ℝ) (t : ℝ × ℝ) : Fin 3 → FV ℝ :=
  let d13 : ℝ × ℝ := (R.sub (g 0).1 (g 2).1, R.sub (g 0).2 (g 2).2)
  let d23 : ℝ × ℝ := (R.sub (g 1).1 (g 2).1, R.sub (g 1).2 (g 2).2)
  let dp3 : ℝ × ℝ := (R.sub t.1 (g 2).1, R.sub t.2 (g 2).2)
  let den : FV ℝ := .fin (crossDen R d13 d23)
  let w1 := rdFV R (.fin (R.add (R.mul d23.2 dp3.1) (R.mul (-d23.1) dp3.2)) / den)
  let w2 := rdFV R (.fin (R.add (R.mul (-d13.2) dp3.1) (R.mul d13.1 dp3.2)) / den)
  let w3 := rdFV R (rdFV R (.fin 1 - w1) - w2)
  ![w1, w2, w3]

/-- `np.sum(coefficients * self.params[inds, :], axis=0)` for one entry, /repo/pyirf/interpolation/nearest_simplex_extrapolator.py:73-75 and 92-94: the rows are added one after the other. -/
noncomputable def combine {k : ℕ} (R : Rounding) (c p : Fin k → ℝ) : ℝ := seqSum R (List.ofFn fun i => R.mul (c i) (p i))

/-- `_extrapolate1D`, /repo/pyirf/interpolation/nearest_simplex_extrapolator.py:58-75, on the segment from `g0` (parameter `p 0`) to `g1` (parameter `p 1`). -/
noncomputable def extrapolate1D (R : Rounding) (g0 g1 : ℝ) (p : Fin 2 → ℝ) (t : ℝ) : ℝ := combine R (segmentCoefficients R g0 g1 t) p

end Pyirf.Rounded
