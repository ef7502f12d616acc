import Verif.Np.FV
import Mathlib.Data.Real.Basic
import Mathlib.LinearAlgebra.Matrix.NonsingularInverse

/-!
# Model of the interpolation coefficients of /repo/pyirf/interpolation/moment_morph_interpolator.py

Grid points and targets are finite.
-/
set_option linter.unusedSectionVars false

namespace Pyirf.Interpolation
open Pyirf

/-- The matrix `m_ij = (grid_points - m0) ** j` of two points, /repo/pyirf/interpolation/moment_morph_interpolator.py:127-132. -/
def segmentMatrix (g : Fin 2 → ℝ) : Matrix (Fin 2) (Fin 2) ℝ := fun i j => (g i - g 0) ^ (j : ℕ)

/-- `linesegment_1D_interpolation_coefficients(grid_points, target_point)`,
/repo/pyirf/interpolation/moment_morph_interpolator.py:103-135: `einsum("j,ji->i", (target - m0)**j, inv(m_ij))`; a singular matrix raises
LinAlgError. -/
noncomputable def linesegmentCoefficients (g : Fin 2 → ℝ) (t : ℝ) : Except Err (Fin 2 → ℝ) :=
  if (segmentMatrix g).det = 0 then .error .linAlgError
  else .ok fun i => ∑ j : Fin 2, (t - g 0) ^ (j : ℕ) * (segmentMatrix g)⁻¹ j i

/-- `barycentric_2D_interpolation_coefficients(grid_points, target_point)`, /repo/pyirf/interpolation/moment_morph_interpolator.py:138-180. The divisions
are float divisions (inf or NaN for a degenerate triangle). -/
noncomputable def barycentricCoefficients (g : Fin 3 → ℝ × ℝ) (t : ℝ × ℝ) : Fin 3 → FV ℝ :=
  let d13 : ℝ × ℝ := g 0 - g 2
  let d23 : ℝ × ℝ := g 1 - g 2
  let dp3 : ℝ × ℝ := t - g 2
  let den := d23.2 * d13.1 + -d23.1 * d13.2
  let w1 : FV ℝ := .fin (d23.2 * dp3.1 + -d23.1 * dp3.2) / .fin den
  let w2 : FV ℝ := .fin (-d13.2 * dp3.1 + d13.1 * dp3.2) / .fin den
  let w3 := .fin 1 - w1 - w2
  ![w1, w2, w3]

end Pyirf.Interpolation
