import Verif.Units.Model
import Verif.Interpolation.QuantileModel
import Verif.Interpolation.PsfUnitModel

/-!
# Model of the units in `EffectiveAreaEstimator` and `PSFTableEstimator`, /repo/pyirf/interpolation/component_estimators.py
-/
set_option linter.unusedSectionVars false

namespace Pyirf.Units
open Pyirf Pyirf.Np Pyirf.Io Pyirf.Interpolation

/-- `EffectiveAreaEstimator(grid_points, effective_area, ..., min_effective_area)`, /repo/pyirf/interpolation/component_estimators.py:382-449, with its `quantity_input` (in the order of the
parameters) and `to_value(u.m**2)`: the estimator and `self.min_effective_area`. -/
noncomputable def effectiveAreaEstimatorQ {C : Type} (argsort : List ℝ → List ℕ) (delaunay : Grid → Except Err (List (FV ℝ) → Bool)) (g : GridArg) (areas : Q (List (C → ℝ))) (amin : Q ℝ)
    (interp : ClsArg (C → FV ℝ) (C → FV ℝ)) (extrap : Option (ClsArg (C → FV ℝ) (C → FV ℝ))) : Except Err (Estimator (C → FV ℝ) × ℝ) := do
  checkDim areas.unit m2
  checkDim amin.unit m2
  let effectiveArea : List (C → ℝ) := areas.val.map fun a c => (⟨areas.unit, a c⟩ : Q ℝ).num m2
  let minEffectiveArea := amin.num m2
  let e ← effectiveAreaInit argsort delaunay g effectiveArea minEffectiveArea interp extrap
  .ok (e, minEffectiveArea)

/-- `EffectiveAreaEstimator.__call__`, /repo/pyirf/interpolation/component_estimators.py:451-477: numbers in m2, and the warnings. -/
noncomputable def effectiveAreaEstimateQ {C : Type} (e : Estimator (C → FV ℝ) × ℝ) (target : TargetArg) : Except Err (Q (C → FV ℝ)) × Bool :=
  let o := effectiveAreaCall e.1 e.2 target
  (match o.result with
    | .error err => .error err
    | .ok r => .ok ⟨m2, r⟩, o.warned)

/-- `PSFTableEstimator(grid_points, source_offset_bins, psf, ...)(target)` on a sorted one-dimensional grid for a finite target, /repo/pyirf/interpolation/component_estimators.py:762-864 with
`quantity_input` and `source_offset_bins.to_value(u.rad)`. The templates are given to the interpolator in their own unit; for QuantileInterpolator the numbers are those of the templates in this unit (`cdf_values`
divides two quantities of the same unit, the added empty bin is 0 in any unit). `weights` is what `griddata` computes for the target. The result is in sr-1. -/
noncomputable def psfTableEstimateQ (c : Consts ℝ) {n : ℕ} {C : Type} (grid : List ℝ) (bins : Q (Fin (n + 2) → ℝ)) (psf : Q (Fin grid.length → C → Fin (n + 1) → ℝ)) (resolution : ℝ)
    (weights : ℝ → GridWeights grid.length) (interp : PdfClass) (ikwargs : Option (List Kwarg)) (extrap : Option PdfClass) (xkwargs : Option (List Kwarg)) (t : ℝ) :
    Except Err (Q (C → Fin (n + 1) → FV ℝ)) := do
  checkDim bins.unit (degree c)
  checkDim psf.unit perSr
  let edges ← bins.reals radian
  let r ← psfTable1D (some psf.unit) edges grid psf.val (fun t => quantileInterpolate .coneSolidAngle edges psf.val resolution (weights t)) interp ikwargs extrap xkwargs t
  .ok ⟨perSr, r⟩

end Pyirf.Units
