import Verif.Interpolation.EstimatorModel
import Verif.Interpolation.MorphModel
import Verif.Io.GadfModel

/-!
# Model: moment morphing of templates with a unit

/repo/pyirf/interpolation/component_estimators.py:762 lets `PSFTableEstimator` accept PSF tables only as a `Quantity` with the dimension of sr^-1, and passes that `Quantity` on to the inter- and
extrapolator (line 831). Here is `moment_morph_estimation` for templates with a unit; MorphModel.lean has the version for plain arrays.
-/
set_option linter.unusedSectionVars false

namespace Pyirf.Interpolation
open Pyirf Pyirf.Io

/-- astropy contract: `quantity[index] = values` with plain numbers. `Quantity.__setitem__` takes them for dimensionless; UnitConversionError if the quantity is not dimensionless, unless all numbers are 0, infinite or NaN.
What the index selects plays no role. -/
noncomputable def setPlain (unit : PhysUnit ℝ) (values : List (FV ℝ)) : Except Err Unit :=
  if unit.dim = Dim.one then .ok ()
  else if ∀ v ∈ values, v = .fin 0 ∨ v.isFinite = false then .ok ()
  else .error .unitsError

/-- `moment_morph_estimation` for templates with the given unit, /repo/pyirf/interpolation/moment_morph_interpolator.py:209-260: line 215 assigns plain numbers `1 / len(bin_mids)` to the (possibly empty) selection of
nearly empty cells. For a dimensionless unit (of scale 1) everything is as for plain arrays; for other units no more is needed, because line 215 fails. -/
noncomputable def momentMorphQ {k n : ℕ} {C : Type*} (unit : PhysUnit ℝ) (norm : Normalization) (edges : Fin (n + 2) → ℝ) (pdf : Fin k → C → Fin (n + 1) → ℝ) (coef : Fin k → FV ℝ) :
    Except Err (C → Fin (n + 1) → FV ℝ) :=
  match setPlain unit (List.replicate (n + 1) (.fin (1 / ((n : ℝ) + 1)))) with
  | .error e => .error e
  | .ok _ => momentMorph norm edges pdf coef

/-- `MomentMorphInterpolator.interpolate` in one dimension, /repo/pyirf/interpolation/moment_morph_interpolator.py:301-318 (see `morphInterpolate1D`). -/
noncomputable def morphInterpolate1DQ {n : ℕ} {C : Type*} (unit : PhysUnit ℝ) (norm : Normalization) (edges : Fin (n + 2) → ℝ) (grid : List ℝ) (pdf : Fin grid.length → C → Fin (n + 1) → ℝ)
    (t : ℝ) : Except Err (C → Fin (n + 1) → FV ℝ) :=
  if grid.length = 1 then .error .valueError
  else match Np.digitize (grid.map .fin) (.fin t) with
    | .error e => .error e
    | .ok k =>
      if h : k < grid.length then
        let i : Fin grid.length := ⟨if k = 0 then grid.length - 1 else k - 1, by split <;> omega⟩
        let inds : Fin 2 → Fin grid.length := ![i, ⟨k, h⟩]
        match linesegmentCoefficients (fun j => grid[inds j]) t with
        | .error e => .error e
        | .ok coef => momentMorphQ unit norm edges (fun j => pdf (inds j)) (fun j => .fin (coef j))
      else .error .indexError

/-- The estimate from one simplex, /repo/pyirf/interpolation/moment_morph_interpolator.py:328-338 and nearest_simplex_extrapolator.py:189-204 (see `morphSimplex`). -/
noncomputable def morphSimplexQ {n : ℕ} {C : Type*} (unit : PhysUnit ℝ) (norm : Normalization) (edges : Fin (n + 2) → ℝ) (T : Triangulation) (pdf : Fin T.points.length → C → Fin (n + 1) → ℝ)
    (s : Fin 3 → Fin T.points.length) (t : Pt 0) : Except Err (C → Fin (n + 1) → FV ℝ) :=
  momentMorphQ unit norm edges (fun j => pdf (s j)) (barycentricCoefficients (fun i => toPair T.points[s i]) (toPair t))

/-- `MomentMorphInterpolator.interpolate` in two dimensions, /repo/pyirf/interpolation/moment_morph_interpolator.py:320-338 (see `morphInterpolate2D`). -/
noncomputable def morphInterpolate2DQ {n : ℕ} {C : Type*} (unit : PhysUnit ℝ) (norm : Normalization) (edges : Fin (n + 2) → ℝ) (T : Triangulation) (pdf : Fin T.points.length → C → Fin (n + 1) → ℝ)
    (found : ℤ) (t : Pt 0) : Except Err (C → Fin (n + 1) → FV ℝ) :=
  match (if found < 0 then T.simplices.getLast? else T.simplices[found.toNat]?) with
  | none => .error .indexError
  | some s => morphSimplexQ unit norm edges T pdf s t

/-- `MomentMorphNearestSimplexExtrapolator.extrapolate` in one dimension, /repo/pyirf/interpolation/nearest_simplex_extrapolator.py:172-187 and 222-251 (see `morphExtrapolate1D`). -/
noncomputable def morphExtrapolate1DQ {n : ℕ} {C : Type*} (unit : PhysUnit ℝ) (norm : Normalization) (edges : Fin (n + 2) → ℝ) (grid : List ℝ) (pdf : Fin grid.length → C → Fin (n + 1) → ℝ)
    (t : ℝ) : Except Err (C → Fin (n + 1) → FV ℝ) :=
  match grid.min? with
  | none => .error .valueError
  | some lo =>
    if h : grid.length < 2 then .error .indexError
    else
      let inds : Fin 2 → Fin grid.length :=
        if t < lo then ![⟨0, by omega⟩, ⟨1, by omega⟩] else ![⟨grid.length - 2, by omega⟩, ⟨grid.length - 1, by omega⟩]
      match linesegmentCoefficients (fun j => grid[inds j]) t with
      | .error e => .error e
      | .ok coef => match momentMorphQ unit norm edges (fun j => pdf (inds j)) (fun j => .fin (coef j)) with
        | .error e => .error e
        | .ok r => .ok (cutOff norm edges r).1

/-- `MomentMorphNearestSimplexExtrapolator.extrapolate` in two dimensions, /repo/pyirf/interpolation/nearest_simplex_extrapolator.py:189-204 and 229-251 (see `morphExtrapolate2D`). -/
noncomputable def morphExtrapolate2DQ {n : ℕ} {C : Type*} (unit : PhysUnit ℝ) (norm : Normalization) (edges : Fin (n + 2) → ℝ) (argsort : List (FV ℝ × FV ℝ) → ℕ) (T : Triangulation)
    (pdf : Fin T.points.length → C → Fin (n + 1) → ℝ) (t : Pt 0) : Except Err (C → Fin (n + 1) → FV ℝ) :=
  match findNearestSimplex argsort T t with
  | .error e => .error e
  | .ok ind => match T.simplices[ind]? with
    | none => .error .indexError
    | some s => match morphSimplexQ unit norm edges T pdf s t with
      | .error e => .error e
      | .ok r => .ok (cutOff norm edges r).1

/-- `PSFTableEstimator(...)(target)` on a sorted one-dimensional grid for a finite target, /repo/pyirf/interpolation/component_estimators.py:762-846 and 102-151: the unit check, the construction of the classes with the
keyword arguments, and the call. `quantile` is what QuantileInterpolator gives. A class that is no extrapolator is refused at the construction, as is a class that is no interpolator. -/
noncomputable def psfTable1D {n : ℕ} {C : Type*} (unit : Option (PhysUnit ℝ)) (edges : Fin (n + 2) → ℝ) (grid : List ℝ) (pdf : Fin grid.length → C → Fin (n + 1) → ℝ)
    (quantile : ℝ → Except Err (C → Fin (n + 1) → FV ℝ)) (interp : PdfClass) (ikwargs : Option (List Kwarg)) (extrap : Option PdfClass) (xkwargs : Option (List Kwarg)) (t : ℝ) :
    Except Err (C → Fin (n + 1) → FV ℝ) :=
  match quantityInput ⟨unit, ()⟩ perSr with
  | .error e => .error e
  | .ok _ => match psfConstruct interp ikwargs extrap xkwargs with
    | .error e => .error e
    | .ok _ =>
      if interp = .momentMorphNearestSimplex ∨ extrap = some .quantile ∨ extrap = some .momentMorph then .error .typeError
      else match grid.min?, grid.max? with
        | some lo, some hi =>
          if lo ≤ t ∧ t ≤ hi then
            match interp with
            | .quantile => quantile t
            | _ => morphInterpolate1DQ (unit.getD unitOne) .coneSolidAngle edges grid pdf t
          else match extrap with
            | none => .error .valueError
            | some _ => morphExtrapolate1DQ (unit.getD unitOne) .coneSolidAngle edges grid pdf t
        | _, _ => .error .valueError

end Pyirf.Interpolation
