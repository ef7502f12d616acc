import Verif.Interpolation.EstimatorModel
import Verif.Interpolation.NearestModel

/-!
# Model of the constructors of the interpolator and extrapolator classes of /repo/pyirf/interpolation, and of these classes as used by the component estimators in
one dimension
-/
set_option linter.unusedSectionVars false

namespace Pyirf.Interpolation
open Pyirf Pyirf.Np

/-! ## Constructors -/

/-- `BaseInterpolator.__init__` and `BaseExtrapolator.__init__` for a grid array of this shape, /repo/pyirf/interpolation/base_interpolators.py:42-46 and
/repo/pyirf/interpolation/base_extrapolators.py:26-30: the number of points and `grid_dim`. -/
def baseClassInit : List ℕ → Except Err (ℕ × ℕ)
  | [] => .error .indexError
  | [n] => .ok (n, 1)
  | n :: d :: _ => .ok (n, d)

/-- `ParametrizedNearestSimplexExtrapolator.__init__`, /repo/pyirf/interpolation/nearest_simplex_extrapolator.py:49-56, `MomentMorphNearestSimplexExtrapolator.__init__`,
/repo/pyirf/interpolation/nearest_simplex_extrapolator.py:163-170, and `MomentMorphInterpolator.__init__`, /repo/pyirf/interpolation/moment_morph_interpolator.py:292-299:
`delaunay` is the outcome of scipy's triangulation of the points. -/
def simplexClassInit (delaunay : Except Err Unit) (shape : List ℕ) : Except Err (ℕ × ℕ) :=
  match baseClassInit shape with
  | .error e => .error e
  | .ok (n, d) =>
    if d = 2 then match delaunay with
      | .error e => .error e
      | .ok () => .ok (n, d)
    else if 2 < d then .error .notImplementedError
    else .ok (n, d)

/-- `ParametrizedVisibleEdgesExtrapolator.__init__`, /repo/pyirf/interpolation/visible_edges_extrapolator.py:137-150: also `self.m`. -/
noncomputable def visibleEdgesClassInit (delaunay : Except Err Unit) (shape : List ℕ) (m : NormOrd) : Except Err (ℕ × ℕ × ℕ) :=
  match simplexClassInit delaunay shape with
  | .error e => .error e
  | .ok (n, d) => match checkM m with
    | .error e => .error e
    | .ok k => .ok (n, d, k)

/-- `BaseNearestNeighborSearcher.__init__`, /repo/pyirf/interpolation/nearest_neighbor_searcher.py:47-65: also `self.norm_ord`. -/
noncomputable def nearestClassInit (shape : List ℕ) (ord : NormOrd) : Except Err (ℕ × ℕ × ℕ) :=
  match baseClassInit shape with
  | .error e => .error e
  | .ok (n, d) => match checkOrd ord with
    | .error e => .error e
    | .ok k => .ok (n, d, k)

/-! ## Classes as used by the estimators -/

/-- the shape of the array of grid points an estimator passes on: points and coordinates -/
def gridShape (grid : Grid) : List ℕ := [grid.length, (grid.headD []).length]

/-- `x ** j` for the exponents 0 and 1: `x ** 0` is 1 also for NaN -/
def pow01 (x : FV ℝ) : Fin 2 → FV ℝ := ![.fin 1, x]

/-- `linesegment_1D_interpolation_coefficients(grid_points, target_point)`, /repo/pyirf/interpolation/moment_morph_interpolator.py:103-135, also for targets that are
not finite. -/
noncomputable def segmentCoefficients (g : Fin 2 → ℝ) (t : FV ℝ) : Except Err (Fin 2 → FV ℝ) :=
  if (segmentMatrix g).det = 0 then .error .linAlgError
  else .ok fun i => fsum (List.ofFn fun j : Fin 2 => pow01 (t - .fin (g 0)) j * .fin ((segmentMatrix g)⁻¹ j i))

/-- `ParametrizedNearestSimplexExtrapolator.extrapolate` in one dimension, /repo/pyirf/interpolation/nearest_simplex_extrapolator.py:58-75 and 112-118, also for
targets that are not finite (`simplexExtrapolate1D` otherwise). -/
noncomputable def lineExtrapolate (grid : List ℝ) (params : ND (FV ℝ)) (t : FV ℝ) : Except Err (ND (FV ℝ)) :=
  let params := asParams params
  match grid.min? with
  | none => .error .valueError
  | some lo =>
    if grid.length < 2 ∨ params.shape.headD 0 < 2 then .error .indexError
    else
      let below := FV.lt t (.fin lo)
      let seg : Fin 2 → ℝ := if below then ![grid.getD 0 0, grid.getD 1 0] else ![grid.getD (grid.length - 2) 0, grid.getD (grid.length - 1) 0]
      let inds : Fin 2 → ℕ := if below then ![0, 1] else ![params.shape.headD 0 - 2, params.shape.headD 0 - 1]
      match segmentCoefficients seg t with
      | .error e => .error e
      | .ok c => combineRows c inds params

/-- the array of parameters: one row of shape `s` per grid point (entries outside the array are not read) -/
def stackRows (s : List ℕ) (rows : List (List ℕ → FV ℝ)) : ND (FV ℝ) :=
  ⟨rows.length :: s, fun idx => (rows.getD (idx.headD 0) fun _ => .fin 0) idx.tail⟩

/-- The class `ParametrizedNearestSimplexExtrapolator` (and `ParametrizedVisibleEdgesExtrapolator` with a valid `m`, which does the same in one dimension,
/repo/pyirf/interpolation/visible_edges_extrapolator.py:153-154) with parameters of shape `s` at each point,
/repo/pyirf/interpolation/nearest_simplex_extrapolator.py:28-127. `planar` is the extrapolator in two dimensions. -/
noncomputable def simplexExtrapolator (delaunay : Grid → Except Err Unit) (planar : Grid → List (List ℕ → FV ℝ) → Callable (List ℕ → FV ℝ)) (s : List ℕ) :
    ClsArg (List ℕ → FV ℝ) (List ℕ → FV ℝ) :=
  .cls fun grid rows => match simplexClassInit (delaunay grid) (gridShape grid) with
    | .error e => .error e
    | .ok (_, d) =>
      if d = 1 then .ok fun t => match lineExtrapolate (grid.map coord) (stackRows s rows) (t.headD .nan) with
        | .error e => .error e
        | .ok r => .ok fun idx => r.get (0 :: idx)
      else .ok (planar grid rows)

/-- The class `MomentMorphInterpolator` on a grid in one or more than two dimensions, /repo/pyirf/interpolation/moment_morph_interpolator.py:263-368; `planar` is the interpolator in
two dimensions. Targets that are not finite are never passed to it by an estimator. -/
noncomputable def morphInterpolator {n : ℕ} {C : Type*} (norm : Normalization) (edges : Fin (n + 2) → ℝ) (delaunay : Grid → Except Err Unit)
    (planar : Grid → List (C → Fin (n + 1) → ℝ) → Callable (C → Fin (n + 1) → FV ℝ)) : ClsArg (C → Fin (n + 1) → ℝ) (C → Fin (n + 1) → FV ℝ) :=
  .cls fun grid rows => match simplexClassInit (delaunay grid) (gridShape grid) with
    | .error e => .error e
    | .ok (_, d) =>
      if d = 1 then .ok fun t => match t with
        | [.fin x] => morphInterpolate1D norm edges (grid.map coord) (fun i => rows.getD i.val fun _ _ => 0) x
        | _ => .error .valueError
      else .ok (planar grid rows)

/-- distance of a grid point to a target with any float coordinates: NaN if one is NaN, otherwise infinite if one is infinite -/
noncomputable def distTo (p : ℕ) (g : List ℝ) (t : List (FV ℝ)) : FV ℝ :=
  if t.any FV.isNan then .nan
  else if t.all FV.isFinite then .fin (pDist p g (t.map fun | .fin x => x | _ => 0))
  else .pinf

/-- `np.argmin`: the first NaN, otherwise the first smallest number -/
noncomputable def argminV (l : List (FV ℝ)) : Except Err ℕ :=
  if l = [] then .error .valueError
  else if l.any FV.isNan then .ok (l.findIdx FV.isNan)
  else .ok (l.findIdx fun x => l.all fun y => FV.le x y)

/-- The classes `ParametrizedNearestNeighborSearcher` and `DiscretePDFNearestNeighborSearcher` as interpolator or extrapolator,
/repo/pyirf/interpolation/nearest_neighbor_searcher.py:17-167: the row of the nearest grid point, also for targets that are not finite. Rows have at least one axis. -/
noncomputable def nearestSearcher {ρ : Type*} (ord : NormOrd) : ClsArg ρ ρ :=
  .cls fun grid rows => match nearestClassInit (gridShape grid) ord with
    | .error e => .error e
    | .ok (_, _, p) => .ok fun t => match argminV (grid.map fun g => distTo p g t) with
      | .error e => .error e
      | .ok i => match rows[i]? with
        | none => .error .indexError
        | some r => .ok r

end Pyirf.Interpolation
