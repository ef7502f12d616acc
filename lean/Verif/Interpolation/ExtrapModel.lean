import Verif.Np.ND
import Verif.Interpolation.CoefModel
import Verif.Interpolation.FacetModel
import Verif.Interpolation.NearestModel
import Mathlib.Analysis.SpecialFunctions.Trigonometric.Inverse

/-!
# Model of ParametrizedNearestSimplexExtrapolator (/repo/pyirf/interpolation/nearest_simplex_extrapolator.py) and
ParametrizedVisibleEdgesExtrapolator (/repo/pyirf/interpolation/visible_edges_extrapolator.py)

Grid points and targets are finite; the triangulations computed by scipy are arguments.
-/
set_option linter.unusedSectionVars false

namespace Pyirf.Interpolation
open Pyirf Pyirf.Np

/-- the float zero -/
instance : Zero (FV ℝ) := ⟨.fin 0⟩

/-- sum of floats -/
noncomputable def fsum (l : List (FV ℝ)) : FV ℝ := l.foldr (· + ·) 0

/-- `ParametrizedExtrapolator.__init__`, /repo/pyirf/interpolation/base_extrapolators.py:75-78 (and base_interpolators.py:92-95): parameters
with one axis only get a second axis of length one. -/
def asParams {α : Type*} (a : ND α) : ND α :=
  match a.shape with
  | [n] => ⟨[n, 1], fun idx => a.get [idx.headD 0]⟩
  | _ => a

/-- `np.sum(coefficients.reshape(k, 1, ..., 1) * self.params[inds, :], axis=0)[np.newaxis, :]`,
/repo/pyirf/interpolation/nearest_simplex_extrapolator.py:68-75 and 87-94. Indices outside the array raise IndexError. The broadcasting of
the coefficients over the trailing axes is written out. -/
noncomputable def combineRows {k : ℕ} (c : Fin k → FV ℝ) (inds : Fin k → ℕ) (params : ND (FV ℝ)) : Except Err (ND (FV ℝ)) :=
  match params.shape with
  | n :: m :: s =>
    if ∀ i, inds i < n then .ok ⟨1 :: m :: s, fun idx => fsum (List.ofFn fun i => c i * params.get (inds i :: idx.tail))⟩
    else .error .indexError
  | _ => .error .indexError

/-- `ParametrizedNearestSimplexExtrapolator.extrapolate` in one dimension,
/repo/pyirf/interpolation/nearest_simplex_extrapolator.py:58-75 and 112-118: the first two grid points below the smallest grid point, else
the last two. Fewer than two points raise IndexError (an empty grid ValueError, from `min`). -/
noncomputable def simplexExtrapolate1D (grid : List ℝ) (params : ND (FV ℝ)) (t : ℝ) : Except Err (ND (FV ℝ)) :=
  let params := asParams params
  match grid.min? with
  | none => .error .valueError
  | some lo =>
    if grid.length < 2 ∨ params.shape.headD 0 < 2 then .error .indexError
    else
      let below := decide (t < lo)
      let seg : Fin 2 → ℝ := if below then ![grid.getD 0 0, grid.getD 1 0] else ![grid.getD (grid.length - 2) 0, grid.getD (grid.length - 1) 0]
      let inds : Fin 2 → ℕ := if below then ![0, 1] else ![params.shape.headD 0 - 2, params.shape.headD 0 - 1]
      match linesegmentCoefficients seg t with
      | .error e => .error e
      | .ok c => combineRows (fun i => .fin (c i)) inds params

/-- a point of the plane as pair -/
def toPair (x : Pt 0) : ℝ × ℝ := (x 0, x 1)

/-- `_extrapolate2D(simplices[ind], target_point)`, /repo/pyirf/interpolation/nearest_simplex_extrapolator.py:77-94. -/
noncomputable def simplexExtrapolate2D (T : Triangulation) (params : ND (FV ℝ)) (t : Pt 0) (ind : ℕ) : Except Err (ND (FV ℝ)) :=
  match T.simplices[ind]? with
  | none => .error .indexError
  | some s => combineRows (barycentricCoefficients (fun i => toPair T.points[s i]) (toPair t)) (fun i => (s i).val) params

/-- `ParametrizedNearestSimplexExtrapolator.extrapolate` in two dimensions, /repo/pyirf/interpolation/nearest_simplex_extrapolator.py:119-127. -/
noncomputable def nearestSimplexExtrapolate (argsort : List (FV ℝ × FV ℝ) → ℕ) (T : Triangulation) (params : ND (FV ℝ)) (t : Pt 0) : Except Err (ND (FV ℝ)) :=
  match findNearestSimplex argsort T t with
  | .error e => .error e
  | .ok ind => simplexExtrapolate2D T (asParams params) t ind

/-! ## Visible edges -/

open Classical in
/-- The vertices of a simplex that are not the target, /repo/pyirf/interpolation/visible_edges_extrapolator.py:43-57. -/
noncomputable def otherVertices (s : Fin 3 → Pt 0) (t : Pt 0) : List (Pt 0) := ((List.finRange 3).filter fun i => decide (s i ≠ t)).map s

open Classical in
/-- `find_visible_facets(grid_points, target_point)`, /repo/pyirf/interpolation/visible_edges_extrapolator.py:15-59; `TF` is the triangulation of the grid
points and the target. Every simplex with the target as a vertex must have it once (otherwise the array is inhomogeneous, ValueError). -/
noncomputable def findVisibleFacets (TF : Triangulation) (t : Pt 0) : Except Err (List Facet) :=
  ((TF.simplexPoints.filter fun s => decide (∃ i, s i = t)).mapM fun s =>
    match otherVertices s t with
    | [a, b] => .ok (a, b)
    | _ => .error .valueError)

/-- `np.arccos`: NaN outside [-1, 1]. -/
noncomputable def farccos : FV ℝ → FV ℝ
  | .fin x => if -1 ≤ x ∧ x ≤ 1 then .fin (Real.arccos x) else .nan
  | _ => .nan

/-- `x ** k` for a natural number `k` (only finite numbers and NaN occur) -/
noncomputable def fpow (k : ℕ) : FV ℝ → FV ℝ
  | .fin x => .fin (x ^ k)
  | x => x

/-- `compute_extrapolation_weights(visible_facet_points, target_point, m)`, /repo/pyirf/interpolation/visible_edges_extrapolator.py:62-93. -/
noncomputable def extrapolationWeights (facets : List Facet) (t : Pt 0) (m : ℕ) : List (FV ℝ) :=
  let weights := facets.map fun f => fpow (m + 1) (farccos (pointFacetAngle f.1 f.2 t))
  weights.map fun w => w / fsum weights

/-- The checks of `m`, /repo/pyirf/interpolation/visible_edges_extrapolator.py:140-150. -/
noncomputable def checkM : NormOrd → Except Err ℕ
  | .notNumber => .error .typeError
  | .num x =>
    if FV.le x (.fin 0) || !x.isFinite then .error .valueError
    else match x with
      | .fin v => if v ≠ ⌊v⌋ then .error .valueError else .ok ⌊v⌋.toNat
      | _ => .error .valueError

/-- `ParametrizedVisibleEdgesExtrapolator.extrapolate` in two dimensions, /repo/pyirf/interpolation/visible_edges_extrapolator.py:155-198, with all
array shapes. (In one dimension it is `simplexExtrapolate1D`, lines 153-154.) -/
noncomputable def visibleEdgesExtrapolate (argsort : List (FV ℝ × FV ℝ) → ℕ) (T TF : Triangulation) (m : ℕ) (params : ND (FV ℝ)) (t : Pt 0) :
    Except Err (ND (FV ℝ)) :=
  match findVisibleFacets TF t with
  | .error e => .error e
  | .ok facets =>
    if facets.length = 1 then nearestSimplexExtrapolate argsort T params t
    else
      let params := asParams params
      match facets.mapM fun f => findSimplexToFacet T.simplexPoints f with
      | .error e => .error e
      | .ok inds =>
        let w := extrapolationWeights facets t m
        let W : ND (FV ℝ) := ⟨w.length :: List.replicate (params.shape.length - 1) 1, fun idx => w.getD (idx.headD 0) 0⟩
        match inds.mapM fun ind => simplexExtrapolate2D T params t ind with
        | .error e => .error e
        | .ok ext =>
          let ext := ext.map ND.squeeze
          match W.mul (ND.stack ((ext.map ND.shape).headD []) ext 0) with
          | .error e => .error e
          | .ok prod => prod.sum0.newaxis

end Pyirf.Interpolation
