import Verif.Np.Close
import Mathlib.Analysis.Real.Sqrt
import Mathlib.Algebra.BigOperators.Fin

/-!
# Model of the geometric helpers of /repo/pyirf/interpolation/utils.py

Points are finite. Divisions are float divisions. Points in two or more dimensions are functions `Fin (k+2) → ℝ`.
-/
set_option linter.unusedSectionVars false

namespace Pyirf.Interpolation
open Pyirf Pyirf.Np

/-- A point with `k + 2` coordinates. -/
abbrev Pt (k : ℕ) := Fin (k + 2) → ℝ

/-- `np.dot` of two vectors -/
def dot {k : ℕ} (x y : Pt k) : ℝ := ∑ i, x i * y i

/-- `np.linalg.norm` of a vector -/
noncomputable def norm2 {k : ℕ} (x : Pt k) : ℝ := Real.sqrt (∑ i, x i ^ 2)

/-- `np.linalg.norm(np.cross(x, y))` in two dimensions -/
def crossNorm2 (x y : Pt 0) : ℝ := |x 0 * y 1 - x 1 * y 0|

/-- `np.linalg.norm(np.cross(x, y))` in three dimensions -/
noncomputable def crossNorm3 (x y : Pt 1) : ℝ :=
  Real.sqrt ((x 1 * y 2 - x 2 * y 1) ^ 2 + (x 2 * y 0 - x 0 * y 2) ^ 2 + (x 0 * y 1 - x 1 * y 0) ^ 2)

/-- The footpoint `F = A + np.dot(P - A, B - A) * (B - A) / np.dot(B - A, B - A)`, /repo/pyirf/interpolation/utils.py:42-43. -/
noncomputable def footPoint {k : ℕ} (A B P : Pt k) : Fin (k + 2) → FV ℝ :=
  fun i => .fin (A i) + .fin (dot (P - A) (B - A) * (B i - A i)) / .fin (dot (B - A) (B - A))

/-- The parameter of the footpoint on the line from `A` to `B`, /repo/pyirf/interpolation/utils.py:46-54: `(F[c] - A[c]) / (B[c] - A[c])` with `c = 1` if
the first coordinates agree, else `c = 0`. -/
noncomputable def footParam {k : ℕ} (A B P : Pt k) : FV ℝ :=
  if B 0 - A 0 = 0 then (footPoint A B P 1 - .fin (A 1)) / .fin (B 1 - A 1)
  else (footPoint A B P 0 - .fin (A 0)) / .fin (B 0 - A 0)

/-- `np.abs` of a float -/
def fabs : FV ℝ → FV ℝ
  | .fin x => .fin |x|
  | .nan => .nan
  | _ => .pinf

/-- `np.isclose(a, b)` with the default tolerances -/
noncomputable def isclose5 (a b : FV ℝ) : Bool := isclose (1e-5 : ℝ) (1e-8 : ℝ) a b

/-- `plumb_point_dist(line, target)`, /repo/pyirf/interpolation/utils.py:18-69, for the norm of the cross product of the dimension at hand. -/
noncomputable def plumbPointDist {k : ℕ} (crossNorm : Pt k → Pt k → ℝ) (A B P : Pt k) : FV ℝ :=
  let r1 := footParam A B P
  let r2 := footParam B A P
  if isclose5 (fabs r1 + fabs r2) (.fin 1) && !(isclose5 r1 (.fin 0) || isclose5 r2 (.fin 0)) then
    .fin (crossNorm (P - A) (B - A)) / .fin (norm2 (B - A))
  else .fin (min (norm2 (A - P)) (norm2 (B - P)))

/-- `point_facet_angle(line, target)`, /repo/pyirf/interpolation/utils.py:72-92. -/
noncomputable def pointFacetAngle {k : ℕ} (A B P : Pt k) : FV ℝ :=
  .fin (dot (B - P) (A - P)) / .fin (norm2 (A - P) * norm2 (B - P))

/-- A facet: its two end points. -/
abbrev Facet := Pt 0 × Pt 0

/-- the sort key of a facet, /repo/pyirf/interpolation/utils.py:114-120 -/
noncomputable def facetKey (f : Facet) (P : Pt 0) : FV ℝ × FV ℝ := (plumbPointDist crossNorm2 f.1 f.2 P, pointFacetAngle f.1 f.2 P)

/-- The order in which numpy sorts records with two float fields: by the first field, then by the second; NaN above everything. -/
noncomputable def keyLt (a b : FV ℝ × FV ℝ) : Bool := FV.sortLt a.1 b.1 || (!FV.sortLt b.1 a.1 && FV.sortLt a.2 b.2)

/-- What `np.argsort(keys)[0]` returns for a nonempty array: an index of a smallest key (any of them, the sort is not stable). -/
def IsArgsortFirst (keys : List (FV ℝ × FV ℝ)) (i : ℕ) : Prop :=
  ∃ h : i < keys.length, ∀ (j : ℕ) (hj : j < keys.length), keyLt keys[j] keys[i] = false

/-- `find_nearest_facet(qhull_points, target)`, /repo/pyirf/interpolation/utils.py:95-122; `argsort` is the numpy function that returns
the first index of the sorted order. An empty list of facets raises IndexError. -/
noncomputable def findNearestFacet (argsort : List (FV ℝ × FV ℝ) → ℕ) (facets : List Facet) (P : Pt 0) : Except Err ℕ :=
  if facets = [] then .error .indexError else .ok (argsort (facets.map fun f => facetKey f P))

/-- `np.argmax` of a list of numbers: the first index of a largest one; ValueError if it is empty. -/
def argmaxNat (l : List ℕ) : Except Err ℕ :=
  if l = [] then .error .valueError else .ok (l.findIdx fun x => l.all fun y => decide (y ≤ x))

open Classical in
/-- number of vertices of a simplex equal to one of the two facet points, /repo/pyirf/interpolation/utils.py:145-151 -/
noncomputable def facetMatches (s : Fin 3 → Pt 0) (f : Facet) : ℕ :=
  ((List.finRange 3).filter fun i => decide (s i = f.1) || decide (s i = f.2)).length

/-- `find_simplex_to_facet(simplices_points, facet_points)`, /repo/pyirf/interpolation/utils.py:125-151. -/
noncomputable def findSimplexToFacet (simplices : List (Fin 3 → Pt 0)) (f : Facet) : Except Err ℕ :=
  argmaxNat (simplices.map fun s => facetMatches s f)

/-- The parts of a `scipy.spatial.Delaunay` object that are used: the points, for every simplex the indices of its vertices, for every facet
of the convex hull the indices of its end points. -/
structure Triangulation where
  /-- `triangulation.points` -/
  points : List (Pt 0)
  /-- `triangulation.simplices` -/
  simplices : List (Fin 3 → Fin points.length)
  /-- `triangulation.convex_hull` -/
  hull : List (Fin points.length × Fin points.length)

/-- `triangulation.points[triangulation.simplices]` -/
def Triangulation.simplexPoints (T : Triangulation) : List (Fin 3 → Pt 0) := T.simplices.map fun s i => T.points[s i]
/-- `triangulation.points[triangulation.convex_hull]` -/
def Triangulation.hullPoints (T : Triangulation) : List Facet := T.hull.map fun f => (T.points[f.1], T.points[f.2])

/-- `find_nearest_simplex(triangulation, target)`, /repo/pyirf/interpolation/utils.py:154-181. -/
noncomputable def findNearestSimplex (argsort : List (FV ℝ × FV ℝ) → ℕ) (T : Triangulation) (P : Pt 0) : Except Err ℕ :=
  match findNearestFacet argsort T.hullPoints P with
  | .error e => .error e
  | .ok k => match T.hullPoints[k]? with
    | none => .error .indexError
    | some f => findSimplexToFacet T.simplexPoints f

end Pyirf.Interpolation
