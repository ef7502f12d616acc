import Verif.Np.ND
import Mathlib.Analysis.SpecialFunctions.Pow.Real

/-!
# Model of /repo/pyirf/interpolation/nearest_neighbor_searcher.py

Grid points and targets are finite, given as lists of coordinates.
-/
set_option linter.unusedSectionVars false

namespace Pyirf.Interpolation
open Pyirf Pyirf.Np

/-- The argument `norm_ord`: an object that cannot be compared with 0, or a number. -/
inductive NormOrd
  | notNumber
  | num (x : FV ℝ)

/-- The checks of `norm_ord`, /repo/pyirf/interpolation/nearest_neighbor_searcher.py:51-64; the order as natural number on success. -/
noncomputable def checkOrd : NormOrd → Except Err ℕ
  | .notNumber => .error .valueError
  | .num x =>
    if FV.le x (.fin 0) || !x.isFinite then .error .valueError
    else match x with
      | .fin v => if v ≠ ⌊v⌋ then .error .valueError else .ok ⌊v⌋.toNat
      | _ => .error .valueError

/-- `np.linalg.norm(a - b, ord=p)` of two points with the same number of coordinates. -/
noncomputable def pDist (p : ℕ) (a b : List ℝ) : ℝ := ((List.zipWith (fun x y => |x - y| ^ p) a b).sum) ^ (1 / (p : ℝ))

/-- `np.argmin` of a nonempty array of finite numbers: the first index of a smallest value. (numpy raises ValueError for an empty array.) -/
noncomputable def argminR (l : List ℝ) : Except Err ℕ :=
  if l = [] then .error .valueError else .ok (l.findIdx fun x => l.all fun y => decide (x ≤ y))

/-- `BaseNearestNeighborSearcher(grid_points, values, norm_ord).interpolate(target_point)`,
/repo/pyirf/interpolation/nearest_neighbor_searcher.py:23-97. (The reshape of the target, lines 88-89, has no effect on the distances.) -/
noncomputable def nearestNeighbor {α : Type*} (ord : NormOrd) (grid : List (List ℝ)) (values : ND α) (t : List ℝ) : Except Err (ND α) :=
  match checkOrd ord with
  | .error e => .error e
  | .ok p => match argminR (grid.map fun g => pDist p g t) with
    | .error e => .error e
    | .ok i => values.row i

end Pyirf.Interpolation
