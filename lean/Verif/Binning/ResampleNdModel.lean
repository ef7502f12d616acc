import Verif.Np.Axis
import Verif.Io.GadfModel

/-!
# Model of `resample_histogram1d` for arrays with several axes, with units

`Verif/Binning/Model.lean` models one line of the interpolation axis with edges in one unit. Here is the whole function: all axes, the units of the
contents and of the two sets of edges, the data type, and the errors.
-/
set_option linter.unusedSectionVars false

namespace Pyirf.Binning
open Pyirf Pyirf.Np Pyirf.Io

variable {K : Type*} [Field K] [LinearOrder K]

/-- `interp1d(x, y, bounds_error=False, fill_value=(0, 1), kind="quadratic", axis=k)(t)`: ValueError if `x` and `y` differ in length along the axis,
or for fewer than three nodes; every line along the axis is interpolated. -/
def interpAxis {n m : ℕ} (spline : (Fin (n + 1) → K) → (Fin (n + 1) → K) → K → K) (xs : Fin (n + 1) → K) (y : ND K) (k : ℕ) (ts : Fin m → K) :
    Except Err (ND K) :=
  if y.shape.getD k 0 ≠ n + 1 then .error .valueError
  else if n + 1 < 3 then .error .valueError
  else .ok ⟨y.shape.set k m, fun idx =>
    if h : idx.getD k 0 < m then interpFill spline xs (fun i => y.get (idx.set k i.val)) (ts ⟨_, h⟩) else 0⟩

/-- The argument `data`: a plain array of floats or of integers, or a Quantity (whose numbers are floats). -/
inductive HistData (K : Type*)
  /-- a float array -/
  | floats (a : ND K)
  /-- an integer array -/
  | ints (a : ND ℤ)
  /-- a Quantity in the given unit -/
  | quantity (a : ND K) (unit : PhysUnit K)

/-- An array of edges: the numbers and, for a Quantity, the unit. -/
structure Edges (K : Type*) (n : ℕ) where
  /-- the numbers -/
  value : Fin n → FV K
  /-- the unit of a Quantity -/
  unit : Option (PhysUnit K)

/-- Lines 281-296 of /repo/pyirf/binning.py on a float array, for the edges as plain numbers in one unit. -/
def resampleAxis {n m : ℕ} (spline : (Fin (n + 2) → K) → (Fin (n + 2) → K) → K → K) (data : ND K) (old : Fin (n + 2) → K) (new : Fin (m + 1) → K) (k : ℕ) :
    Except Err (ND K) :=
  let cum := (data.cumsum k).insertZero k
  let norm0 := data.sumKeep k
  let norm : ND K := ⟨norm0.shape, fun idx => if norm0.get idx = 0 then 1 else norm0.get idx⟩
  match ND.zip (· / ·) cum norm with
  | .error e => .error e
  | .ok c => match interpAxis spline old c k new with
    | .error e => .error e
    | .ok f => ND.zip (· * ·) (f.diff k) norm

/-- `resample_histogram1d(data, old_edges, new_edges, axis)`, /repo/pyirf/binning.py:237-300. `old` has any number of edges (IndexError for fewer than two,
line 268), `new` at least one. Lines 269-279 replace the infinite edges and convert the old edges to the unit of the new ones (edges without a unit are
dimensionless); line 281 raises AxisError (a ValueError) for an axis that does not exist; the division in place in line 285 raises
UFuncTypeError (a TypeError) for integers. The result has the unit of the data. Arrays without axes are not modelled, and old edges are meant to be
increasing (`interp1d` sorts others). `spline` is scipy's quadratic interpolant, `big` the largest float. -/
def resampleHistogram {N m : ℕ} (spline : ∀ n, (Fin n → K) → (Fin n → K) → K → K) (big : K) (data : HistData K) (old : Edges K N) (new : Edges K (m + 1))
    (axis : ℤ) : Except Err (ND K × Option (PhysUnit K)) :=
  match N, old with
  | 0, _ => .error .indexError
  | 1, _ => .error .indexError
  | n + 2, old =>
    let ou := old.unit.getD unitOne
    let nu := new.unit.getD unitOne
    let fixed := fixOldEdges old.value
    let newE : Fin (m + 1) → K := fun j => finVal (FV.nanToNum (.fin big) (.fin (-big)) (new.value j))
    if ou.dim ≠ nu.dim then .error .unitsError else
    let oldE : Fin (n + 2) → K := fun i => ou.scale / nu.scale * fixed i
    match data with
    | .ints a => match ND.normAxis a.shape.length axis with
      | .error e => .error e
      | .ok _ => .error .typeError
    | .floats a => match ND.normAxis a.shape.length axis with
      | .error e => .error e
      | .ok k => match resampleAxis (spline (n + 2)) a oldE newE k with
        | .error e => .error e
        | .ok r => .ok (r, none)
    | .quantity a un => match ND.normAxis a.shape.length axis with
      | .error e => .error e
      | .ok k => match resampleAxis (spline (n + 2)) a oldE newE k with
        | .error e => .error e
        | .ok r => .ok (r, some un)

end Pyirf.Binning
