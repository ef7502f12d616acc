import Verif.Np.Bins
import Verif.Np.Close
import Mathlib.Algebra.BigOperators.Fin
import Mathlib.Analysis.SpecialFunctions.Log.Base
import Mathlib.Data.List.Sort
import Mathlib.Data.String.Basic

/-!
# Model of /repo/pyirf/binning.py

Quantities are plain values in one common unit (unit conversion is astropy's).
-/
set_option linter.unusedSectionVars false

namespace Pyirf.Binning
open Pyirf

variable {K : Type*}

/-- `UNDERFLOW_INDEX = np.iinfo(np.int64).min`, /repo/pyirf/binning.py:13-14 -/
def UNDERFLOW_INDEX : ℤ := -2 ^ 63

/-- `OVERFLOW_INDEX = np.iinfo(np.int64).max`, /repo/pyirf/binning.py:15-16 -/
def OVERFLOW_INDEX : ℤ := 2 ^ 63 - 1

section order
variable [Field K] [LinearOrder K]

/-- `bin_center(edges)`, /repo/pyirf/binning.py:19-20: `0.5 * (edges[:-1] + edges[1:])`. -/
def binCenter (edges : List (FV K)) : List (FV K) :=
  List.zipWith (fun a b => FV.fin (1 / 2) * (a + b)) edges.dropLast edges.tail

/-- `join_bin_lo_hi(bin_lo, bin_hi)`, /repo/pyirf/binning.py:23-47.
The leading axes are flattened to a list of rows; the rows of `lo` and `hi` are paired up (numpy's
broadcasting of unequal shapes is not modelled). `rtol=1e-5` is written in the code, `atol=1e-8` is
numpy's default. -/
def joinBinLoHi (lo hi : List (List (FV K))) : Except Err (List (List (FV K))) :=
  if (List.zipWith (fun l h => Np.allclose (1 / 10 ^ 5) (1 / 10 ^ 8) l.tail h.dropLast) lo hi).all id then
    .ok (List.zipWith (fun l h => l ++ h.getLast?.toList) lo hi)
  else
    .error .valueError

/-- `split_bin_lo_hi(bins)`, /repo/pyirf/binning.py:50-69 (rows as in `joinBinLoHi`). -/
def splitBinLoHi (bins : List (List (FV K))) : List (List (FV K)) × List (List (FV K)) :=
  (bins.map List.dropLast, bins.map List.tail)

/-- `add_overflow_bins(bins, positive)`, /repo/pyirf/binning.py:72-96. `bins[0]` of an empty array
raises IndexError. The unit of the edges is dropped. -/
def addOverflowBins (bins : List (FV K)) (positive : Bool) : Except Err (List (FV K)) :=
  let lower : FV K := if positive then .fin 0 else .ninf
  let upper : FV K := .pinf
  match bins with
  | [] => .error .indexError
  | b0 :: rest =>
    let bins1 := if FV.gt b0 lower then lower :: b0 :: rest else b0 :: rest
    let bins2 := if (bins1.getLast?.map (fun e => FV.lt e upper)) = some true then bins1 ++ [upper] else bins1
    .ok bins2

/-- One element of `calculate_bin_indices`, /repo/pyirf/binning.py:172-180, given
`digitized = np.digitize(x, bins)`.  Both masks are computed before the index is overwritten. -/
def binIndexOf (nEdges : ℕ) (digitized : ℕ) : ℤ × Bool :=
  let nBins : ℤ := (nEdges : ℤ) - 1
  let idx : ℤ := (digitized : ℤ) - 1
  let underflow : Bool := decide (idx < 0)
  let overflow : Bool := decide (idx ≥ nBins)
  let idx1 := if underflow then UNDERFLOW_INDEX else idx
  let idx2 := if overflow then OVERFLOW_INDEX else idx1
  (idx2, !underflow && !overflow)

/-- `calculate_bin_indices(data, bins)`, /repo/pyirf/binning.py:133-180. The two flags tell whether
`data` and `bins` carry a unit (165-167: TypeError). `np.digitize` raises ValueError for edges that
are not monotone, also when `data` is empty. Data without a unit and edges with one (astropy's `digitize`
refuses that unless all data are 0, NaN or infinite) is not modelled: no theorem is about it. -/
def calculateBinIndices (dataHasUnit binsHasUnit : Bool) (data bins : List (FV K)) :
    Except Err (List (ℤ × Bool)) :=
  if dataHasUnit && !binsHasUnit then .error .typeError
  else if Np.monotonicity bins = 0 then .error .valueError
  else .ok (data.map fun x =>
    match Np.digitize bins x with
    | .ok c => binIndexOf bins.length c
    | .error _ => (UNDERFLOW_INDEX, false))  -- not reached: monotonicity was checked
end order

/-! ## create_histogram_table -/

/-- One event: the value of the `key` column, its weight and particle type (the last two are only
read if the table has these columns). -/
structure Event (K : Type*) where
  /-- value of the histogrammed column -/
  key : FV K
  /-- `weight` column -/
  weight : K
  /-- `particle_type` column -/
  particle : String

/-- An event table: which optional columns exist, and the rows. -/
structure EventTable (K : Type*) where
  /-- `"weight" in events.colnames` -/
  hasWeight : Bool
  /-- `"particle_type" in events.colnames` -/
  hasParticle : Bool
  /-- the rows -/
  rows : List (Event K)

/-- The count columns of a histogram table: a dictionary from column names to columns. -/
abbrev Cols (K : Type*) := String → Option (List K)

/-- Assign a column (`hist[name] = values`), replacing an existing one. -/
def Cols.set (c : Cols K) (name : String) (v : List K) : Cols K := fun s => if s = name then some v else c s

/-- The output of `create_histogram_table`. -/
structure HistTable (K : Type*) where
  /-- `<key>_low` -/
  low : List (FV K)
  /-- `<key>_high` -/
  high : List (FV K)
  /-- `<key>_center` -/
  center : List (FV K)
  /-- the columns `n`, `n_weighted`, `n_<particle>`, `n_<particle>_weighted` -/
  cols : Cols K

section hist
variable [Field K] [LinearOrder K]

/-- values with weight 1: `np.histogram(x, bins)` counts -/
def unitWeights (evs : List (Event K)) : List (FV K × K) := evs.map fun e => (e.key, 1)
/-- values with their weights -/
def withWeights (evs : List (Event K)) : List (FV K × K) := evs.map fun e => (e.key, e.weight)

/-- The group keys of `events.group_by("particle_type")`: distinct values, sorted. -/
def groupKeys (evs : List (Event K)) : List String := ((evs.map Event.particle).dedup).insertionSort (· ≤ ·)

/-- The two columns written for one particle type, /repo/pyirf/binning.py:220-232. -/
def addParticle (bins : List (FV K)) (hasWeight : Bool) (evs : List (Event K)) (c : Cols K) (p : String) :
    Except Err (Cols K) := do
  let group := evs.filter (fun e => e.particle = p)
  let n ← Np.histogram bins (unitWeights group)
  let c1 := c.set ("n_" ++ p) n
  let w ← if hasWeight then Np.histogram bins (withWeights group) else pure n
  pure (c1.set ("n_" ++ p ++ "_weighted") w)

/-- `create_histogram_table(events, bins, key)`, /repo/pyirf/binning.py:183-234.  `key` has been
applied already (`Event.key`). -/
def createHistogramTable (events : EventTable K) (bins : List (FV K)) : Except Err (HistTable K) := do
  let n ← Np.histogram bins (unitWeights events.rows)
  let c0 : Cols K := fun _ => none
  let c1 := c0.set "n" n
  let w ← if events.hasWeight then Np.histogram bins (withWeights events.rows) else pure n
  let c2 := c1.set "n_weighted" w
  let c3 ← if events.hasParticle && decide (0 < events.rows.length) then
      (groupKeys events.rows).foldlM (addParticle bins events.hasWeight events.rows) c2
    else pure c2
  pure ⟨bins.dropLast, bins.tail, binCenter bins, c3⟩
end hist

/-! ## create_bins_per_decade -/

/-- `np.arange(start, stop, step)` for `step > 0`: `ceil((stop-start)/step)` values
`start + k*step` (none if that is not positive). -/
noncomputable def arange (start stop step : ℝ) : List ℝ :=
  (List.range ⌈(stop - start) / step⌉.toNat).map fun k : ℕ => start + (k : ℝ) * step

/-- `create_bins_per_decade(e_min, e_max, bins_per_decade)`, /repo/pyirf/binning.py:99-130, for
positive energies in the unit of `e_min`. -/
noncomputable def createBinsPerDecade (eMin eMax : ℝ) (binsPerDecade : ℕ) : List ℝ :=
  let logLower := Real.logb 10 eMin
  let logUpper := Real.logb 10 eMax
  let step : ℝ := 1 / binsPerDecade
  let eps := step / 10000
  (arange logLower (logUpper + eps) step).map fun x => (10 : ℝ) ^ x

/-! ## resample_histogram1d -/

section resample
variable [Field K] [LinearOrder K]

/-- The finite number in a float; only used where the value is finite. -/
def finVal : FV K → K
  | .fin x => x
  | _ => 0

/-- Lines 268-275 of /repo/pyirf/binning.py: infinite outer edges are replaced by the neighbouring edge
shifted by `old_edges[-2] - old_edges[1]`. `n + 1` is the number of edges (at least 3, see
`resampleHistogram1d`). -/
def fixOldEdges {n : ℕ} (old : Fin (n + 2) → FV K) : Fin (n + 2) → K :=
  let second : FV K := old ⟨1, by omega⟩
  let secondLast : FV K := old ⟨n, by omega⟩
  let width := secondLast - second
  fun i => finVal (FV.nanToNum (secondLast + width) (second - width) (old i))

/-- `np.insert(data.cumsum(), 0, 0)`, /repo/pyirf/binning.py:281. -/
def cumsum0 {n : ℕ} (data : Fin n → K) (i : Fin (n + 1)) : K :=
  ∑ j : Fin n, if j.val < i.val then data j else 0

/-- `interp1d(x, y, bounds_error=False, fill_value=(0, 1))(t)`: 0 below, 1 above the nodes, the
interpolant in between. -/
def interpFill {m : ℕ} (spline : (Fin (m + 1) → K) → (Fin (m + 1) → K) → K → K)
    (xs ys : Fin (m + 1) → K) (t : K) : K :=
  if t < xs 0 then 0 else if xs (Fin.last m) < t then 1 else spline xs ys t

/-- `resample_histogram1d(data, old_edges, new_edges)`, /repo/pyirf/binning.py:237-300, along one line of
the interpolation axis (the code treats each line independently). `spline` is scipy's quadratic spline
interpolant and `big` the largest float, by which `np.nan_to_num` replaces `inf` in the new edges.
The histogram has `n + 1` bins; floating point data is assumed (integer data fails at line 285).
A quadratic spline needs three nodes: for a single bin `interp1d` raises ValueError. -/
def resampleHistogram1d {n m : ℕ}
    (spline : (Fin (n + 2) → K) → (Fin (n + 2) → K) → K → K) (big : K)
    (data : Fin (n + 1) → K) (old : Fin (n + 2) → FV K) (new : Fin (m + 1) → FV K) :
    Except Err (Fin m → K) :=
  if n = 0 then .error .valueError else
  let oldE := fixOldEdges old
  let newE : Fin (m + 1) → K := fun j => finVal (FV.nanToNum (.fin big) (.fin (-big)) (new j))
  let total := ∑ j, data j
  let norm := if total = 0 then 1 else total
  let cum : Fin (n + 2) → K := fun i => cumsum0 data i / norm
  let f := interpFill spline oldE cum
  .ok fun j => (f (newE j.succ) - f (newE j.castSucc)) * norm
end resample

end Pyirf.Binning
