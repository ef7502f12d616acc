import Verif.Binning.Model
import Verif.Np.Percentile
import Mathlib.Analysis.SpecialFunctions.Exp

/-!
# Model of /repo/pyirf/cuts.py

Values are floats in one common unit (the unit conversions of lines 58-69 and 81-93 are astropy's).
-/
set_option linter.unusedSectionVars false

namespace Pyirf.Cuts
open Pyirf Pyirf.Binning

variable {K : Type*}

/-- A cut table (`low`, `high`, `center`, `n_events`, `cut`). `C` is the type of one cell of the column `cut`:
a float for a scalar percentile, a list of floats for a list of percentiles. -/
structure CutTable (K : Type*) (C : Type*) where
  /-- column `low` -/
  low : List (FV K)
  /-- column `high` -/
  high : List (FV K)
  /-- column `center` -/
  center : List (FV K)
  /-- column `n_events` -/
  nEvents : List ℕ
  /-- column `cut` -/
  cut : List C

section core
variable [Field K] [LinearOrder K]

/-- The keys of astropy's `table.group_by(index)` (/repo/pyirf/cuts.py:72, /repo/pyirf/benchmarks/energy_bias_resolution.py:113,
/repo/pyirf/benchmarks/angular_resolution.py:73) for the column `index` of bin numbers: the distinct ones in increasing order. On a table without
rows astropy looks up the key of a first group that does not exist and raises IndexError. -/
def groupedBy (index : List ℕ) : Except Err (List ℕ) :=
  if index = [] then .error .indexError else .ok (index.dedup.insertionSort (· ≤ ·))

/-- One pass of the loop over the groups, /repo/pyirf/cuts.py:95-107. -/
def cutStep {C : Type*} (pct : List (FV K) → Except Err C) (clip : C → C) (fill : C) (minEvents : ℤ)
    (byBin : List (ℕ × FV K)) (tab : CutTable K C) (k : ℕ) : Except Err (CutTable K C) :=
  let group := (byBin.filter (fun e => e.1 = k)).map Prod.snd
  let n := group.length
  let tab1 : CutTable K C := { tab with nEvents := tab.nEvents.set k n }
  if (n : ℤ) < minEvents then
    .ok { tab1 with cut := tab1.cut.set k fill }
  else
    match pct group with
    | .ok v => .ok { tab1 with cut := tab1.cut.set k (clip v) }
    | .error e => .error e

/-- `calculate_percentile_cut` without smoothing, /repo/pyirf/cuts.py:71-107 (the units of lines 58-69, 80-83 and 92-93 are not modelled): bin the events
(`evs`: pairs of value and bin value), group the valid ones by bin, and fill the table group by group in the order of
the bin index. `pct` computes the percentile(s) of a group and `clip` clips them. -/
def cutTable {C : Type*} (pct : List (FV K) → Except Err C) (clip : C → C) (fill : C) (minEvents : ℤ)
    (evs : List (FV K × FV K)) (bins : List (FV K)) : Except Err (CutTable K C) :=
  match calculateBinIndices false false (evs.map Prod.snd) bins with
  | .error e => .error e
  | .ok idx =>
    let byBin : List (ℕ × FV K) :=
      ((idx.zip (evs.map Prod.fst)).filter (fun e => e.1.2)).map (fun e => (e.1.1.toNat, e.2))
    let init : CutTable K C :=
      ⟨bins.dropLast, bins.tail, binCenter bins, List.replicate (bins.length - 1) 0,
        List.replicate (bins.length - 1) fill⟩
    match groupedBy (byBin.map Prod.fst) with
    | .error e => .error e
    | .ok keys => keys.foldlM (cutStep pct clip fill minEvents byBin) init

/-- `np.clip(value, min_value, max_value)`, /repo/pyirf/cuts.py:104-105; `none` is python's None. -/
def clipOpt (minV maxV : Option (FV K)) (v : FV K) : FV K :=
  let v1 := match minV with | some m => FV.maximum v m | none => v
  match maxV with | some m => FV.minimum v1 m | none => v1
end core

section pct
variable [Field K] [LinearOrder K] [IsStrictOrderedRing K] [FloorRing K]

/-- `calculate_percentile_cut(values, bin_values, bins, fill_value, percentile, min_value, max_value, min_events)`
for a scalar percentile and no smoothing, /repo/pyirf/cuts.py:17-107. -/
def percentileCut (evs : List (FV K × FV K)) (bins : List (FV K)) (fill : FV K) (percentile : K)
    (minV maxV : Option (FV K)) (minEvents : ℤ) : Except Err (CutTable K (FV K)) :=
  cutTable (fun g => Np.nanpercentile g percentile) (clipOpt minV maxV) fill minEvents evs bins

/-- The same for a list of percentiles (lines 89-90, 103): each cell of `cut` is a row of cuts. -/
def percentileCuts (evs : List (FV K × FV K)) (bins : List (FV K)) (fill : FV K) (percentiles : List K)
    (minV maxV : Option (FV K)) (minEvents : ℤ) : Except Err (CutTable K (List (FV K))) :=
  cutTable (fun g => percentiles.mapM (fun p => Np.nanpercentile g p))
    (fun vs => vs.map (clipOpt minV maxV)) (percentiles.map fun _ => fill) minEvents evs bins
end pct

/-! ## Smoothing -/

/-- Half width of scipy's gaussian kernel: `int(4.0 * sigma + 0.5)`. -/
noncomputable def kernelRadius (sigma : ℝ) : ℕ := ⌊4 * sigma + 1 / 2⌋.toNat

/-- The normalized kernel of `scipy.ndimage.gaussian_filter1d`, entry `j` of `2*radius + 1`. -/
noncomputable def gaussKernel (sigma : ℝ) (j : ℕ) : ℝ :=
  let lw := kernelRadius sigma
  let phi := fun k : ℕ => Real.exp (-(1 / 2) / sigma ^ 2 * ((k : ℝ) - lw) ^ 2)
  phi j / ∑ k ∈ Finset.range (2 * lw + 1), phi k

/-- `gaussian_filter1d(x, sigma, mode="nearest")` along a one-dimensional array: every entry becomes the
kernel-weighted sum of its neighbours, indices clamped to the array. For positive `sigma` only (0 and clearly negative numbers
raise an exception in scipy). -/
noncomputable def gaussianFilter1d (sigma : ℝ) (xs : List (FV ℝ)) : List (FV ℝ) :=
  let lw := kernelRadius sigma
  (List.range xs.length).map fun i =>
    (List.range (2 * lw + 1)).foldl
      (fun acc j => acc + FV.fin (gaussKernel sigma j) * xs.getD (min (i + j - lw) (xs.length - 1)) .nan) (.fin 0)

/-- `calculate_percentile_cut(..., smoothing=sigma)` for a scalar percentile: lines 109-114 of
/repo/pyirf/cuts.py smooth the one-dimensional column `cut`. -/
noncomputable def percentileCutSmoothed (evs : List (FV ℝ × FV ℝ)) (bins : List (FV ℝ)) (fill : FV ℝ)
    (percentile : ℝ) (minV maxV : Option (FV ℝ)) (smoothing : Option ℝ) (minEvents : ℤ) :
    Except Err (CutTable ℝ (FV ℝ)) :=
  match percentileCut evs bins fill percentile minV maxV minEvents with
  | .error e => .error e
  | .ok t => .ok (match smoothing with
    | none => t
    | some sigma => { t with cut := gaussianFilter1d sigma t.cut })

/-- The same for a list of percentiles: the column is two-dimensional and `gaussian_filter1d` works on its last
axis (scipy's default `axis=-1`), i.e. on each row of percentiles. -/
noncomputable def percentileCutsSmoothed (evs : List (FV ℝ × FV ℝ)) (bins : List (FV ℝ)) (fill : FV ℝ)
    (percentiles : List ℝ) (minV maxV : Option (FV ℝ)) (smoothing : Option ℝ) (minEvents : ℤ) :
    Except Err (CutTable ℝ (List (FV ℝ))) :=
  match percentileCuts evs bins fill percentiles minV maxV minEvents with
  | .error e => .error e
  | .ok t => .ok (match smoothing with
    | none => t
    | some sigma => { t with cut := t.cut.map (gaussianFilter1d sigma) })

/-! ## Evaluating cuts -/

section eval
variable [Field K] [LinearOrder K]

/-- Indexing a numpy array with an integer: negative indices count from the end, otherwise IndexError. -/
def npIndex {C : Type*} (l : List C) (i : ℤ) : Except Err C :=
  if 0 ≤ i then (match l[i.toNat]? with | some c => .ok c | none => .error .indexError)
  else if 0 ≤ i + l.length then
    (match l[(i + l.length).toNat]? with | some c => .ok c | none => .error .indexError)
  else .error .indexError

/-- One element of `evaluate_binned_cut_by_index`, /repo/pyirf/cuts.py:148-150. -/
def evalOne {C : Type*} (cut : List C) (op : FV K → C → Bool) (e : FV K × (ℤ × Bool)) : Except Err Bool :=
  if e.2.2 then (match npIndex cut e.2.1 with | .ok c => .ok (op e.1 c) | .error x => .error x) else .ok false

/-- `evaluate_binned_cut_by_index(values, bin_index, valid, cut_table, op)`, /repo/pyirf/cuts.py:119-150.
`isQTable` tells whether `cut_table` is a QTable (lines 145-146). -/
def evaluateBinnedCutByIndex {C : Type*} (isQTable : Bool) (values : List (FV K)) (index : List (ℤ × Bool))
    (table : CutTable K C) (op : FV K → C → Bool) : Except Err (List Bool) :=
  if !isQTable then .error .valueError
  else (values.zip index).mapM (evalOne table.cut op)

/-- `evaluate_binned_cut(values, bin_values, cut_table, op)`, /repo/pyirf/cuts.py:153-190. The bins are the `low` column
followed by the last entry of `high` (IndexError for an empty table). -/
def evaluateBinnedCut {C : Type*} (isQTable : Bool) (values binValues : List (FV K)) (table : CutTable K C)
    (op : FV K → C → Bool) : Except Err (List Bool) :=
  if !isQTable then .error .valueError
  else match table.high.getLast? with
    | none => .error .indexError
    | some hi =>
      let bins := table.low ++ [hi]
      match calculateBinIndices false false binValues bins with
      | .error e => .error e
      | .ok idx => evaluateBinnedCutByIndex isQTable values idx table op

/-- Row-wise inequality of two tables of equal shape (`cuts[i] != cuts[i + 1]`): a row differs if some
cell differs in the IEEE sense. -/
def rowsDiffer (a b : List (List (FV K))) : List Bool :=
  List.zipWith (fun r s => (List.zipWith FV.bne r s).any id) a b

/-- `compare_irf_cuts(cuts)`, /repo/pyirf/cuts.py:193-209; a table is the list of its rows, all tables have the same
shape and columns. -/
def compareIrfCuts : List (List (List (FV K))) → Bool
  | a :: b :: l => if (rowsDiffer a b).any id then false else compareIrfCuts (b :: l)
  | _ => true
end eval

end Pyirf.Cuts
