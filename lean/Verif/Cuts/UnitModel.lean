import Verif.Cuts.Model
import Verif.Io.GadfModel

/-!
# Model of the units and of the data type in /repo/pyirf/cuts.py

`Verif/Cuts/Model.lean` works on plain floats. Here are the lines that convert units (58-69, 80-83, 92-93) and the data type
given to the column `cut` (88, 90).
-/
set_option linter.unusedSectionVars false

namespace Pyirf.Cuts
open Pyirf Pyirf.Binning Pyirf.Io

variable {K : Type*} [Field K] [LinearOrder K] [IsStrictOrderedRing K] [FloorRing K]

/-- A scalar argument: a `Quantity` with its unit, or a plain number (`unit = none`). -/
structure Qty (K : Type*) where
  /-- the unit, if any -/
  unit : Option (PhysUnit K)
  /-- the number -/
  value : FV K

/-- `u.Quantity(x).to(unit)`, /repo/pyirf/cuts.py:63, 66, 69: a plain number is dimensionless; UnitConversionError for another dimension. -/
def Qty.to (x : Qty K) (target : PhysUnit K) : Except Err (FV K) :=
  let un := x.unit.getD unitOne
  if un.dim = target.dim then .ok (FV.fin (un.scale / target.scale) * x.value) else .error .unitsError

/-- the same for an optional bound, /repo/pyirf/cuts.py:65-69 -/
def boundTo (x : Option (Qty K)) (target : PhysUnit K) : Except Err (Option (FV K)) :=
  match x with
  | none => .ok none
  | some q => match q.to target with
    | .ok v => .ok (some v)
    | .error e => .error e

/-- `calculate_percentile_cut` for values with a unit `vu` (one percentile, no smoothing), /repo/pyirf/cuts.py:56-107. Returns the table and the
unit of its column `cut`. The values in `evs` are in `vu`; the bin values and the bins are in one common unit. -/
def percentileCutQ (vu : PhysUnit K) (evs : List (FV K × FV K)) (bins : List (FV K)) (fill : Qty K) (percentile : K)
    (minV maxV : Option (Qty K)) (minEvents : ℤ) : Except Err (CutTable K (FV K) × Option (PhysUnit K)) :=
  match fill.to vu with
  | .error e => .error e
  | .ok f =>
    match boundTo minV vu with
    | .error e => .error e
    | .ok lo =>
      match boundTo maxV vu with
      | .error e => .error e
      | .ok hi =>
        match percentileCut evs bins f percentile lo hi minEvents with
        | .error e => .error e
        | .ok t => .ok (t, some vu)

/-- `calculate_percentile_cut` for values without a unit (lines 62-69 are skipped); the bounds are plain numbers too (Quantity bounds are not
modelled in this case), but `fill_value` may be a Quantity: lines 80-83 strip its unit, and lines 92-93 put it on the column. -/
def percentileCutPlain (evs : List (FV K × FV K)) (bins : List (FV K)) (fill : Qty K) (percentile : K)
    (minV maxV : Option (FV K)) (minEvents : ℤ) : Except Err (CutTable K (FV K) × Option (PhysUnit K)) :=
  match percentileCut evs bins fill.value percentile minV maxV minEvents with
  | .error e => .error e
  | .ok t => .ok (t, fill.unit)

/-- `evaluate_binned_cut` for values in the unit `vu` and a column `cut` in the unit `cu`, /repo/pyirf/cuts.py:153-190: the comparison of
two Quantities in line 149 converts the cuts to the unit of the values, UnitConversionError for another dimension. -/
def evaluateBinnedCutQ (isQTable : Bool) (vu : PhysUnit K) (values binValues : List (FV K)) (table : CutTable K (FV K)) (cu : PhysUnit K)
    (op : FV K → FV K → Bool) : Except Err (List Bool) :=
  match evaluateBinnedCut isQTable values binValues
      { table with cut := table.cut.map fun c => FV.fin (cu.scale / vu.scale) * c } op with
  | .error e => .error e
  | .ok r => if cu.dim = vu.dim then .ok r else .error .unitsError

/-! ## Comparison of tables -/

/-- A table of cuts: the unit of each column (`none` for a column without one), and the rows of numbers in these units. -/
structure QTab (K : Type*) where
  /-- units of the columns -/
  units : List (Option (PhysUnit K))
  /-- the numbers -/
  rows : List (List (FV K))

/-- `compare_irf_cuts(cuts)` for tables whose columns have units, /repo/pyirf/cuts.py:193-209: astropy compares tables after conversion to structured arrays
(`Table.__eq__` calls `as_array()`), which keeps the numbers and drops the units. All tables have the same columns and number of rows. -/
def compareIrfCutsQ (cuts : List (QTab K)) : Bool := compareIrfCuts (cuts.map QTab.rows)

/-! ## Integer values -/

/-- Conversion of a finite float to an integer type: towards zero. -/
def truncZ (v : K) : ℤ := if 0 ≤ v then ⌊v⌋ else ⌈v⌉

/-- storing a float in an integer column; NaN and infinite values are not modelled (the percentiles of integers are finite) -/
def toIntColumn (v : FV K) : ℤ := match v with | .fin x => truncZ x | _ => 0

/-- `calculate_percentile_cut` for an array of integers without unit (e.g. telescope multiplicities), /repo/pyirf/cuts.py:71-107: the column `cut`
has the data type of the values (lines 88, 90), so the fill value and every percentile are converted to integers on
assignment. One percentile, no smoothing, finite fill value. -/
def percentileCutInt (evs : List (ℤ × FV K)) (bins : List (FV K)) (fill : K) (percentile : K)
    (minV maxV : Option (FV K)) (minEvents : ℤ) : Except Err (CutTable K ℤ) :=
  match percentileCut (evs.map fun e => (FV.fin (e.1 : K), e.2)) bins (.fin fill) percentile minV maxV minEvents with
  | .error e => .error e
  | .ok t => .ok ⟨t.low, t.high, t.center, t.nEvents, t.cut.map toIntColumn⟩

end Pyirf.Cuts
