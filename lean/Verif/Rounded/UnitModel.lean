import Verif.Rounded.CoefModel
import Verif.Cuts.Model

/-!
# Model: conversions of bin edges and cuts to another unit in rounded arithmetic

astropy converts an array by one multiplication with the factor of the units (`Quantity.to_value`); the factor is a floating point number. The second operand of a comparison is converted to the unit of the first.
-/
set_option linter.unusedSectionVars false

namespace Pyirf.Rounded
open Pyirf Pyirf.Np Pyirf.Binning Pyirf.Cuts

/-- `Quantity.to_value`: one rounded multiplication with the factor of the units, as in /repo/pyirf/binning.py:167. -/
noncomputable def toUnit (R : Rounding) (f : ℝ) (v : FV ℝ) : FV ℝ := rdFV R (v * .fin f)

/-- `calculate_bin_indices(data, bins)` for quantities, /repo/pyirf/binning.py:133-180: `f` is the factor from the unit of the edges to that of the data. -/
noncomputable def binIndicesIn (R : Rounding) (f : ℝ) (data bins : List (FV ℝ)) : Except Err (List (ℤ × Bool)) :=
  calculateBinIndices true true data (bins.map (toUnit R f))

/-- The columns of a table of cuts as `evaluate_binned_cut` sees them, /repo/pyirf/cuts.py:148-150 and 186-190: the edges in the unit of the bin values (factor `fBin`), the cuts in the unit of the values (factor `fCut`). -/
noncomputable def tableIn (R : Rounding) (fBin fCut : ℝ) (t : CutTable ℝ (FV ℝ)) : CutTable ℝ (FV ℝ) :=
  { low := t.low.map (toUnit R fBin), high := t.high.map (toUnit R fBin), center := t.center.map (toUnit R fBin), nEvents := t.nEvents, cut := t.cut.map (toUnit R fCut) }

/-- `evaluate_binned_cut(values, bin_values, cut_table, op)` for quantities, /repo/pyirf/cuts.py:153-190. -/
noncomputable def evaluateCutIn (R : Rounding) (fBin fCut : ℝ) (values binValues : List (FV ℝ)) (t : CutTable ℝ (FV ℝ)) (op : FV ℝ → FV ℝ → Bool) :
    Except Err (List Bool) :=
  evaluateBinnedCut true values binValues (tableIn R fBin fCut t) op

end Pyirf.Rounded
