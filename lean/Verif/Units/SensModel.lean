import Verif.Units.BenchModel

/-!
# Model of the units in `check_histograms` (/repo/pyirf/utils.py) and `calculate_sensitivity` (/repo/pyirf/sensitivity.py)

The columns of the bins have the unit of the table (`TableQ`), the numbers of events have none.
-/
set_option linter.unusedSectionVars false

namespace Pyirf.Units
open Pyirf Pyirf.Np Pyirf.Io Pyirf.Sensitivity Pyirf.Utils

/-- One comparison of `check_histograms`, /repo/pyirf/utils.py:166: comparing two Quantities converts the second one to the unit of the first; for another dimension the comparison is False, not an error. -/
noncomputable def checkColumnQ (h1 h2 : TableQ) (name : String) : Except Err Unit := do
  let a ← h1.table.get name
  let b ← h2.table.get name
  if h1.unit.dim = h2.unit.dim ∧ allEqual a (b.map (conv h2.unit h1.unit)) = true then .ok () else .error .valueError

/-- `check_histograms(hist1, hist2, key)`, /repo/pyirf/utils.py:150-169, for `key = "reco_energy"`. -/
noncomputable def checkHistogramsQ (h1 h2 : TableQ) : Except Err Unit := do
  checkColumnQ h1 h2 "reco_energy_low"
  checkColumnQ h1 h2 "reco_energy_center"
  checkColumnQ h1 h2 "reco_energy_high"

/-- `calculate_sensitivity(signal_hist, background_hist, alpha, ...)`, /repo/pyirf/sensitivity.py:166-275: the columns of the bins are those of the signal, with their unit. -/
noncomputable def calculateSensitivityQ (brentq : RootFn) (sig : SigFn) (signal background : TableQ) (alpha : FV ℝ) (th : Thresholds) : Except Err TableQ := do
  checkHistogramsQ signal background
  let sW ← signal.table.get "n_weighted"
  let bW ← background.table.get "n_weighted"
  let nOn := colAxpy sW alpha bW
  let relSens ← relativeSensitivity brentq sig nOn bW alpha th
  let low ← signal.table.get "reco_energy_low"
  let high ← signal.table.get "reco_energy_high"
  let center ← signal.table.get "reco_energy_center"
  let sN ← signal.table.get "n"
  let bN ← background.table.get "n"
  let s : Table (FV ℝ) := ⟨[("reco_energy_low", low), ("reco_energy_high", high), ("reco_energy_center", center),
    ("n_signal", colMul sN relSens), ("n_signal_weighted", colMul sW relSens), ("n_background", bN), ("n_background_weighted", bW)]⟩
  let s := (background.table.cols.filter (fun c => copied c.1)).foldl (fun t c => t.set c.1 c.2) s
  let sigW ← s.get "n_signal_weighted"
  let bkgW ← s.get "n_background_weighted"
  let s := s.set "significance" (List.zipWith (fun x y => sig (x + alpha * y) y alpha) sigW bkgW)
  .ok ⟨signal.unit, s.set "relative_sensitivity" relSens⟩

end Pyirf.Units
