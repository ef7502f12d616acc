import Verif.Rounded.CoefModel
import Verif.Sensitivity.Model

/-!
# Model: relative sensitivities in rounded arithmetic

Finite counts, `alpha` and thresholds; the logarithm of numpy and scipy's `brentq` are parameters.
-/
set_option linter.unusedSectionVars false

namespace Pyirf.Rounded
open Pyirf Pyirf.Np

/-- Type of `brentq(f, lower, upper)` on floats. -/
abbrev RootFinder := (ℝ → FV ℝ) → ℝ → ℝ → Except Err ℝ

/-- `n_on` of `calculate_sensitivity`, /repo/pyirf/sensitivity.py:235, for one bin. -/
noncomputable def countOn (R : Rounding) (signal nOff alpha : ℝ) : ℝ := R.add signal (R.mul alpha nOff)

/-- `n_signal`, /repo/pyirf/sensitivity.py:43-44. -/
noncomputable def excess (R : Rounding) (nOn nOff alpha : ℝ) : ℝ := R.sub nOn (R.mul nOff alpha)

/-- `equation` with the Li & Ma significance, /repo/pyirf/sensitivity.py:49-52. -/
noncomputable def equation (R : Rounding) (log : ℝ → ℝ) (nSignal nBackground nOff alpha minSignificance flux : ℝ) : FV ℝ :=
  rdFV R (liMa R log (R.add (R.mul nSignal flux) nBackground) nOff alpha - .fin minSignificance)

/-- The ends of the search, /repo/pyirf/sensitivity.py:58-64; the constants are floating point numbers. -/
noncomputable def searchEnds (R : Rounding) (nSignal nBackground nOff minSignificance : ℝ) : ℝ × ℝ :=
  if 1 < nOff then
    let naive := R.div (R.mul minSignificance (R.rd (Real.sqrt nBackground))) nSignal
    (R.mul (R.rd (1 / 100)) naive, R.mul 10 naive)
  else (R.rd (1 / 10000), 100)

/-- `min_signal`, /repo/pyirf/sensitivity.py:77-78. Python's `max(a, b)`. -/
noncomputable def minSignal (R : Rounding) (nBackground minEvents minExcess : ℝ) : ℝ := max minEvents (R.mul minExcess nBackground)

/-- Scaling to the minimum number of signal events, /repo/pyirf/sensitivity.py:75-88. -/
noncomputable def scaleFlux (R : Rounding) (nSignal nBackground flux minEvents minExcess : ℝ) : ℝ :=
  let n := R.mul nSignal flux
  let scale := if n < minSignal R nBackground minEvents minExcess then R.div (minSignal R nBackground minEvents minExcess) n else 1
  R.mul flux scale

/-- `_relative_sensitivity` for finite counts that are not negative, /repo/pyirf/sensitivity.py:28-88. Simplification: `min_signal / n_signal` is only computed for a number of signal events that is not 0 (`brentq` returns a number
inside its positive bracket). -/
noncomputable def relativeSensitivity (R : Rounding) (log : ℝ → ℝ) (brentq : RootFinder) (nOn nOff alpha minSignificance minEvents minExcess : ℝ) : Except Err (FV ℝ) :=
  let nBackground := R.mul nOff alpha
  let nSignal := excess R nOn nOff alpha
  if nSignal ≤ 0 then .ok .pinf
  else
    let ends := searchEnds R nSignal nBackground nOff minSignificance
    match brentq (equation R log nSignal nBackground nOff alpha minSignificance) ends.1 ends.2 with
    | .ok flux => .ok (.fin (scaleFlux R nSignal nBackground flux minEvents minExcess))
    | .error e => if e = .runtimeError ∨ e = .valueError then .ok .nan else .error e

end Pyirf.Rounded
