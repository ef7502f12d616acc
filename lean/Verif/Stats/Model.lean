import Verif.Np.Real

/-! # Model of /repo/pyirf/statistics.py -/
set_option linter.unusedSectionVars false

namespace Pyirf.Stats
open Pyirf

/-- `li_ma_significance(n_on, n_off, alpha)`, /repo/pyirf/statistics.py:9-62, for one element (the code is
elementwise; `is_scalar` only decides whether the result is unwrapped). -/
noncomputable def liMaSignificance (nOn nOff alpha : FV ℝ) : FV ℝ :=
  let pOn := nOn / (nOn + nOff)
  let pOff := nOff / (nOn + nOff)
  let t1 := nOn * FV.log (((.fin 1 + alpha) / alpha) * pOn)
  let t2 := nOff * FV.log ((.fin 1 + alpha) * pOff)
  let t1 := if FV.beq nOn (.fin 0) then .fin 0 else t1
  let t2 := if FV.beq nOff (.fin 0) then .fin 0 else t2
  let ts := t1 + t2
  let significance := FV.sqrt (ts * .fin 2)
  if FV.lt nOn (alpha * nOff) then .fin 0 else significance

end Pyirf.Stats
