import Verif.Np.FV
import Mathlib.Analysis.SpecialFunctions.Pow.Real

/-! # numpy contract: power of a float by a finite exponent -/
set_option linter.unusedSectionVars false

namespace Pyirf.FV

/-- `x ** p` for a finite exponent `p` (IEEE pow). Negative bases give NaN (correct unless `p` is an integer; energies are
not negative). -/
noncomputable def pow (x : FV ℝ) (p : ℝ) : FV ℝ :=
  if p = 0 then fin 1
  else match x with
    | nan => nan
    | pinf => if p < 0 then fin 0 else pinf
    | ninf => nan
    | fin x => if x < 0 then nan else if x = 0 then (if p < 0 then pinf else fin 0) else fin (x ^ p)

theorem pow_fin {x p : ℝ} (hx : 0 < x) : pow (fin x) p = fin (x ^ p) := by
  unfold pow
  split
  · rename_i h; simp [h]
  · simp [not_lt.mpr hx.le, hx.ne']

end Pyirf.FV
