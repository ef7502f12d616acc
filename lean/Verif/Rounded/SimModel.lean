import Verif.Rounded.Model

/-!
# Model: the expected numbers of simulated showers in rounded arithmetic

Finite numbers only, energies in TeV, angles in radian.
-/
set_option linter.unusedSectionVars false

namespace Pyirf.Rounded
open Pyirf Pyirf.Np

/-- `_powerlaw_pdf_integral(index, e_low, e_high, e_min, e_max)`, /repo/pyirf/simulations.py:290-300; `pow e` is numpy's `e ** (index + 1)`. -/
noncomputable def powerlawPdfIntegral (R : Rounding) (pow : ℝ → ℝ) (eLow eHigh eMin eMax : ℝ) : ℝ :=
  let normalization := R.div 1 (R.sub (pow eMax) (pow eMin))
  let eTerm := R.sub (pow eHigh) (pow eLow)
  R.mul eTerm normalization

/-- One bin of `calculate_n_showers_per_energy`, /repo/pyirf/simulations.py:93-115: the assignments in source order. -/
noncomputable def nShowersPerEnergy (R : Rounding) (pow : ℝ → ℝ) (nShowers eMin eMax eLow eHigh : ℝ) : ℝ :=
  let i0 := powerlawPdfIntegral R pow eLow eHigh eMin eMax
  let i1 := if eHigh ≤ eMin then 0 else i0
  let i2 := if eLow ≥ eMax then 0 else i1
  let i3 := if eHigh > eMax ∧ eLow < eMax then powerlawPdfIntegral R pow eLow eMax eMin eMax else i2
  let integral := if eHigh > eMin ∧ eLow < eMin then powerlawPdfIntegral R pow eMin eHigh eMin eMax else i3
  R.mul nShowers integral

/-- One bin of `calculate_n_showers_per_fov`, /repo/pyirf/simulations.py:137-141, 303-331, for a diffuse simulation; `cos` is numpy's cosine. -/
noncomputable def nShowersPerFov (R : Rounding) (cos : ℝ → ℝ) (nShowers viewconeMin viewconeMax fovLow fovHigh : ℝ) : ℝ :=
  let norm := R.div 1 (R.sub (cos viewconeMin) (cos viewconeMax))
  let lower := if fovLow > viewconeMin then fovLow else viewconeMin
  let upper := if fovHigh < viewconeMax then fovHigh else viewconeMax
  let integral := if fovHigh ≥ viewconeMin ∧ fovLow ≤ viewconeMax then R.sub (cos lower) (cos upper) else 0
  R.mul nShowers (R.mul integral norm)

/-- One bin of `calculate_n_showers_per_energy_and_fov`, /repo/pyirf/simulations.py:171-173, from the numbers per energy and per field of view bin. -/
noncomputable def nShowersPerEnergyAndFov (R : Rounding) (nShowers perEnergy perFov : ℝ) : ℝ := R.div (R.mul perEnergy perFov) nShowers

/-- One bin of `calculate_n_showers_3d_polar`, /repo/pyirf/simulations.py:206-219, from the number of the energy and offset bin, that of the whole viewcone and the number of position angle bins. -/
noncomputable def nShowers3dPolar (R : Rounding) (nShowers perEnergyAndFov viewcone : ℝ) (nBinsPa : ℕ) : ℝ :=
  R.div (R.mul perEnergyAndFov (R.div viewcone nBinsPa)) nShowers

end Pyirf.Rounded
