import Verif.Rounded.SimModel

/-!
# Model: spectra and event weights in rounded arithmetic

Finite numbers only. Energies of a call and reference energies have one unit, fluxes are numbers in the unit of the normalization.
-/
set_option linter.unusedSectionVars false

namespace Pyirf.Rounded
open Pyirf Pyirf.Np

/-- `PowerLaw.__call__`, /repo/pyirf/spectral.py:105-108; `pow x` is numpy's `x ** index`. -/
noncomputable def powerLaw (R : Rounding) (pow : ℝ → ℝ) (normalization eRef energy : ℝ) : ℝ :=
  let e := R.div energy eRef
  R.mul normalization (pow e)

/-- `LogParabola.__call__`, /repo/pyirf/spectral.py:210-213; `pow x y` is numpy's `x ** y`. -/
noncomputable def logParabola (R : Rounding) (pow : ℝ → ℝ → ℝ) (log10 : ℝ → ℝ) (normalization a b eRef energy : ℝ) : ℝ :=
  let e := R.div energy eRef
  R.mul normalization (pow e (R.add a (R.mul b (log10 e))))

/-- The Gaussian of `PowerLawWithExponentialGaussian.__call__`, /repo/pyirf/spectral.py:277: `exp(-0.5 * ((log10_e - mu) / sigma) ** 2)`. -/
noncomputable def gauss (R : Rounding) (exp : ℝ → ℝ) (mu sigma log10e : ℝ) : ℝ :=
  let q := R.div (R.sub log10e mu) sigma
  exp (R.mul (-(1 / 2)) (R.mul q q))

/-- `PowerLawWithExponentialGaussian.__call__`, /repo/pyirf/spectral.py:268-278. -/
noncomputable def gaussianPowerLaw (R : Rounding) (pow exp log10 : ℝ → ℝ) (normalization eRef f mu sigma energy : ℝ) : ℝ :=
  let power := powerLaw R pow normalization eRef energy
  let e := R.div energy eRef
  let g := gauss R exp mu sigma (log10 e)
  R.mul power (R.add 1 (R.mul f (R.sub (exp g) 1)))

/-- `calculate_event_weights`, /repo/pyirf/spectral.py:68-70, for one event, from the two fluxes; `conv` is the worth of the target's unit in the other one, 1 if they are the same. -/
noncomputable def eventWeight (R : Rounding) (conv target simulated : ℝ) : ℝ := R.mul (R.div target simulated) conv

/-- `PowerLaw.integrate_cone(inner, outer)`, /repo/pyirf/spectral.py:150-174: the new normalization. -/
noncomputable def integrateCone (R : Rounding) (pi : ℝ) (cos : ℝ → ℝ) (normalization inner outer : ℝ) : ℝ :=
  R.mul normalization (R.sub (coneSolidAngle R pi cos outer) (coneSolidAngle R pi cos inner))

/-- The normalization of `PowerLaw.from_simulation`, /repo/pyirf/spectral.py:122-146, in the units of the simulation (TeV, s and the unit of the impact, so that the last conversion multiplies by 1): `powRef` is
`e_ref**index`, `pow1 e` is `e ** (index + 1)`, `solidAngle` the difference of the two cones or 1. -/
noncomputable def fromSimulation (R : Rounding) (pi : ℝ) (pow1 : ℝ → ℝ) (powRef index eMin eMax nShowers maxImpact obstime solidAngle : ℝ) : ℝ :=
  let area := R.mul pi (R.mul maxImpact maxImpact)
  let delta := R.sub (pow1 eMax) (pow1 eMin)
  let nom := R.mul (R.mul (R.add index 1) powRef) nShowers
  let denom := R.mul (R.mul (R.mul area obstime) solidAngle) delta
  R.div nom denom

end Pyirf.Rounded
