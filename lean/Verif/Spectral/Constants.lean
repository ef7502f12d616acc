import Verif.Spectral.Model
import Mathlib.Data.Fin.VecNotation

/-!
# Model of the spectra defined in /repo/pyirf/spectral.py

Numbers are given in TeV, m² and s, with the conversion factors from the units in the source spelled out: `1/cm² = 1e4/m²`, `1/GeV = 1e3/TeV`,
`1 GeV = 1e-3 TeV`. Python's float literals are taken as the decimal numbers they are written as.
-/

namespace Pyirf.Spectral
open Pyirf Pyirf.Np

/-- `1 / (TeV cm² s)` and `1 / (TeV cm² s sr)` in the units of the model -/
noncomputable def perTeVcm2 : ℝ := 1e4
/-- `1 / (GeV m² s sr)` in the units of the model -/
noncomputable def perGeVm2 : ℝ := 1e3
/-- `1 GeV` in TeV -/
noncomputable def gev : ℝ := 1e-3

/-- `CRAB_HEGRA`, /repo/pyirf/spectral.py:357-361. -/
noncomputable def crabHegra : Except Err PowerLaw := mkPowerLaw .point (.fin (2.83e-11 * perTeVcm2)) (-2.62) 1

/-- `CRAB_MAGIC_JHEAP2015`, /repo/pyirf/spectral.py:368-372; `e_ref` by default 1 TeV. -/
noncomputable def crabMagic : LogParabola := ⟨.point, .fin (3.23e-11 * perTeVcm2), -2.47, -0.24, 1⟩

/-- `PDG_ALL_PARTICLE`, /repo/pyirf/spectral.py:379-383. -/
noncomputable def pdgAllParticle : Except Err PowerLaw := mkPowerLaw .diffuse (.fin (1.8e4 * perGeVm2)) (-2.7) (1 * gev)

/-- `IRFDOC_PROTON_SPECTRUM`, /repo/pyirf/spectral.py:389-393. -/
noncomputable def irfdocProton : Except Err PowerLaw := mkPowerLaw .diffuse (.fin (9.8e-6 * perTeVcm2)) (-2.62) 1

/-- `IRFDOC_ELECTRON_SPECTRUM`, /repo/pyirf/spectral.py:399-406. -/
noncomputable def irfdocElectron : Except Err GaussianPowerLaw :=
  mkGaussianPowerLaw .diffuse (.fin (2.385e-9 * perTeVcm2)) (-3.43) 1 1.950 (-0.101) 0.741

/-- The energies (in GeV) of the data file /repo/pyirf/resources/dampe_p+he.ecsv:11-26. -/
noncomputable def dampeEnergy : Fin 16 → ℝ :=
  ![5.0, 50.5185, 78.9163, 124.383, 199.575, 317.38, 495.808, 788.531, 1254.06, 1994.62, 3116.73, 4957.69, 7956.55, 12321.0, 19946.8, 100269.0]

/-- The fluxes of the data file /repo/pyirf/resources/dampe_p+he.ecsv:11-26. -/
noncomputable def dampeFlux : Fin 16 → ℝ :=
  ![241.37151783447848, 0.46837, 0.13929, 0.040600, 0.011277, 0.0032219, 0.00097386, 0.00028617, 8.3702e-05, 2.5301e-05, 8.3056e-06, 2.5627e-06,
    7.6322e-07, 2.4523e-07, 6.6955e-08, 8.5990e-10]

/-- The table in /repo/pyirf/resources/dampe_p+he.ecsv:1-26, as read by `QTable.read`. -/
noncomputable def dampeTable : String → Option (UnitColumn 14) := fun name =>
  if name = "energy" then some ⟨"GeV", some gev, dampeEnergy⟩
  else if name = "flux" then some ⟨"1 / (GeV m2 s sr)", none, dampeFlux⟩
  else none

/-- `DAMPE_P_He_SPECTRUM`, /repo/pyirf/spectral.py:416-417. -/
noncomputable def dampe : Except Err (TableSpectrum 14) := fromFile (fun _ => .ok dampeTable) "dampe_p+he.ecsv"

end Pyirf.Spectral
