import Verif.Units.Model
import Verif.Spectral.Constants

/-!
# Model of the units in /repo/pyirf/spectral.py

`Verif/Spectral/Model.lean` works on numbers in TeV, m, s and sr. Here normalizations, energies, times and angles are Quantities with any unit and every conversion is written out. Energies
come in arrays (indexed by any type, also an empty one); the numbers are finite as there.
-/
set_option linter.unusedSectionVars false

namespace Pyirf.Units
open Pyirf Pyirf.Np Pyirf.Io Pyirf.Utils Pyirf.Simulations Pyirf.Spectral

/-- `POINT_SOURCE_FLUX_UNIT`, /repo/pyirf/spectral.py:16-19 -/
noncomputable def pointFluxUnit (c : Consts ℝ) : PhysUnit ℝ := ⟨⟨-4, -1, 1, 0⟩, 1 / (10 ^ 12 * c.eV)⟩
/-- `DIFFUSE_FLUX_UNIT`, /repo/pyirf/spectral.py:21-24 -/
noncomputable def diffuseFluxUnit (c : Consts ℝ) : PhysUnit ℝ := ⟨⟨-4, -1, 1, -2⟩, 1 / (10 ^ 12 * c.eV)⟩

/-- `quantity_input(normalization=[DIFFUSE_FLUX_UNIT, POINT_SOURCE_FLUX_UNIT])` -/
noncomputable def checkFlux (c : Consts ℝ) (un : PhysUnit ℝ) : Except Err Unit :=
  if un.dim = (diffuseFluxUnit c).dim ∨ un.dim = (pointFluxUnit c).dim then .ok () else .error .unitsError

/-- `(energy / e_ref).to_value(u.one)` -/
noncomputable def toOne {ι : Type} (energy : Q (ι → ℝ)) (eRef : Q ℝ) : Except Err (ι → ℝ) := do
  checkDim ⟨Dim.mul energy.unit.dim (Dim.inv eRef.unit.dim), energy.unit.scale / eRef.unit.scale⟩ unitOne
  .ok fun i => energy.unit.scale / eRef.unit.scale * (energy.val i / eRef.val)

/-- `PowerLaw` with Quantities, /repo/pyirf/spectral.py:73-91. -/
structure PowerLawQ where
  normalization : Q (FV ℝ)
  index : ℝ
  eRef : Q ℝ

/-- `PowerLaw.__init__` with its `quantity_input`, /repo/pyirf/spectral.py:93-103. The Quantities are stored as they are. -/
noncomputable def mkPowerLawQ (c : Consts ℝ) (normalization : Q (FV ℝ)) (index : ℝ) (eRef : Q ℝ) : Except Err PowerLawQ := do
  checkFlux c normalization.unit
  checkDim eRef.unit (teV c)
  if index > 0 then .error .valueError else .ok ⟨normalization, index, eRef⟩

/-- `PowerLaw.__call__` with its `quantity_input`, /repo/pyirf/spectral.py:105-108: the flux has the unit of the normalization. -/
noncomputable def PowerLawQ.callQ {ι : Type} (c : Consts ℝ) (self : PowerLawQ) (energy : Q (ι → ℝ)) : Except Err (Q (ι → FV ℝ)) := do
  checkDim energy.unit (teV c)
  let e ← toOne energy self.eRef
  .ok ⟨self.normalization.unit, fun i => self.normalization.val * FV.fin (e i ^ self.index)⟩

/-- `PowerLaw.from_simulation(simulated_event_info, obstime, e_ref)` with its `quantity_input`, /repo/pyirf/spectral.py:110-143. The difference of the viewcone is taken in the unit of
`viewcone_max`; `delta` is in the unit of `e_max` to the power `index + 1`, so `e_min ** (index + 1)` is multiplied with that power of the ratio of the units; `(nom / denom).to(unit)` multiplies with
the unit of the quotient in terms of the flux unit. In the dimension of the quotient the power `index` of the energy of `e_ref` and the power `index + 1` of that of `e_max` cancel to -1, as `e_min`,
`e_max` and `e_ref` are energies. -/
noncomputable def fromSimulationQ (c : Consts ℝ) (info : InfoQ) (obstime eRef : Q ℝ) : Except Err PowerLawQ := do
  checkDim obstime.unit second
  checkDim eRef.unit (teV c)
  let eMin := info.energyMin
  let eMax := info.energyMax
  let index := info.spectralIndex
  let diffuse := decide (info.viewconeMax.val - info.viewconeMin.num info.viewconeMax.unit > 0)
  let solidAngle := if diffuse then coneSolidAngle (info.viewconeMax.num radian) - coneSolidAngle (info.viewconeMin.num radian) else 1
  let unit := if diffuse then diffuseFluxUnit c else pointFluxUnit c
  let area := info.area
  let deltaScale := eMax.unit.scale ^ (index + 1)
  let delta := eMax.val ^ (index + 1) - eMin.unit.scale ^ (index + 1) / deltaScale * eMin.val ^ (index + 1)
  let nom := (index + 1) * eRef.val ^ index * info.nShowers
  let denom := (area.val * obstime.val * solidAngle) * delta
  let denomDim := Dim.mul (Dim.mul (Dim.mul area.unit.dim obstime.unit.dim) (if diffuse then ⟨0, 0, 0, 2⟩ else Dim.one)) eMax.unit.dim
  let quotientUnit : PhysUnit ℝ := ⟨Dim.inv denomDim, eRef.unit.scale ^ index / (area.unit.scale * obstime.unit.scale * deltaScale)⟩
  checkDim quotientUnit unit
  mkPowerLawQ c ⟨unit, conv quotientUnit unit (FV.fin nom / FV.fin denom)⟩ index eRef

/-- `PowerLaw.integrate_cone(inner, outer)` with its `quantity_input`, /repo/pyirf/spectral.py:148-174: the normalization is multiplied with a solid angle in sr. -/
noncomputable def PowerLawQ.integrateConeQ (c : Consts ℝ) (self : PowerLawQ) (inner outer : Q ℝ) : Except Err PowerLawQ := do
  checkDim inner.unit radian
  checkDim outer.unit radian
  if self.normalization.unit.dim ≠ (diffuseFluxUnit c).dim then .error .valueError
  else
    let solidAngle := coneSolidAngle (outer.num radian) - coneSolidAngle (inner.num radian)
    mkPowerLawQ c ⟨⟨Dim.mul self.normalization.unit.dim ⟨0, 0, 0, 2⟩, self.normalization.unit.scale⟩, self.normalization.val * FV.fin solidAngle⟩ self.index self.eRef

/-- `LogParabola` with Quantities, /repo/pyirf/spectral.py:177-198. -/
structure LogParabolaQ where
  normalization : Q (FV ℝ)
  a : ℝ
  b : ℝ
  eRef : Q ℝ

/-- `LogParabola.__init__` with its `quantity_input`, /repo/pyirf/spectral.py:200-208. -/
noncomputable def mkLogParabolaQ (c : Consts ℝ) (normalization : Q (FV ℝ)) (a b : ℝ) (eRef : Q ℝ) : Except Err LogParabolaQ := do
  checkFlux c normalization.unit
  checkDim eRef.unit (teV c)
  .ok ⟨normalization, a, b, eRef⟩

/-- `LogParabola.__call__` with its `quantity_input`, /repo/pyirf/spectral.py:210-213. -/
noncomputable def LogParabolaQ.callQ {ι : Type} (c : Consts ℝ) (self : LogParabolaQ) (energy : Q (ι → ℝ)) : Except Err (Q (ι → FV ℝ)) := do
  checkDim energy.unit (teV c)
  let e ← toOne energy self.eRef
  .ok ⟨self.normalization.unit, fun i => self.normalization.val * FV.fin (e i ^ (self.a + self.b * log10 (e i)))⟩

/-- `PowerLawWithExponentialGaussian` with Quantities, /repo/pyirf/spectral.py:219-266. -/
structure GaussianPowerLawQ extends PowerLawQ where
  f : ℝ
  mu : ℝ
  sigma : ℝ

/-- `PowerLawWithExponentialGaussian.__init__`, /repo/pyirf/spectral.py:257-266. -/
noncomputable def mkGaussianPowerLawQ (c : Consts ℝ) (normalization : Q (FV ℝ)) (index : ℝ) (eRef : Q ℝ) (f mu sigma : ℝ) : Except Err GaussianPowerLawQ := do
  let pl ← mkPowerLawQ c normalization index eRef
  .ok { pl with f := f, mu := mu, sigma := sigma }

/-- `PowerLawWithExponentialGaussian.__call__` with its `quantity_input`, /repo/pyirf/spectral.py:268-278. -/
noncomputable def GaussianPowerLawQ.callQ {ι : Type} (c : Consts ℝ) (self : GaussianPowerLawQ) (energy : Q (ι → ℝ)) : Except Err (Q (ι → FV ℝ)) := do
  let power ← self.toPowerLawQ.callQ c energy
  let e ← toOne energy self.eRef
  .ok ⟨power.unit, fun i => power.val i * (FV.fin 1 + FV.fin self.f * (expF (gaussF (log10 (e i)) self.mu self.sigma) - FV.fin 1))⟩

/-- `TableInterpolationSpectrum` with Quantities, /repo/pyirf/spectral.py:286-313; at least two rows. -/
structure TableSpectrumQ (n : ℕ) where
  energy : Q (Fin (n + 2) → ℝ)
  flux : Q (Fin (n + 2) → ℝ)
  logEnergy : Bool
  logFlux : Bool
  referenceEnergy : Q ℝ
  x : Fin (n + 2) → ℝ
  y : Fin (n + 2) → ℝ

/-- `TableInterpolationSpectrum.__init__`, /repo/pyirf/spectral.py:293-313: nothing but the quotient of energies is checked. -/
noncomputable def mkTableQ {n : ℕ} (energy flux : Q (Fin (n + 2) → ℝ)) (logEnergy logFlux : Bool) (referenceEnergy : Q ℝ) : Except Err (TableSpectrumQ n) := do
  let x ← toOne energy referenceEnergy
  .ok ⟨energy, flux, logEnergy, logFlux, referenceEnergy, fun i => if logEnergy then log10 (x i) else x i, fun i => if logFlux then log10 (flux.val i) else flux.val i⟩

/-- `TableInterpolationSpectrum.__call__`, /repo/pyirf/spectral.py:315-326: the result has the unit of the flux column. -/
noncomputable def TableSpectrumQ.callQ {ι : Type} {n : ℕ} (self : TableSpectrumQ n) (energy : Q (ι → ℝ)) : Except Err (Q (ι → FV ℝ)) := do
  let x ← toOne energy self.referenceEnergy
  .ok ⟨self.flux.unit, fun i =>
    let y := interp1d self.x self.y (if self.logEnergy then log10 (x i) else x i)
    FV.fin (if self.logFlux then (10 : ℝ) ^ y else y)⟩

/-- `calculate_event_weights(true_energy, target_spectrum, simulated_spectrum)` with its `quantity_input`, /repo/pyirf/spectral.py:44-70; the spectra are any callables that return an array of the
same length or raise an error. -/
noncomputable def calculateEventWeightsQ {ι : Type} (c : Consts ℝ) (trueEnergy : Q (ι → ℝ)) (target simulated : Q (ι → ℝ) → Except Err (Q (ι → FV ℝ))) : Except Err (ι → FV ℝ) := do
  checkDim trueEnergy.unit (teV c)
  let t ← target trueEnergy
  let s ← simulated trueEnergy
  let un : PhysUnit ℝ := ⟨Dim.mul t.unit.dim (Dim.inv s.unit.dim), t.unit.scale / s.unit.scale⟩
  checkDim un unitOne
  .ok fun i => conv un unitOne (t.val i / s.val i)

/-! ## The spectra defined in the module -/

/-- `u.GeV` -/
noncomputable def geV (c : Consts ℝ) : PhysUnit ℝ := ⟨⟨2, 1, -2, 0⟩, 10 ^ 9 * c.eV⟩
/-- `u.cm` -/
noncomputable def cmUnit : PhysUnit ℝ := ⟨⟨1, 0, 0, 0⟩, 1 / 100⟩
/-- `1 / (energy * length ** 2 * u.s)`, with or without `/ u.sr` -/
noncomputable def perArea (energy length : PhysUnit ℝ) (perSolidAngle : Bool) : PhysUnit ℝ :=
  ⟨Dim.inv (Dim.mul (Dim.mul (Dim.mul energy.dim (Dim.mul length.dim length.dim)) second.dim) (if perSolidAngle then ⟨0, 0, 0, 2⟩ else Dim.one)), 1 / (energy.scale * length.scale ^ 2 * second.scale)⟩

/-- `CRAB_HEGRA`, /repo/pyirf/spectral.py:357-361. -/
noncomputable def crabHegraQ (c : Consts ℝ) : Except Err PowerLawQ := mkPowerLawQ c ⟨perArea (teV c) cmUnit false, .fin 2.83e-11⟩ (-2.62) ⟨teV c, 1⟩
/-- `CRAB_MAGIC_JHEAP2015`, /repo/pyirf/spectral.py:368-372; `e_ref` by default 1 TeV. -/
noncomputable def crabMagicQ (c : Consts ℝ) : Except Err LogParabolaQ := mkLogParabolaQ c ⟨perArea (teV c) cmUnit false, .fin 3.23e-11⟩ (-2.47) (-0.24) ⟨teV c, 1⟩
/-- `PDG_ALL_PARTICLE`, /repo/pyirf/spectral.py:379-383. -/
noncomputable def pdgAllParticleQ (c : Consts ℝ) : Except Err PowerLawQ := mkPowerLawQ c ⟨perArea (geV c) metre true, .fin 1.8e4⟩ (-2.7) ⟨geV c, 1⟩
/-- `IRFDOC_PROTON_SPECTRUM`, /repo/pyirf/spectral.py:389-393. -/
noncomputable def irfdocProtonQ (c : Consts ℝ) : Except Err PowerLawQ := mkPowerLawQ c ⟨perArea (teV c) cmUnit true, .fin 9.8e-6⟩ (-2.62) ⟨teV c, 1⟩
/-- `IRFDOC_ELECTRON_SPECTRUM`, /repo/pyirf/spectral.py:399-406. -/
noncomputable def irfdocElectronQ (c : Consts ℝ) : Except Err GaussianPowerLawQ :=
  mkGaussianPowerLawQ c ⟨perArea (teV c) cmUnit true, .fin 2.385e-9⟩ (-3.43) ⟨teV c, 1⟩ 1.950 (-0.101) 0.741
/-- `DAMPE_P_He_SPECTRUM`, /repo/pyirf/spectral.py:416-417, from /repo/pyirf/resources/dampe_p+he.ecsv:1-26; by default logarithmic, with 1 TeV as reference. -/
noncomputable def dampeQ (c : Consts ℝ) : Except Err (TableSpectrumQ 14) := mkTableQ ⟨geV c, dampeEnergy⟩ ⟨perArea (geV c) metre true, dampeFlux⟩ true true ⟨teV c, 1⟩

end Pyirf.Units
