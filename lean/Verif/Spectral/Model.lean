import Verif.Simulations.Model
import Verif.Np.Interp1d
import Mathlib.Analysis.SpecialFunctions.Log.Base

/-!
# Model of /repo/pyirf/spectral.py

Energies are positive finite numbers in TeV, areas in m², times in s, solid angles in sr, so fluxes are in 1/(TeV s m²) or
1/(TeV s m² sr). Which of the two units a flux has is its `FluxKind`; `quantity_input` admits exactly these two for normalizations.
-/
set_option linter.unusedSectionVars false

namespace Pyirf.Spectral
open Pyirf Pyirf.Np Pyirf.Utils Pyirf.Simulations

/-- `POINT_SOURCE_FLUX_UNIT` and `DIFFUSE_FLUX_UNIT`, /repo/pyirf/spectral.py:16-24. -/
inductive FluxKind
  | point | diffuse
  deriving DecidableEq, Repr

/-- A spectrum: the unit of its values, and the values. -/
structure Spectrum where
  kind : FluxKind
  flux : ℝ → FV ℝ

/-- `calculate_event_weights(true_energy, target_spectrum, simulated_spectrum)` for one event, /repo/pyirf/spectral.py:44-70.
`.to_value(u.one)` raises UnitConversionError if the fluxes have different units. -/
noncomputable def calculateEventWeight (trueEnergy : ℝ) (target simulated : Spectrum) : Except Err (FV ℝ) :=
  if target.kind = simulated.kind then .ok (target.flux trueEnergy / simulated.flux trueEnergy)
  else .error .unitsError

/-- `PowerLaw`, /repo/pyirf/spectral.py:73-91: attributes. The normalization can be NaN (see `fromSimulation`). -/
structure PowerLaw where
  kind : FluxKind
  normalization : FV ℝ
  index : ℝ
  eRef : ℝ

/-- `PowerLaw.__init__`, /repo/pyirf/spectral.py:93-103. -/
noncomputable def mkPowerLaw (kind : FluxKind) (normalization : FV ℝ) (index eRef : ℝ) : Except Err PowerLaw :=
  if index > 0 then .error .valueError else .ok ⟨kind, normalization, index, eRef⟩

/-- `PowerLaw.__call__`, /repo/pyirf/spectral.py:105-108. -/
noncomputable def PowerLaw.call (self : PowerLaw) (energy : ℝ) : FV ℝ :=
  let e := energy / self.eRef
  self.normalization * FV.fin (e ^ self.index)

/-- the spectrum of a power law -/
noncomputable def PowerLaw.spectrum (self : PowerLaw) : Spectrum := ⟨self.kind, self.call⟩

/-- `PowerLaw.from_simulation(simulated_event_info, obstime, e_ref)`, /repo/pyirf/spectral.py:110-143; `obstime` in s. -/
noncomputable def fromSimulation (info : Info) (obstime : ℝ) (eRef : ℝ := 1) : Except Err PowerLaw :=
  let eMin := info.energyMin
  let eMax := info.energyMax
  let index := info.spectralIndex
  let diffuse := decide (info.viewconeMax - info.viewconeMin > 0)
  let solidAngle := if diffuse then coneSolidAngle info.viewconeMax - coneSolidAngle info.viewconeMin else 1
  let kind := if diffuse then FluxKind.diffuse else FluxKind.point
  let area := Real.pi * info.maxImpact ^ 2
  let delta := eMax ^ (index + 1) - eMin ^ (index + 1)
  let nom := (index + 1) * eRef ^ index * info.nShowers
  let denom := (area * obstime * solidAngle) * delta
  mkPowerLaw kind (FV.fin nom / FV.fin denom) index eRef

/-- `PowerLaw.integrate_cone(inner, outer)`, /repo/pyirf/spectral.py:148-174; also inherited by `PowerLawWithExponentialGaussian`. -/
noncomputable def PowerLaw.integrateCone (self : PowerLaw) (inner outer : ℝ) : Except Err PowerLaw :=
  if self.kind ≠ .diffuse then .error .valueError
  else
    let solidAngle := coneSolidAngle outer - coneSolidAngle inner
    mkPowerLaw .point (self.normalization * FV.fin solidAngle) self.index self.eRef

/-- `np.log10` of a positive number -/
noncomputable def log10 (x : ℝ) : ℝ := Real.logb 10 x

/-- `LogParabola`, /repo/pyirf/spectral.py:177-208. -/
structure LogParabola where
  kind : FluxKind
  normalization : FV ℝ
  a : ℝ
  b : ℝ
  eRef : ℝ

/-- `LogParabola.__call__`, /repo/pyirf/spectral.py:210-213. -/
noncomputable def LogParabola.call (self : LogParabola) (energy : ℝ) : FV ℝ :=
  let e := energy / self.eRef
  self.normalization * FV.fin (e ^ (self.a + self.b * log10 e))

/-- `PowerLawWithExponentialGaussian`, /repo/pyirf/spectral.py:219-266: a subclass of `PowerLaw` with three more attributes. -/
structure GaussianPowerLaw extends PowerLaw where
  f : ℝ
  mu : ℝ
  sigma : ℝ

/-- `PowerLawWithExponentialGaussian.__init__`, /repo/pyirf/spectral.py:257-266. -/
noncomputable def mkGaussianPowerLaw (kind : FluxKind) (normalization : FV ℝ) (index eRef f mu sigma : ℝ) : Except Err GaussianPowerLaw :=
  match mkPowerLaw kind normalization index eRef with
  | .error e => .error e
  | .ok pl => .ok { pl with f := f, mu := mu, sigma := sigma }

/-- `np.exp` -/
noncomputable def expF : FV ℝ → FV ℝ
  | .fin x => .fin (Real.exp x)
  | .pinf => .pinf
  | .ninf => .fin 0
  | .nan => .nan

/-- `gauss = np.exp(-0.5 * ((log10_e - mu) / sigma) ** 2)`, /repo/pyirf/spectral.py:277; for `sigma = 0` the quotient is infinite or NaN. -/
noncomputable def gaussF (x mu sigma : ℝ) : FV ℝ :=
  let q := (FV.fin x - FV.fin mu) / FV.fin sigma
  expF (FV.fin (-0.5) * (q * q))

/-- `PowerLawWithExponentialGaussian.__call__`, /repo/pyirf/spectral.py:268-278. -/
noncomputable def GaussianPowerLaw.call (self : GaussianPowerLaw) (energy : ℝ) : FV ℝ :=
  let power := self.toPowerLaw.call energy
  let e := energy / self.eRef
  let log10e := log10 e
  let gauss := gaussF log10e self.mu self.sigma
  power * (FV.fin 1 + FV.fin self.f * (expF gauss - FV.fin 1))

/-- `TableInterpolationSpectrum` after `__init__`, /repo/pyirf/spectral.py:286-313: a table with at least two rows, in any order. Energies in TeV;
fluxes are numbers in the unit of the flux column (any unit is accepted), which is the unit of the result. Tables with fewer than two rows are
not modelled. -/
structure TableSpectrum (n : ℕ) where
  fluxUnit : String
  energy : Fin (n + 2) → ℝ
  flux : Fin (n + 2) → ℝ
  logEnergy : Bool
  logFlux : Bool
  referenceEnergy : ℝ

/-- the x coordinate, /repo/pyirf/spectral.py:304-308 and 316-319 -/
noncomputable def TableSpectrum.x {n : ℕ} (self : TableSpectrum n) (energy : ℝ) : ℝ :=
  let x := energy / self.referenceEnergy
  if self.logEnergy then log10 x else x

/-- the y coordinate, /repo/pyirf/spectral.py:305, 310-311 -/
noncomputable def TableSpectrum.y {n : ℕ} (self : TableSpectrum n) (flux : ℝ) : ℝ := if self.logFlux then log10 flux else flux

/-- `TableInterpolationSpectrum.__call__`, /repo/pyirf/spectral.py:315-326. -/
noncomputable def TableSpectrum.call {n : ℕ} (self : TableSpectrum n) (energy : ℝ) : ℝ :=
  let y := interp1d (fun i => self.x (self.energy i)) (fun i => self.y (self.flux i)) (self.x energy)
  if self.logFlux then (10 : ℝ) ^ y else y

/-- A column of a `QTable` with a unit: the name of the unit, its worth in TeV if it is an energy unit, and the values. -/
structure UnitColumn (n : ℕ) where
  unit : String
  inTeV : Option ℝ
  values : Fin (n + 2) → ℝ

/-- `TableInterpolationSpectrum.__init__`, /repo/pyirf/spectral.py:293-313: `(energy / reference_energy).to_value(u.one)` raises for an energy column
that is not an energy. `reference_energy` is given in TeV. -/
noncomputable def mkTable {n : ℕ} (energy flux : UnitColumn n) (logEnergy logFlux : Bool) (referenceEnergy : ℝ) : Except Err (TableSpectrum n) :=
  match energy.inTeV with
  | none => .error .unitsError
  | some s => .ok ⟨flux.unit, fun i => s * energy.values i, flux.values, logEnergy, logFlux, referenceEnergy⟩

/-- `TableInterpolationSpectrum.from_table`, /repo/pyirf/spectral.py:328-338; the columns of the table by name. -/
noncomputable def fromTable {n : ℕ} (table : String → Option (UnitColumn n)) (logEnergy : Bool := true) (logFlux : Bool := true)
    (referenceEnergy : ℝ := 1) : Except Err (TableSpectrum n) :=
  match table "energy" with
  | none => .error .keyError
  | some energy => match table "flux" with
    | none => .error .keyError
    | some flux => mkTable energy flux logEnergy logFlux referenceEnergy

/-- `TableInterpolationSpectrum.from_file`, /repo/pyirf/spectral.py:340-349; `read` is `QTable.read`. -/
noncomputable def fromFile {n : ℕ} (read : String → Except Err (String → Option (UnitColumn n))) (path : String) (logEnergy : Bool := true)
    (logFlux : Bool := true) (referenceEnergy : ℝ := 1) : Except Err (TableSpectrum n) :=
  match read path with
  | .error e => .error e
  | .ok table => fromTable table logEnergy logFlux referenceEnergy

end Pyirf.Spectral
