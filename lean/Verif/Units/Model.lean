import Verif.Irf.Model
import Verif.Io.GadfModel

/-!
# Model of the units in /repo/pyirf/binning.py, simulations.py and irf/*.py

`Verif/Simulations/Model.lean` and `Verif/Irf/Model.lean` work on numbers in TeV, m, s and radian. Here the arguments are Quantities with any unit, and every conversion of
the code (`to_value`, comparisons and sums of Quantities, `np.cos`, `@u.quantity_input`) is written out. Comparing or subtracting two Quantities converts the second one to
the unit of the first; `np.cos` converts to radian; all raise a subclass of `UnitsError` for another physical dimension. Arguments without unit are not modelled here.
-/
set_option linter.unusedSectionVars false

namespace Pyirf.Units
open Pyirf Pyirf.Np Pyirf.Io Pyirf.Utils Pyirf.Simulations Pyirf.Irf Pyirf.Binning

/-- A Quantity: unit and numbers. -/
structure Q (α : Type) where
  unit : PhysUnit ℝ
  val : α

/-- `u.rad` -/
def radian : PhysUnit ℝ := ⟨⟨0, 0, 0, 1⟩, 1⟩
/-- `u.m` -/
def metre : PhysUnit ℝ := ⟨⟨1, 0, 0, 0⟩, 1⟩
/-- `u.s` -/
def second : PhysUnit ℝ := ⟨⟨0, 0, 1, 0⟩, 1⟩
/-- `BACKGROUND_UNIT`, /repo/pyirf/irf/background.py:7: `s-1 TeV-1 sr-1` -/
noncomputable def backgroundUnit (c : Consts ℝ) : PhysUnit ℝ := ⟨⟨-2, -1, 1, -2⟩, 1 / (10 ^ 12 * c.eV)⟩

/-- product of two dimensions -/
def Dim.mul (a b : Dim) : Dim := ⟨a.m + b.m, a.kg + b.kg, a.s + b.s, a.rad + b.rad⟩
/-- inverse of a dimension -/
def Dim.inv (a : Dim) : Dim := ⟨-a.m, -a.kg, -a.s, -a.rad⟩

/-- `x.to_value(target)` for one float of a column in unit `un` (the dimension is tested by the caller) -/
noncomputable def conv (un target : PhysUnit ℝ) (x : FV ℝ) : FV ℝ := .fin (un.scale / target.scale) * x

/-- `x.to_value(target)` for an array of edges that may be infinite: UnitConversionError for another dimension -/
noncomputable def Q.edges {n : ℕ} (x : Q (Fin n → FV ℝ)) (target : PhysUnit ℝ) : Except Err (Fin n → FV ℝ) :=
  if x.unit.dim = target.dim then .ok fun i => conv x.unit target (x.val i) else .error .unitsError

/-- the same for finite edges -/
noncomputable def Q.reals {n : ℕ} (x : Q (Fin n → ℝ)) (target : PhysUnit ℝ) : Except Err (Fin n → ℝ) :=
  if x.unit.dim = target.dim then .ok fun i => x.unit.scale / target.scale * x.val i else .error .unitsError

/-- a finite number in another unit -/
noncomputable def Q.num (x : Q ℝ) (target : PhysUnit ℝ) : ℝ := x.unit.scale / target.scale * x.val

/-- A column of an event table is converted: UnitConversionError for another dimension, also for a table without rows. -/
def checkDim (un target : PhysUnit ℝ) : Except Err Unit := if un.dim = target.dim then .ok () else .error .unitsError

/-! ## simulations.py -/

/-- `SimulatedEventsInfo` with Quantities, /repo/pyirf/simulations.py:13-45. -/
structure InfoQ where
  nShowers : ℝ
  energyMin : Q ℝ
  energyMax : Q ℝ
  maxImpact : Q ℝ
  spectralIndex : ℝ
  viewconeMin : Q ℝ
  viewconeMax : Q ℝ

/-- `SimulatedEventsInfo.__init__` with its `quantity_input`, /repo/pyirf/simulations.py:46-69. The Quantities are stored as they are. -/
noncomputable def mkInfoQ (c : Consts ℝ) (nShowers : ℝ) (energyMin energyMax maxImpact : Q ℝ) (spectralIndex : ℝ) (viewconeMin viewconeMax : Q ℝ) : Except Err InfoQ := do
  checkDim energyMin.unit (teV c)
  checkDim energyMax.unit (teV c)
  checkDim maxImpact.unit metre
  checkDim viewconeMin.unit (degree c)
  checkDim viewconeMax.unit (degree c)
  if spectralIndex > -1 then .error .valueError
  else .ok ⟨nShowers, energyMin, energyMax, maxImpact, spectralIndex, viewconeMin, viewconeMax⟩

/-- One bin of `calculate_n_showers_per_energy`, /repo/pyirf/simulations.py:93-113: the masks compare Quantities (`e_high <= e_min` in the unit of the bins),
`_powerlaw_pdf_integral` converts all of its arguments to TeV (290-300). `eLow`, `eHigh` are numbers in the unit `un`. -/
noncomputable def energyIntegralQ (c : Consts ℝ) (s : InfoQ) (un : PhysUnit ℝ) (eLow eHigh : FV ℝ) : FV ℝ :=
  let eMin := FV.fin (s.energyMin.num un)
  let eMax := FV.fin (s.energyMax.num un)
  let low := conv un (teV c) eLow
  let high := conv un (teV c) eHigh
  let eMinT := FV.fin (s.energyMin.num (teV c))
  let eMaxT := FV.fin (s.energyMax.num (teV c))
  let i0 := powerlawPdfIntegral s.spectralIndex low high eMinT eMaxT
  let i1 := if FV.le eHigh eMin then FV.fin 0 else i0
  let i2 := if FV.ge eLow eMax then FV.fin 0 else i1
  let i3 := if FV.gt eHigh eMax && FV.lt eLow eMax then powerlawPdfIntegral s.spectralIndex low eMaxT eMinT eMaxT else i2
  if FV.gt eHigh eMin && FV.lt eLow eMin then powerlawPdfIntegral s.spectralIndex eMinT high eMinT eMaxT else i3

/-- `calculate_n_showers_per_energy(energy_bins)` with its `quantity_input`, /repo/pyirf/simulations.py:71-115. -/
noncomputable def nShowersPerEnergyQ (c : Consts ℝ) (s : InfoQ) {n : ℕ} (bins : Q (Fin (n + 1) → FV ℝ)) : Except Err (Fin n → FV ℝ) := do
  checkDim bins.unit (teV c)
  .ok fun i => FV.fin s.nShowers * energyIntegralQ c s bins.unit (bins.val i.castSucc) (bins.val i.succ)

/-- `calculate_n_showers_per_fov(fov_bins)`, /repo/pyirf/simulations.py:117-141, 303-331: `np.cos` converts to radian, the comparisons and `np.where` work in the unit of the bins.
The test for zero opening is made in the unit of `viewcone_max` and comes before the bins are looked at. -/
noncomputable def nShowersPerFovQ (s : InfoQ) {n : ℕ} (bins : Q (Fin (n + 1) → ℝ)) : Except Err (Fin n → FV ℝ) :=
  if s.viewconeMax.val - s.viewconeMin.num s.viewconeMax.unit = 0 then .error .valueError
  else do
    let norm := FV.fin 1 / FV.fin (Real.cos (s.viewconeMin.num radian) - Real.cos (s.viewconeMax.num radian))
    checkDim bins.unit s.viewconeMin.unit
    .ok fun i =>
      let fovLow := bins.val i.castSucc
      let fovHigh := bins.val i.succ
      let vMin := s.viewconeMin.num bins.unit
      let vMax := s.viewconeMax.num bins.unit
      let integral :=
        if fovHigh ≥ vMin ∧ fovLow ≤ vMax then
          let lower := if fovLow > vMin then fovLow else vMin
          let upper := if fovHigh < vMax then fovHigh else vMax
          Real.cos (bins.unit.scale * lower) - Real.cos (bins.unit.scale * upper)
        else 0
      FV.fin s.nShowers * (FV.fin integral * norm)

/-- `calculate_n_showers_per_energy_and_fov(energy_bins, fov_bins)` with its `quantity_input`, /repo/pyirf/simulations.py:143-173. -/
noncomputable def nShowersPerEnergyAndFovQ (c : Consts ℝ) (s : InfoQ) {n m : ℕ} (energyBins : Q (Fin (n + 1) → FV ℝ)) (fovBins : Q (Fin (m + 1) → ℝ)) :
    Except Err (Fin n → Fin m → FV ℝ) := do
  checkDim energyBins.unit (teV c)
  checkDim fovBins.unit (degree c)
  let eIntegral ← nShowersPerEnergyQ c s energyBins
  let fovIntegral ← nShowersPerFovQ s fovBins
  .ok fun i j => eIntegral i * fovIntegral j / FV.fin s.nShowers

/-- `calculate_n_showers_3d_polar` with its `quantity_input`, /repo/pyirf/simulations.py:175-219: `[viewcone_min, viewcone_max] * u.deg` converts the two Quantities to degrees. -/
noncomputable def nShowers3dPolarQ (c : Consts ℝ) (s : InfoQ) {n m k : ℕ} (energyBins : Q (Fin (n + 1) → FV ℝ)) (offsetBins : Q (Fin (m + 1) → ℝ))
    (positionAngleBins : Q (Fin (k + 1) → ℝ)) : Except Err (Fin n → Fin m → Fin k → FV ℝ) := do
  checkDim energyBins.unit (teV c)
  checkDim offsetBins.unit (degree c)
  checkDim positionAngleBins.unit radian
  let eFov ← nShowersPerEnergyAndFovQ c s energyBins offsetBins
  let viewconeIntegral ← nShowersPerFovQ s (⟨degree c, ![s.viewconeMin.num (degree c), s.viewconeMax.num (degree c)]⟩ : Q (Fin 2 → ℝ))
  let nBinsPa := Fintype.card (Fin (k + 1)) - 1
  .ok fun i j _ => eFov i j * (viewconeIntegral 0 / FV.fin (nBinsPa : ℝ)) / FV.fin s.nShowers

/-- `rectangle_solid_angle` for elementwise bins of longitudes and latitudes in sr, /repo/pyirf/utils.py:190-213: the difference of the longitudes is taken in their unit and converted to radian. -/
noncomputable def rectangleQ (lonUnit latUnit : PhysUnit ℝ) (lonLow lonHigh latLow latHigh : ℝ) : ℝ :=
  let diffLon := lonUnit.scale / radian.scale * (lonHigh - lonLow)
  let diffLat := Real.sin (latUnit.scale / radian.scale * latHigh) - Real.sin (latUnit.scale / radian.scale * latLow)
  diffLon * diffLat

/-- `_fov_lonlat_grid_overlap(self, bin_edges_lon, bin_edges_lat, subpixels)`, /repo/pyirf/simulations.py:333-444: `angular_separation` takes its arguments in radian and gives radian; the first tests are
made on numbers in degrees, the others on Quantities (the right side is converted to radian, sums and differences are in the unit of the viewcone, `bin_max_radius` is in the unit of the longitudes). The
subpixels are made from the numbers of the edges, whatever their unit (`np.array`, line 412; C85). Result indexed `[latitude bin][longitude bin]`. -/
noncomputable def fovLonlatGridOverlapQ (c : Consts ℝ) (s : InfoQ) {p q : ℕ} (lon : Q (Fin (p + 1) → ℝ)) (lat : Q (Fin (q + 1) → ℝ)) (subpixels : ℕ) : Except Err (Fin q → Fin p → FV ℝ) :=
  open Classical in
  let rad := fun (un : PhysUnit ℝ) (x : ℝ) => un.scale / radian.scale * x
  let binDist := fun j i => radian.scale / (degree c).scale * angularSeparation (rad lon.unit (lon.val i)) (rad lat.unit (lat.val j)) 0 0
  let vMinDeg := s.viewconeMin.num (degree c)
  let vMaxDeg := s.viewconeMax.num (degree c)
  if (∀ j i, binDist j i ≤ vMinDeg) ∨ (∀ j i, binDist j i ≥ vMaxDeg) then .ok (fun _ _ => FV.fin 0)
  else if (∀ j i, binDist j i ≤ vMaxDeg) ∧ (∀ j i, binDist j i ≥ vMinDeg) then .ok (fun _ _ => FV.fin 1)
  else if h : p = 0 ∨ q = 0 then .error .indexError
  else
    let oneP : Fin (p + 1) := ⟨1, by omega⟩
    let oneQ : Fin (q + 1) := ⟨1, by omega⟩
    let radius := fun (j : Fin q) (i : Fin p) =>
      angularSeparation (rad lon.unit (0.5 * (lon.val i.castSucc + lon.val i.succ))) (rad lat.unit (0.5 * (lat.val j.castSucc + lat.val j.succ))) 0 0
    let maskSimple := fun j i => radius j i > s.viewconeMax.num radian ∨ radius j i < s.viewconeMin.num radian
    let widthLon := lon.val oneP - lon.val 0
    let widthLat := lat.val oneQ - lat.val 0
    let binMaxRadius := Real.sqrt (widthLon ^ 2 + lat.unit.scale ^ 2 / lon.unit.scale ^ 2 * widthLat ^ 2) * 0.5
    let plus := fun v : Q ℝ => rad v.unit (v.val + lon.unit.scale / v.unit.scale * binMaxRadius)
    let minus := fun v : Q ℝ => rad v.unit (v.val - lon.unit.scale / v.unit.scale * binMaxRadius)
    let outer := fun j i => radius j i < plus s.viewconeMax ∧ radius j i > minus s.viewconeMax
    let inner := fun j i => radius j i < plus s.viewconeMin ∧ radius j i > minus s.viewconeMin
    if ∀ j i, ¬ (inner j i ∨ outer j i) then .error .indexError
    else
      .ok (fun j i =>
        if inner j i ∨ outer j i then
          let inside := fun kl : Fin subpixels × Fin subpixels =>
            let r := angularSeparation (subpixelCenter (lon.val i.castSucc) widthLon subpixels kl.1 * deg) (subpixelCenter (lat.val j.castSucc) widthLat subpixels kl.2 * deg) 0 0
            r ≤ s.viewconeMax.num radian ∧ r ≥ s.viewconeMin.num radian
          FV.fin ((Finset.univ.filter inside).card : ℝ) / FV.fin ((subpixels : ℝ) ^ 2)
        else if maskSimple j i then FV.fin 0 else FV.fin 1)

/-- `calculate_n_showers_3d_lonlat` with its `quantity_input`, /repo/pyirf/simulations.py:221-274. -/
noncomputable def nShowers3dLonlatQ (c : Consts ℝ) (s : InfoQ) {n p q : ℕ} (energyBins : Q (Fin (n + 1) → FV ℝ)) (lonBins : Q (Fin (p + 1) → ℝ)) (latBins : Q (Fin (q + 1) → ℝ)) (subpixels : ℕ) :
    Except Err (Fin n → Fin q → Fin p → FV ℝ) := do
  checkDim energyBins.unit (teV c)
  checkDim lonBins.unit (degree c)
  checkDim latBins.unit radian
  let fovOverlap ← fovLonlatGridOverlapQ c s lonBins latBins subpixels
  let binArea := fun (j : Fin q) (i : Fin p) =>
    rectangleQ lonBins.unit latBins.unit (lonBins.val i.castSucc) (lonBins.val i.succ) (latBins.val j.castSucc) (latBins.val j.succ)
  let viewconeArea := coneSolidAngle (s.viewconeMax.num radian) - coneSolidAngle (s.viewconeMin.num radian)
  let showerDensity := FV.fin s.nShowers / FV.fin viewconeArea
  let eIntegral ← nShowersPerEnergyQ c s energyBins
  .ok fun e j i => eIntegral e * (fovOverlap j i * (showerDensity * FV.fin (binArea j i))) / FV.fin s.nShowers

/-! ## binning.py -/

/-- A histogram table with the unit of its bin columns. -/
structure HistTableQ where
  unit : PhysUnit ℝ
  table : HistTable ℝ

/-- `create_histogram_table(events, bins, key)`, /repo/pyirf/binning.py:183-233, for a column in the unit `un`: `np.histogram` of two Quantities converts the bins to the unit of the
column (UnitConversionError for another dimension); the bin columns keep the bins as they were given. -/
noncomputable def createHistogramTableQ (events : EventTable ℝ) (un : PhysUnit ℝ) {n : ℕ} (bins : Q (Fin n → FV ℝ)) : Except Err HistTableQ := do
  let converted ← bins.edges un
  let t ← createHistogramTable events (List.ofFn converted)
  .ok ⟨bins.unit, ⟨(List.ofFn bins.val).dropLast, (List.ofFn bins.val).tail, binCenter (List.ofFn bins.val), t.cols⟩⟩

/-! ## irf/effective_area.py -/

/-- `area = np.pi * simulation_info.max_impact ** 2` -/
noncomputable def InfoQ.area (s : InfoQ) : Q ℝ :=
  ⟨⟨Dim.mul s.maxImpact.unit.dim s.maxImpact.unit.dim, s.maxImpact.unit.scale ^ 2⟩, Real.pi * s.maxImpact.val ^ 2⟩

/-- `effective_area(n_selected, n_simulated, area)`, /repo/pyirf/irf/effective_area.py:15-29, with its `quantity_input`: the result has the unit of the area. -/
noncomputable def effectiveAreaQ {ι : Type} (nSelected nSimulated : ι → FV ℝ) (area : Q ℝ) : Except Err (Q (ι → FV ℝ)) := do
  checkDim area.unit m2
  .ok ⟨area.unit, fun i => effectiveArea (nSelected i) (nSimulated i) area.val⟩

/-- `effective_area_per_energy(selected_events, simulation_info, true_energy_bins)`, /repo/pyirf/irf/effective_area.py:32-52. -/
noncomputable def effectiveAreaPerEnergyQ (c : Consts ℝ) (events : EventTable ℝ) (un : PhysUnit ℝ) (info : InfoQ) {n : ℕ} (bins : Q (Fin (n + 1) → FV ℝ)) :
    Except Err (Q (Fin n → FV ℝ)) := do
  let histSelected ← createHistogramTableQ events un bins
  let histSimulated ← nShowersPerEnergyQ c info bins
  effectiveAreaQ (fun i => .fin (((histSelected.table.cols "n").getD []).getD i.val 0)) histSimulated info.area

/-- Selected events with the units of the columns. -/
structure TrueTable where
  energy : PhysUnit ℝ
  offset : PhysUnit ℝ
  positionAngle : PhysUnit ℝ
  lon : PhysUnit ℝ
  lat : PhysUnit ℝ
  rows : List TrueEvent

/-- `effective_area_per_energy_and_fov`, /repo/pyirf/irf/effective_area.py:55-89. -/
noncomputable def effectiveAreaPerEnergyAndFovQ (c : Consts ℝ) (t : TrueTable) (info : InfoQ) {n m : ℕ} (energyBins : Q (Fin (n + 1) → FV ℝ)) (fovBins : Q (Fin (m + 1) → ℝ)) :
    Except Err (Q (Fin n × Fin m → FV ℝ)) := do
  let histSimulated ← nShowersPerEnergyAndFovQ c info energyBins fovBins
  checkDim t.energy (teV c)
  checkDim t.offset (degree c)
  let e ← energyBins.edges (teV c)
  let f ← fovBins.reals (degree c)
  let histSelected ← histogram2d e (finEdges f) (t.rows.map fun r => (conv t.energy (teV c) r.energy, conv t.offset (degree c) r.offset, 1))
  effectiveAreaQ (fun ij => .fin (histSelected ij.1 ij.2)) (fun ij => histSimulated ij.1 ij.2) info.area

/-- `effective_area_3d_polar`, /repo/pyirf/irf/effective_area.py:92-139: the position angle is converted to radian. -/
noncomputable def effectiveArea3dPolarQ (c : Consts ℝ) (t : TrueTable) (info : InfoQ) {n m k : ℕ} (energyBins : Q (Fin (n + 1) → FV ℝ)) (offsetBins : Q (Fin (m + 1) → ℝ))
    (positionAngleBins : Q (Fin (k + 1) → ℝ)) : Except Err (Q (Fin n × Fin m × Fin k → FV ℝ)) := do
  let histSimulated ← nShowers3dPolarQ c info energyBins offsetBins positionAngleBins
  checkDim t.energy (teV c)
  checkDim t.offset (degree c)
  checkDim t.positionAngle radian
  let e ← energyBins.edges (teV c)
  let f ← offsetBins.reals (degree c)
  let p ← positionAngleBins.reals radian
  let histSelected ← histogram3d e (finEdges f) (finEdges p)
    (t.rows.map fun r => (conv t.energy (teV c) r.energy, conv t.offset (degree c) r.offset, conv t.positionAngle radian r.positionAngle, 1))
  effectiveAreaQ (fun ijl => .fin (histSelected ijl.1 ijl.2.1 ijl.2.2)) (fun ijl => histSimulated ijl.1 ijl.2.1 ijl.2.2) info.area

/-- `effective_area_3d_lonlat`, /repo/pyirf/irf/effective_area.py:142-190. -/
noncomputable def effectiveArea3dLonlatQ (c : Consts ℝ) (t : TrueTable) (info : InfoQ) {n p q : ℕ} (energyBins : Q (Fin (n + 1) → FV ℝ)) (lonBins : Q (Fin (p + 1) → ℝ))
    (latBins : Q (Fin (q + 1) → ℝ)) (subpixels : ℕ) : Except Err (Q (Arr3 (FV ℝ))) := do
  let histSimulated ← nShowers3dLonlatQ c info energyBins lonBins latBins subpixels
  checkDim t.energy (teV c)
  checkDim t.lon (degree c)
  checkDim t.lat (degree c)
  let e ← energyBins.edges (teV c)
  let lo ← lonBins.reals (degree c)
  let la ← latBins.reals (degree c)
  let histSelected ← histogram3d e (finEdges lo) (finEdges la)
    (t.rows.map fun r => (conv t.energy (teV c) r.energy, conv t.lon (degree c) r.lon, conv t.lat (degree c) r.lat, 1))
  checkDim info.area.unit m2
  let r ← broadcast3 (fun a b => effectiveArea (.fin a) b info.area.val) (Arr3.ofFn 0 histSelected) (Arr3.ofFn FV.nan histSimulated)
  .ok ⟨info.area.unit, r⟩

/-! ## irf/energy_dispersion.py -/

/-- Events with the units of the columns. -/
structure RecoTable where
  trueEnergy : PhysUnit ℝ
  recoEnergy : PhysUnit ℝ
  offset : PhysUnit ℝ
  theta : PhysUnit ℝ
  rows : List RecoEvent

/-- `energy_dispersion(selected_events, true_energy_bins, fov_offset_bins, migration_bins)`, /repo/pyirf/irf/energy_dispersion.py:32-84: the ratio of the two columns has the ratio of
their units and is converted to one. -/
noncomputable def energyDispersionQ (c : Consts ℝ) {n m k : ℕ} (big : ℝ) (t : RecoTable) (trueEnergyBins : Q (Fin (n + 1) → FV ℝ)) (fovOffsetBins : Q (Fin (k + 1) → FV ℝ))
    (migrationBins : Fin (m + 1) → FV ℝ) : Except Err (Fin n → Fin m → Fin k → FV ℝ) := do
  checkDim ⟨Dim.mul t.recoEnergy.dim (Dim.inv t.trueEnergy.dim), t.recoEnergy.scale / t.trueEnergy.scale⟩ unitOne
  let mu := fun r : RecoEvent => FV.fin (t.recoEnergy.scale / t.trueEnergy.scale) * (r.recoEnergy / r.trueEnergy)
  checkDim t.trueEnergy (teV c)
  checkDim t.offset (degree c)
  let e ← trueEnergyBins.edges (teV c)
  let f ← fovOffsetBins.edges (degree c)
  let hist ← histogram3d e migrationBins f (t.rows.map fun r => (conv t.trueEnergy (teV c) r.trueEnergy, mu r, conv t.offset (degree c) r.offset, 1))
  .ok (normalizeHist big hist migrationBins)

/-- `energy_migration_matrix(events, true_energy_bins, reco_energy_bins, fov_offset_bins)` with its `quantity_input`, /repo/pyirf/irf/energy_dispersion.py:87-134. -/
noncomputable def energyMigrationMatrixQ (c : Consts ℝ) {n m k : ℕ} (t : RecoTable) (trueEnergyBins : Q (Fin (n + 1) → FV ℝ)) (recoEnergyBins : Q (Fin (m + 1) → FV ℝ))
    (fovOffsetBins : Q (Fin (k + 1) → FV ℝ)) : Except Err (Fin n → Fin m → Fin k → FV ℝ) := do
  checkDim trueEnergyBins.unit (teV c)
  checkDim recoEnergyBins.unit (teV c)
  checkDim fovOffsetBins.unit (degree c)
  checkDim t.trueEnergy (teV c)
  checkDim t.recoEnergy (teV c)
  checkDim t.offset (degree c)
  let e ← trueEnergyBins.edges (teV c)
  let r ← recoEnergyBins.edges (teV c)
  let f ← fovOffsetBins.edges (degree c)
  let hist ← histogram3d e r f (t.rows.map fun x => (conv t.trueEnergy (teV c) x.trueEnergy, conv t.recoEnergy (teV c) x.recoEnergy, conv t.offset (degree c) x.offset, 1))
  .ok fun i a j => nanToZero (.fin (hist i a j) / .fin (∑ b, hist i b j))

/-! ## irf/psf.py -/

/-- `cone_solid_angle(angles)` in sr, /repo/pyirf/utils.py:172-187: `np.cos` converts to radian and raises UnitTypeError for another dimension. -/
noncomputable def coneSolidAnglesQ {n : ℕ} (x : Q (Fin n → ℝ)) : Except Err (Fin n → ℝ) := do
  let v ← x.reals radian
  .ok fun i => coneSolidAngle (v i)

/-- `psf_table(events, true_energy_bins, source_offset_bins, fov_offset_bins)`, /repo/pyirf/irf/psf.py:7-45: the numbers of the result in sr^-1. -/
noncomputable def psfTableQ (c : Consts ℝ) {n k m : ℕ} (big : ℝ) (t : RecoTable) (trueEnergyBins : Q (Fin (n + 1) → FV ℝ)) (sourceOffsetBins : Q (Fin (m + 1) → ℝ))
    (fovOffsetBins : Q (Fin (k + 1) → FV ℝ)) : Except Err (Fin n → Fin k → Fin m → FV ℝ) := do
  checkDim t.trueEnergy (teV c)
  checkDim t.offset (degree c)
  checkDim t.theta (degree c)
  let e ← trueEnergyBins.edges (teV c)
  let f ← fovOffsetBins.edges (degree c)
  let s ← sourceOffsetBins.reals (degree c)
  let hist ← histogram3d e f (finEdges s) (t.rows.map fun r => (conv t.trueEnergy (teV c) r.trueEnergy, conv t.offset (degree c) r.offset, conv t.theta (degree c) r.theta, 1))
  let cones ← coneSolidAnglesQ sourceOffsetBins
  .ok fun i j a =>
    let nEvents := ∑ b, hist i j b
    let psf := FV.nanToNum (.fin big) (.fin (-big)) (.fin (hist i j a) / .fin nEvents)
    psf / .fin (cones a.succ - cones a.castSucc)

/-! ## irf/background.py -/

/-- Background events with the units of the columns; the weights have no unit. -/
structure BackgroundTable where
  energy : PhysUnit ℝ
  offset : PhysUnit ℝ
  lon : PhysUnit ℝ
  lat : PhysUnit ℝ
  rows : List BackgroundEvent

/-- `.to(BACKGROUND_UNIT)` of numbers in the unit 1 / (energy unit x time unit x sr) -/
noncomputable def rateFactor (c : Consts ℝ) (energy time : PhysUnit ℝ) : Except Err ℝ :=
  let un : PhysUnit ℝ := ⟨Dim.mul (Dim.mul (Dim.inv energy.dim) (Dim.inv time.dim)) ⟨0, 0, 0, -2⟩, 1 / (energy.scale * time.scale)⟩
  if un.dim = (backgroundUnit c).dim then .ok (un.scale / (backgroundUnit c).scale) else .error .unitsError

/-- `background_2d(events, reco_energy_bins, fov_offset_bins, t_obs)`, /repo/pyirf/irf/background.py:10-58: the widths of the energy bins are in the unit of the bins, the observation time in
its own; the result is converted to BACKGROUND_UNIT at the end. -/
noncomputable def background2dQ (c : Consts ℝ) {n m : ℕ} (t : BackgroundTable) (recoEnergyBins : Q (Fin (n + 1) → FV ℝ)) (fovOffsetBins : Q (Fin (m + 1) → ℝ)) (tObs : Q ℝ) :
    Except Err (Fin n → Fin m → FV ℝ) := do
  checkDim t.energy (teV c)
  checkDim t.offset (degree c)
  let e ← recoEnergyBins.edges (teV c)
  let f ← fovOffsetBins.reals (degree c)
  let hist ← histogram2d e (finEdges f) (t.rows.map fun r => (conv t.energy (teV c) r.energy, conv t.offset (degree c) r.offset, r.weight))
  let cones ← coneSolidAnglesQ fovOffsetBins
  let factor ← rateFactor c recoEnergyBins.unit tObs.unit
  .ok fun i j => .fin factor * (.fin (hist i j) / (recoEnergyBins.val i.succ - recoEnergyBins.val i.castSucc) / .fin tObs.val / .fin (cones j.succ - cones j.castSucc))

/-- `background_3d_lonlat(events, reco_energy_bins, fov_lon_bins, fov_lat_bins, t_obs)`, /repo/pyirf/irf/background.py:61-122. -/
noncomputable def background3dLonlatQ (c : Consts ℝ) {n p q : ℕ} (t : BackgroundTable) (recoEnergyBins : Q (Fin (n + 1) → FV ℝ)) (lonBins : Q (Fin (p + 1) → ℝ)) (latBins : Q (Fin (q + 1) → ℝ))
    (tObs : Q ℝ) : Except Err (Arr3 (FV ℝ)) := do
  checkDim t.energy (teV c)
  checkDim t.lon (degree c)
  checkDim t.lat (degree c)
  let e ← recoEnergyBins.edges (teV c)
  let lo ← lonBins.reals (degree c)
  let la ← latBins.reals (degree c)
  let hist ← histogram3d e (finEdges lo) (finEdges la)
    (t.rows.map fun r => (conv t.energy (teV c) r.energy, conv t.lon (degree c) r.lon, conv t.lat (degree c) r.lat, r.weight))
  let perEnergy : Fin n → Fin p → Fin q → FV ℝ := fun i j l => .fin (hist i j l) / (recoEnergyBins.val i.succ - recoEnergyBins.val i.castSucc) / .fin tObs.val
  let lonEdge := fun j : ℕ => if h : j < p + 1 then lonBins.val ⟨j, h⟩ else 0
  let latEdge := fun l : ℕ => if h : l < q + 1 then latBins.val ⟨l, h⟩ else 0
  match bcastLen p q with
  | none => .error .valueError
  | some r =>
    let binSolidAngle : Arr3 ℝ := ⟨(1, 1, r), fun _ _ l =>
      rectangleQ lonBins.unit latBins.unit (lonEdge (bcastIdx p l)) (lonEdge (bcastIdx p l + 1)) (latEdge (bcastIdx q l)) (latEdge (bcastIdx q l + 1))⟩
    let rate ← broadcast3 (fun x y => x / FV.fin y) (Arr3.ofFn FV.nan perEnergy) binSolidAngle
    let factor ← rateFactor c recoEnergyBins.unit tObs.unit
    .ok ⟨rate.shape, fun i j l => .fin factor * rate.val i j l⟩

end Pyirf.Units
