import Verif.Np.Histdd
import Verif.Simulations.Model
import Verif.Binning.Model

/-!
# Model of /repo/pyirf/irf: effective_area.py, energy_dispersion.py, psf.py, background.py

Event columns and energy edges are floats in TeV (NaN and infinities allowed), angles are in radian: the code converts event columns and
edges to degrees before histogramming, which does not change which bin a value is in.
Counts and weights are reals. `np.nan_to_num` replaces infinities by the largest float `big`.
-/
set_option linter.unusedSectionVars false

namespace Pyirf.Irf
open Pyirf Pyirf.Np Pyirf.Utils Pyirf.Simulations Pyirf.Binning

/-- an edge array without infinities as floats -/
def finEdges {n : ℕ} (e : Fin (n + 1) → ℝ) : Fin (n + 1) → FV ℝ := fun i => .fin (e i)

/-! ## effective_area.py -/

/-- `effective_area(n_selected, n_simulated, area)` for one bin, /repo/pyirf/irf/effective_area.py:15-29. -/
noncomputable def effectiveArea (nSelected nSimulated : FV ℝ) (area : ℝ) : FV ℝ := (nSelected / nSimulated) * .fin area

/-- `effective_area_per_energy(selected_events, simulation_info, true_energy_bins)`, /repo/pyirf/irf/effective_area.py:32-52.
`Event.key` is the `true_energy` column. -/
noncomputable def effectiveAreaPerEnergy (events : EventTable ℝ) (info : Info) {n : ℕ} (bins : Fin (n + 1) → FV ℝ) :
    Except Err (Fin n → FV ℝ) :=
  let area := Real.pi * info.maxImpact ^ 2
  match createHistogramTable events (List.ofFn bins) with
  | .error e => .error e
  | .ok histSelected =>
    let histSimulated := nShowersPerEnergy info bins
    .ok fun i => effectiveArea (.fin (((histSelected.cols "n").getD []).getD i.val 0)) (histSimulated i) area

/-- A selected event: `true_energy`, `true_source_fov_offset`, `true_source_fov_position_angle`, `true_source_fov_lon`, `true_source_fov_lat`. -/
structure TrueEvent where
  energy : FV ℝ
  offset : FV ℝ
  positionAngle : FV ℝ
  lon : FV ℝ
  lat : FV ℝ

/-- `effective_area_per_energy_and_fov`, /repo/pyirf/irf/effective_area.py:55-89. -/
noncomputable def effectiveAreaPerEnergyAndFov (events : List TrueEvent) (info : Info) {n m : ℕ} (energyBins : Fin (n + 1) → FV ℝ)
    (fovBins : Fin (m + 1) → ℝ) : Except Err (Fin n → Fin m → FV ℝ) :=
  let area := Real.pi * info.maxImpact ^ 2
  match nShowersPerEnergyAndFov info energyBins fovBins with
  | .error e => .error e
  | .ok histSimulated =>
    match histogram2d energyBins (finEdges fovBins) (events.map fun e => (e.energy, e.offset, 1)) with
    | .error e => .error e
    | .ok histSelected => .ok fun i j => effectiveArea (.fin (histSelected i j)) (histSimulated i j) area

/-- `effective_area_3d_polar`, /repo/pyirf/irf/effective_area.py:92-139. -/
noncomputable def effectiveArea3dPolar (events : List TrueEvent) (info : Info) {n m k : ℕ} (energyBins : Fin (n + 1) → FV ℝ)
    (offsetBins : Fin (m + 1) → ℝ) (positionAngleBins : Fin (k + 1) → ℝ) : Except Err (Fin n → Fin m → Fin k → FV ℝ) :=
  let area := Real.pi * info.maxImpact ^ 2
  match nShowers3dPolar info energyBins offsetBins positionAngleBins with
  | .error e => .error e
  | .ok histSimulated =>
    match histogram3d energyBins (finEdges offsetBins) (finEdges positionAngleBins)
        (events.map fun e => (e.energy, e.offset, e.positionAngle, 1)) with
    | .error e => .error e
    | .ok histSelected => .ok fun i j l => effectiveArea (.fin (histSelected i j l)) (histSimulated i j l) area

/-- `effective_area_3d_lonlat`, /repo/pyirf/irf/effective_area.py:142-190. The selected events are histogrammed as
(energy, longitude, latitude), the simulated numbers come as (energy, latitude, longitude); numpy's broadcasting decides what happens. -/
noncomputable def effectiveArea3dLonlat (events : List TrueEvent) (info : Info) {n p q : ℕ} (energyBins : Fin (n + 1) → FV ℝ)
    (g : Grid p q) (subpixels : ℕ := 20) : Except Err (Arr3 (FV ℝ)) :=
  let area := Real.pi * info.maxImpact ^ 2
  match nShowers3dLonlat info energyBins g subpixels with
  | .error e => .error e
  | .ok histSimulated =>
    match histogram3d energyBins (finEdges g.lon) (finEdges g.lat) (events.map fun e => (e.energy, e.lon, e.lat, 1)) with
    | .error e => .error e
    | .ok histSelected =>
      broadcast3 (fun a b => effectiveArea (.fin a) b area) (Arr3.ofFn 0 histSelected) (Arr3.ofFn FV.nan histSimulated)

/-! ## energy_dispersion.py -/

/-- An event: `true_energy`, `reco_energy`, `true_source_fov_offset`, `theta`. -/
structure RecoEvent where
  trueEnergy : FV ℝ
  recoEnergy : FV ℝ
  offset : FV ℝ
  theta : FV ℝ

/-- `_normalize_hist(hist, migration_bins)`, /repo/pyirf/irf/energy_dispersion.py:14-29. -/
noncomputable def normalizeHist {n m k : ℕ} (big : ℝ) (hist : Fin n → Fin m → Fin k → ℝ) (migrationBins : Fin (m + 1) → FV ℝ) :
    Fin n → Fin m → Fin k → FV ℝ :=
  let binWidth := fun a : Fin m => migrationBins a.succ - migrationBins a.castSucc
  let norm := fun i j => ∑ a, hist i a j
  fun i a j => FV.nanToNum (.fin big) (.fin (-big)) (.fin (hist i a j) / .fin (norm i j) / binWidth a)

/-- `energy_dispersion(selected_events, true_energy_bins, fov_offset_bins, migration_bins)`,
/repo/pyirf/irf/energy_dispersion.py:32-84. -/
noncomputable def energyDispersion {n m k : ℕ} (big : ℝ) (events : List RecoEvent) (trueEnergyBins : Fin (n + 1) → FV ℝ)
    (fovOffsetBins : Fin (k + 1) → FV ℝ) (migrationBins : Fin (m + 1) → FV ℝ) : Except Err (Fin n → Fin m → Fin k → FV ℝ) :=
  match histogram3d trueEnergyBins migrationBins fovOffsetBins
      (events.map fun e => (e.trueEnergy, e.recoEnergy / e.trueEnergy, e.offset, 1)) with
  | .error e => .error e
  | .ok hist => .ok (normalizeHist big hist migrationBins)

/-- `hist[np.isnan(hist)] = 0` for one entry -/
def nanToZero : FV ℝ → FV ℝ
  | .nan => .fin 0
  | x => x

/-- `energy_migration_matrix(events, true_energy_bins, reco_energy_bins, fov_offset_bins)`,
/repo/pyirf/irf/energy_dispersion.py:87-134. -/
noncomputable def energyMigrationMatrix {n m k : ℕ} (events : List RecoEvent) (trueEnergyBins : Fin (n + 1) → FV ℝ)
    (recoEnergyBins : Fin (m + 1) → FV ℝ) (fovOffsetBins : Fin (k + 1) → FV ℝ) : Except Err (Fin n → Fin m → Fin k → FV ℝ) :=
  match histogram3d trueEnergyBins recoEnergyBins fovOffsetBins
      (events.map fun e => (e.trueEnergy, e.recoEnergy, e.offset, 1)) with
  | .error e => .error e
  | .ok hist => .ok fun i a j => nanToZero (.fin (hist i a j) / .fin (∑ b, hist i b j))

/-- One column of `energy_dispersion_to_migration`: the entries of row `idx` (new true energy bin) for one fov bin,
/repo/pyirf/irf/energy_dispersion.py:188-215. `e_true` is the centre of the new true energy bin. -/
noncomputable def migrationColumn {a m : ℕ}
    (spline : (Fin (a + 2) → ℝ) → (Fin (a + 2) → ℝ) → ℝ → ℝ) (big : ℝ) (interpolated : Fin (a + 1) → ℝ)
    (migrationEdges : Fin (a + 2) → FV ℝ) (eTrue : FV ℝ) (newRecoEdges : Fin (m + 1) → FV ℝ) : Except Err (Fin m → ℝ) :=
  let norm := ∑ b, interpolated b
  let norm' := if norm = 0 then 1 else norm
  let dispersion := fun b => interpolated b / norm'
  let interpolationEdges := fun j => newRecoEdges j / eTrue
  resampleHistogram1d spline big dispersion migrationEdges interpolationEdges

/-- `energy_dispersion_to_migration(dispersion_matrix, disp_true_energy_edges, disp_migration_edges, new_true_energy_edges,
new_reco_energy_edges)`, /repo/pyirf/irf/energy_dispersion.py:137-217: the entries for new true energy bin `idx` and fov bin `j`.
Every (idx, j) is computed independently of the others; the migration edges are finite (`np.diff` of them must be).
`splineE`, `splineM` are scipy's quadratic splines on the true energy and migration axes. -/
noncomputable def energyDispersionToMigration {e a k ne m : ℕ}
    (splineE : (Fin (e + 2) → ℝ) → (Fin (e + 2) → ℝ) → ℝ → ℝ) (splineM : (Fin (a + 2) → ℝ) → (Fin (a + 2) → ℝ) → ℝ → ℝ) (big : ℝ)
    (dispersion : Fin (e + 1) → Fin (a + 1) → Fin k → ℝ) (trueEdges : Fin (e + 2) → FV ℝ) (migrationEdges : Fin (a + 2) → ℝ)
    (newTrueEdges : Fin (ne + 1) → FV ℝ) (newRecoEdges : Fin (m + 1) → FV ℝ) (idx : Fin ne) (j : Fin k) : Except Err (Fin m → ℝ) :=
  let migraWidth := fun b : Fin (a + 1) => migrationEdges b.succ - migrationEdges b.castSucc
  let probability := fun i b => dispersion i b j * migraWidth b
  let interpolated := fun b : Fin (a + 1) => resampleHistogram1d splineE big (fun i => probability i b) trueEdges newTrueEdges
  if e = 0 then .error .valueError
  else
    let eTrue := (newTrueEdges idx.succ + newTrueEdges idx.castSucc) / .fin 2
    migrationColumn splineM big
      (fun b => match interpolated b with
        | .ok v => v idx
        | .error _ => 0)  -- not reached: it fails only for a single true energy bin
      (finEdges migrationEdges) eTrue newRecoEdges

/-! ## psf.py -/

/-- `_normalize_psf(hist, source_offset_bins)`, /repo/pyirf/irf/psf.py:33-45. -/
noncomputable def normalizePsf {n k m : ℕ} (big : ℝ) (hist : Fin n → Fin k → Fin m → ℝ) (sourceOffsetBins : Fin (m + 1) → ℝ) :
    Fin n → Fin k → Fin m → FV ℝ :=
  let solidAngle := fun a : Fin m => coneSolidAngle (sourceOffsetBins a.succ) - coneSolidAngle (sourceOffsetBins a.castSucc)
  fun i j a =>
    let nEvents := ∑ b, hist i j b
    let psf := FV.nanToNum (.fin big) (.fin (-big)) (.fin (hist i j a) / .fin nEvents)
    psf / .fin (solidAngle a)

/-- `psf_table(events, true_energy_bins, source_offset_bins, fov_offset_bins)`, /repo/pyirf/irf/psf.py:7-30. -/
noncomputable def psfTable {n k m : ℕ} (big : ℝ) (events : List RecoEvent) (trueEnergyBins : Fin (n + 1) → FV ℝ)
    (sourceOffsetBins : Fin (m + 1) → ℝ) (fovOffsetBins : Fin (k + 1) → FV ℝ) : Except Err (Fin n → Fin k → Fin m → FV ℝ) :=
  match histogram3d trueEnergyBins fovOffsetBins (finEdges sourceOffsetBins)
      (events.map fun e => (e.trueEnergy, e.offset, e.theta, 1)) with
  | .error e => .error e
  | .ok hist => .ok (normalizePsf big hist sourceOffsetBins)

/-! ## background.py -/

/-- A background event: `reco_energy`, `reco_source_fov_offset`, `reco_source_fov_lon`, `reco_source_fov_lat`, `weight`. -/
structure BackgroundEvent where
  energy : FV ℝ
  offset : FV ℝ
  lon : FV ℝ
  lat : FV ℝ
  weight : ℝ

/-- `background_2d(events, reco_energy_bins, fov_offset_bins, t_obs)`, /repo/pyirf/irf/background.py:10-58. `t_obs` in s. -/
noncomputable def background2d {n m : ℕ} (events : List BackgroundEvent) (recoEnergyBins : Fin (n + 1) → FV ℝ)
    (fovOffsetBins : Fin (m + 1) → ℝ) (tObs : ℝ) : Except Err (Fin n → Fin m → FV ℝ) :=
  match histogram2d recoEnergyBins (finEdges fovOffsetBins) (events.map fun e => (e.energy, e.offset, e.weight)) with
  | .error e => .error e
  | .ok hist =>
    let binWidthEnergy := fun i : Fin n => recoEnergyBins i.succ - recoEnergyBins i.castSucc
    let perEnergy := fun i j => .fin (hist i j) / binWidthEnergy i
    let binSolidAngle := fun j : Fin m => coneSolidAngle (fovOffsetBins j.succ) - coneSolidAngle (fovOffsetBins j.castSucc)
    .ok fun i j => perEnergy i j / .fin tObs / .fin (binSolidAngle j)

/-- `background_3d_lonlat(events, reco_energy_bins, fov_lon_bins, fov_lat_bins, t_obs)`, /repo/pyirf/irf/background.py:61-122.
The solid angles are computed elementwise from the longitude and latitude bins, then divide the last (latitude) axis. -/
noncomputable def background3dLonlat {n p q : ℕ} (events : List BackgroundEvent) (recoEnergyBins : Fin (n + 1) → FV ℝ)
    (lonBins : Fin (p + 1) → ℝ) (latBins : Fin (q + 1) → ℝ) (tObs : ℝ) : Except Err (Arr3 (FV ℝ)) :=
  match histogram3d recoEnergyBins (finEdges lonBins) (finEdges latBins) (events.map fun e => (e.energy, e.lon, e.lat, e.weight)) with
  | .error e => .error e
  | .ok hist =>
    let binWidthEnergy := fun i : Fin n => recoEnergyBins i.succ - recoEnergyBins i.castSucc
    let perEnergy : Fin n → Fin p → Fin q → FV ℝ := fun i j l => .fin (hist i j l) / binWidthEnergy i / .fin tObs
    let lonEdge := fun j : ℕ => if h : j < p + 1 then lonBins ⟨j, h⟩ else 0
    let latEdge := fun l : ℕ => if h : l < q + 1 then latBins ⟨l, h⟩ else 0
    match bcastLen p q with
    | none => .error .valueError
    | some r =>
      let binSolidAngle : Arr3 ℝ := ⟨(1, 1, r), fun _ _ l =>
        rectangleSolidAngle (lonEdge (bcastIdx p l)) (lonEdge (bcastIdx p l + 1)) (latEdge (bcastIdx q l)) (latEdge (bcastIdx q l + 1))⟩
      broadcast3 (fun x y => x / FV.fin y) (Arr3.ofFn FV.nan perEnergy) binSolidAngle

end Pyirf.Irf
