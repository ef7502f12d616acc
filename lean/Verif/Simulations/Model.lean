import Verif.Np.Pow
import Verif.Np.Angle
import Verif.Utils.Model

/-!
# Model of /repo/pyirf/simulations.py

Energies are floats in TeV (edges may be 0 or infinite, as `add_overflow_bins` makes them), angles are reals in radian.
Edge arrays with `n + 1` edges are functions on `Fin (n + 1)`; results are functions on the bins.
`np.squeeze` of scalar input is not modelled (every call in the package passes arrays).
-/
set_option linter.unusedSectionVars false

namespace Pyirf.Simulations
open Pyirf Pyirf.Np Pyirf.Utils

/-- `SimulatedEventsInfo`, /repo/pyirf/simulations.py:13-45: energies in TeV, impact in m, angles in radian. -/
structure Info where
  /-- total number of simulated showers -/
  nShowers : ℝ
  energyMin : ℝ
  energyMax : ℝ
  maxImpact : ℝ
  spectralIndex : ℝ
  viewconeMin : ℝ
  viewconeMax : ℝ

/-- `SimulatedEventsInfo.__init__`, /repo/pyirf/simulations.py:46-69. -/
noncomputable def mkInfo (nShowers energyMin energyMax maxImpact spectralIndex viewconeMin viewconeMax : ℝ) : Except Err Info :=
  if spectralIndex > -1 then .error .valueError
  else .ok ⟨nShowers, energyMin, energyMax, maxImpact, spectralIndex, viewconeMin, viewconeMax⟩

/-- `_powerlaw_pdf_integral(index, e_low, e_high, e_min, e_max)`, /repo/pyirf/simulations.py:290-300. -/
noncomputable def powerlawPdfIntegral (index : ℝ) (eLow eHigh eMin eMax : FV ℝ) : FV ℝ :=
  let intIndex := index + 1
  let normalization := FV.fin 1 / (eMax.pow intIndex - eMin.pow intIndex)
  let eTerm := eHigh.pow intIndex - eLow.pow intIndex
  eTerm * normalization

/-- One bin of `calculate_n_showers_per_energy`: the masked assignments in source order, /repo/pyirf/simulations.py:93-113. -/
noncomputable def energyIntegral (s : Info) (eLow eHigh : FV ℝ) : FV ℝ :=
  let eMin := FV.fin s.energyMin
  let eMax := FV.fin s.energyMax
  let i0 := powerlawPdfIntegral s.spectralIndex eLow eHigh eMin eMax
  let i1 := if FV.le eHigh eMin then FV.fin 0 else i0
  let i2 := if FV.ge eLow eMax then FV.fin 0 else i1
  let i3 := if FV.gt eHigh eMax && FV.lt eLow eMax then powerlawPdfIntegral s.spectralIndex eLow eMax eMin eMax else i2
  if FV.gt eHigh eMin && FV.lt eLow eMin then powerlawPdfIntegral s.spectralIndex eMin eHigh eMin eMax else i3

/-- `calculate_n_showers_per_energy(energy_bins)`, /repo/pyirf/simulations.py:71-115. -/
noncomputable def nShowersPerEnergy (s : Info) {n : ℕ} (bins : Fin (n + 1) → FV ℝ) : Fin n → FV ℝ :=
  fun i => FV.fin s.nShowers * energyIntegral s (bins i.castSucc) (bins i.succ)

/-- `_viewcone_pdf_integral(viewcone_min, viewcone_max, fov_low, fov_high)` for one bin, /repo/pyirf/simulations.py:303-331. -/
noncomputable def viewconePdfIntegral (viewconeMin viewconeMax fovLow fovHigh : ℝ) : Except Err (FV ℝ) :=
  if viewconeMax - viewconeMin = 0 then .error .valueError
  else
    let norm := FV.fin 1 / FV.fin (Real.cos viewconeMin - Real.cos viewconeMax)
    let integral :=
      if fovHigh ≥ viewconeMin ∧ fovLow ≤ viewconeMax then
        let lower := if fovLow > viewconeMin then fovLow else viewconeMin
        let upper := if fovHigh < viewconeMax then fovHigh else viewconeMax
        Real.cos lower - Real.cos upper
      else 0
    .ok (FV.fin integral * norm)

/-- The whole array: the test for zero opening comes first and does not depend on the bin, so the call raises or gives a value
for every bin (`np.zeros` gives an empty result only for no bins). /repo/pyirf/simulations.py:303-331. -/
noncomputable def viewconePdfIntegrals (s : Info) {n : ℕ} (bins : Fin (n + 1) → ℝ) : Except Err (Fin n → FV ℝ) :=
  if s.viewconeMax - s.viewconeMin = 0 then .error .valueError
  else .ok (fun i => match viewconePdfIntegral s.viewconeMin s.viewconeMax (bins i.castSucc) (bins i.succ) with
    | .ok x => x
    | .error _ => FV.nan)  -- not reached

/-- `calculate_n_showers_per_fov(fov_bins)`, /repo/pyirf/simulations.py:117-141. -/
noncomputable def nShowersPerFov (s : Info) {n : ℕ} (bins : Fin (n + 1) → ℝ) : Except Err (Fin n → FV ℝ) :=
  match viewconePdfIntegrals s bins with
  | .error e => .error e
  | .ok v => .ok (fun i => FV.fin s.nShowers * v i)

/-- `calculate_n_showers_per_energy_and_fov(energy_bins, fov_bins)`, /repo/pyirf/simulations.py:143-173. -/
noncomputable def nShowersPerEnergyAndFov (s : Info) {n m : ℕ} (energyBins : Fin (n + 1) → FV ℝ) (fovBins : Fin (m + 1) → ℝ) :
    Except Err (Fin n → Fin m → FV ℝ) :=
  let eIntegral := nShowersPerEnergy s energyBins
  match nShowersPerFov s fovBins with
  | .error e => .error e
  | .ok fovIntegral => .ok (fun i j => eIntegral i * fovIntegral j / FV.fin s.nShowers)

/-- `calculate_n_showers_3d_polar(energy_bins, fov_offset_bins, fov_position_angle_bins)`,
/repo/pyirf/simulations.py:175-219. The values of the position-angle edges are not used by the code, only their number. -/
noncomputable def nShowers3dPolar (s : Info) {n m k : ℕ} (energyBins : Fin (n + 1) → FV ℝ) (offsetBins : Fin (m + 1) → ℝ)
    (positionAngleBins : Fin (k + 1) → ℝ) : Except Err (Fin n → Fin m → Fin k → FV ℝ) :=
  match nShowersPerEnergyAndFov s energyBins offsetBins with
  | .error e => .error e
  | .ok eFov =>
    match nShowersPerFov s ![s.viewconeMin, s.viewconeMax] with
    | .error e => .error e
    | .ok viewconeIntegral =>
      let nBinsPa := Fintype.card (Fin (k + 1)) - 1
      let paIntegral : Fin k → FV ℝ := fun _ => viewconeIntegral 0 / FV.fin (nBinsPa : ℝ)
      let _ := positionAngleBins
      .ok (fun i j l => eFov i j * paIntegral l / FV.fin s.nShowers)

/-- one degree in radian -/
noncomputable def deg : ℝ := Real.pi / 180

/-- Subpixel centre number `k` of `bin_center(np.linspace(a, a + w, subpixels + 1))`, /repo/pyirf/simulations.py:421-423. -/
noncomputable def subpixelCenter (a w : ℝ) (subpixels k : ℕ) : ℝ :=
  let edge := fun j : ℕ => a + w * (j : ℝ) / (subpixels : ℝ)
  0.5 * (edge k + edge (k + 1))

/-- Lon/lat edges as passed to the code: `bin_edges.value`, with `unitLon`, `unitLat` the sizes of their units in radian. -/
structure Grid (p q : ℕ) where
  unitLon : ℝ
  unitLat : ℝ
  lonEdges : Fin (p + 1) → ℝ
  latEdges : Fin (q + 1) → ℝ

/-- longitude edge in radian -/
noncomputable def Grid.lon {p q : ℕ} (g : Grid p q) (i : Fin (p + 1)) : ℝ := g.lonEdges i * g.unitLon
/-- latitude edge in radian -/
noncomputable def Grid.lat {p q : ℕ} (g : Grid p q) (j : Fin (q + 1)) : ℝ := g.latEdges j * g.unitLat

/-- `bin_dist`: distance of a bin corner to the field-of-view centre, /repo/pyirf/simulations.py:343-350. -/
noncomputable def Grid.cornerDist {p q : ℕ} (g : Grid p q) (j : Fin (q + 1)) (i : Fin (p + 1)) : ℝ :=
  angularSeparation (g.lon i) (g.lat j) 0 0

/-- `radius_bin_center`, /repo/pyirf/simulations.py:367-381. -/
noncomputable def Grid.centerDist {p q : ℕ} (g : Grid p q) (j : Fin q) (i : Fin p) : ℝ :=
  angularSeparation (0.5 * (g.lon i.castSucc + g.lon i.succ)) (0.5 * (g.lat j.castSucc + g.lat j.succ)) 0 0

/-- `all_outside`, /repo/pyirf/simulations.py:352-355. -/
def allOutside (s : Info) {p q : ℕ} (g : Grid p q) : Prop :=
  (∀ j i, g.cornerDist j i ≤ s.viewconeMin) ∨ (∀ j i, g.cornerDist j i ≥ s.viewconeMax)

/-- `all_inside`, /repo/pyirf/simulations.py:356-359. -/
def allInside (s : Info) {p q : ℕ} (g : Grid p q) : Prop :=
  (∀ j i, g.cornerDist j i ≤ s.viewconeMax) ∧ (∀ j i, g.cornerDist j i ≥ s.viewconeMin)

/-- `bin_max_radius` from the widths of the first bins, /repo/pyirf/simulations.py:393-395. `one_p`, `one_q`: the edge number 1. -/
noncomputable def Grid.binMaxRadius {p q : ℕ} (g : Grid p q) (oneP : Fin (p + 1)) (oneQ : Fin (q + 1)) : ℝ :=
  Real.sqrt ((g.lon oneP - g.lon 0) ^ 2 + (g.lat oneQ - g.lat 0) ^ 2) * 0.5

/-- `fov_edge_mask`, /repo/pyirf/simulations.py:397-406. -/
def edgeMask (s : Info) (r binMaxRadius : ℝ) : Prop :=
  (r < s.viewconeMin + binMaxRadius ∧ r > s.viewconeMin - binMaxRadius) ∨
  (r < s.viewconeMax + binMaxRadius ∧ r > s.viewconeMax - binMaxRadius)

/-- `FOV_covered_area` of one edge bin, /repo/pyirf/simulations.py:411-442: number of subpixel centres inside the viewcone divided
by the number of subpixels. `np.array` in line 412 strips the unit of the edges and line 422 puts degrees in its place. -/
noncomputable def coveredArea (s : Info) (lonEdge latEdge widthLon widthLat : ℝ) (subpixels : ℕ) : FV ℝ :=
  open Classical in
  let inside := fun kl : Fin subpixels × Fin subpixels =>
    let r := angularSeparation (subpixelCenter lonEdge widthLon subpixels kl.1 * deg)
      (subpixelCenter latEdge widthLat subpixels kl.2 * deg) 0 0
    r ≤ s.viewconeMax ∧ r ≥ s.viewconeMin
  FV.fin ((Finset.univ.filter inside).card : ℝ) / FV.fin ((subpixels : ℝ) ^ 2)

/-- `_fov_lonlat_grid_overlap(self, bin_edges_lon, bin_edges_lat, subpixels)`, /repo/pyirf/simulations.py:333-444.
Result indexed `[latitude bin][longitude bin]` as `np.meshgrid` orders it; the scalar
results 0 and 1 are broadcast. `bin_edges[1]` raises IndexError for a single edge, `subpixel_grid[:, 0]` for no edge pixel. -/
noncomputable def fovLonlatGridOverlap (s : Info) {p q : ℕ} (g : Grid p q) (subpixels : ℕ) : Except Err (Fin q → Fin p → FV ℝ) :=
  open Classical in
  if allOutside s g then .ok (fun _ _ => FV.fin 0)
  else if allInside s g then .ok (fun _ _ => FV.fin 1)
  else if h : p = 0 ∨ q = 0 then .error .indexError
  else
    let oneP : Fin (p + 1) := ⟨1, by omega⟩
    let oneQ : Fin (q + 1) := ⟨1, by omega⟩
    let maskSimple := fun j i => g.centerDist j i > s.viewconeMax ∨ g.centerDist j i < s.viewconeMin
    let edge := fun j i => edgeMask s (g.centerDist j i) (g.binMaxRadius oneP oneQ)
    if ∀ j i, ¬ edge j i then .error .indexError
    else
      .ok (fun j i =>
        if edge j i then
          coveredArea s (g.lonEdges i.castSucc) (g.latEdges j.castSucc) (g.lonEdges oneP - g.lonEdges 0)
            (g.latEdges oneQ - g.latEdges 0) subpixels
        else if maskSimple j i then FV.fin 0 else FV.fin 1)

/-- `calculate_n_showers_3d_lonlat(energy_bins, fov_longitude_bins, fov_latitude_bins, subpixels)`,
/repo/pyirf/simulations.py:221-274. Result indexed `[energy][latitude][longitude]` (numpy array of shape
(n_energy, n_lat, n_lon)). -/
noncomputable def nShowers3dLonlat (s : Info) {n p q : ℕ} (energyBins : Fin (n + 1) → FV ℝ) (g : Grid p q) (subpixels : ℕ := 20) :
    Except Err (Fin n → Fin q → Fin p → FV ℝ) :=
  match fovLonlatGridOverlap s g subpixels with
  | .error e => .error e
  | .ok fovOverlap =>
    let binArea := fun (j : Fin q) (i : Fin p) => rectangleSolidAngle (g.lon i.castSucc) (g.lon i.succ) (g.lat j.castSucc) (g.lat j.succ)
    let viewconeArea := coneSolidAngle s.viewconeMax - coneSolidAngle s.viewconeMin
    let showerDensity := FV.fin s.nShowers / FV.fin viewconeArea
    let eIntegral := nShowersPerEnergy s energyBins
    .ok (fun e j i => eIntegral e * (fovOverlap j i * (showerDensity * FV.fin (binArea j i))) / FV.fin s.nShowers)

end Pyirf.Simulations
