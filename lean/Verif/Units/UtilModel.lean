import Verif.Units.Model
import Verif.Coords.Model

/-!
# Model of the units in the binning helpers of /repo/pyirf/binning.py and the angle functions of /repo/pyirf/utils.py and coordinates.py

The arguments are Quantities; every conversion is written out.
-/
set_option linter.unusedSectionVars false

namespace Pyirf.Units
open Pyirf Pyirf.Np Pyirf.Io Pyirf.Utils Pyirf.Binning Pyirf.Coords

/-! ## binning.py -/

/-- `bin_center(edges)`, /repo/pyirf/binning.py:19-20: slices, sums and multiples by a number keep the unit. -/
noncomputable def binCenterQ (edges : Q (List (FV ℝ))) : Q (List (FV ℝ)) := ⟨edges.unit, binCenter edges.val⟩

/-- `join_bin_lo_hi(bin_lo, bin_hi)`, /repo/pyirf/binning.py:23-47. `np.allclose` converts `bin_hi` to the unit of `bin_lo` (UnitConversionError for another dimension)
and takes its `atol=1e-8`, a number without unit, in the unit of `bin_lo` (astropy/units/quantity_helper/function_helpers.py, `close`); `np.concatenate` converts to the unit of `bin_lo`. -/
noncomputable def joinBinLoHiQ (lo hi : Q (List (List (FV ℝ)))) : Except Err (Q (List (List (FV ℝ)))) := do
  checkDim hi.unit lo.unit
  let bins ← joinBinLoHi lo.val (hi.val.map (List.map (conv hi.unit lo.unit)))
  .ok ⟨lo.unit, bins⟩

/-- `split_bin_lo_hi(bins)`, /repo/pyirf/binning.py:50-69. -/
def splitBinLoHiQ (bins : Q (List (List (FV ℝ)))) : Q (List (List (FV ℝ))) × Q (List (List (FV ℝ))) :=
  (⟨bins.unit, (splitBinLoHi bins.val).1⟩, ⟨bins.unit, (splitBinLoHi bins.val).2⟩)

/-- `add_overflow_bins(bins, positive)`, /repo/pyirf/binning.py:72-96: the new edges are 0, -inf and inf in the unit of the edges. -/
noncomputable def addOverflowBinsQ (bins : Q (List (FV ℝ))) (positive : Bool) : Except Err (Q (List (FV ℝ))) :=
  match addOverflowBins bins.val positive with
  | .error e => .error e
  | .ok b => .ok ⟨bins.unit, b⟩

/-- `create_bins_per_decade(e_min, e_max, bins_per_decade)`, /repo/pyirf/binning.py:99-130: `quantity_input`, then `e_max` in the unit of `e_min`, which the edges have too. -/
noncomputable def createBinsPerDecadeQ (c : Consts ℝ) (eMin eMax : Q ℝ) (binsPerDecade : ℕ) : Except Err (Q (List ℝ)) := do
  checkDim eMin.unit (teV c)
  checkDim eMax.unit (teV c)
  .ok ⟨eMin.unit, createBinsPerDecade eMin.val (eMax.num eMin.unit) binsPerDecade⟩

/-! ## utils.py and coordinates.py -/

/-- `cone_solid_angle(angle)`, /repo/pyirf/utils.py:172-187, in sr: `np.cos` converts to radian, UnitTypeError (a UnitsError) for another dimension. -/
noncomputable def coneSolidAngleQ (angle : Q ℝ) : Except Err ℝ := do
  checkDim angle.unit radian
  .ok (2 * Real.pi * (1 - Real.cos (angle.num radian)))

/-- `rectangle_solid_angle(lon_low, lon_high, lat_low, lat_high)`, /repo/pyirf/utils.py:190-213, in sr: the difference of the longitudes is formed in the unit of `lon_high`. -/
noncomputable def rectangleSolidAngleQ (lonLow lonHigh latLow latHigh : Q ℝ) : Except Err ℝ := do
  checkDim lonLow.unit lonHigh.unit
  checkDim lonHigh.unit radian
  checkDim latHigh.unit radian
  checkDim latLow.unit radian
  let diff : Q ℝ := ⟨lonHigh.unit, lonHigh.val - lonLow.num lonHigh.unit⟩
  .ok (diff.num radian * (Real.sin (latHigh.num radian) - Real.sin (latLow.num radian)))

/-- `astropy.coordinates.angular_separation(lon1, lat1, lon2, lat2)` of Quantities, in radian: the difference of the longitudes is formed in the unit of `lon2`; sines and cosines convert to radian. -/
noncomputable def angularSeparationQ (lon1 lat1 lon2 lat2 : Q ℝ) : Except Err ℝ := do
  checkDim lon1.unit lon2.unit
  checkDim lon2.unit radian
  checkDim lat1.unit radian
  checkDim lat2.unit radian
  let diff : Q ℝ := ⟨lon2.unit, lon2.val - lon1.num lon2.unit⟩
  let d := diff.num radian
  let slat1 := Real.sin (lat1.num radian)
  let slat2 := Real.sin (lat2.num radian)
  let clat1 := Real.cos (lat1.num radian)
  let clat2 := Real.cos (lat2.num radian)
  .ok (arctan2 (hypot (clat2 * Real.sin d) (clat1 * slat2 - slat1 * clat2 * Real.cos d)) (slat1 * slat2 + clat1 * clat2 * Real.cos d))

/-- `astropy.coordinates.position_angle(lon1, lat1, lon2, lat2)` of Quantities, in radian. -/
noncomputable def positionAngleQ (lon1 lat1 lon2 lat2 : Q ℝ) : Except Err ℝ := do
  checkDim lon1.unit lon2.unit
  checkDim lon2.unit radian
  checkDim lat1.unit radian
  checkDim lat2.unit radian
  let diff : Q ℝ := ⟨lon2.unit, lon2.val - lon1.num lon2.unit⟩
  let d := diff.num radian
  let colat := Real.cos (lat2.num radian)
  .ok (wrap360 (arctan2 (Real.sin d * colat) (Real.sin (lat2.num radian) * Real.cos (lat1.num radian) - colat * Real.sin (lat1.num radian) * Real.cos d)))

/-- `x.to(u.deg)` of an angle in radian -/
noncomputable def inDegree (c : Consts ℝ) (x : ℝ) : Q ℝ := ⟨degree c, (⟨radian, x⟩ : Q ℝ).num (degree c)⟩

/-- `calculate_theta(events, assumed_source_az, assumed_source_alt)` for one event, /repo/pyirf/utils.py:37-63. -/
noncomputable def calculateThetaQ (c : Consts ℝ) (recoAz recoAlt sourceAz sourceAlt : Q ℝ) : Except Err (Q ℝ) := do
  checkDim sourceAz.unit (degree c)
  checkDim sourceAlt.unit (degree c)
  let theta ← angularSeparationQ sourceAz sourceAlt recoAz recoAlt
  .ok (inDegree c theta)

/-- `calculate_source_fov_offset(events, prefix)` for one event, /repo/pyirf/utils.py:66-91. -/
noncomputable def calculateSourceFovOffsetQ (c : Consts ℝ) (az alt pointingAz pointingAlt : Q ℝ) : Except Err (Q ℝ) := do
  let theta ← angularSeparationQ az alt pointingAz pointingAlt
  .ok (inDegree c theta)

/-- `gadf_fov_coords_theta_phi(lon, lat, pointing_lon, pointing_lat)`, /repo/pyirf/coordinates.py:45-72. -/
noncomputable def gadfFovCoordsThetaPhiQ (c : Consts ℝ) (lon lat pointingLon pointingLat : Q ℝ) : Except Err (Q ℝ × Q ℝ) := do
  let theta ← angularSeparationQ pointingLon pointingLat lon lat
  let phi ← positionAngleQ pointingLon pointingLat lon lat
  .ok (inDegree c theta, inDegree c (wrap360 (-phi)))

/-- `calculate_source_fov_position_angle(events, prefix)` for one event, /repo/pyirf/utils.py:94-119. -/
noncomputable def calculateSourceFovPositionAngleQ (c : Consts ℝ) (az alt pointingAz pointingAlt : Q ℝ) : Except Err (Q ℝ) := do
  let tp ← gadfFovCoordsThetaPhiQ c az alt pointingAz pointingAlt
  .ok tp.2

/-- `calculate_source_fov_lonlat(events, prefix)` for one event, /repo/pyirf/utils.py:122-147 with coordinates.py:10-42: `SkyCoord` converts all coordinates. The errors of `SkyCoord` for other
dimensions are only modelled as a UnitsError. -/
noncomputable def calculateSourceFovLonlatQ (c : Consts ℝ) (az alt pointingAz pointingAlt : Q ℝ) : Except Err (Q ℝ × Q ℝ) := do
  checkDim pointingAz.unit radian
  checkDim pointingAlt.unit radian
  checkDim az.unit radian
  checkDim alt.unit radian
  let r ← gadfFovCoordsLonLat (az.num radian) (alt.num radian) (pointingAz.num radian) (pointingAlt.num radian)
  .ok (inDegree c r.1, inDegree c r.2)

end Pyirf.Units
