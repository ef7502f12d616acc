import Verif.Np.Angle
import Verif.Np.FV

/-!
# Model of /repo/pyirf/coordinates.py and of the angle functions of /repo/pyirf/utils.py

Angles in radian (the conversion to degrees at the end is a unit change); elementwise on one event.
-/
set_option linter.unusedSectionVars false

namespace Pyirf.Coords
open Pyirf Pyirf.Np

/-- `SkyOffsetFrame(origin=(lon0, lat0))`: cartesian coordinates of the direction `(lon, lat)` in the rotated frame,
`rotation_matrix(-lat0, "y") @ rotation_matrix(lon0, "z")` (astropy/coordinates/builtin_frames/skyoffset.py, rotation 0). -/
noncomputable def offsetCartesian (lon lat lon0 lat0 : ℝ) : ℝ × ℝ × ℝ :=
  let v := (Real.cos lat * Real.cos lon, Real.cos lat * Real.sin lon, Real.sin lat)
  let w := (Real.cos lon0 * v.1 + Real.sin lon0 * v.2.1, -Real.sin lon0 * v.1 + Real.cos lon0 * v.2.1, v.2.2)
  (Real.cos lat0 * w.1 + Real.sin lat0 * w.2.2, w.2.1, -Real.sin lat0 * w.1 + Real.cos lat0 * w.2.2)

/-- `gadf_fov_coords_lon_lat(lon, lat, pointing_lon, pointing_lat)`, /repo/pyirf/coordinates.py:10-42. `SkyCoord` raises
ValueError for latitudes outside ±90 deg. The frame wraps its longitude at 180 deg (`SkyOffsetFrame.represent_as`). -/
noncomputable def gadfFovCoordsLonLat (lon lat pointingLon pointingLat : ℝ) : Except Err (ℝ × ℝ) :=
  if |pointingLat| ≤ Real.pi / 2 ∧ |lat| ≤ Real.pi / 2 then
    let p := offsetCartesian lon lat pointingLon pointingLat
    let fovLon := wrap180 (arctan2 p.2.1 p.1)
    let fovLat := arctan2 p.2.2 (hypot p.1 p.2.1)
    .ok (-fovLon, fovLat)
  else .error .valueError

/-- `gadf_fov_coords_theta_phi(lon, lat, pointing_lon, pointing_lat)`, /repo/pyirf/coordinates.py:45-72. -/
noncomputable def gadfFovCoordsThetaPhi (lon lat pointingLon pointingLat : ℝ) : ℝ × ℝ :=
  let theta := angularSeparation pointingLon pointingLat lon lat
  let phi := positionAngle pointingLon pointingLat lon lat
  (theta, wrap360 (-phi))

/-- `calculate_theta(events, assumed_source_az, assumed_source_alt)` for one event, /repo/pyirf/utils.py:37-63. -/
noncomputable def calculateTheta (recoAz recoAlt sourceAz sourceAlt : ℝ) : ℝ :=
  angularSeparation sourceAz sourceAlt recoAz recoAlt

/-- `calculate_source_fov_offset(events, prefix)` for one event, /repo/pyirf/utils.py:66-91. -/
noncomputable def calculateSourceFovOffset (az alt pointingAz pointingAlt : ℝ) : ℝ :=
  angularSeparation az alt pointingAz pointingAlt

/-- `calculate_source_fov_position_angle(events, prefix)` for one event, /repo/pyirf/utils.py:94-119. -/
noncomputable def calculateSourceFovPositionAngle (az alt pointingAz pointingAlt : ℝ) : ℝ :=
  (gadfFovCoordsThetaPhi az alt pointingAz pointingAlt).2

/-- `calculate_source_fov_lonlat(events, prefix)` for one event, /repo/pyirf/utils.py:122-147. -/
noncomputable def calculateSourceFovLonlat (az alt pointingAz pointingAlt : ℝ) : Except Err (ℝ × ℝ) :=
  gadfFovCoordsLonLat az alt pointingAz pointingAlt

end Pyirf.Coords
