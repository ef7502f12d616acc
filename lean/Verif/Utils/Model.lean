import Verif.Np.Table
import Mathlib.Analysis.SpecialFunctions.Trigonometric.Basic

/-!
# Model of /repo/pyirf/utils.py (solid angles, table checks)

Angles are in radian.
-/
set_option linter.unusedSectionVars false

namespace Pyirf.Utils
open Pyirf

/-- `cone_solid_angle(angle)`, /repo/pyirf/utils.py:172-187. -/
noncomputable def coneSolidAngle (angle : ℝ) : ℝ := 2 * Real.pi * (1 - Real.cos angle)

/-- `cone_solid_angle` of a float: cos of an infinity is NaN. -/
noncomputable def coneSolidAngleF : FV ℝ → FV ℝ
  | .fin x => .fin (coneSolidAngle x)
  | _ => .nan

/-- `rectangle_solid_angle(lon_low, lon_high, lat_low, lat_high)`, /repo/pyirf/utils.py:190-213. -/
noncomputable def rectangleSolidAngle (lonLow lonHigh latLow latHigh : ℝ) : ℝ :=
  let diffLon := lonHigh - lonLow
  let diffLat := Real.sin latHigh - Real.sin latLow
  diffLon * diffLat

section checks
variable {K : Type*} [LinearOrder K]

/-- `np.all(a == b)` with numpy broadcasting of length-one arrays; shapes that do not fit compare as unequal. -/
def allEqual (a b : List (FV K)) : Bool :=
  if a.length = b.length then (List.zipWith FV.beq a b).all id
  else match a, b with
    | [x], _ => b.all (fun y => FV.beq x y)
    | _, [y] => a.all (fun x => FV.beq x y)
    | _, _ => false

/-- One comparison of `check_histograms`. -/
def checkColumn (h1 h2 : Table (FV K)) (name : String) : Except Err Unit :=
  match h1.get name with
  | .error e => .error e
  | .ok a => match h2.get name with
    | .error e => .error e
    | .ok b => if allEqual a b then .ok () else .error .valueError

/-- `check_histograms(hist1, hist2, key)`, /repo/pyirf/utils.py:150-169. -/
def checkHistograms (h1 h2 : Table (FV K)) (key : String := "reco_energy") : Except Err Unit := do
  checkColumn h1 h2 (key ++ "_low")
  checkColumn h1 h2 (key ++ "_center")
  checkColumn h1 h2 (key ++ "_high")
end checks

/-- One step of the unit check loop of `check_table`, /repo/pyirf/utils.py:245-247. `columns` is the table's
columns with their units (`none`: column without a unit); `equiv expected unit` is astropy's
`expected.is_equivalent(unit)`, which raises TypeError for `unit = None` ("None is not a valid Unit"). -/
def checkUnit {U E : Type*} (equiv : E → U → Bool) (columns : List (String × Option U)) (req : String × E) :
    Except Err Unit :=
  if req.1 ∉ columns.map Prod.fst then .error .missingColumns
  else match columns.find? (fun c => c.1 = req.1) with
    | some c => match c.2 with
      | none => .error .typeError
      | some u => if !equiv req.2 u then .error .wrongColumnUnit else .ok ()
    | none => .error .keyError  -- not reached

/-- `check_table(table, required_columns, required_units)`, /repo/pyirf/utils.py:216-247. -/
def checkTable {U E : Type*} (equiv : E → U → Bool) (columns : List (String × Option U))
    (requiredColumns : Option (List String)) (requiredUnits : Option (List (String × E))) : Except Err Unit :=
  let step1 : Except Err Unit := match requiredColumns with
    | none => .ok ()
    | some req => if (req.filter (fun c => c ∉ columns.map Prod.fst)).isEmpty then .ok () else .error .missingColumns
  match step1 with
  | .error e => .error e
  | .ok _ => match requiredUnits with
    | none => .ok ()
    | some reqs => reqs.forM (checkUnit equiv columns)

end Pyirf.Utils
