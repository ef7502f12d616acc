import Verif.Io.GadfModel

/-!
# Model of /repo/pyirf/gammapy.py

Contract of gammapy (`MapAxis.from_edges`, `IRF.__init__`): an axis keeps the edges and their unit, at least two edges are
required and they must be strictly monotone, otherwise ValueError. An IRF requires axes with the documented names in the
documented order and data of the shape given by the axes (a scalar is spread over all bins), and a unit of the documented
dimension, otherwise ValueError; it keeps the numbers and the unit.

Not modelled: interpolation, `meta`, `is_pointlike` (always the default `False`), the distinction between a scalar and a
zero-dimensional array without unit.
-/
set_option linter.unusedSectionVars false

namespace Pyirf.Io
open Pyirf Pyirf.Np

/-- A gammapy `MapAxis` with edges. -/
structure MapAxis (K : Type*) where
  name : String
  unit : Option (PhysUnit K)
  edges : List (FV K)

/-- A gammapy IRF object: its class, axes, data array and unit. -/
structure GammapyIrf (K : Type*) where
  cls : String
  axes : List (MapAxis K)
  data : ND (FV K)
  unit : PhysUnit K

section model
variable {K : Type} [Field K] [LinearOrder K]

/-- all neighbours in strictly increasing order (`MapAxis` sorts and compares, and rejects duplicates) -/
def strictInc : List (FV K) → Bool
  | a :: b :: l => FV.lt a b && strictInc (b :: l)
  | _ => true

/-- all neighbours in strictly decreasing order -/
def strictDec : List (FV K) → Bool
  | a :: b :: l => FV.gt a b && strictDec (b :: l)
  | _ => true

/-- `MapAxis.from_edges(edges, name=name)` (gammapy contract). -/
def mapAxisFromEdges (edges : Arg K (List (FV K))) (name : String) : Except Err (MapAxis K) :=
  if edges.data.length < 2 then .error .valueError
  else if strictInc edges.data || strictDec edges.data then .ok ⟨name, edges.unit, edges.data⟩
  else .error .valueError

/-- `_create_offset_axis`, /repo/pyirf/gammapy.py:12-13. -/
def createOffsetAxis (fovOffsetBins : Arg K (List (FV K))) : Except Err (MapAxis K) := mapAxisFromEdges fovOffsetBins "offset"

/-- `_create_energy_axis_true`, /repo/pyirf/gammapy.py:15-16. -/
def createEnergyAxisTrue (trueEnergyBins : Arg K (List (FV K))) : Except Err (MapAxis K) :=
  mapAxisFromEdges trueEnergyBins "energy_true"

/-- `IRF.__init__(axes=axes, data=data)` of a class with the given required axis names and default unit (gammapy contract). -/
def gammapyIrf (cls : String) (required : List String) (defaultUnit : PhysUnit K) (axes : List (MapAxis K))
    (data : Arg K (ND (FV K))) : Except Err (GammapyIrf K) :=
  if axes.map MapAxis.name ≠ required then .error .valueError
  else
    let shape := axes.map fun a => a.edges.length - 1
    let un := data.unit.getD unitOne
    if data.data.shape ≠ shape ∧ data.data.shape ≠ [] then .error .valueError
    else if un.dim ≠ defaultUnit.dim then .error .valueError
    else .ok ⟨cls, axes, if data.data.shape = [] then ⟨shape, fun _ => data.data.get []⟩ else data.data, un⟩

/-- gammapy's `EffectiveAreaTable2D` -/
def effectiveAreaTable2D (axes : List (MapAxis K)) (data : Arg K (ND (FV K))) : Except Err (GammapyIrf K) :=
  gammapyIrf "EffectiveAreaTable2D" ["energy_true", "offset"] m2 axes data

/-- gammapy's `PSF3D` -/
def psf3D (axes : List (MapAxis K)) (data : Arg K (ND (FV K))) : Except Err (GammapyIrf K) :=
  gammapyIrf "PSF3D" ["energy_true", "offset", "rad"] perSr axes data

/-- gammapy's `EnergyDispersion2D` -/
def energyDispersion2D (axes : List (MapAxis K)) (data : Arg K (ND (FV K))) : Except Err (GammapyIrf K) :=
  gammapyIrf "EnergyDispersion2D" ["energy_true", "migra", "offset"] unitOne axes data

/-- `create_effective_area_table_2d`, /repo/pyirf/gammapy.py:19-52. -/
def createEffectiveAreaTable2d (c : Consts K) (effectiveArea : Arg K (ND (FV K)))
    (trueEnergyBins fovOffsetBins : Arg K (List (FV K))) : Except Err (GammapyIrf K) := do
  quantityInput effectiveArea m2
  quantityInput trueEnergyBins (teV c)
  quantityInput fovOffsetBins (degree c)
  let offsetAxis ← createOffsetAxis fovOffsetBins
  let energyAxisTrue ← createEnergyAxisTrue trueEnergyBins
  effectiveAreaTable2D [energyAxisTrue, offsetAxis] effectiveArea

/-- `create_psf_3d`, /repo/pyirf/gammapy.py:56-97. -/
def createPsf3d (c : Consts K) (psf : Arg K (ND (FV K)))
    (trueEnergyBins sourceOffsetBins fovOffsetBins : Arg K (List (FV K))) : Except Err (GammapyIrf K) := do
  quantityInput psf perSr
  quantityInput trueEnergyBins (teV c)
  quantityInput sourceOffsetBins (degree c)
  quantityInput fovOffsetBins (degree c)
  let offsetAxis ← createOffsetAxis fovOffsetBins
  let energyAxisTrue ← createEnergyAxisTrue trueEnergyBins
  let radAxis ← mapAxisFromEdges sourceOffsetBins "rad"
  psf3D [energyAxisTrue, offsetAxis, radAxis] psf

/-- `create_energy_dispersion_2d`, /repo/pyirf/gammapy.py:100-138. -/
def createEnergyDispersion2d (c : Consts K) (energyDispersion : Arg K (ND (FV K)))
    (trueEnergyBins migrationBins fovOffsetBins : Arg K (List (FV K))) : Except Err (GammapyIrf K) := do
  quantityInput trueEnergyBins (teV c)
  quantityInput fovOffsetBins (degree c)
  let offsetAxis ← createOffsetAxis fovOffsetBins
  let energyAxisTrue ← createEnergyAxisTrue trueEnergyBins
  let migraAxis ← mapAxisFromEdges migrationBins "migra"
  energyDispersion2D [energyAxisTrue, migraAxis, offsetAxis] energyDispersion

end model
end Pyirf.Io
