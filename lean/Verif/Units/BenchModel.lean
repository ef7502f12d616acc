import Verif.Units.Model
import Verif.Bench.Model
import Verif.Sensitivity.Model

/-!
# Model of the units in /repo/pyirf/binning.py (`calculate_bin_indices`), benchmarks/*.py and `estimate_background` of sensitivity.py

As in `Verif/Units/Model.lean`: all arguments with a physical meaning are Quantities with any unit, every conversion is written out.
-/
set_option linter.unusedSectionVars false

namespace Pyirf.Units
open Pyirf Pyirf.Np Pyirf.Io Pyirf.Binning Pyirf.Bench

/-- the numbers of a list of Quantities in another unit (the dimension is tested by the caller) -/
noncomputable def Q.listIn (x : Q (List (FV ℝ))) (target : PhysUnit ℝ) : List (FV ℝ) := x.val.map (conv x.unit target)

/-- `calculate_bin_indices(data, bins)` for Quantities, /repo/pyirf/binning.py:163-180: the bins are converted to the unit of the data. -/
noncomputable def calculateBinIndicesQ (data bins : Q (List (FV ℝ))) : Except Err (List (ℤ × Bool)) := do
  checkDim bins.unit data.unit
  calculateBinIndices true true data.val (bins.listIn data.unit)

/-- Events with the units of the columns. -/
structure BenchTable where
  trueEnergy : PhysUnit ℝ
  recoEnergy : PhysUnit ℝ
  theta : PhysUnit ℝ
  rows : List Bench.Event

/-- unit of the column `f"{energy_type}_energy"` -/
def BenchTable.energyUnit (t : BenchTable) : EnergyType → PhysUnit ℝ
  | .true => t.trueEnergy
  | .reco => t.recoEnergy

/-- The result of `energy_bias_resolution`: the columns of the bins have the unit `unit`, the others none. -/
structure BiasTableQ where
  unit : PhysUnit ℝ
  table : BiasTable

/-- `energy_bias_resolution(events, energy_bins, energy_type, bias_function, resolution_function)`, /repo/pyirf/benchmarks/energy_bias_resolution.py:86-118: the ratio of the two
columns is converted to one before anything else; without events the bins are not looked at. -/
noncomputable def energyBiasResolutionQ (biasFn resFn : List (FV ℝ) → Except Err (FV ℝ)) (ty : EnergyType) (t : BenchTable) (bins : Q (List (FV ℝ))) : Except Err BiasTableQ := do
  checkDim ⟨Dim.mul t.recoEnergy.dim (Dim.inv t.trueEnergy.dim), t.recoEnergy.scale / t.trueEnergy.scale⟩ unitOne
  let relError := fun e : Bench.Event => FV.fin (t.recoEnergy.scale / t.trueEnergy.scale) * (e.recoEnergy / e.trueEnergy) - .fin 1
  let n := bins.val.length - 1
  let init : BiasTable := ⟨bins.val.dropLast, bins.val.tail, binCenter bins.val, List.replicate n 0, List.replicate n .nan, List.replicate n .nan⟩
  match t.rows with
  | [] => .ok ⟨bins.unit, init⟩
  | _ :: _ =>
    let idx ← calculateBinIndicesQ ⟨t.energyUnit ty, t.rows.map (Bench.Event.energy ty)⟩ bins
    let byBin : List (ℕ × FV ℝ) := ((idx.zip (t.rows.map relError)).filter (fun e => e.1.2)).map (fun e => (e.1.1.toNat, e.2))
    let keys ← Cuts.groupedBy (byBin.map Prod.fst)
    let r ← keys.foldlM (biasStep biasFn resFn byBin) init
    .ok ⟨bins.unit, r⟩

/-- The result of `angular_resolution`: the columns of the bins have the unit `unit`, the resolutions the unit `theta`. -/
structure AngTableQ where
  unit : PhysUnit ℝ
  theta : PhysUnit ℝ
  table : AngTable

/-- `angular_resolution(events, energy_bins, energy_type, quantile)`, /repo/pyirf/benchmarks/angular_resolution.py:48-80: the resolutions have the unit of the column `theta`. -/
noncomputable def angularResolutionQ (ty : EnergyType) (qs : List ℝ) (t : BenchTable) (bins : Q (List (FV ℝ))) : Except Err AngTableQ := do
  let idx ← calculateBinIndicesQ ⟨t.energyUnit ty, t.rows.map (Bench.Event.energy ty)⟩ bins
  let n := bins.val.length - 1
  let cols : ℤ → Option (List (FV ℝ)) := (qs.map quantileKey).foldl (fun c key => Function.update c key (some (List.replicate n FV.nan))) (fun _ => none)
  let init : AngTable := ⟨bins.val.dropLast, bins.val.tail, binCenter bins.val, List.replicate n 0, cols⟩
  match t.rows with
  | [] => .ok ⟨bins.unit, t.theta, init⟩
  | _ :: _ =>
    let byBin : List (ℕ × FV ℝ) := ((idx.zip (t.rows.map Bench.Event.theta)).filter (fun e => e.1.2)).map (fun e => (e.1.1.toNat, e.2))
    let keys ← Cuts.groupedBy (byBin.map Prod.fst)
    let r ← keys.foldlM (angStep qs byBin) init
    .ok ⟨bins.unit, t.theta, r⟩

/-- Background events with the units of the columns. -/
structure OffTable where
  energy : PhysUnit ℝ
  offset : PhysUnit ℝ
  hasWeight : Bool
  hasParticle : Bool
  rows : List Sensitivity.BgEvent

/-- The table of theta cuts: pairs of bin center and cut, with the units of the two columns. -/
structure ThetaTable where
  center : PhysUnit ℝ
  cut : PhysUnit ℝ
  rows : List (FV ℝ × FV ℝ)

/-- A table whose columns of the bins have the unit `unit`. -/
structure TableQ where
  unit : PhysUnit ℝ
  table : Table (FV ℝ)

/-- `estimate_background(events, reco_energy_bins, theta_cuts, alpha, fov_offset_min, fov_offset_max)`, /repo/pyirf/sensitivity.py:278-347: the comparisons are made in the unit of the column, the
histogram in the unit of the energies (its bin columns keep the bins as given), `np.interp` converts the centers of the cuts to the unit of the bins and gives the unit of the cuts,
`cone_solid_angle` converts to radian. -/
noncomputable def estimateBackgroundQ (t : OffTable) (bins : Q (List (FV ℝ))) (cuts : ThetaTable) (alpha : FV ℝ) (offMin offMax : Q (FV ℝ)) : Except Err TableQ := do
  checkDim offMin.unit t.offset
  checkDim offMax.unit t.offset
  let inRing := t.rows.filter (fun e => FV.ge e.offset (conv offMin.unit t.offset offMin.val) && FV.lt e.offset (conv offMax.unit t.offset offMax.val))
  let events := inRing.map Sensitivity.BgEvent.toEvent
  checkDim bins.unit t.energy
  let h ← createHistogramTable ⟨t.hasWeight, t.hasParticle, events⟩ (bins.listIn t.energy)
  let bg := Sensitivity.toTable (Sensitivity.countNames t.hasParticle events) ⟨bins.val.dropLast, bins.val.tail, binCenter bins.val, h.cols⟩
  let center := binCenter bins.val
  checkDim cuts.center bins.unit
  let theta := center.map (Np.interp (cuts.rows.map fun r => (conv cuts.center bins.unit r.1, r.2)))
  checkDim cuts.cut radian
  let solidOn := theta.map fun x => Utils.coneSolidAngleF (conv cuts.cut radian x)
  checkDim offMax.unit radian
  checkDim offMin.unit radian
  let solidRing := Utils.coneSolidAngleF (conv offMax.unit radian offMax.val) - Utils.coneSolidAngleF (conv offMin.unit radian offMin.val)
  let sizeRatio := solidOn.map (· / solidRing)
  .ok ⟨bins.unit, ⟨bg.cols.map fun c => if Sensitivity.scaled c.1 then (c.1, List.zipWith (fun x r => x * r / alpha) c.2 sizeRatio) else c⟩⟩

end Pyirf.Units
