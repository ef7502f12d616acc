import Verif.Cuts.Model
import Verif.Np.Interp
import Mathlib.Probability.CDF
import Mathlib.Probability.Distributions.Gaussian.Real

/-!
# Model of /repo/pyirf/benchmarks: energy_bias_resolution.py, angular_resolution.py

Energies are floats in TeV. The quantile contract (`Np.nanquantile`) leaves the value at infinite data open.
-/
set_option linter.unusedSectionVars false

namespace Pyirf.Bench
open Pyirf Pyirf.Np Pyirf.Binning

/-- `norm(0, 1).cdf(-1)`, /repo/pyirf/benchmarks/energy_bias_resolution.py:10 (exact value instead of scipy's float). -/
noncomputable def normLowerSigma : ℝ := ProbabilityTheory.cdf (ProbabilityTheory.gaussianReal 0 1) (-1)
/-- `norm(0, 1).cdf(1)`, /repo/pyirf/benchmarks/energy_bias_resolution.py:10 -/
noncomputable def normUpperSigma : ℝ := ProbabilityTheory.cdf (ProbabilityTheory.gaussianReal 0 1) 1
/-- `ONE_SIGMA_COVERAGE`, /repo/pyirf/benchmarks/energy_bias_resolution.py:11, and `ONE_SIGMA_QUANTILE`,
/repo/pyirf/benchmarks/angular_resolution.py:10. -/
noncomputable def oneSigmaCoverage : ℝ := normUpperSigma - normLowerSigma

/-- An event: `true_energy`, `reco_energy`, `theta`. -/
structure Event where
  trueEnergy : FV ℝ
  recoEnergy : FV ℝ
  theta : FV ℝ

/-- `energy_type`: "true" or "reco" -/
inductive EnergyType
  | true
  | reco

/-- column `f"{energy_type}_energy"` -/
def Event.energy (t : EnergyType) (e : Event) : FV ℝ :=
  match t with
  | .true => e.trueEnergy
  | .reco => e.recoEnergy

/-- `rel_error`, /repo/pyirf/benchmarks/energy_bias_resolution.py:88-90 -/
noncomputable def Event.relError (e : Event) : FV ℝ := e.recoEnergy / e.trueEnergy - .fin 1

/-- `np.abs` -/
noncomputable def absF : FV ℝ → FV ℝ
  | .fin x => .fin |x|
  | .nan => .nan
  | _ => .pinf

/-- `energy_resolution_absolute_68(rel_error)`, /repo/pyirf/benchmarks/energy_bias_resolution.py:15-30. -/
noncomputable def energyResolutionAbsolute68 (rel : List (FV ℝ)) : Except Err (FV ℝ) := nanquantile (rel.map absF) oneSigmaCoverage

/-- `inter_quantile_distance(rel_error)`, /repo/pyirf/benchmarks/energy_bias_resolution.py:33-52. -/
noncomputable def interQuantileDistance (rel : List (FV ℝ)) : Except Err (FV ℝ) :=
  match nanquantile rel normUpperSigma with
  | .error e => .error e
  | .ok upper =>
    match nanquantile rel normLowerSigma with
    | .error e => .error e
    | .ok lower => .ok (.fin 0.5 * (upper - lower))

/-- `np.nanmedian` -/
noncomputable def nanmedian (rel : List (FV ℝ)) : Except Err (FV ℝ) := .ok (medianVal rel)

/-- The table returned by `energy_bias_resolution`. -/
structure BiasTable where
  low : List (FV ℝ)
  high : List (FV ℝ)
  center : List (FV ℝ)
  nEvents : List ℕ
  bias : List (FV ℝ)
  resolution : List (FV ℝ)

/-- One pass of the loop over the groups, /repo/pyirf/benchmarks/energy_bias_resolution.py:114-117. -/
def biasStep (biasFn resFn : List (FV ℝ) → Except Err (FV ℝ)) (byBin : List (ℕ × FV ℝ)) (tab : BiasTable) (k : ℕ) : Except Err BiasTable :=
  let group := (byBin.filter (fun e => e.1 = k)).map Prod.snd
  let tab1 := { tab with nEvents := tab.nEvents.set k group.length }
  match biasFn group with
  | .error e => .error e
  | .ok b =>
    let tab2 := { tab1 with bias := tab1.bias.set k b }
    match resFn group with
    | .error e => .error e
    | .ok r => .ok { tab2 with resolution := tab2.resolution.set k r }

/-- `energy_bias_resolution(events, energy_bins, energy_type, bias_function, resolution_function)`,
/repo/pyirf/benchmarks/energy_bias_resolution.py:55-118. The unused grouping of line 110 is left out (there is an event). -/
noncomputable def energyBiasResolution (biasFn resFn : List (FV ℝ) → Except Err (FV ℝ)) (t : EnergyType) (events : List Event)
    (bins : List (FV ℝ)) : Except Err BiasTable :=
  let n := bins.length - 1
  let init : BiasTable := ⟨bins.dropLast, bins.tail, binCenter bins, List.replicate n 0, List.replicate n .nan, List.replicate n .nan⟩
  if events = [] then .ok init
  else
    match calculateBinIndices false false (events.map (Event.energy t)) bins with
    | .error e => .error e
    | .ok idx =>
      let byBin : List (ℕ × FV ℝ) :=
        ((idx.zip (events.map Event.relError)).filter (fun e => e.1.2)).map (fun e => (e.1.1.toNat, e.2))
      match Cuts.groupedBy (byBin.map Prod.fst) with
      | .error e => .error e
      | .ok keys => keys.foldlM (biasStep biasFn resFn byBin) init

/-! ## energy_bias_resolution_from_energy_dispersion -/

/-- Cumulative distribution of one column, at the upper edges: `np.cumsum(energy_dispersion * bin_width)`,
/repo/pyirf/benchmarks/energy_bias_resolution.py:137-138. -/
def columnCdf {m : ℕ} (d : Fin m → ℝ) (mig : Fin (m + 1) → ℝ) (b : Fin m) : ℝ :=
  ∑ a : Fin m, if a.val ≤ b.val then d a * (mig a.succ - mig a.castSucc) else 0

/-- One column of `energy_bias_resolution_from_energy_dispersion`: (bias, resolution),
/repo/pyirf/benchmarks/energy_bias_resolution.py:147-156. -/
noncomputable def columnBias {m : ℕ} (d : Fin m → ℝ) (mig : Fin (m + 1) → ℝ) : FV ℝ × FV ℝ :=
  open Classical in
  let cdf := columnCdf d mig
  if ∀ b, cdf b = 0 then (.nan, .nan)
  else
    let nodes := List.ofFn fun b : Fin m => (FV.fin (cdf b), FV.fin (mig b.succ))
    let low := interp nodes (.fin normLowerSigma)
    let median := interp nodes (.fin (1 / 2))
    let high := interp nodes (.fin normUpperSigma)
    (median - .fin 1, .fin 0.5 * (high - low))

/-- `energy_bias_resolution_from_energy_dispersion(energy_dispersion, migration_bins)`,
/repo/pyirf/benchmarks/energy_bias_resolution.py:121-158. -/
noncomputable def biasFromDispersion {n m k : ℕ} (d : Fin n → Fin m → Fin k → ℝ) (mig : Fin (m + 1) → ℝ) :
    (Fin n → Fin k → FV ℝ) × (Fin n → Fin k → FV ℝ) :=
  (fun i j => (columnBias (fun a => d i a j) mig).1, fun i j => (columnBias (fun a => d i a j) mig).2)

/-! ## angular_resolution -/

/-- Rounding to an integer as in `f"{x:.0f}"`: to nearest, ties to even. -/
noncomputable def roundHalfEven (x : ℝ) : ℤ :=
  if x - ⌊x⌋ < 1 / 2 then ⌊x⌋ else if 1 / 2 < x - ⌊x⌋ then ⌊x⌋ + 1 else if Even ⌊x⌋ then ⌊x⌋ else ⌊x⌋ + 1

/-- Column name `f"angular_resolution_{value * 100:.0f}"`, represented by the integer in it. -/
noncomputable def quantileKey (q : ℝ) : ℤ := roundHalfEven (q * 100)

/-- The table returned by `angular_resolution`; `cols k` is the column `angular_resolution_k`. -/
structure AngTable where
  low : List (FV ℝ)
  high : List (FV ℝ)
  center : List (FV ℝ)
  nEvents : List ℕ
  cols : ℤ → Option (List (FV ℝ))

/-- `result[key][bin_idx] = value`, /repo/pyirf/benchmarks/angular_resolution.py:78 -/
def setCell (k : ℕ) (cols : ℤ → Option (List (FV ℝ))) (kv : ℤ × FV ℝ) : ℤ → Option (List (FV ℝ)) :=
  Function.update cols kv.1 ((cols kv.1).map fun c => c.set k kv.2)

/-- One pass of the loop over the groups, /repo/pyirf/benchmarks/angular_resolution.py:75-78. -/
noncomputable def angStep (qs : List ℝ) (byBin : List (ℕ × FV ℝ)) (tab : AngTable) (k : ℕ) : Except Err AngTable :=
  let group := (byBin.filter (fun e => e.1 = k)).map Prod.snd
  let tab1 := { tab with nEvents := tab.nEvents.set k group.length }
  match qs.mapM (fun q => nanquantile group q) with
  | .error e => .error e
  | .ok values => .ok { tab1 with cols := ((qs.map quantileKey).zip values).foldl (setCell k) tab1.cols }

/-- `angular_resolution(events, energy_bins, energy_type, quantile)`, /repo/pyirf/benchmarks/angular_resolution.py:13-80, for a list of quantiles
(a single quantile is treated as a list of one, lines 59-60). -/
noncomputable def angularResolution (t : EnergyType) (qs : List ℝ) (events : List Event) (bins : List (FV ℝ)) : Except Err AngTable :=
  match calculateBinIndices false false (events.map (Event.energy t)) bins with
  | .error e => .error e
  | .ok idx =>
    let n := bins.length - 1
    let cols : ℤ → Option (List (FV ℝ)) := (qs.map quantileKey).foldl
      (fun c key => Function.update c key (some (List.replicate n FV.nan))) (fun _ => none)
    let init : AngTable := ⟨bins.dropLast, bins.tail, binCenter bins, List.replicate n 0, cols⟩
    if events = [] then .ok init
    else
      let byBin : List (ℕ × FV ℝ) :=
        ((idx.zip (events.map Event.theta)).filter (fun e => e.1.2)).map (fun e => (e.1.1.toNat, e.2))
      match Cuts.groupedBy (byBin.map Prod.fst) with
      | .error e => .error e
      | .ok keys => keys.foldlM (angStep qs byBin) init

end Pyirf.Bench
