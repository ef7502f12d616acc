import Verif.Units.SensModel
import Verif.CutOpt.Model

/-!
# Model of the units in /repo/pyirf/cut_optimization.py and of the functions of /repo/pyirf/cuts.py it calls

As in the other files of this directory: columns and arguments with a physical meaning are numbers with a unit, and every conversion is written out. `gh_score` and `multiplicity` have no unit.
-/
set_option linter.unusedSectionVars false

namespace Pyirf.Units
open Pyirf Pyirf.Np Pyirf.Io Pyirf.Binning Pyirf.Cuts Pyirf.Sensitivity Pyirf.CutOpt

/-- A table of cuts: unit of the columns low, high and center, unit of the column cut (`unitOne` for a column without unit). -/
structure CutsQ (C : Type) where
  bin : PhysUnit ℝ
  cut : PhysUnit ℝ
  table : CutTable ℝ C

/-- `calculate_percentile_cut` without its unit conversions of the values (58-69), /repo/pyirf/cuts.py:71-107: as `Cuts.cutTable`, but the bins are converted to the unit of the bin values to
find the index, and the table keeps them as given. -/
noncomputable def cutTableQ {C : Type} (pct : List (FV ℝ) → Except Err C) (clip : C → C) (fill : C) (minEvents : ℤ) (evs : List (FV ℝ × FV ℝ)) (energy : PhysUnit ℝ)
    (bins : Q (List (FV ℝ))) : Except Err (CutTable ℝ C) :=
  match calculateBinIndicesQ ⟨energy, evs.map Prod.snd⟩ bins with
  | .error e => .error e
  | .ok idx =>
    let byBin : List (ℕ × FV ℝ) := ((idx.zip (evs.map Prod.fst)).filter (fun e => e.1.2)).map (fun e => (e.1.1.toNat, e.2))
    let init : CutTable ℝ C := ⟨bins.val.dropLast, bins.val.tail, binCenter bins.val, List.replicate (bins.val.length - 1) 0, List.replicate (bins.val.length - 1) fill⟩
    match groupedBy (byBin.map Prod.fst) with
    | .error e => .error e
    | .ok keys => keys.foldlM (cutStep pct clip fill minEvents byBin) init

/-- `calculate_percentile_cut(values, bin_values, bins, fill_value, percentiles)` for values without unit, /repo/pyirf/cuts.py:56-107. -/
noncomputable def plainCutsQ (evs : List (FV ℝ × FV ℝ)) (energy : PhysUnit ℝ) (bins : Q (List (FV ℝ))) (fill : FV ℝ) (percentiles : List ℝ) : Except Err (CutsQ (List (FV ℝ))) :=
  match cutTableQ (fun g => percentiles.mapM (fun p => Np.nanpercentile g p)) (fun vs => vs.map (clipOpt none none)) (percentiles.map fun _ => fill) minEventsDefault evs energy bins with
  | .error e => .error e
  | .ok t => .ok ⟨bins.unit, unitOne, t⟩

/-- `calculate_percentile_cut(values, bin_values, bins, fill_value, percentiles, min_value, max_value)` for values in the unit `vu`, /repo/pyirf/cuts.py:56-107: fill value and bounds are converted to
the unit of the values. -/
noncomputable def unitCutsQ (vu : PhysUnit ℝ) (evs : List (FV ℝ × FV ℝ)) (energy : PhysUnit ℝ) (bins : Q (List (FV ℝ))) (fill minV maxV : Q (FV ℝ)) (percentiles : List ℝ) :
    Except Err (CutsQ (List (FV ℝ))) := do
  checkDim fill.unit vu
  checkDim minV.unit vu
  checkDim maxV.unit vu
  match cutTableQ (fun g => percentiles.mapM (fun p => Np.nanpercentile g p)) (fun vs => vs.map (clipOpt (some (conv minV.unit vu minV.val)) (some (conv maxV.unit vu maxV.val))))
      (percentiles.map fun _ => conv fill.unit vu fill.val) minEventsDefault evs energy bins with
  | .error e => .error e
  | .ok t => .ok ⟨bins.unit, vu, t⟩

/-- `evaluate_binned_cut_by_index(values, bin_index, valid, cut_table, op)` for values in the unit `vu`, /repo/pyirf/cuts.py:119-150: the comparison converts the cuts to the unit of the values,
after they were looked up; UnitConversionError for another dimension. -/
noncomputable def evaluateByIndexQ (vu : PhysUnit ℝ) (values : List (FV ℝ)) (index : List (ℤ × Bool)) (t : CutsQ (FV ℝ)) (op : FV ℝ → FV ℝ → Bool) : Except Err (List Bool) :=
  match evaluateBinnedCutByIndex true values index { t.table with cut := t.table.cut.map (conv t.cut vu) } op with
  | .error e => .error e
  | .ok r => if t.cut.dim = vu.dim then .ok r else .error .unitsError

/-- The same for values without unit and a column cut without unit (no conversion). -/
noncomputable def evaluateByIndexPlain (values : List (FV ℝ)) (index : List (ℤ × Bool)) (t : CutsQ (FV ℝ)) (op : FV ℝ → FV ℝ → Bool) : Except Err (List Bool) :=
  evaluateBinnedCutByIndex true values index t.table op

/-- The edges `low` and last `high` of a table of cuts, /repo/pyirf/cuts.py:186. -/
def CutsQ.edges {C : Type} (t : CutsQ C) : Except Err (Q (List (FV ℝ))) :=
  match t.table.high.getLast? with
  | none => .error .indexError
  | some hi => .ok ⟨t.bin, t.table.low ++ [hi]⟩

/-- `evaluate_binned_cut(values, bin_values, cut_table, op)` for values in the unit `vu` and bin values in `energy`, /repo/pyirf/cuts.py:153-190. -/
noncomputable def evaluateCutQ (vu : PhysUnit ℝ) (values : List (FV ℝ)) (energy : PhysUnit ℝ) (binValues : List (FV ℝ)) (t : CutsQ (FV ℝ)) (op : FV ℝ → FV ℝ → Bool) : Except Err (List Bool) := do
  let edges ← t.edges
  let idx ← calculateBinIndicesQ ⟨energy, binValues⟩ edges
  evaluateByIndexQ vu values idx t op

/-- The same for values and cuts without unit. -/
noncomputable def evaluateCutPlain (values : List (FV ℝ)) (energy : PhysUnit ℝ) (binValues : List (FV ℝ)) (t : CutsQ (FV ℝ)) (op : FV ℝ → FV ℝ → Bool) : Except Err (List Bool) := do
  let edges ← t.edges
  let idx ← calculateBinIndicesQ ⟨energy, binValues⟩ edges
  evaluateByIndexPlain values idx t op

/-- `create_histogram_table(events, bins, "reco_energy")` for a column in the unit `un`, /repo/pyirf/binning.py:183-233: the bins are converted to the unit of the column, the columns of the bins
keep them as given. -/
noncomputable def histTableQ (hasWeight hasParticle : Bool) (rows : List (Event ℝ)) (un : PhysUnit ℝ) (bins : Q (List (FV ℝ))) : Except Err TableQ := do
  checkDim bins.unit un
  let h ← createHistogramTable ⟨hasWeight, hasParticle, rows⟩ (bins.listIn un)
  .ok ⟨bins.unit, toTable (countNames hasParticle rows) ⟨bins.val.dropLast, bins.val.tail, binCenter bins.val, h.cols⟩⟩

/-- The arguments that stay the same during a scan, with the units of the columns `reco_energy` (signal and background), `theta` (signal) and `reco_source_fov_offset` (background). -/
structure CtxQ where
  brentq : RootFn
  sig : SigFn
  th : Thresholds
  signal : EvTable
  sigEnergy : PhysUnit ℝ
  sigTheta : PhysUnit ℝ
  background : EvTable
  bgEnergy : PhysUnit ℝ
  bgOffset : PhysUnit ℝ
  bins : Q (List (FV ℝ))
  alpha : FV ℝ
  offMin : Q (FV ℝ)
  offMax : Q (FV ℝ)

/-- Histograms and sensitivity of selected events, /repo/pyirf/cut_optimization.py:141-158 and 304-321. -/
noncomputable def sensitivityOfQ (c : CtxQ) (signalSel backgroundSel : List Bool) (theta : CutsQ (FV ℝ)) : Except Err TableQ := do
  let sh ← histTableQ c.signal.hasWeight c.signal.hasParticle ((select c.signal.rows signalSel).map Ev.toEvent) c.sigEnergy c.bins
  let bh ← estimateBackgroundQ ⟨c.bgEnergy, c.bgOffset, c.background.hasWeight, c.background.hasParticle, (select c.background.rows backgroundSel).map Ev.toBg⟩ c.bins
    ⟨theta.bin, theta.cut, theta.table.center.zip theta.table.cut⟩ c.alpha c.offMin c.offMax
  calculateSensitivityQ c.brentq c.sig sh bh c.alpha c.th

/-- `cuts["cut"][:, j]` put into a copy of the table -/
def CutsQ.column (t : CutsQ (List (FV ℝ))) (j : ℕ) : CutsQ (FV ℝ) := ⟨t.bin, t.cut, cutColumn t.table j⟩

/-- One combination of cuts, /repo/pyirf/cut_optimization.py:121-158. -/
noncomputable def scanOneQ (c : CtxQ) (sIdx bIdx : List (ℤ × Bool)) (multiplicityCut : FV ℝ) (thetaCut ghCut : CutsQ (FV ℝ)) : Except Err TableQ := do
  let maskTheta ← evaluateByIndexQ c.sigTheta (c.signal.rows.map Ev.theta) sIdx thetaCut FV.le
  let maskGh ← evaluateByIndexPlain (c.signal.rows.map Ev.gh) sIdx ghCut FV.ge
  let signalSel := andMask (andMask maskGh maskTheta) (c.signal.rows.map fun e => FV.ge e.mult multiplicityCut)
  let bgGh ← evaluateByIndexPlain (c.background.rows.map Ev.gh) bIdx ghCut FV.ge
  let backgroundSel := andMask bgGh (c.background.rows.map fun e => FV.ge e.mult multiplicityCut)
  sensitivityOfQ c signalSel backgroundSel thetaCut

/-- The percentile cut arguments of `optimize_cuts`. -/
structure GridQ where
  mults : List (FV ℝ)
  ghEff : List ℝ
  thetaEff : List ℝ
  thetaMin : Q (FV ℝ)
  thetaMax : Q (FV ℝ)
  thetaIsList : Bool

/-- `100 * theta_cut_efficiencies` for an array or a Python list (see `CutOpt.thetaPercentiles`), /repo/pyirf/cut_optimization.py:115 -/
noncomputable def GridQ.percentiles (g : GridQ) : List ℝ :=
  if g.thetaIsList then (List.replicate 100 g.thetaEff).flatten else g.thetaEff.map fun x => 100 * x

/-- the gh cut grid for one multiplicity cut, /repo/pyirf/cut_optimization.py:99-105 -/
noncomputable def ghGridQ (c : CtxQ) (g : GridQ) (fill m : FV ℝ) : Except Err (CutsQ (List (FV ℝ))) :=
  plainCutsQ ((c.signal.rows.filter (fun e => FV.ge e.mult m)).map fun e => (e.gh, e.energy)) c.sigEnergy c.bins fill (g.ghEff.map fun x => 100 * (1 - x))

/-- the theta cut grid for one multiplicity cut, /repo/pyirf/cut_optimization.py:108-116 -/
noncomputable def thetaGridQ (c : CtxQ) (g : GridQ) (m : FV ℝ) : Except Err (CutsQ (List (FV ℝ))) :=
  unitCutsQ c.sigTheta ((c.signal.rows.filter (fun e => FV.ge e.mult m)).map fun e => (e.theta, e.energy)) c.sigEnergy c.bins g.thetaMax g.thetaMin g.thetaMax g.percentiles

/-- One scanned combination: indices (multiplicity, theta, gh) and the sensitivity table. -/
abbrev ScanQ := (ℕ × ℕ × ℕ) × TableQ

/-- The body of the loop over multiplicity cuts, /repo/pyirf/cut_optimization.py:94-161. -/
noncomputable def scanMultQ (c : CtxQ) (g : GridQ) (fill : FV ℝ) (sIdx bIdx : List (ℤ × Bool)) (mm : FV ℝ × ℕ) : Except Err (CutsQ (List (FV ℝ)) × CutsQ (List (FV ℝ)) × List ScanQ) := do
  let ghCuts ← ghGridQ c g fill mm.1
  let thetaCuts ← thetaGridQ c g mm.1
  let scans ← ((List.range g.ghEff.length) ×ˢ (List.range g.thetaEff.length)).mapM fun gt =>
    (scanOneQ c sIdx bIdx mm.1 (thetaCuts.column gt.2) (ghCuts.column gt.1)).map fun s => (((mm.2, gt.2, gt.1), s) : ScanQ)
  .ok (ghCuts, thetaCuts, scans)

/-- `[s["relative_sensitivity"][bin_id] for s in sensitivities]` -/
noncomputable def relAtQ (tables : List TableQ) (i : ℕ) : Except Err (List (FV ℝ)) := relAt (tables.map TableQ.table) i

/-- The columns of the bins converted to the unit `un`. -/
noncomputable def TableQ.colsIn (t : TableQ) (un : PhysUnit ℝ) : Table (FV ℝ) :=
  ⟨t.table.cols.map fun col => if col.1 = "reco_energy_low" ∨ col.1 = "reco_energy_high" ∨ col.1 = "reco_energy_center" then (col.1, col.2.map (conv t.unit un)) else col⟩

/-- `best[i] = table[i]`: the Quantities of the row are converted to the units of the columns (of the same dimension, as all tables of one optimization have the unit of the bins). -/
noncomputable def TableQ.setRow (t : TableQ) (i : ℕ) (other : TableQ) : Except Err TableQ := (t.table.setRow i (other.colsIn t.unit)).map fun r => ⟨t.unit, r⟩

/-- The results of an optimization: the sensitivity table and, in the same bins, the cuts; theta in the unit `theta`. -/
structure BestQ where
  sens : TableQ
  thetaUnit : PhysUnit ℝ
  mult : List (FV ℝ)
  theta : List (FV ℝ)
  thetaEff : List (FV ℝ)
  gh : List (FV ℝ)
  ghEff : List (FV ℝ)

/-- One pass of the final loop over the energy bins, /repo/pyirf/cut_optimization.py:185-204. The columns of cuts are `Column`s with a unit (not Quantities): the numbers are copied. -/
noncomputable def bestStepQ (g : GridQ) (ghGrids thetaGrids : List (CutsQ (List (FV ℝ)))) (scans : List ScanQ) (b : BestQ) (i : ℕ) : Except Err BestQ := do
  let rels ← relAtQ (scans.map Prod.snd) i
  let best ← itemAt scans (bestIndex rels)
  let mi := best.1.1
  let ti := best.1.2.1
  let gi := best.1.2.2
  let sens ← b.sens.setRow i best.2
  let ghV ← gridAt (ghGrids.map CutsQ.table) mi i gi
  let mV ← itemAt g.mults mi
  let thV ← gridAt (thetaGrids.map CutsQ.table) mi i ti
  let ghE ← itemAt g.ghEff gi
  let thE ← itemAt g.thetaEff ti
  pure ⟨sens, b.thetaUnit, b.mult.set i mV, b.theta.set i thV, b.thetaEff.set i (.fin thE), b.gh.set i ghV, b.ghEff.set i (.fin ghE)⟩

/-- `optimize_cuts(...)`, /repo/pyirf/cut_optimization.py:20-206; the unit of the theta cuts is that of the last grid (line 181; without a grid the code fails, see `CutOpt.optimizeCuts`). -/
noncomputable def optimizeCutsQ (c : CtxQ) (g : GridQ) : Except Err BestQ := do
  let fill ← npMax (c.signal.rows.map Ev.gh)
  let sIdx ← calculateBinIndicesQ ⟨c.sigEnergy, c.signal.rows.map Ev.energy⟩ c.bins
  let bIdx ← calculateBinIndicesQ ⟨c.bgEnergy, c.background.rows.map Ev.energy⟩ c.bins
  let grids ← g.mults.zipIdx.mapM (scanMultQ c g fill sIdx bIdx)
  let scans := grids.flatMap fun x => x.2.2
  let first ← itemAt scans 0
  let thetaUnit := (grids.getLast?.map fun x => x.2.1.cut).getD unitOne
  let nans := List.replicate (c.bins.val.length - 1) FV.nan
  (List.range (c.bins.val.length - 1)).foldlM (bestStepQ g (grids.map fun x => x.1) (grids.map fun x => x.2.1) scans) ⟨first.2, thetaUnit, nans, nans, nans, nans, nans⟩

/-! ## optimize_gh_cut -/

/-- One scanned gh cut, /repo/pyirf/cut_optimization.py:291-322. -/
noncomputable def scanGhQ (c : CtxQ) (thetaCuts : CutsQ (FV ℝ)) (op : FV ℝ → FV ℝ → Bool) (thetaMask : List Bool) (ghCut : CutsQ (FV ℝ)) : Except Err TableQ := do
  let maskGh ← evaluateCutPlain (c.signal.rows.map Ev.gh) c.sigEnergy (c.signal.rows.map Ev.energy) ghCut op
  let bgGh ← evaluateCutPlain (c.background.rows.map Ev.gh) c.bgEnergy (c.background.rows.map Ev.energy) ghCut op
  sensitivityOfQ c (andMask maskGh thetaMask) bgGh thetaCuts

/-- The results of `optimize_gh_cut`. -/
structure BestGhQ where
  sens : TableQ
  gh : List (FV ℝ)
  ghEff : List (FV ℝ)

/-- One pass of the final loop, /repo/pyirf/cut_optimization.py:332-344. -/
noncomputable def bestGhStepQ (ghEff : List ℝ) (ghCuts : CutsQ (List (FV ℝ))) (tables : List TableQ) (b : BestGhQ) (i : ℕ) : Except Err BestGhQ := do
  let rels ← relAtQ tables i
  let best := bestIndex rels
  let t ← itemAt tables best
  let sens ← b.sens.setRow i t
  let v ← gridAt [ghCuts.table] 0 i best
  let e ← itemAt ghEff best
  pure ⟨sens, b.gh.set i v, b.ghEff.set i (.fin e)⟩

/-- Percentiles and fill value, /repo/pyirf/cut_optimization.py:274-282. -/
noncomputable def ghSetupQ (c : CtxQ) (ghEff : List ℝ) (op : FV ℝ → FV ℝ → Bool) : Except Err (List ℝ × FV ℝ) :=
  if op (.fin (-1)) (.fin 1) then (npMin (c.signal.rows.map Ev.gh)).map fun f => (ghEff.map fun x => 100 * x, f)
  else (npMax (c.signal.rows.map Ev.gh)).map fun f => (ghEff.map fun x => 100 * (1 - x), f)

/-- `optimize_gh_cut(...)`, /repo/pyirf/cut_optimization.py:209-346. -/
noncomputable def optimizeGhCutQ (c : CtxQ) (ghEff : List ℝ) (thetaCuts : CutsQ (FV ℝ)) (op : FV ℝ → FV ℝ → Bool) : Except Err BestGhQ := do
  let thetaMask ← evaluateCutQ c.sigTheta (c.signal.rows.map Ev.theta) c.sigEnergy (c.signal.rows.map Ev.energy) thetaCuts FV.le
  let setup ← ghSetupQ c ghEff op
  let ghCuts ← plainCutsQ (c.signal.rows.map fun e => (e.gh, e.energy)) c.sigEnergy c.bins setup.2 setup.1
  let tables ← (List.range ghEff.length).mapM fun j => scanGhQ c thetaCuts op thetaMask (ghCuts.column j)
  let first ← itemAt tables 0
  let nans := List.replicate (c.bins.val.length - 1) FV.nan
  (List.range (c.bins.val.length - 1)).foldlM (bestGhStepQ ghEff ghCuts tables) ⟨first, nans, nans⟩

end Pyirf.Units
