import Verif.Sensitivity.Model

/-!
# Model of /repo/pyirf/cut_optimization.py

Angles in radian, energies in one unit. The progress bar is not modelled.
-/
set_option linter.unusedSectionVars false

namespace Pyirf.CutOpt
open Pyirf Pyirf.Binning Pyirf.Cuts Pyirf.Sensitivity

/-- One event of the signal or background list (only the columns that the code reads; signal: energy, theta, gh_score,
multiplicity, weight, particle type; background: the same with the field-of-view offset instead of theta). -/
structure Ev where
  /-- `reco_energy` -/
  energy : FV ℝ
  /-- `theta` -/
  theta : FV ℝ
  /-- `reco_source_fov_offset` -/
  offset : FV ℝ
  /-- `gh_score` -/
  gh : FV ℝ
  /-- `multiplicity` -/
  mult : FV ℝ
  /-- `weight` -/
  weight : ℝ
  /-- `particle_type` -/
  particle : String

/-- An event list and which of the optional columns it has. -/
structure EvTable where
  /-- has a `weight` column -/
  hasWeight : Bool
  /-- has a `particle_type` column -/
  hasParticle : Bool
  /-- the events -/
  rows : List Ev

/-- the event as `create_histogram_table` sees it -/
def Ev.toEvent (e : Ev) : Event ℝ := ⟨e.energy, e.weight, e.particle⟩
/-- the event as `estimate_background` sees it -/
def Ev.toBg (e : Ev) : BgEvent := ⟨e.energy, e.offset, e.weight, e.particle⟩

/-- `table[mask]` -/
def select {α : Type} (rows : List α) (mask : List Bool) : List α := ((rows.zip mask).filter (·.2)).map (·.1)

/-- `a & b` of boolean masks -/
def andMask (a b : List Bool) : List Bool := List.zipWith (· && ·) a b

/-- The arguments that stay the same during a scan. -/
structure Ctx where
  /-- root finder used by `relative_sensitivity` -/
  brentq : RootFn
  /-- significance function (keyword argument) -/
  sig : SigFn
  /-- thresholds (keyword arguments) -/
  th : Thresholds
  /-- signal events -/
  signal : EvTable
  /-- background events -/
  background : EvTable
  /-- `reco_energy_bins` -/
  bins : List (FV ℝ)
  /-- `alpha` -/
  alpha : FV ℝ
  /-- `fov_offset_min` -/
  offMin : FV ℝ
  /-- `fov_offset_max` -/
  offMax : FV ℝ

/-- Histograms and sensitivity of selected events, /repo/pyirf/cut_optimization.py:141-158 and 304-321. -/
noncomputable def sensitivityOf (c : Ctx) (signalSel backgroundSel : List Bool) (thetaCuts : CutTable ℝ (FV ℝ)) :
    Except Err (Table (FV ℝ)) :=
  match histTable c.signal.hasWeight c.signal.hasParticle ((select c.signal.rows signalSel).map Ev.toEvent) c.bins with
  | .error e => .error e
  | .ok sh =>
    match estimateBackground c.background.hasWeight c.background.hasParticle
        ((select c.background.rows backgroundSel).map Ev.toBg) c.bins (thetaCuts.center.zip thetaCuts.cut) c.alpha
        c.offMin c.offMax with
    | .error e => .error e
    | .ok bh => calculateSensitivity c.brentq c.sig sh bh c.alpha c.th

/-- `cuts["cut"][:, j]` put into a copy of the table -/
def cutColumn (t : CutTable ℝ (List (FV ℝ))) (j : ℕ) : CutTable ℝ (FV ℝ) :=
  { t with cut := t.cut.map fun row => row.getD j .nan }

/-- One combination of cuts, /repo/pyirf/cut_optimization.py:121-158. -/
noncomputable def scanOne (c : Ctx) (sIdx bIdx : List (ℤ × Bool)) (multiplicityCut : FV ℝ)
    (thetaCut ghCut : CutTable ℝ (FV ℝ)) : Except Err (Table (FV ℝ)) :=
  match evaluateBinnedCutByIndex true (c.signal.rows.map Ev.theta) sIdx thetaCut FV.le with
  | .error e => .error e
  | .ok maskTheta =>
    match evaluateBinnedCutByIndex true (c.signal.rows.map Ev.gh) sIdx ghCut FV.ge with
    | .error e => .error e
    | .ok maskGh =>
      let signalSel := andMask (andMask maskGh maskTheta) (c.signal.rows.map fun e => FV.ge e.mult multiplicityCut)
      match evaluateBinnedCutByIndex true (c.background.rows.map Ev.gh) bIdx ghCut FV.ge with
      | .error e => .error e
      | .ok bgGh =>
        let backgroundSel := andMask bgGh (c.background.rows.map fun e => FV.ge e.mult multiplicityCut)
        sensitivityOf c signalSel backgroundSel thetaCut

/-- The percentile cut arguments of `optimize_cuts`. -/
structure Grid where
  /-- `multiplicity_cuts` -/
  mults : List (FV ℝ)
  /-- `gh_cut_efficiencies` -/
  ghEff : List ℝ
  /-- `theta_cut_efficiencies` -/
  thetaEff : List ℝ
  /-- `theta_min_value` -/
  thetaMin : FV ℝ
  /-- `theta_max_value` -/
  thetaMax : FV ℝ
  /-- `theta_cut_efficiencies` is a Python list, not an array -/
  thetaIsList : Bool

/-- default `min_events` of `calculate_percentile_cut` -/
def minEventsDefault : ℤ := 10

/-- One scanned combination: indices (multiplicity, theta, gh) and the sensitivity table. -/
abbrev Scan := (ℕ × ℕ × ℕ) × Table (FV ℝ)

/-- the gh cut grid for one multiplicity cut, /repo/pyirf/cut_optimization.py:99-105 -/
noncomputable def ghGrid (c : Ctx) (g : Grid) (fill m : FV ℝ) : Except Err (CutTable ℝ (List (FV ℝ))) :=
  percentileCuts ((c.signal.rows.filter (fun e => FV.ge e.mult m)).map fun e => (e.gh, e.energy)) c.bins fill
    (g.ghEff.map fun x => 100 * (1 - x)) none none minEventsDefault

/-- `100 * theta_cut_efficiencies`, /repo/pyirf/cut_optimization.py:115. For an array every efficiency is multiplied by 100. For a
Python list `100 * list` is the list written one hundred times one after the other (the argument is not converted with
`np.asanyarray` like the gh efficiencies in line 72). -/
noncomputable def thetaPercentiles (g : Grid) : List ℝ :=
  if g.thetaIsList then (List.replicate 100 g.thetaEff).flatten else g.thetaEff.map fun x => 100 * x

/-- the theta cut grid for one multiplicity cut, /repo/pyirf/cut_optimization.py:108-116 -/
noncomputable def thetaGrid (c : Ctx) (g : Grid) (m : FV ℝ) : Except Err (CutTable ℝ (List (FV ℝ))) :=
  percentileCuts ((c.signal.rows.filter (fun e => FV.ge e.mult m)).map fun e => (e.theta, e.energy)) c.bins g.thetaMax
    (thetaPercentiles g) (some g.thetaMin) (some g.thetaMax) minEventsDefault

/-- The body of the loop over multiplicity cuts, /repo/pyirf/cut_optimization.py:94-161. -/
noncomputable def scanMult (c : Ctx) (g : Grid) (fill : FV ℝ) (sIdx bIdx : List (ℤ × Bool)) (mm : FV ℝ × ℕ) :
    Except Err (CutTable ℝ (List (FV ℝ)) × CutTable ℝ (List (FV ℝ)) × List Scan) :=
  match ghGrid c g fill mm.1 with
  | .error e => .error e
  | .ok ghCuts =>
    match thetaGrid c g mm.1 with
    | .error e => .error e
    | .ok thetaCuts =>
      match ((List.range g.ghEff.length) ×ˢ (List.range g.thetaEff.length)).mapM (fun gt =>
          match scanOne c sIdx bIdx mm.1 (cutColumn thetaCuts gt.2) (cutColumn ghCuts gt.1) with
          | .error e => Except.error e
          | .ok s => .ok (((mm.2, gt.2, gt.1), s) : Scan)) with
      | .error e => .error e
      | .ok scans => .ok (ghCuts, thetaCuts, scans)

/-- `np.argmin` of an array without NaN: first index of the smallest value. -/
noncomputable def argmin : List (FV ℝ) → ℕ
  | [] => 0
  | x :: xs => (List.range xs.length).foldl (fun best k =>
      match (x :: xs)[k + 1]?, (x :: xs)[best]? with
      | some a, some b => if FV.lt a b then k + 1 else best
      | _, _ => best) 0

/-- `np.nanargmin` of an array that is not all NaN: numpy replaces NaN by inf and calls argmin. -/
noncomputable def nanargmin (l : List (FV ℝ)) : ℕ := argmin (l.map fun x => if x.isNan then .pinf else x)

/-- Choice of the best cut, /repo/pyirf/cut_optimization.py:188-193 and 335-340. -/
noncomputable def bestIndex (l : List (FV ℝ)) : ℕ := if !(l.all FV.isNan) then nanargmin l else 0

/-- `[s["relative_sensitivity"][bin_id] for s in sensitivities]` -/
noncomputable def relAt (tables : List (Table (FV ℝ))) (i : ℕ) : Except Err (List (FV ℝ)) :=
  tables.mapM fun t => match t.get "relative_sensitivity" with
    | .error e => .error e
    | .ok col => match col[i]? with
      | some v => .ok v
      | none => .error .indexError

/-- The results of an optimization: sensitivity table and per bin cut values and efficiencies. -/
structure Best where
  /-- `best_sensitivity` -/
  sens : Table (FV ℝ)
  /-- multiplicity cuts -/
  mult : List (FV ℝ)
  /-- theta cuts -/
  theta : List (FV ℝ)
  /-- theta efficiencies -/
  thetaEff : List (FV ℝ)
  /-- gh cuts -/
  gh : List (FV ℝ)
  /-- gh efficiencies -/
  ghEff : List (FV ℝ)

/-- `grid[mi]["cut"][bin_id][j]` -/
def gridAt (grid : List (CutTable ℝ (List (FV ℝ)))) (mi bin j : ℕ) : Except Err (FV ℝ) :=
  match grid[mi]? with
  | none => .error .indexError
  | some t => match t.cut[bin]? with
    | none => .error .indexError
    | some row => match row[j]? with
      | none => .error .indexError
      | some v => .ok v

/-- `l[i]` for arguments -/
def itemAt {α : Type} (l : List α) (i : ℕ) : Except Err α :=
  match l[i]? with
  | some v => .ok v
  | none => .error .indexError

/-- One pass of the final loop over the energy bins, /repo/pyirf/cut_optimization.py:185-204. -/
noncomputable def bestStep (g : Grid) (ghGrids thetaGrids : List (CutTable ℝ (List (FV ℝ)))) (scans : List Scan) (b : Best)
    (i : ℕ) : Except Err Best := do
  let rels ← relAt (scans.map Prod.snd) i
  let best ← itemAt scans (bestIndex rels)
  let mi := best.1.1
  let ti := best.1.2.1
  let gi := best.1.2.2
  let sens ← b.sens.setRow i best.2
  let ghV ← gridAt ghGrids mi i gi
  let mV ← itemAt g.mults mi
  let thV ← gridAt thetaGrids mi i ti
  let ghE ← itemAt g.ghEff gi
  let thE ← itemAt g.thetaEff ti
  pure ⟨sens, b.mult.set i mV, b.theta.set i thV, b.thetaEff.set i (.fin thE), b.gh.set i ghV, b.ghEff.set i (.fin ghE)⟩

/-- `signal['gh_score'].max()`: ValueError for an empty list, NaN if there is a NaN. -/
noncomputable def npMax : List (FV ℝ) → Except Err (FV ℝ)
  | [] => .error .valueError
  | x :: xs => .ok (xs.foldl FV.maximum x)
/-- `signal['gh_score'].min()` -/
noncomputable def npMin : List (FV ℝ) → Except Err (FV ℝ)
  | [] => .error .valueError
  | x :: xs => .ok (xs.foldl FV.minimum x)

/-- `optimize_cuts(...)`, /repo/pyirf/cut_optimization.py:20-206. The columns low/center/high of the returned cut tables
(163-182) are added in `optimizeCutsTables`. With an empty grid the code fails (UnboundLocalError or IndexError); both are
`indexError` here. -/
noncomputable def optimizeCuts (c : Ctx) (g : Grid) : Except Err Best := do
  let fill ← npMax (c.signal.rows.map Ev.gh)
  let sIdx ← calculateBinIndices false false (c.signal.rows.map Ev.energy) c.bins
  let bIdx ← calculateBinIndices false false (c.background.rows.map Ev.energy) c.bins
  let grids ← g.mults.zipIdx.mapM (scanMult c g fill sIdx bIdx)
  let scans := grids.flatMap fun x => x.2.2
  let first ← itemAt scans 0
  let nans := List.replicate (c.bins.length - 1) FV.nan
  (List.range (c.bins.length - 1)).foldlM
    (bestStep g (grids.map fun x => x.1) (grids.map fun x => x.2.1) scans) ⟨first.2, nans, nans, nans, nans, nans⟩

/-- A returned cut table, /repo/pyirf/cut_optimization.py:163-182 and 324-329: the bins and the columns `cut` and (not for the multiplicity)
`efficiency`. -/
noncomputable def returnedCuts (bins cut : List (FV ℝ)) (efficiency : Option (List (FV ℝ))) : Table (FV ℝ) :=
  ⟨[("low", bins.dropLast), ("center", binCenter bins), ("high", bins.tail), ("cut", cut)] ++
    match efficiency with
    | none => []
    | some e => [("efficiency", e)]⟩

/-- The four tables returned by `optimize_cuts`: sensitivity, multiplicity cuts, theta cuts, gh cuts, /repo/pyirf/cut_optimization.py:206. -/
noncomputable def optimizeCutsTables (c : Ctx) (g : Grid) : Except Err (Table (FV ℝ) × Table (FV ℝ) × Table (FV ℝ) × Table (FV ℝ)) :=
  match optimizeCuts c g with
  | .error e => .error e
  | .ok b => .ok (b.sens, returnedCuts c.bins b.mult none, returnedCuts c.bins b.theta (some b.thetaEff), returnedCuts c.bins b.gh (some b.ghEff))

/-! ## optimize_gh_cut -/

/-- One scanned gh cut, /repo/pyirf/cut_optimization.py:291-322. `thetaMask` is the theta selection of lines 263-266. -/
noncomputable def scanGh (c : Ctx) (thetaCuts : CutTable ℝ (FV ℝ)) (op : FV ℝ → FV ℝ → Bool) (thetaMask : List Bool)
    (ghCut : CutTable ℝ (FV ℝ)) : Except Err (Table (FV ℝ)) :=
  match evaluateBinnedCut true (c.signal.rows.map Ev.gh) (c.signal.rows.map Ev.energy) ghCut op with
  | .error e => .error e
  | .ok maskGh =>
    match evaluateBinnedCut true (c.background.rows.map Ev.gh) (c.background.rows.map Ev.energy) ghCut op with
    | .error e => .error e
    | .ok bgGh => sensitivityOf c (andMask maskGh thetaMask) bgGh thetaCuts

/-- The results of `optimize_gh_cut`. -/
structure BestGh where
  /-- `best_sensitivity` -/
  sens : Table (FV ℝ)
  /-- column `cut` -/
  gh : List (FV ℝ)
  /-- column `efficiency` -/
  ghEff : List (FV ℝ)

/-- One pass of the final loop, /repo/pyirf/cut_optimization.py:332-344. -/
noncomputable def bestGhStep (ghEff : List ℝ) (ghCuts : CutTable ℝ (List (FV ℝ))) (tables : List (Table (FV ℝ))) (b : BestGh)
    (i : ℕ) : Except Err BestGh := do
  let rels ← relAt tables i
  let best := bestIndex rels
  let t ← itemAt tables best
  let sens ← b.sens.setRow i t
  let v ← gridAt [ghCuts] 0 i best
  let e ← itemAt ghEff best
  pure ⟨sens, b.gh.set i v, b.ghEff.set i (.fin e)⟩

/-- Percentiles and fill value, /repo/pyirf/cut_optimization.py:274-282. -/
noncomputable def ghScanSetup (c : Ctx) (ghEff : List ℝ) (op : FV ℝ → FV ℝ → Bool) : Except Err (List ℝ × FV ℝ) :=
  if op (.fin (-1)) (.fin 1) then
    match npMin (c.signal.rows.map Ev.gh) with
    | .ok f => .ok (ghEff.map fun x => 100 * x, f)
    | .error e => .error e
  else
    match npMax (c.signal.rows.map Ev.gh) with
    | .ok f => .ok (ghEff.map fun x => 100 * (1 - x), f)
    | .error e => .error e

/-- `optimize_gh_cut(...)`, /repo/pyirf/cut_optimization.py:209-346. `op` is the comparison function on floats. -/
noncomputable def optimizeGhCut (c : Ctx) (ghEff : List ℝ) (thetaCuts : CutTable ℝ (FV ℝ)) (op : FV ℝ → FV ℝ → Bool) :
    Except Err BestGh := do
  let thetaMask ← evaluateBinnedCut true (c.signal.rows.map Ev.theta) (c.signal.rows.map Ev.energy) thetaCuts FV.le
  let setup ← ghScanSetup c ghEff op
  let ghCuts ← percentileCuts (c.signal.rows.map fun e => (e.gh, e.energy)) c.bins setup.2 setup.1 none none minEventsDefault
  let tables ← (List.range ghEff.length).mapM fun j => scanGh c thetaCuts op thetaMask (cutColumn ghCuts j)
  let first ← itemAt tables 0
  let nans := List.replicate (c.bins.length - 1) FV.nan
  (List.range (c.bins.length - 1)).foldlM (bestGhStep ghEff ghCuts tables) ⟨first, nans, nans⟩

/-- The two tables returned by `optimize_gh_cut`: sensitivity and gh cuts, /repo/pyirf/cut_optimization.py:324-346. -/
noncomputable def optimizeGhCutTables (c : Ctx) (ghEff : List ℝ) (thetaCuts : CutTable ℝ (FV ℝ)) (op : FV ℝ → FV ℝ → Bool) :
    Except Err (Table (FV ℝ) × Table (FV ℝ)) :=
  match optimizeGhCut c ghEff thetaCuts op with
  | .error e => .error e
  | .ok b => .ok (b.sens, returnedCuts c.bins b.gh (some b.ghEff))

end Pyirf.CutOpt
