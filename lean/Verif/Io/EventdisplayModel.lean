import Verif.Simulations.Model
import Mathlib.Data.Prod.Lex
import Mathlib.Data.List.Sort
import Mathlib.Algebra.Order.Floor.Ring

/-!
# Model of /repo/pyirf/io/eventdisplay.py

The three tables that `QTable.read` gives are arguments. A table of events is its columns (name and numbers), the run header is its first row.
Histogram contents are finite. Units of the file columns are not modelled: the run header columns are plain numbers, as the converter writes them.
-/
set_option linter.unusedSectionVars false

namespace Pyirf.Io
open Pyirf Pyirf.Np Pyirf.Simulations

/-- `COLUMN_MAP`, /repo/pyirf/io/eventdisplay.py:12-25: (new, old). -/
def columnMap : List (String × String) :=
  [("obs_id", "OBS_ID"), ("event_id", "EVENT_ID"), ("true_energy", "MC_ENERGY"), ("reco_energy", "ENERGY"),
   ("true_alt", "MC_ALT"), ("true_az", "MC_AZ"), ("pointing_alt", "PNT_ALT"), ("pointing_az", "PNT_AZ"),
   ("reco_alt", "ALT"), ("reco_az", "AZ"), ("gh_score", "GH_MVA"), ("multiplicity", "MULTIP")]

/-- Columns of a table: distinct names, in order. -/
abbrev Cols := List (String × List ℝ)

/-- `table.rename_column(old, new)`: KeyError if `old` does not exist or `new` already does; the column keeps its place. -/
def renameColumn (t : Cols) (old new : String) : Except Err Cols :=
  if old ∈ t.map Prod.fst then
    if new ∈ t.map Prod.fst then .error .keyError else .ok (t.map fun c => if c.1 = old then (new, c.2) else c)
  else .error .keyError

/-- `for new, old in COLUMN_MAP.items(): events.rename_column(old, new)`, /repo/pyirf/io/eventdisplay.py:56-57. -/
def renameAll : List (String × String) → Cols → Except Err Cols
  | [], t => .ok t
  | p :: m, t => match renameColumn t p.2 p.1 with
    | .error e => .error e
    | .ok t' => renameAll m t'

/-- `table[name]` -/
def colOf (t : Cols) (name : String) : Except Err (List ℝ) :=
  match t.find? fun c => c.1 = name with
  | none => .error .keyError
  | some c => .ok c.2

/-- number of groups of equal neighbours -/
def countGroups {α : Type*} [DecidableEq α] : List α → ℕ
  | [] => 0
  | [_] => 1
  | a :: b :: l => (if a = b then 0 else 1) + countGroups (b :: l)

/-- `len(unique(table))` of a nonempty table with these rows: astropy sorts the rows and counts the groups of equal neighbours. -/
noncomputable def lenUnique (rows : List (ℝ ×ₗ ℝ ×ₗ ℝ)) : ℕ := countGroups (rows.mergeSort fun a b => decide (a ≤ b))

/-- Rows of `events[['obs_id', 'pointing_az', 'pointing_alt']]` -/
noncomputable def runRows (obsId az alt : List ℝ) : List (ℝ ×ₗ ℝ ×ₗ ℝ) :=
  List.zipWith (fun o p => toLex (o, toLex p)) obsId (az.zip alt)

/-- `int(x)`: truncation toward zero. -/
noncomputable def pyInt (x : ℝ) : ℤ := if 0 ≤ x then ⌊x⌋ else ⌈x⌉

/-- The row of the RUNHEADER table. -/
structure RunHeader where
  numUse : ℤ
  numShowers : ℤ
  eRange : List ℝ
  coreRange : List ℝ
  spectralIndex : ℝ
  viewcone : List ℝ

/-- `x[i]` -/
def item (l : List ℝ) (i : ℕ) : Except Err ℝ :=
  match l[i]? with
  | none => .error .indexError
  | some x => .ok x

/-- `read_eventdisplay_fits(infile, use_histogram)`, /repo/pyirf/io/eventdisplay.py:28-84, for a nonempty EVENTS table.
`simEvents` is the EVENTS column of the SIMULATED EVENTS table, `runHeader` the rows of RUNHEADER. Angles of the simulation info are in radian. -/
noncomputable def readEventdisplayFits (events : Cols) (simEvents : List ℝ) (runHeader : List RunHeader) (useHistogram : Bool := true) :
    Except Err (Cols × Info) :=
  match runHeader with
  | [] => .error .indexError
  | hdr :: _ => do
    let events ← renameAll columnMap events
    let obsId ← colOf events "obs_id"
    let az ← colOf events "pointing_az"
    let alt ← colOf events "pointing_alt"
    let nRuns := lenUnique (runRows obsId az alt)
    let nShowersGuessed : ℤ := nRuns * hdr.numUse * hdr.numShowers
    let nShowersHist : ℤ := pyInt simEvents.sum
    let nShowers := if useHistogram then nShowersHist else nShowersGuessed
    let e0 ← item hdr.eRange 0
    let e1 ← item hdr.eRange 1
    let r1 ← item hdr.coreRange 1
    let v0 ← item hdr.viewcone 0
    let v1 ← item hdr.viewcone 1
    let info ← mkInfo nShowers e0 e1 r1 hdr.spectralIndex (v0 * (Real.pi / 180)) (v1 * (Real.pi / 180))
    pure (events, info)

end Pyirf.Io
