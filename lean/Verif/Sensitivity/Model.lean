import Verif.Stats.Model
import Verif.Utils.Model
import Verif.Np.Interp
import Verif.Binning.Model
import Verif.Cuts.Model

/-! # Model of /repo/pyirf/sensitivity.py -/
set_option linter.unusedSectionVars false

namespace Pyirf.Sensitivity
open Pyirf Pyirf.Binning

/-- Type of a significance function `f(n_on, n_off, alpha)`. -/
abbrev SigFn := FV ℝ → FV ℝ → FV ℝ → FV ℝ
/-- Type of a bracketing root finder `brentq(f, lower, upper)`. -/
abbrev RootFn := (FV ℝ → FV ℝ) → FV ℝ → FV ℝ → Except Err (FV ℝ)

/-- The thresholds of a detection (defaults 5, 10, 0.05). -/
structure Thresholds where
  /-- `min_significance` -/
  minSignificance : FV ℝ
  /-- `min_signal_events` -/
  minSignalEvents : FV ℝ
  /-- `min_excess_over_background` -/
  minExcess : FV ℝ

/-- The search bracket of `_relative_sensitivity`, /repo/pyirf/sensitivity.py:55-65. -/
noncomputable def bracket (nOff nBackground nSignal minSignificance : FV ℝ) : FV ℝ × FV ℝ :=
  if FV.gt nOff (.fin 1) then
    let naive := minSignificance * FV.sqrt nBackground / nSignal
    (.fin (1 / 100) * naive, .fin 10 * naive)
  else (.fin (1 / 10000), .fin 100)

/-- Scaling of the found flux to the minimum number of events, /repo/pyirf/sensitivity.py:76-88. Python's
`max(a, b)` is `b` if `b > a`, else `a`. -/
noncomputable def scaleFlux (nSignal nBackground relativeFlux : FV ℝ) (th : Thresholds) : FV ℝ :=
  let nSignal' := nSignal * relativeFlux
  let minExcess := th.minExcess * nBackground
  let minSignal := if FV.gt minExcess th.minSignalEvents then minExcess else th.minSignalEvents
  let scale := if FV.lt nSignal' minSignal then minSignal / nSignal' else .fin 1
  relativeFlux * scale

/-- `_relative_sensitivity(...)`, /repo/pyirf/sensitivity.py:28-88, for a given root finder and significance function. -/
noncomputable def relativeSensitivity1 (brentq : RootFn) (sig : SigFn) (nOn nOff alpha : FV ℝ) (th : Thresholds) :
    Except Err (FV ℝ) :=
  if nOn.isNan || nOff.isNan then .ok .nan
  else if FV.lt nOn (.fin 0) || FV.lt nOff (.fin 0) then .error .valueError
  else
    let nBackground := nOff * alpha
    let nSignal := nOn - nBackground
    if FV.le nSignal (.fin 0) then .ok .pinf
    else
      let equation := fun r => sig (nSignal * r + nBackground) nOff alpha - th.minSignificance
      let br := bracket nOff nBackground nSignal th.minSignificance
      match brentq equation br.1 br.2 with
      | .ok relativeFlux => .ok (scaleFlux nSignal nBackground relativeFlux th)
      | .error e => if e = .runtimeError ∨ e = .valueError then .ok .nan else .error e

/-- `relative_sensitivity(...)`, /repo/pyirf/sensitivity.py:91-163: `np.vectorize` maps over the elements (equal
lengths; scalar alpha and thresholds). `np.vectorize` raises ValueError on empty input. -/
noncomputable def relativeSensitivity (brentq : RootFn) (sig : SigFn) (nOn nOff : List (FV ℝ)) (alpha : FV ℝ)
    (th : Thresholds) : Except Err (List (FV ℝ)) :=
  if nOn.isEmpty then .error .valueError
  else (nOn.zip nOff).mapM fun e => relativeSensitivity1 brentq sig e.1 e.2 alpha th

/-- Elementwise multiplication / addition of columns. -/
noncomputable def colMul (a b : List (FV ℝ)) : List (FV ℝ) := List.zipWith (· * ·) a b
/-- Elementwise `a + c * b` -/
noncomputable def colAxpy (a : List (FV ℝ)) (c : FV ℝ) (b : List (FV ℝ)) : List (FV ℝ) :=
  List.zipWith (fun x y => x + c * y) a b

/-- The background columns copied at /repo/pyirf/sensitivity.py:262-266. -/
def copied (name : String) : Bool := "n_".toList.isPrefixOf name.toList && name != "n_weighted"

/-- `calculate_sensitivity(signal_hist, background_hist, alpha, ...)`, /repo/pyirf/sensitivity.py:166-275. -/
noncomputable def calculateSensitivity (brentq : RootFn) (sig : SigFn) (signal background : Table (FV ℝ))
    (alpha : FV ℝ) (th : Thresholds) : Except Err (Table (FV ℝ)) := do
  Utils.checkHistograms signal background
  let sW ← signal.get "n_weighted"
  let bW ← background.get "n_weighted"
  let nOn := colAxpy sW alpha bW
  let relSens ← relativeSensitivity brentq sig nOn bW alpha th
  let low ← signal.get "reco_energy_low"
  let high ← signal.get "reco_energy_high"
  let center ← signal.get "reco_energy_center"
  let sN ← signal.get "n"
  let bN ← background.get "n"
  let s : Table (FV ℝ) := ⟨[("reco_energy_low", low), ("reco_energy_high", high), ("reco_energy_center", center),
    ("n_signal", colMul sN relSens), ("n_signal_weighted", colMul sW relSens),
    ("n_background", bN), ("n_background_weighted", bW)]⟩
  let s := (background.cols.filter (fun c => copied c.1)).foldl (fun t c => t.set c.1 c.2) s
  let sigW ← s.get "n_signal_weighted"
  let bkgW ← s.get "n_background_weighted"
  let s := s.set "significance" (List.zipWith (fun x y => sig (x + alpha * y) y alpha) sigW bkgW)
  pure (s.set "relative_sensitivity" relSens)

/-! ## estimate_background -/

/-- One background event of an event list: reconstructed energy, offset from the field-of-view centre, weight and
particle type. -/
structure BgEvent where
  /-- `reco_energy` -/
  energy : FV ℝ
  /-- `reco_source_fov_offset` -/
  offset : FV ℝ
  /-- `weight` -/
  weight : ℝ
  /-- `particle_type` -/
  particle : String

/-- Names of the count columns `create_histogram_table` writes, in order (/repo/pyirf/binning.py:207-232). A column that is assigned
again keeps its place. -/
def countNames (hasParticle : Bool) (rows : List (Event ℝ)) : List String :=
  (["n", "n_weighted"] ++ (if hasParticle && decide (0 < rows.length) then
    (groupKeys rows).flatMap (fun p => ["n_" ++ p, "n_" ++ p ++ "_weighted"]) else [])).reverse.dedup.reverse

/-- A histogram table as an astropy table with its columns in order. -/
def toTable (names : List String) (h : HistTable ℝ) : Table (FV ℝ) :=
  ⟨[("reco_energy_low", h.low), ("reco_energy_high", h.high), ("reco_energy_center", h.center)] ++
    names.filterMap (fun n => (h.cols n).map (fun c => (n, c.map FV.fin)))⟩

/-- `create_histogram_table(events, bins, "reco_energy")` as a table. -/
noncomputable def histTable (hasWeight hasParticle : Bool) (rows : List (Event ℝ)) (bins : List (FV ℝ)) :
    Except Err (Table (FV ℝ)) :=
  match createHistogramTable ⟨hasWeight, hasParticle, rows⟩ bins with
  | .error e => .error e
  | .ok h => .ok (toTable (countNames hasParticle rows) h)

/-- The event as `create_histogram_table` sees it. -/
def BgEvent.toEvent (e : BgEvent) : Event ℝ := ⟨e.energy, e.weight, e.particle⟩

/-- Columns scaled at /repo/pyirf/sensitivity.py:343: names starting with `n`. -/
def scaled (name : String) : Bool := "n".toList.isPrefixOf name.toList

/-- `estimate_background(events, reco_energy_bins, theta_cuts, alpha, fov_offset_min, fov_offset_max)`,
/repo/pyirf/sensitivity.py:278-347. `thetaCuts` holds the (center, cut) pairs of the theta cut table. -/
noncomputable def estimateBackground (hasWeight hasParticle : Bool) (events : List BgEvent) (bins : List (FV ℝ))
    (thetaCuts : List (FV ℝ × FV ℝ)) (alpha offMin offMax : FV ℝ) : Except Err (Table (FV ℝ)) := do
  let inRing := events.filter (fun e => FV.ge e.offset offMin && FV.lt e.offset offMax)
  let bg ← histTable hasWeight hasParticle (inRing.map BgEvent.toEvent) bins
  let center := binCenter bins
  let theta := center.map (Np.interp thetaCuts)
  let solidOn := theta.map Utils.coneSolidAngleF
  let solidRing := Utils.coneSolidAngleF offMax - Utils.coneSolidAngleF offMin
  let sizeRatio := solidOn.map (· / solidRing)
  pure ⟨bg.cols.map fun c => if scaled c.1 then (c.1, List.zipWith (fun x r => x * r / alpha) c.2 sizeRatio) else c⟩

end Pyirf.Sensitivity
