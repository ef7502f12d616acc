import Verif.CutOpt.Model
import Verif.Coords.Model
import Verif.Irf.Model
import Verif.Bench.Model
import Verif.Spectral.Constants
import Verif.Stats.Model
import Verif.Io.GadfModel

/-!
# Model of /repo/examples/calculate_eventdisplay_irfs.py

The script composes the functions of pyirf that are modelled in the other directories. Energies in TeV, angles in radian, times in s, lengths in m.

Not modelled: reading the FITS files (the event lists and simulation infos are inputs; `read_eventdisplay_fits` has its own model), logging, and the
bytes of the output file. Angles and true energies of events are finite numbers. Event weights that are not finite (a simulated spectrum that is
zero or NaN) are outside the model: they count as 0.
-/
set_option linter.unusedSectionVars false

namespace Pyirf.Examples
open Pyirf Pyirf.Np Pyirf.Binning Pyirf.Cuts Pyirf.Sensitivity Pyirf.CutOpt Pyirf.Simulations Pyirf.Spectral Pyirf.Coords

/-- An event as `read_eventdisplay_fits` returns it: the columns that the script uses. -/
structure Raw where
  trueEnergy : ℝ
  trueAz : ℝ
  trueAlt : ℝ
  recoEnergy : FV ℝ
  recoAz : ℝ
  recoAlt : ℝ
  gh : FV ℝ
  pointingAz : ℝ
  pointingAlt : ℝ

/-- An event with the columns added in lines 91-110: `particle_type`, `weight`, `true_source_fov_offset`, `reco_source_fov_offset`, `theta`. -/
structure Row where
  trueEnergy : FV ℝ
  recoEnergy : FV ℝ
  gh : FV ℝ
  particle : String
  weight : ℝ
  trueOffset : FV ℝ
  recoOffset : FV ℝ
  theta : FV ℝ

/-- The number in a finite float, else 0. -/
def finite : FV ℝ → ℝ
  | .fin x => x
  | _ => 0

/-- The loop over the particle types for one of them, /repo/examples/calculate_eventdisplay_irfs.py:88-110. The units are checked also if there is no event
(first line after the spectrum). -/
noncomputable def prepare (tObs : ℝ) (info : Info) (target : Spectrum) (particle : String) (events : List Raw) : Except Err (List Row) := do
  let simulated ← fromSimulation info tObs
  let _ ← calculateEventWeight 1 target simulated.spectrum
  events.mapM fun e => do
    let weight ← calculateEventWeight e.trueEnergy target simulated.spectrum
    pure ⟨.fin e.trueEnergy, e.recoEnergy, e.gh, particle, finite weight,
      .fin (calculateSourceFovOffset e.trueAz e.trueAlt e.pointingAz e.pointingAlt),
      .fin (calculateSourceFovOffset e.recoAz e.recoAlt e.pointingAz e.pointingAlt),
      .fin (calculateTheta e.recoAz e.recoAlt e.pointingAz e.pointingAlt)⟩

/-- The settings of the script: the constants at its top (lines 54-66) and those in `main` (lines 127-248). -/
structure Settings where
  /-- `T_OBS` -/
  tObs : ℝ
  /-- `ALPHA` -/
  alpha : ℝ
  /-- `MAX_BG_RADIUS` -/
  maxBgRadius : ℝ
  /-- `INITIAL_GH_CUT_EFFICENCY` -/
  initialGhCutEfficiency : ℝ
  /-- `gh_cut_efficiencies` -/
  ghEff : List ℝ
  /-- `theta_bins` -/
  thetaBins : List (FV ℝ)
  /-- `sensitivity_bins` -/
  sensitivityBins : List (FV ℝ)
  /-- `min_value` of the theta cuts -/
  thetaMin : ℝ
  /-- `fill_value` and `max_value` of the theta cuts -/
  thetaMax : ℝ
  /-- percentile of the theta cuts -/
  percentile : ℝ
  /-- `true_energy_bins` -/
  trueEnergyBins : List (FV ℝ)
  /-- `reco_energy_bins` -/
  recoEnergyBins : List (FV ℝ)
  /-- `fov_offset_bins` -/
  fovOffsetBins : List ℝ
  /-- `source_offset_bins` -/
  sourceOffsetBins : List ℝ
  /-- `energy_migration_bins` -/
  migrationBins : List ℝ
  /-- `fov_offset_bins` of the background -/
  backgroundFovBins : List ℝ

/-- `add_overflow_bins(create_bins_per_decade(e_min, e_max, n))` -/
noncomputable def overflowBins (eMin eMax : ℝ) (n : ℕ) : Except Err (List (FV ℝ)) :=
  addOverflowBins ((createBinsPerDecade eMin eMax n).map FV.fin) true

/-- `np.geomspace(start, stop, num)` for positive numbers: constant ratio -/
noncomputable def geomspace (start stop : ℝ) (num : ℕ) : List ℝ :=
  (List.range num).map fun i : ℕ => start * (stop / start) ^ ((i : ℝ) / ((num : ℝ) - 1))

/-- The settings as they are computed in the script, /repo/examples/calculate_eventdisplay_irfs.py:54-66, 127-137, 151-154, 171-175, 239-248 and 294. -/
noncomputable def settings : Except Err Settings := do
  let thetaBins ← overflowBins (10 ^ (-1.9 : ℝ)) (10 ^ (2.3005 : ℝ)) 50
  let sensitivityBins ← overflowBins (10 ^ (-1.9 : ℝ)) (10 ^ (2.31 : ℝ)) 5
  let trueEnergyBins ← overflowBins (10 ^ (-1.9 : ℝ)) (10 ^ (2.31 : ℝ)) 10
  let recoEnergyBins ← overflowBins (10 ^ (-1.9 : ℝ)) (10 ^ (2.31 : ℝ)) 5
  pure { tObs := 50 * 3600, alpha := 0.2, maxBgRadius := 1 * deg, initialGhCutEfficiency := 0.4
         ghEff := arange 0.01 (0.8 + 0.01 / 2) 0.01
         thetaBins := thetaBins, sensitivityBins := sensitivityBins
         thetaMin := 0.05 * deg, thetaMax := 0.32 * deg, percentile := 68
         trueEnergyBins := trueEnergyBins, recoEnergyBins := recoEnergyBins
         fovOffsetBins := [0 * deg, 0.5 * deg]
         sourceOffsetBins := (arange 0 (1 + 1e-4) 1e-3).map (· * deg)
         migrationBins := geomspace 0.2 5 200
         backgroundFovBins := (arange 0 11 1).map (· * deg) }

/-- `np.quantile(x, q)` for `q` in [0, 1]: IndexError without values, NaN if there is a NaN. -/
noncomputable def npQuantile (xs : List (FV ℝ)) (q : ℝ) : Except Err (FV ℝ) :=
  if xs = [] then .error .indexError else if xs.any FV.isNan then .ok .nan else .ok (quantileVal xs q)

/-- `np.log10` of a float -/
noncomputable def log10F : FV ℝ → FV ℝ
  | .fin x => if 0 < x then .fin (Real.logb 10 x) else if x = 0 then .ninf else .nan
  | .pinf => .pinf
  | _ => .nan

/-- The theta cuts: percentile cut in the sensitivity bins with an initial gh cut, interpolated in log10(energy) to the fine bins,
/repo/examples/calculate_eventdisplay_irfs.py:121-166. The table has no column `n_events`. -/
noncomputable def thetaCutsOf (s : Settings) (gammas : List Row) : Except Err (CutTable ℝ (FV ℝ)) := do
  let initialGhCut ← npQuantile (gammas.map Row.gh) (1 - s.initialGhCutEfficiency)
  let passing := gammas.filter fun g => FV.ge g.gh initialGhCut
  let coarse ← percentileCut (passing.map fun g => (g.theta, g.recoEnergy)) s.sensitivityBins (.fin s.thetaMax) s.percentile
    (some (.fin s.thetaMin)) (some (.fin s.thetaMax)) minEventsDefault
  let thetaCenter := binCenter s.thetaBins
  let interCenter := binCenter s.sensitivityBins
  pure ⟨s.thetaBins.dropLast, s.thetaBins.tail, thetaCenter, [],
    thetaCenter.map fun x => interp ((interCenter.map log10F).zip coarse.cut) (log10F x)⟩

/-- an event as `optimize_gh_cut` sees it -/
def Row.toEv (r : Row) : Ev := ⟨r.recoEnergy, r.theta, r.recoOffset, r.gh, .nan, r.weight, r.particle⟩

/-- The arguments of `optimize_gh_cut`, /repo/examples/calculate_eventdisplay_irfs.py:176-185, with its defaults
(/repo/pyirf/cut_optimization.py:209-222: `fov_offset_min` 0, and those of `calculate_sensitivity`: Li & Ma significance, 5 sigma, 10 events, 5 % of the background). -/
noncomputable def optimizeArgs (s : Settings) (brentq : RootFn) (gammas background : List Row) : Ctx where
  brentq := brentq
  sig := Stats.liMaSignificance
  th := ⟨.fin 5, .fin 10, .fin 0.05⟩
  signal := ⟨true, true, gammas.map Row.toEv⟩
  background := ⟨true, true, background.map Row.toEv⟩
  bins := s.sensitivityBins
  alpha := .fin s.alpha
  offMin := .fin 0
  offMax := .fin s.maxBgRadius

/-- The cut table returned by `optimize_gh_cut` as an argument of `evaluate_binned_cut`. -/
noncomputable def ghTable (bins : List (FV ℝ)) (b : BestGh) : CutTable ℝ (FV ℝ) := ⟨bins.dropLast, bins.tail, binCenter bins, [], b.gh⟩

/-- The cuts and selections of the script. -/
structure Selection where
  /-- `theta_cuts` -/
  thetaCuts : CutTable ℝ (FV ℝ)
  /-- results of `optimize_gh_cut` -/
  best : BestGh
  /-- `gammas["selected_gh"]` -/
  gammaGh : List Bool
  /-- `background["selected_gh"]` -/
  backgroundGh : List Bool
  /-- `gammas["selected_theta"]` -/
  gammaTheta : List Bool
  /-- `gammas["selected"]` -/
  gammaSelected : List Bool

/-- Theta cuts, optimization and selection, /repo/examples/calculate_eventdisplay_irfs.py:121-199. -/
noncomputable def selection (s : Settings) (brentq : RootFn) (gammas background : List Row) : Except Err Selection := do
  let thetaCuts ← thetaCutsOf s gammas
  let best ← optimizeGhCut (optimizeArgs s brentq gammas background) s.ghEff thetaCuts FV.ge
  let gammaGh ← evaluateBinnedCut true (gammas.map Row.gh) (gammas.map Row.recoEnergy) (ghTable s.sensitivityBins best) FV.ge
  let backgroundGh ← evaluateBinnedCut true (background.map Row.gh) (background.map Row.recoEnergy) (ghTable s.sensitivityBins best) FV.ge
  let gammaTheta ← evaluateBinnedCut true (gammas.map Row.theta) (gammas.map Row.recoEnergy) thetaCuts FV.le
  pure ⟨thetaCuts, best, gammaGh, backgroundGh, gammaTheta, andMask gammaTheta gammaGh⟩

/-- A power law at a possibly infinite energy: `normalization * (energy / e_ref) ** index` with index at most 0. -/
noncomputable def callF (pl : PowerLaw) : FV ℝ → FV ℝ
  | .fin e => pl.call e
  | .pinf => pl.normalization * .fin (if pl.index = 0 then 1 else 0)
  | _ => .nan

/-- `sensitivity["flux_sensitivity"] = ...`, /repo/examples/calculate_eventdisplay_irfs.py:201-205. -/
noncomputable def addFluxSensitivity (spectrum : PowerLaw) (sens : Table (FV ℝ)) : Except Err (Table (FV ℝ)) := do
  let rel ← sens.get "relative_sensitivity"
  let center ← sens.get "reco_energy_center"
  pure (sens.set "flux_sensitivity" (colMul rel (center.map (callF spectrum))))

/-- an edge list as an array of edges -/
def edgesOf {α : Type} (default : α) (l : List α) : Fin (l.length - 1 + 1) → α := fun i => l.getD i default

/-- energy edges as an array -/
noncomputable abbrev fEdges (l : List (FV ℝ)) : Fin (l.length - 1 + 1) → FV ℝ := edgesOf .nan l
/-- finite edges as an array -/
noncomputable abbrev rEdges (l : List ℝ) : Fin (l.length - 1 + 1) → ℝ := edgesOf 0 l

/-- an event as the effective area sees it -/
def Row.toAreaEvent (r : Row) : Event ℝ := ⟨r.trueEnergy, r.weight, r.particle⟩
/-- an event as energy dispersion and PSF see it -/
def Row.toReco (r : Row) : Irf.RecoEvent := ⟨r.trueEnergy, r.recoEnergy, r.trueOffset, r.theta⟩
/-- an event as the benchmarks see it -/
def Row.toBench (r : Row) : Bench.Event := ⟨r.trueEnergy, r.recoEnergy, r.theta⟩
/-- an event as `background_2d` sees it -/
def Row.toBackground (r : Row) : Irf.BackgroundEvent := ⟨r.recoEnergy, r.recoOffset, .nan, .nan, r.weight⟩

/-- Effective area and energy dispersion for one entry of `masks`. -/
structure MaskIrf (s : Settings) where
  /-- "", "_NO_CUTS", "_ONLY_GH", "_ONLY_THETA" -/
  label : String
  /-- `effective_area` -/
  area : Fin (s.trueEnergyBins.length - 1) → FV ℝ
  /-- `edisp` -/
  edisp : Fin (s.trueEnergyBins.length - 1) → Fin (s.migrationBins.length - 1) → Fin (s.fovOffsetBins.length - 1) → FV ℝ

/-- `masks`, /repo/examples/calculate_eventdisplay_irfs.py:215-220: label and selected events (`slice(None)` selects all). -/
def masks (gammas : List Row) (sel : Selection) : List (String × List Row) :=
  [("", select gammas sel.gammaSelected), ("_NO_CUTS", gammas), ("_ONLY_GH", select gammas sel.gammaGh),
   ("_ONLY_THETA", select gammas sel.gammaTheta)]

/-- One pass of the loop over the masks, /repo/examples/calculate_eventdisplay_irfs.py:250-279 (the HDUs are made in `irfHdus`). -/
noncomputable def maskIrf (s : Settings) (big : ℝ) (info : Info) (m : String × List Row) : Except Err (MaskIrf s) := do
  let area ← Irf.effectiveAreaPerEnergy ⟨true, true, m.2.map Row.toAreaEvent⟩ info (fEdges s.trueEnergyBins)
  let edisp ← Irf.energyDispersion big (m.2.map Row.toReco) (fEdges s.trueEnergyBins) (Irf.finEdges (rEdges s.fovOffsetBins))
    (Irf.finEdges (rEdges s.migrationBins))
  pure ⟨m.1, area, edisp⟩

/-- Everything that the script puts into the output file. -/
structure Output (s : Settings) where
  /-- HDU SENSITIVITY -/
  sensitivity : Table (FV ℝ)
  /-- HDUs THETA_CUTS and GH_CUTS, and the selections -/
  sel : Selection
  /-- effective areas and energy dispersions -/
  irfs : List (MaskIrf s)
  /-- HDU ENERGY_BIAS_RESOLUTION -/
  bias : Bench.BiasTable
  /-- HDU ANGULAR_RESOLUTION -/
  angRes : Bench.AngTable
  /-- PSF -/
  psf : Fin (s.trueEnergyBins.length - 1) → Fin (s.fovOffsetBins.length - 1) → Fin (s.sourceOffsetBins.length - 1) → FV ℝ
  /-- `background_rate` -/
  background : Fin (s.recoEnergyBins.length - 1) → Fin (s.backgroundFovBins.length - 1) → FV ℝ

/-- What the script is given: root finder, largest float, and simulation info and events of the three particle types. -/
structure Input where
  brentq : RootFn
  big : ℝ
  gammaInfo : Info
  protonInfo : Info
  electronInfo : Info
  gammas : List Raw
  protons : List Raw
  electrons : List Raw

/-- The event lists `gammas` and `background`, /repo/examples/calculate_eventdisplay_irfs.py:68-119. -/
noncomputable def eventLists (s : Settings) (inp : Input) : Except Err (List Row × List Row) := do
  let crab ← crabHegra
  let proton ← irfdocProton
  let electron ← irfdocElectron
  let gammas ← prepare s.tObs inp.gammaInfo crab.spectrum "gamma" inp.gammas
  let protons ← prepare s.tObs inp.protonInfo proton.spectrum "proton" inp.protons
  let electrons ← prepare s.tObs inp.electronInfo ⟨electron.kind, electron.call⟩ "electron" inp.electrons
  pure (gammas, protons ++ electrons)

/-- The rest of `main` up to writing the file, /repo/examples/calculate_eventdisplay_irfs.py:121-296, for given settings. -/
noncomputable def analyse (s : Settings) (inp : Input) (spectrum : PowerLaw) (gammas background : List Row) : Except Err (Output s) := do
  let sel ← selection s inp.brentq gammas background
  let sensitivity ← addFluxSensitivity spectrum sel.best.sens
  let irfs ← (masks gammas sel).mapM (maskIrf s inp.big inp.gammaInfo)
  let bias ← Bench.energyBiasResolution Bench.nanmedian Bench.interQuantileDistance .reco ((select gammas sel.gammaSelected).map Row.toBench)
    s.recoEnergyBins
  let angRes ← Bench.angularResolution .reco [Bench.oneSigmaCoverage] ((select gammas sel.gammaGh).map Row.toBench) s.recoEnergyBins
  let psf ← Irf.psfTable inp.big ((select gammas sel.gammaGh).map Row.toReco) (fEdges s.trueEnergyBins) (rEdges s.sourceOffsetBins)
    (Irf.finEdges (rEdges s.fovOffsetBins))
  let bg ← Irf.background2d ((select background sel.backgroundGh).map Row.toBackground) (fEdges s.recoEnergyBins) (rEdges s.backgroundFovBins) s.tObs
  pure ⟨sensitivity, sel, irfs, bias, angRes, psf, bg⟩

/-- `main()`, /repo/examples/calculate_eventdisplay_irfs.py:83-312. -/
noncomputable def main (inp : Input) : Except Err (Σ s : Settings, Output s) := do
  let s ← settings
  let ev ← eventLists s inp
  let crab ← crabHegra
  let out ← analyse s inp crab ev.1 ev.2
  pure ⟨s, out⟩

/-! ## The HDUs -/

/-- a unit of angle in the model: radian -/
def radian : Io.PhysUnit ℝ := ⟨⟨0, 0, 0, 1⟩, 1⟩

/-- energies of the model -/
noncomputable def energyArg (c : Io.Consts ℝ) (edges : List (FV ℝ)) : Io.Arg ℝ (List (FV ℝ)) := ⟨some (Io.teV c), edges⟩
/-- angles of the model -/
noncomputable def angleArg (edges : List ℝ) : Io.Arg ℝ (List (FV ℝ)) := ⟨some radian, edges.map FV.fin⟩

/-- an array with two axes -/
def nd2 {n m : ℕ} (a : Fin n → Fin m → FV ℝ) : ND (FV ℝ) :=
  ⟨[n, m], fun idx => if h : idx.getD 0 0 < n ∧ idx.getD 1 0 < m then a ⟨_, h.1⟩ ⟨_, h.2⟩ else .nan⟩
/-- an array with three axes -/
def nd3 {n m k : ℕ} (a : Fin n → Fin m → Fin k → FV ℝ) : ND (FV ℝ) :=
  ⟨[n, m, k], fun idx => if h : idx.getD 0 0 < n ∧ idx.getD 1 0 < m ∧ idx.getD 2 0 < k then a ⟨_, h.1⟩ ⟨_, h.2.1⟩ ⟨_, h.2.2⟩ else .nan⟩

/-- The GADF HDUs of the output file in order, /repo/examples/calculate_eventdisplay_irfs.py:250-279 and 297-308. `ctx` gives the header context for an extension name. -/
noncomputable def irfHdus (c : Io.Consts ℝ) (version now : String) (s : Settings) (out : Output s) : Except Err (List (Io.Hdu ℝ)) := do
  let ctx : String → Io.Ctx := fun extname => ⟨version, now, extname, []⟩
  let perMask ← out.irfs.mapM fun m => do
    let a ← Io.createAeff2dHdu c (ctx ("EFFECTIVE_AREA" ++ m.label)) ⟨some Io.m2, nd2 fun i (_ : Fin 1) => m.area i⟩
      (energyArg c s.trueEnergyBins) (angleArg s.fovOffsetBins)
    let e ← Io.createEnergyDispersionHdu c (ctx ("ENERGY_DISPERSION" ++ m.label)) ⟨none, nd3 m.edisp⟩
      (energyArg c s.trueEnergyBins) ⟨none, s.migrationBins.map FV.fin⟩ (angleArg s.fovOffsetBins)
    pure [a, e]
  let bkg ← Io.createBackground2dHdu c (ctx "BACKGROUND") ⟨some ⟨⟨-2, -1, 1, -2⟩, 1 / (10 ^ 12 * c.eV)⟩, nd2 out.background⟩
    (energyArg c s.recoEnergyBins) (angleArg s.backgroundFovBins)
  let psf ← Io.createPsfTableHdu c (ctx "PSF") ⟨some Io.perSr, nd3 out.psf⟩ (energyArg c s.trueEnergyBins) (angleArg s.sourceOffsetBins)
    (angleArg s.fovOffsetBins)
  let radMax ← Io.createRadMaxHdu c (ctx "RAD_MAX")
    ⟨some radian, nd2 (n := out.sel.thetaCuts.cut.length) (m := 1) fun i _ => out.sel.thetaCuts.cut[i]⟩ (energyArg c s.thetaBins) (angleArg s.fovOffsetBins)
  pure (perMask.flatten ++ [bkg, psf, radMax])

end Pyirf.Examples
