import Verif.Examples.ThetaProps
import Verif.Pipeline.BinTableProps

/-! # Property C133: the selections and sensitivities of the EventDisplay script -/
set_option linter.unusedSectionVars false
set_option linter.unusedSimpArgs false

namespace Pyirf.Examples
open Pyirf Pyirf.Np Pyirf.Binning Pyirf.Cuts Pyirf.Sensitivity Pyirf.CutOpt Pyirf.Simulations Pyirf.Spectral Pyirf.Coords

/-! ## Specification -/

/-- The event has a theta not above the cut of its fine energy bin. -/
def PassesTheta (s : Settings) (sel : Selection) (g : Row) : Prop :=
  ∃ (i : ℕ) (c : FV ℝ), InBin s.thetaBins i g.recoEnergy ∧ sel.thetaCuts.cut[i]? = some c ∧ FV.le g.theta c = true

/-- The event has a gh score not below the cut of its sensitivity bin. -/
def PassesScore (s : Settings) (sel : Selection) (g : Row) : Prop :=
  ∃ (i : ℕ) (c : FV ℝ), InBin s.sensitivityBins i g.recoEnergy ∧ sel.best.gh[i]? = some c ∧ FV.le c g.gh = true

/-- Flux of the Crab nebula at a possibly infinite energy. -/
noncomputable def crabAt : FV ℝ → FV ℝ
  | .fin e => .fin (crabFlux e)
  | .pinf => .fin 0
  | _ => .nan

/-- The sensitivity of an observation (50 h, ratio 0.2 of on to off region, background within 1 deg; Li & Ma significance of 5 sigma, 10 events, 5 % of the background)
with the given selected gammas and background events. -/
def IsSensitivityOf (s : Settings) (brentq : RootFn) (cuts : CutTable ℝ (FV ℝ)) (gammas background : List Row) (T : Table (FV ℝ)) : Prop :=
  ∃ signalHist backgroundHist,
    histTable true true (gammas.map fun g => ⟨g.recoEnergy, g.weight, g.particle⟩) s.sensitivityBins = .ok signalHist ∧
    estimateBackground true true (background.map fun g => ⟨g.recoEnergy, g.recoOffset, g.weight, g.particle⟩) s.sensitivityBins (cuts.center.zip cuts.cut)
      (.fin 0.2) (.fin 0) (.fin deg) = .ok backgroundHist ∧
    calculateSensitivity brentq Stats.liMaSignificance signalHist backgroundHist (.fin 0.2) ⟨.fin 5, .fin 10, .fin 0.05⟩ = .ok T

/-! ## Lemmas -/

theorem settings_const {s : Settings} (h : settings = .ok s) : s.tObs = fiftyHours ∧ s.alpha = 0.2 ∧ s.maxBgRadius = deg ∧
    s.fovOffsetBins = [0, 0.5 * deg] := by
  unfold settings at h
  simp only [bind, Except.bind, pure, Except.pure] at h
  repeat' split at h
  all_goals first | (cases h; done) | (cases h; exact ⟨rfl, rfl, one_mul _, by simp⟩)

/-- what `selection` computes -/
theorem selection_inv {s : Settings} {brentq : RootFn} {gammas background : List Row} {sel : Selection}
    (h : selection s brentq gammas background = .ok sel) :
    thetaCutsOf s gammas = .ok sel.thetaCuts ∧ optimizeGhCut (optimizeArgs s brentq gammas background) s.ghEff sel.thetaCuts FV.ge = .ok sel.best ∧
    evaluateBinnedCut true (gammas.map Row.gh) (gammas.map Row.recoEnergy) (ghTable s.sensitivityBins sel.best) FV.ge = .ok sel.gammaGh ∧
    evaluateBinnedCut true (background.map Row.gh) (background.map Row.recoEnergy) (ghTable s.sensitivityBins sel.best) FV.ge = .ok sel.backgroundGh ∧
    evaluateBinnedCut true (gammas.map Row.theta) (gammas.map Row.recoEnergy) sel.thetaCuts FV.le = .ok sel.gammaTheta ∧
    sel.gammaSelected = andMask sel.gammaTheta sel.gammaGh := by
  unfold selection at h
  obtain ⟨a, h1, h⟩ := bind_ok h
  obtain ⟨b, h2, h⟩ := bind_ok h
  obtain ⟨c, h3, h⟩ := bind_ok h
  obtain ⟨d, h4, h⟩ := bind_ok h
  obtain ⟨e, h5, h⟩ := bind_ok h
  obtain rfl := Except.ok.inj h
  exact ⟨h1, h2, h3, h4, h5, rfl⟩

theorem noWeighted {info : Info} {flux : ℝ → ℝ} {particle : String} {l : List Raw} {r : List Row} (h : List.Forall₂ (IsPrepared info flux particle) l r)
    (hp : particle ≠ "weighted") : ∀ g ∈ r, g.particle ≠ "weighted" := by
  intro g hg
  obtain ⟨e, -, hh⟩ := forall₂_mem h hg
  rw [hh.particle]; exact hp

/-- `table[mask]` commutes with forgetting columns -/
theorem select_of_map {α β : Type} (f : α → β) (rows : List α) (mask : List Bool) : select (rows.map f) mask = (select rows mask).map f := by
  unfold select
  induction rows generalizing mask with
  | nil => rfl
  | cons a l ih =>
    cases mask with
    | nil => rfl
    | cons b mask =>
      simp only [List.map_cons, List.zip_cons_cons, List.filter_cons]
      have := ih mask
      cases b <;> simp [this]

/-- everything that the later properties use of a successful run -/
structure Facts (inp : Input) (s : Settings) (out : Output s) (gammas protons electrons : List Row) (spectrum : PowerLaw) : Prop where
  isSettings : settings = .ok s
  proper : Proper s
  lists : eventLists s inp = .ok (gammas, protons ++ electrons)
  isCrab : crabHegra = .ok spectrum
  gammaRows : List.Forall₂ (IsPrepared inp.gammaInfo crabFlux "gamma") inp.gammas gammas
  protonRows : List.Forall₂ (IsPrepared inp.protonInfo protonFlux "proton") inp.protons protons
  electronRows : List.Forall₂ (IsPrepared inp.electronInfo electronFlux "electron") inp.electrons electrons
  steps : Steps s inp spectrum gammas (protons ++ electrons) out
  low : out.sel.thetaCuts.low = s.thetaBins.dropLast
  high : out.sel.thetaCuts.high = s.thetaBins.tail
  center : out.sel.thetaCuts.center = binCenter s.thetaBins
  cut : out.sel.thetaCuts.cut.length = s.thetaBins.length - 1

theorem main_facts {inp : Input} (h : ProperSimulations inp) {s : Settings} {out : Output s} (hok : main inp = .ok ⟨s, out⟩) :
    ∃ gammas protons electrons spectrum, Facts inp s out gammas protons electrons spectrum := by
  obtain ⟨gammas, background, spectrum, hs, hev, hsp, hst⟩ := main_steps hok
  obtain ⟨s', hs', hp, -⟩ := settings_ok
  obtain rfl := Except.ok.inj (hs'.symm.trans hs)
  obtain ⟨g, p, e, hev', hg, hpp, he⟩ := eventLists_spec inp h _ (settings_const hs).1
  have hgg := Except.ok.inj (hev.symm.trans hev')
  cases hgg
  obtain ⟨_, _, hev2, q, coarse, fine, _, a1, a2, a3, a4, a5, -⟩ := C132_theta_cuts inp h _ out hok
  exact ⟨gammas, p, e, spectrum, hs, hp, hev, hsp, hg, hpp, he, hst, a1, a2, a3, by rw [a4, List.length_map, a5]⟩

theorem noWeighted_args {inp : Input} {s : Settings} {out : Output s} {gammas protons electrons : List Row} {spectrum : PowerLaw}
    (f : Facts inp s out gammas protons electrons spectrum) :
    NoWeighted (optimizeArgs s inp.brentq gammas (protons ++ electrons)).signal ∧ NoWeighted (optimizeArgs s inp.brentq gammas (protons ++ electrons)).background := by
  constructor
  · intro _ e he
    obtain ⟨r, hr, rfl⟩ := List.mem_map.mp he
    exact noWeighted f.gammaRows (by decide) r hr
  · intro _ e he
    obtain ⟨r, hr, rfl⟩ := List.mem_map.mp he
    rcases List.mem_append.mp hr with hr | hr
    · exact noWeighted f.protonRows (by decide) r hr
    · exact noWeighted f.electronRows (by decide) r hr

open Classical in
/-- the masks -/
theorem masks_eq {inp : Input} {s : Settings} {out : Output s} {gammas protons electrons : List Row} {spectrum : PowerLaw}
    (f : Facts inp s out gammas protons electrons spectrum) :
    out.sel.gammaGh = gammas.map (fun g => decide (PassesScore s out.sel g)) ∧
    out.sel.backgroundGh = (protons ++ electrons).map (fun g => decide (PassesScore s out.sel g)) ∧
    out.sel.gammaTheta = gammas.map (fun g => decide (PassesTheta s out.sel g)) ∧
    out.sel.gammaSelected = gammas.map (fun g => decide (PassesTheta s out.sel g ∧ PassesScore s out.sel g)) := by
  obtain ⟨h1, h2, h3, h4, h5, h6⟩ := selection_inv f.steps.selection
  have hS := f.proper.sensitivityBins
  have hT := f.proper.thetaBins
  obtain ⟨_, _, _, _, _, hlen, _⟩ := optimizeGhCut_spec (c := optimizeArgs s inp.brentq gammas (protons ++ electrons)) (E := s.sensitivityBins) rfl
    hS.increasing1 (noWeighted_args f).1 (noWeighted_args f).2 _ _ _ _ h2
  have zipmap : ∀ (rows : List Row) (v : Row → FV ℝ), (rows.map v).zip (rows.map Row.recoEnergy) = rows.map fun g => (v g, g.recoEnergy) := by
    intro rows v
    rw [List.zip_map']
  have ev : ∀ rows : List Row, evaluateBinnedCut true (rows.map Row.gh) (rows.map Row.recoEnergy) (ghTable s.sensitivityBins out.sel.best) FV.ge =
      .ok (rows.map fun g => decide (PassesScore s out.sel g)) := by
    intro rows
    rw [eval_mask hS.increasing1.increasing hS.two (ghTable s.sensitivityBins out.sel.best) rfl rfl hlen FV.ge, zipmap, List.map_map]
    refine congrArg Except.ok (List.map_congr_left ?_)
    intro g _
    rw [Bool.eq_iff_iff]
    simp only [Function.comp_apply, decide_eq_true_eq]
    exact passes_iff
  have e1 := Except.ok.inj ((ev gammas).symm.trans h3)
  have e2 := Except.ok.inj ((ev (protons ++ electrons)).symm.trans h4)
  have e3 : out.sel.gammaTheta = gammas.map fun g => decide (PassesTheta s out.sel g) := by
    rw [eval_mask hT.increasing1.increasing hT.two out.sel.thetaCuts f.low f.high f.cut FV.le, zipmap, List.map_map] at h5
    rw [← Except.ok.inj h5]
    refine List.map_congr_left ?_
    intro g _
    rw [Bool.eq_iff_iff]
    simp only [Function.comp_apply, decide_eq_true_eq]
    exact passes_iff
  refine ⟨e1.symm, e2.symm, e3, ?_⟩
  rw [h6, e3, ← e1, andMask_map]
  refine List.map_congr_left ?_
  intro g _
  simp [Bool.decide_and]

theorem callF_crab {pl : PowerLaw} (h : crabHegra = .ok pl) {x : FV ℝ} (hx : FV.lt (.fin 0) x = true) : callF pl x = crabAt x := by
  obtain ⟨pl', h', -, hv⟩ := crab_flux
  obtain rfl := Except.ok.inj (h'.symm.trans h)
  cases x with
  | fin e => exact (hv e (by simpa [FV.lt] using hx)).1
  | pinf =>
    unfold crabHegra mkPowerLaw at h
    rw [if_neg (by norm_num)] at h
    obtain rfl := Except.ok.inj h
    show FV.fin _ * FV.fin (if (-2.62 : ℝ) = 0 then (1:ℝ) else 0) = FV.fin 0
    rw [if_neg (by norm_num), FV.fin_mul_fin, mul_zero]
  | ninf => simp [FV.lt] at hx
  | nan => simp [FV.lt] at hx

/-! ## C133 -/

open Classical in
/-- **C133** (selections) Whenever the script succeeds, `selected_theta` marks the gammas with theta not above the theta cut of their fine energy bin, `selected_gh` the
gammas and background events with a gh score not below the gh cut of their sensitivity bin, and `selected` the gammas with both. -/
theorem C133_selections (inp : Input) (h : ProperSimulations inp) (s : Settings) (out : Output s) (hok : main inp = .ok ⟨s, out⟩) :
    ∃ gammas background, eventLists s inp = .ok (gammas, background) ∧
      out.sel.gammaTheta = gammas.map (fun g => decide (PassesTheta s out.sel g)) ∧
      out.sel.gammaGh = gammas.map (fun g => decide (PassesScore s out.sel g)) ∧
      out.sel.backgroundGh = background.map (fun g => decide (PassesScore s out.sel g)) ∧
      out.sel.gammaSelected = gammas.map (fun g => decide (PassesTheta s out.sel g ∧ PassesScore s out.sel g)) := by
  obtain ⟨g, p, e, sp, f⟩ := main_facts h hok
  obtain ⟨h1, h2, h3, h4⟩ := masks_eq f
  exact ⟨g, _, f.lists, h3, h1, h2, h4⟩

open Classical in
/-- **C133** (sensitivity) Whenever the script succeeds, the relative sensitivity it stores for a bin is the one of the gammas that pass the theta and gh cuts it
stores, with the background events that pass the gh cuts; and the stored flux sensitivity is the relative one times the flux of the Crab nebula at the bin centre
(0 in the overflow bin). -/
theorem C133_sensitivity (inp : Input) (h : ProperSimulations inp) (s : Settings) (out : Output s) (hok : main inp = .ok ⟨s, out⟩) :
    ∃ gammas background T, eventLists s inp = .ok (gammas, background) ∧
      IsSensitivityOf s inp.brentq out.sel.thetaCuts (gammas.filter fun g => decide (PassesTheta s out.sel g ∧ PassesScore s out.sel g))
        (background.filter fun g => decide (PassesScore s out.sel g)) T ∧
      ∀ (i : ℕ) (x : FV ℝ), (binCenter s.sensitivityBins)[i]? = some x → ∃ r, Cell T "relative_sensitivity" i r ∧
        Cell out.sensitivity "relative_sensitivity" i r ∧ Cell out.sensitivity "reco_energy_center" i x ∧
        Cell out.sensitivity "flux_sensitivity" i (r * crabAt x) := by
  obtain ⟨gammas, p, e, spectrum, f⟩ := main_facts h hok
  obtain ⟨m1, m2, m3, m4⟩ := masks_eq f
  obtain ⟨h1, h2, h3, h4, h5, h6⟩ := selection_inv f.steps.selection
  have hS := f.proper.sensitivityBins
  obtain ⟨-, hal, hrad, -⟩ := settings_const f.isSettings
  obtain ⟨T, hT, hcell⟩ := C25_optimize_gh_cut_reapply (c := optimizeArgs s inp.brentq gammas (p ++ e)) (E := s.sensitivityBins) rfl
    hS.increasing1 (noWeighted_args f).1 (noWeighted_args f).2 _ _ _ _ h2
  refine ⟨gammas, p ++ e, T, f.lists, ?_, ?_⟩
  · unfold reapplyGh at hT
    have q1 : ∀ rows : List Row, (rows.map Row.toEv).map Ev.theta = rows.map Row.theta := by intro rows; rw [List.map_map]; rfl
    have q2 : ∀ rows : List Row, (rows.map Row.toEv).map Ev.gh = rows.map Row.gh := by intro rows; rw [List.map_map]; rfl
    have q3 : ∀ rows : List Row, (rows.map Row.toEv).map Ev.energy = rows.map Row.recoEnergy := by intro rows; rw [List.map_map]; rfl
    have q4 : asTable s.sensitivityBins out.sel.best.gh = ghTable s.sensitivityBins out.sel.best := rfl
    simp only [optimizeArgs, q1, q2, q3, q4, h3, h4, h5, bind, Except.bind] at hT
    rw [← h6, m4, m2] at hT
    unfold sensitivityOf at hT
    simp only [select_of_map, List.map_map] at hT
    rw [CutOpt.select_map, CutOpt.select_map] at hT
    split at hT
    · cases hT
    rename_i sh e1
    split at hT
    · cases hT
    rename_i bh e2
    rw [hal, hrad] at e2
    rw [hal] at hT
    exact ⟨sh, bh, e1, e2, hT⟩
  · intro i x hx
    have hi : i < s.sensitivityBins.length - 1 := by
      have := (List.getElem?_eq_some_iff.mp hx).1
      rwa [length_binCenter] at this
    obtain ⟨r, ⟨rel, hrel, hri⟩, hr2⟩ := hcell i hi
    obtain ⟨low, high, center, -, -, hce, hrows⟩ := (Pipeline.C131_optimised (optimizeArgs s inp.brentq gammas (p ++ e)) s.sensitivityBins rfl).2 _ _ _ _ h2
    have hci : center[i]? = some x := by
      rw [(hrows.row i (by omega)).2.2, ← hx, center_getElem _ _ (by omega)]
    have hsens := f.steps.sensitivity
    unfold addFluxSensitivity at hsens
    rw [hrel, hce] at hsens
    have hsens' : out.sel.best.sens.set "flux_sensitivity" (colMul rel (center.map (callF spectrum))) = out.sensitivity := Except.ok.inj hsens
    refine ⟨r, hr2, ⟨rel, ?_, hri⟩, ⟨center, ?_, hci⟩, ⟨colMul rel (center.map (callF spectrum)), ?_, ?_⟩⟩
    · rw [← hsens', Table.get_set_ne _ _ _ _ (by decide)]; exact hrel
    · rw [← hsens', Table.get_set_ne _ _ _ _ (by decide)]; exact hce
    · rw [← hsens', Table.get_set_self]
    · have hpos := hS.center_pos (List.mem_of_getElem? hx)
      simp [colMul, List.getElem?_zipWith, hri, hci, callF_crab f.isCrab hpos]

end Pyirf.Examples
