import Verif.Examples.EventdisplayLemmas

/-! # Property C136: the event lists of the EventDisplay script -/
set_option linter.unusedSectionVars false
set_option linter.unusedSimpArgs false

namespace Pyirf.Examples
open Pyirf Pyirf.Np Pyirf.Binning Pyirf.Cuts Pyirf.Sensitivity Pyirf.CutOpt Pyirf.Simulations Pyirf.Spectral Pyirf.Coords

/-! ## Specification -/

/-- A point-like simulation of gammas and diffuse simulations of protons and electrons, and events with positive true energies. -/
structure ProperSimulations (inp : Input) : Prop where
  gamma : Valid inp.gammaInfo ∧ inp.gammaInfo.viewconeMax = inp.gammaInfo.viewconeMin ∧ 0 < inp.gammaInfo.maxImpact
  proton : Valid inp.protonInfo ∧ Diffuse inp.protonInfo ∧ 0 < inp.protonInfo.maxImpact
  electron : Valid inp.electronInfo ∧ Diffuse inp.electronInfo ∧ 0 < inp.electronInfo.maxImpact
  energies : ∀ e ∈ inp.gammas ++ inp.protons ++ inp.electrons, 0 < e.trueEnergy

/-- 50 hours -/
def fiftyHours : ℝ := 50 * 3600

/-- flux of the Crab nebula (HEGRA), in 1/(TeV s m²) -/
noncomputable def crabFlux (E : ℝ) : ℝ := 2.83e-7 * E ^ (-2.62 : ℝ)
/-- flux of cosmic ray protons, in 1/(TeV s m² sr) -/
noncomputable def protonFlux (E : ℝ) : ℝ := 9.8e-2 * E ^ (-2.62 : ℝ)
/-- flux of cosmic ray electrons, in 1/(TeV s m² sr) -/
noncomputable def electronFlux (E : ℝ) : ℝ := 2.385e-5 * E ^ (-3.43 : ℝ) *
  (1 + 1.95 * (Real.exp (Real.exp (-(((Real.log E / Real.log 10 + 0.101) / 0.741) ^ 2 / 2))) - 1))

/-- `r` is the event `e` with the columns that the script adds. The weight is such that the weighted energy distribution of the simulated showers is the number of
particles expected with flux `flux` in 50 h. Theta and the reconstructed offset are the angle between reconstructed direction and pointing. -/
structure IsPrepared (info : Info) (flux : ℝ → ℝ) (particle : String) (e : Raw) (r : Row) : Prop where
  energy : r.trueEnergy = .fin e.trueEnergy ∧ r.recoEnergy = e.recoEnergy
  gh : r.gh = e.gh
  particle : r.particle = particle
  positive : 0 < r.weight
  weight : r.weight * (info.nShowers * energyPdf info e.trueEnergy) = flux e.trueEnergy * exposure info fiftyHours
  trueOffset : ∃ t, r.trueOffset = .fin t ∧ IsAngle t e.trueAz e.trueAlt e.pointingAz e.pointingAlt
  theta : ∃ t, r.theta = .fin t ∧ r.recoOffset = .fin t ∧ IsAngle t e.recoAz e.recoAlt e.pointingAz e.pointingAlt

/-! ## Lemmas -/

theorem mapM_forall₂ {α β : Type} {f : α → Except Err β} {P : α → β → Prop} (l : List α) (h : ∀ a ∈ l, ∃ b, f a = .ok b ∧ P a b) :
    ∃ r, l.mapM f = .ok r ∧ List.Forall₂ P l r := by
  induction l with
  | nil => exact ⟨[], by simp [pure, Except.pure], .nil⟩
  | cons a l ih =>
    obtain ⟨b, hb, hp⟩ := h a (by simp)
    obtain ⟨r, hr, hf⟩ := ih (fun x hx => h x (by simp [hx]))
    exact ⟨b :: r, by simp [List.mapM_cons, hb, hr, bind, Except.bind, pure, Except.pure], .cons hp hf⟩

theorem theta_isAngle (az alt paz palt : ℝ) : IsAngle (calculateTheta az alt paz palt) az alt paz palt := by
  rw [(C70_same_theta az alt paz palt).2.2.1]
  exact angularSeparation_isAngle _ _ _ _

theorem theta_eq_offset (az alt paz palt : ℝ) : calculateTheta az alt paz palt = calculateSourceFovOffset az alt paz palt := by
  rw [(C70_same_theta az alt paz palt).1, (C70_same_theta az alt paz palt).2.1]

theorem offset_isAngle (az alt paz palt : ℝ) : IsAngle (calculateSourceFovOffset az alt paz palt) az alt paz palt := by
  rw [← theta_eq_offset]; exact theta_isAngle _ _ _ _

/-- one particle type -/
theorem prepare_ok (info : Info) (hv : Valid info) (hp : ProperViewcone info) (hR : 0 < info.maxImpact) (target : Spectrum) (flux : ℝ → ℝ)
    (hk : target.kind = .diffuse ↔ info.viewconeMin < info.viewconeMax) (hflux : ∀ E, 0 < E → target.flux E = .fin (flux E) ∧ 0 < flux E)
    (particle : String) (events : List Raw) (he : ∀ e ∈ events, 0 < e.trueEnergy) :
    ∃ rows, prepare fiftyHours info target particle events = .ok rows ∧ List.Forall₂ (IsPrepared info flux particle) events rows := by
  have hT : 0 < fiftyHours := by norm_num [fiftyHours]
  obtain ⟨pl, sim, hf, hkind, hcall, hdist, -⟩ := C33_simulated_number info hv hp hR fiftyHours 1 hT one_pos
  have hkk : target.kind = pl.spectrum.kind := by
    show target.kind = pl.kind
    have : target.kind = .diffuse ↔ pl.kind = .diffuse := by rw [hk, hkind]
    revert this
    cases target.kind <;> cases pl.kind <;> simp
  have hx := exposure_pos hp hR hT
  have hw : ∀ E, 0 < E → ∃ w, calculateEventWeight E target pl.spectrum = .ok (.fin w) ∧ 0 < w ∧
      w * (info.nShowers * energyPdf info E) = flux E * exposure info fiftyHours := by
    intro E hE
    have h1 := hdist E hE
    have h2 : 0 < info.nShowers * energyPdf info E := mul_pos hv.showers (energyPdf_pos hv hE)
    have h3 : sim E * exposure info fiftyHours = info.nShowers * energyPdf info E := by
      rw [← h1]; unfold exposure; ring
    have hs : 0 < sim E := by
      by_contra hc
      rw [← h3] at h2
      nlinarith
    refine ⟨flux E / sim E, (C34_ratio E target pl.spectrum _ _ (hflux E hE).1 (hcall E hE) hs.ne').1 hkk, div_pos (hflux E hE).2 hs, ?_⟩
    rw [← h3]
    field_simp
  obtain ⟨w1, hw1, -⟩ := hw 1 one_pos
  unfold prepare
  simp only [bind, Except.bind]
  rw [hf]
  simp only [hw1]
  apply mapM_forall₂
  intro e hmem
  obtain ⟨w, e1, e2, e3⟩ := hw e.trueEnergy (he e hmem)
  rw [e1]
  refine ⟨_, rfl, ⟨rfl, rfl⟩, rfl, rfl, e2, e3, ⟨_, rfl, offset_isAngle _ _ _ _⟩, ⟨_, rfl, ?_, theta_isAngle _ _ _ _⟩⟩
  rw [theta_eq_offset]

/-- wrong units -/
theorem prepare_units (info : Info) (hi : info.spectralIndex ≤ 0) (target : Spectrum)
    (hk : ¬ (target.kind = .diffuse ↔ info.viewconeMin < info.viewconeMax)) (tObs : ℝ) (particle : String) (events : List Raw) :
    prepare tObs info target particle events = .error .unitsError := by
  unfold prepare fromSimulation mkPowerLaw
  rw [if_neg (by linarith)]
  simp only [bind, Except.bind]
  have : ∀ N i r, calculateEventWeight 1 target (PowerLaw.spectrum
      ⟨if decide (info.viewconeMax - info.viewconeMin > 0) = true then FluxKind.diffuse else FluxKind.point, N, i, r⟩) = .error .unitsError := by
    intro N i r
    unfold calculateEventWeight
    rw [if_neg]
    intro h
    apply hk
    rw [h]
    show (if decide (info.viewconeMax - info.viewconeMin > 0) = true then FluxKind.diffuse else FluxKind.point) = _ ↔ _
    by_cases h : info.viewconeMin < info.viewconeMax
    · simp [h]
    · simp [h]
  rw [this]

theorem crab_flux : ∃ pl, crabHegra = .ok pl ∧ pl.spectrum.kind = .point ∧ ∀ E, 0 < E → pl.spectrum.flux E = .fin (crabFlux E) ∧ 0 < crabFlux E := by
  obtain ⟨pl, h, hk, -⟩ := C123_power_laws.1
  refine ⟨pl, h, hk, ?_⟩
  intro E hE
  obtain ⟨pl', h', hv⟩ := (C123_values E hE).1
  obtain rfl := Except.ok.inj (h'.symm.trans h)
  exact ⟨hv, by unfold crabFlux; positivity⟩

theorem proton_flux : ∃ pl, irfdocProton = .ok pl ∧ pl.spectrum.kind = .diffuse ∧
    ∀ E, 0 < E → pl.spectrum.flux E = .fin (protonFlux E) ∧ 0 < protonFlux E := by
  obtain ⟨pl, h, hk, -⟩ := C123_power_laws.2.2
  refine ⟨pl, h, hk, ?_⟩
  intro E hE
  obtain ⟨pl', h', hv⟩ := (C123_values E hE).2.2.2.1
  obtain rfl := Except.ok.inj (h'.symm.trans h)
  exact ⟨hv, by unfold protonFlux; positivity⟩

theorem electron_flux : ∃ pl, irfdocElectron = .ok pl ∧ pl.kind = .diffuse ∧
    ∀ E, 0 < E → pl.call E = .fin (electronFlux E) ∧ 0 < electronFlux E := by
  obtain ⟨pl, h, hk, hpos⟩ := C123_electron
  refine ⟨pl, h, hk, ?_⟩
  intro E hE
  obtain ⟨pl', h', hv⟩ := (C123_values E hE).2.2.2.2
  obtain rfl := Except.ok.inj (h'.symm.trans h)
  obtain ⟨v, h1, h2⟩ := hpos.positive E hE
  refine ⟨hv, ?_⟩
  have h3 := FV.fin.inj (hv.symm.trans h1)
  have h4 : electronFlux E = v := h3
  rw [h4]; exact h2

theorem settings_tObs : ∃ s, settings = .ok s ∧ s.tObs = fiftyHours := by
  obtain ⟨s, hs, -⟩ := settings_ok
  refine ⟨s, hs, ?_⟩
  unfold settings at hs
  simp only [bind, Except.bind, pure, Except.pure] at hs
  repeat' split at hs
  all_goals first | (cases hs; done) | (cases hs; rfl)

theorem eventLists_spec (inp : Input) (h : ProperSimulations inp) (s : Settings) (hT : s.tObs = fiftyHours) :
    ∃ gammas protons electrons, eventLists s inp = .ok (gammas, protons ++ electrons) ∧
      List.Forall₂ (IsPrepared inp.gammaInfo crabFlux "gamma") inp.gammas gammas ∧
      List.Forall₂ (IsPrepared inp.protonInfo protonFlux "proton") inp.protons protons ∧
      List.Forall₂ (IsPrepared inp.electronInfo electronFlux "electron") inp.electrons electrons := by
  obtain ⟨c, hc, hck, hcf⟩ := crab_flux
  obtain ⟨p, hp, hpk, hpf⟩ := proton_flux
  obtain ⟨e, he, hek, hef⟩ := electron_flux
  obtain ⟨g1, g2, g3⟩ := h.gamma
  obtain ⟨p1, p2, p3⟩ := h.proton
  obtain ⟨e1, e2, e3⟩ := h.electron
  obtain ⟨gammas, hg, hgf⟩ := prepare_ok inp.gammaInfo g1 (Or.inr g2) g3 c.spectrum crabFlux (by rw [hck, g2]; simp) hcf "gamma" inp.gammas
    (fun e he => h.energies e (by simp [he]))
  obtain ⟨protons, hpp, hpf⟩ := prepare_ok inp.protonInfo p1 (Or.inl p2) p3 p.spectrum protonFlux (by rw [hpk]; simpa using p2.lt) hpf "proton" inp.protons
    (fun e he => h.energies e (by simp [he]))
  obtain ⟨electrons, hee, hef⟩ := prepare_ok inp.electronInfo e1 (Or.inl e2) e3 ⟨e.kind, e.call⟩ electronFlux (by rw [hek]; simpa using e2.lt) hef "electron"
    inp.electrons (fun e he => h.energies e (by simp [he]))
  refine ⟨gammas, protons, electrons, ?_, hgf, hpf, hef⟩
  unfold eventLists
  rw [hc, hp, he, hT]
  simp only [bind, Except.bind, pure, Except.pure, hg, hpp, hee]

/-! ## What a successful run consists of -/

/-- the steps of a successful run after the event lists -/
structure Steps (s : Settings) (inp : Input) (spectrum : PowerLaw) (gammas background : List Row) (out : Output s) : Prop where
  selection : selection s inp.brentq gammas background = .ok out.sel
  sensitivity : addFluxSensitivity spectrum out.sel.best.sens = .ok out.sensitivity
  irfs : (masks gammas out.sel).mapM (maskIrf s inp.big inp.gammaInfo) = .ok out.irfs
  bias : Bench.energyBiasResolution Bench.nanmedian Bench.interQuantileDistance .reco ((select gammas out.sel.gammaSelected).map Row.toBench) s.recoEnergyBins =
    .ok out.bias
  angRes : Bench.angularResolution .reco [Bench.oneSigmaCoverage] ((select gammas out.sel.gammaGh).map Row.toBench) s.recoEnergyBins = .ok out.angRes
  psf : Irf.psfTable inp.big ((select gammas out.sel.gammaGh).map Row.toReco) (fEdges s.trueEnergyBins) (rEdges s.sourceOffsetBins)
    (Irf.finEdges (rEdges s.fovOffsetBins)) = .ok out.psf
  background : Irf.background2d ((select background out.sel.backgroundGh).map Row.toBackground) (fEdges s.recoEnergyBins) (rEdges s.backgroundFovBins) s.tObs =
    .ok out.background

theorem bind_ok {α β : Type} {x : Except Err α} {f : α → Except Err β} {b : β} (h : (x >>= f) = .ok b) : ∃ a, x = .ok a ∧ f a = .ok b := by
  cases x with
  | error e => cases h
  | ok a => exact ⟨a, rfl, h⟩

theorem analyse_steps {s : Settings} {inp : Input} {spectrum : PowerLaw} {gammas background : List Row} {out : Output s}
    (h : analyse s inp spectrum gammas background = .ok out) : Steps s inp spectrum gammas background out := by
  unfold analyse at h
  obtain ⟨sel, h1, h⟩ := bind_ok h
  obtain ⟨sens, h2, h⟩ := bind_ok h
  obtain ⟨irfs, h3, h⟩ := bind_ok h
  obtain ⟨bias, h4, h⟩ := bind_ok h
  obtain ⟨ang, h5, h⟩ := bind_ok h
  obtain ⟨psf, h6, h⟩ := bind_ok h
  obtain ⟨bg, h7, h⟩ := bind_ok h
  obtain rfl := Except.ok.inj h
  exact ⟨h1, h2, h3, h4, h5, h6, h7⟩

theorem main_steps {inp : Input} {s : Settings} {out : Output s} (h : main inp = .ok ⟨s, out⟩) :
    ∃ gammas background spectrum, settings = .ok s ∧ eventLists s inp = .ok (gammas, background) ∧ crabHegra = .ok spectrum ∧
      Steps s inp spectrum gammas background out := by
  unfold main at h
  obtain ⟨s', h1, h⟩ := bind_ok h
  obtain ⟨⟨g, b⟩, h2, h⟩ := bind_ok h
  obtain ⟨c, h3, h⟩ := bind_ok h
  obtain ⟨o, h4, h⟩ := bind_ok h
  have h' := Except.ok.inj h
  cases h'
  exact ⟨g, b, c, h1, h2, h3, analyse_steps h4⟩

/-! ## C136 -/

/-- **C136** (events) With a point-like gamma simulation and diffuse proton and electron simulations, the event lists are the events of the input files in the same order
(background: protons, then electrons), each with its particle type, the weight to the flux of the Crab nebula resp. of cosmic rays in 50 h, and its angles; theta is the
same as the reconstructed offset from the pointing. -/
theorem C136_events (inp : Input) (h : ProperSimulations inp) :
    ∃ s gammas protons electrons, settings = .ok s ∧ eventLists s inp = .ok (gammas, protons ++ electrons) ∧
      List.Forall₂ (IsPrepared inp.gammaInfo crabFlux "gamma") inp.gammas gammas ∧
      List.Forall₂ (IsPrepared inp.protonInfo protonFlux "proton") inp.protons protons ∧
      List.Forall₂ (IsPrepared inp.electronInfo electronFlux "electron") inp.electrons electrons := by
  obtain ⟨s, hs, hT⟩ := settings_tObs
  obtain ⟨g, p, e, hh⟩ := eventLists_spec inp h s hT
  exact ⟨s, g, p, e, hs, hh⟩

/-- **C136** (wrong simulations) A diffuse gamma simulation, or a point-like proton or electron simulation, makes the script fail with a UnitConversionError, whatever
the events are. -/
theorem C136_wrong_simulation (inp : Input) (hi : inp.gammaInfo.spectralIndex ≤ 0) :
    (inp.gammaInfo.viewconeMin < inp.gammaInfo.viewconeMax → main inp = .error .unitsError) ∧
    (ProperSimulations { inp with protonInfo := inp.electronInfo } → inp.protonInfo.viewconeMax ≤ inp.protonInfo.viewconeMin → inp.protonInfo.spectralIndex ≤ 0 →
      main inp = .error .unitsError) ∧
    (ProperSimulations { inp with electronInfo := inp.protonInfo } → inp.electronInfo.viewconeMax ≤ inp.electronInfo.viewconeMin →
      inp.electronInfo.spectralIndex ≤ 0 → main inp = .error .unitsError) := by
  obtain ⟨s, hs, hT⟩ := settings_tObs
  obtain ⟨c, hc, hck, hcf⟩ := crab_flux
  obtain ⟨p, hp, hpk, hpf⟩ := proton_flux
  obtain ⟨e, he, hek, hef⟩ := electron_flux
  have key : eventLists s inp = .error .unitsError → main inp = .error .unitsError := by
    intro h
    unfold main
    rw [hs]
    simp only [bind, Except.bind, h]
  refine ⟨?_, ?_, ?_⟩
  · intro h
    apply key
    unfold eventLists
    rw [hc, hp, he]
    simp only [bind, Except.bind]
    rw [prepare_units inp.gammaInfo hi c.spectrum (by rw [hck]; simpa using h)]
  · intro h h1 h2
    apply key
    obtain ⟨g1, g2, g3⟩ := h.gamma
    obtain ⟨gammas, hg, -⟩ := prepare_ok inp.gammaInfo g1 (Or.inr g2) g3 c.spectrum crabFlux (by rw [hck]; simp [show inp.gammaInfo.viewconeMax = _ from g2]) hcf "gamma" inp.gammas
      (fun e he => h.energies e (by simp [he]))
    unfold eventLists
    rw [hc, hp, he, hT]
    simp only [bind, Except.bind, hg]
    rw [prepare_units inp.protonInfo h2 p.spectrum (by rw [hpk]; simpa using h1)]
  · intro h h1 h2
    apply key
    obtain ⟨g1, g2, g3⟩ := h.gamma
    obtain ⟨p1, p2, p3⟩ := h.proton
    obtain ⟨gammas, hg, -⟩ := prepare_ok inp.gammaInfo g1 (Or.inr g2) g3 c.spectrum crabFlux (by rw [hck]; simp [show inp.gammaInfo.viewconeMax = _ from g2]) hcf "gamma" inp.gammas
      (fun e he => h.energies e (by simp [he]))
    obtain ⟨protons, hpp, -⟩ := prepare_ok inp.protonInfo p1 (Or.inl p2) p3 p.spectrum protonFlux (by rw [hpk]; simpa using p2.lt) hpf "proton" inp.protons
      (fun e he => h.energies e (by simp [he]))
    unfold eventLists
    rw [hc, hp, he, hT]
    simp only [bind, Except.bind, hg, hpp]
    rw [prepare_units inp.electronInfo h2 ⟨e.kind, e.call⟩ (by rw [hek]; simpa using h1)]

/-- the point-like gamma simulation of the examples -/
noncomputable def exGamma : Info := { exInfo with viewconeMax := 0 }

/-- an event on axis -/
def exRaw (E gh : ℝ) : Raw := ⟨E, 0, 0, .fin E, 0, 0, .fin gh, 0, 0⟩

/-- a small input: gammas, one proton and one electron on axis -/
noncomputable def exInput (brentq : RootFn) : Input :=
  ⟨brentq, 1, exGamma, exInfo, exInfo, [exRaw 2 0.5, exRaw 3 0.6], [exRaw 4 1], [exRaw 5 1]⟩

/-- the hypotheses are satisfiable -/
theorem exInput_proper (brentq : RootFn) : ProperSimulations (exInput brentq) := by
  refine ⟨⟨⟨by norm_num [exInput, exGamma, exInfo], by norm_num [exInput, exGamma, exInfo], by norm_num [exInput, exGamma, exInfo],
    by norm_num [exInput, exGamma, exInfo]⟩, rfl, by norm_num [exInput, exGamma, exInfo]⟩, ⟨exInfo_valid, exInfo_diffuse, by norm_num [exInput, exInfo]⟩,
    ⟨exInfo_valid, exInfo_diffuse, by norm_num [exInput, exInfo]⟩, ?_⟩
  intro e he
  simp only [exInput, List.mem_append, List.mem_cons, List.mem_nil_iff, or_false] at he
  rcases he with ((rfl | rfl) | rfl) | rfl <;> norm_num [exRaw]

/-- an input for which the script fails: the gammas are diffuse -/
example (brentq : RootFn) : main { exInput brentq with gammaInfo := exInfo } = .error .unitsError :=
  (C136_wrong_simulation { exInput brentq with gammaInfo := exInfo } (by norm_num [exInfo])).1 (by norm_num [exInfo])

/-! ## The settings -/

/-- 0, then `10 ^ (-1.9 + k / n)` TeV for `k < N`, then infinity -/
noncomputable def energyEdges (n N : ℕ) : List (FV ℝ) :=
  .fin 0 :: (((List.range N).map fun k : ℕ => .fin ((10:ℝ) ^ (-1.9 + (k:ℝ) / n))) ++ [.pinf])

theorem decades (b : ℝ) (n N : ℕ) (hn : 1 ≤ n) (h1 : ((N:ℝ) - 1) / n ≤ b + 1.9) (h2 : b + 1.9 + 1 / 10000 / n ≤ (N:ℝ) / n) (hN : 1 ≤ N) :
    createBinsPerDecade (10 ^ (-1.9 : ℝ)) (10 ^ b) n = (List.range N).map fun k : ℕ => (10:ℝ) ^ (-1.9 + (k:ℝ) / n) := by
  have p : (0:ℝ) < 10 ^ (-1.9 : ℝ) := by positivity
  have hn' : (0:ℝ) < n := by exact_mod_cast hn
  have hN' : (1:ℝ) ≤ N := by exact_mod_cast hN
  have hb : (-1.9 : ℝ) ≤ b := by
    have : 0 ≤ ((N:ℝ) - 1) / n := by apply div_nonneg <;> linarith
    linarith
  obtain ⟨-, hval, -, hlo, hhi⟩ := C04_bins_per_decade (10 ^ (-1.9 : ℝ)) (10 ^ b) n p (Real.rpow_le_rpow_of_exponent_le (by norm_num) hb) hn
  have hlen : (createBinsPerDecade (10 ^ (-1.9 : ℝ)) (10 ^ b) n).length = N := by
    apply le_antisymm
    · by_contra hc
      push Not at hc
      have := hhi N hc
      rw [hval, ← Real.rpow_add (by norm_num), ← Real.rpow_add (by norm_num)] at this
      rw [Real.rpow_lt_rpow_left_iff (by norm_num)] at this
      linarith
    · have := hlo (N - 1) (by
        rw [← Real.rpow_add (by norm_num)]
        apply Real.rpow_le_rpow_of_exponent_le (by norm_num)
        rw [Nat.cast_sub hN, Nat.cast_one]
        linarith)
      omega
  apply List.ext_getElem
  · rw [hlen]; simp
  · intro k hk hk'
    rw [hval k hk, List.getElem_map, List.getElem_range, ← Real.rpow_add (by norm_num)]

theorem energyEdges_eq (b : ℝ) (n N : ℕ) (hn : 1 ≤ n) (h1 : ((N:ℝ) - 1) / n ≤ b + 1.9) (h2 : b + 1.9 + 1 / 10000 / n ≤ (N:ℝ) / n) (hN : 1 ≤ N) :
    overflowBins (10 ^ (-1.9 : ℝ)) (10 ^ b) n = .ok (energyEdges n N) := by
  have hb : (-1.9 : ℝ) ≤ b := by
    have hN' : (1:ℝ) ≤ N := by exact_mod_cast hN
    have : 0 ≤ ((N:ℝ) - 1) / n := by apply div_nonneg; linarith; positivity
    linarith
  rw [(overflowBins_ok (10 ^ (-1.9 : ℝ)) (10 ^ b) n (by positivity) (Real.rpow_le_rpow_of_exponent_le (by norm_num) hb) hn).1,
    decades b n N hn h1 h2 hN]
  unfold energyEdges
  rw [List.map_map]
  rfl

theorem arange_eq (a b h : ℝ) (N : ℕ) (h1 : (N:ℝ) - 1 < (b - a) / h) (h2 : (b - a) / h ≤ N) :
    arange a b h = (List.range N).map fun k : ℕ => a + k * h := by
  have hc : ⌈(b - a) / h⌉ = (N : ℤ) := by
    rw [Int.ceil_eq_iff]
    exact ⟨by exact_mod_cast h1, by exact_mod_cast h2⟩
  unfold arange
  rw [hc]
  rfl

/-- **C136** (settings) The bins of the script: theta cuts 0, 10^(-1.9 + k/50) TeV (k = 0, ..., 210), infinity; sensitivity and reconstructed energies 0, 10^(-1.9 + k/5) TeV
(k = 0, ..., 21), infinity; true energies 0, 10^(-1.9 + k/10) TeV (k = 0, ..., 42), infinity; field of view offsets 0 and 0.5 degrees; source offsets 0, 0.001, ..., 1 degrees; 200
energy migration edges from 0.2 to 5 with a constant ratio; background offsets 0, 1, ..., 10 degrees; gh efficiencies 0.01, 0.02, ..., 0.8. -/
theorem C136_settings : ∃ s, settings = .ok s ∧ s.thetaBins = energyEdges 50 211 ∧ s.sensitivityBins = energyEdges 5 22 ∧ s.recoEnergyBins = energyEdges 5 22 ∧
    s.trueEnergyBins = energyEdges 10 43 ∧ s.fovOffsetBins = [0, 0.5 * deg] ∧
    s.sourceOffsetBins = (List.range 1001).map (fun k : ℕ => (k:ℝ) * 0.001 * deg) ∧
    s.migrationBins.length = 200 ∧ (∀ k : ℕ, k < 200 → s.migrationBins[k]? = some ((0.2:ℝ) * (25:ℝ) ^ ((k:ℝ) / 199))) ∧
    s.backgroundFovBins = (List.range 11).map (fun k : ℕ => (k:ℝ) * deg) ∧
    s.ghEff = (List.range 80).map (fun k : ℕ => 0.01 + (k:ℝ) * 0.01) ∧ s.alpha = 0.2 ∧ s.maxBgRadius = 1 * deg ∧ s.tObs = fiftyHours := by
  have e1 := energyEdges_eq 2.3005 50 211 (by norm_num) (by norm_num) (by norm_num) (by norm_num)
  have e2 := energyEdges_eq 2.31 5 22 (by norm_num) (by norm_num) (by norm_num) (by norm_num)
  have e3 := energyEdges_eq 2.31 10 43 (by norm_num) (by norm_num) (by norm_num) (by norm_num)
  unfold settings
  rw [e1, e2, e3]
  refine ⟨_, rfl, rfl, rfl, rfl, rfl, ?_, ?_, ?_, ?_, ?_, ?_, rfl, rfl, rfl⟩
  · show [0 * deg, 0.5 * deg] = _
    rw [zero_mul]
  · show (arange 0 (1 + 1e-4) 1e-3).map (· * deg) = _
    rw [arange_eq _ _ _ 1001 (by norm_num) (by norm_num), List.map_map]
    refine List.map_congr_left fun k _ => ?_
    show (0 + (k:ℝ) * 1e-3) * deg = _
    norm_num
  · show (geomspace 0.2 5 200).length = 200
    simp [geomspace]
  · intro k hk
    show (geomspace 0.2 5 200)[k]? = _
    unfold geomspace
    rw [List.getElem?_map, List.getElem?_range hk]
    norm_num
  · show (arange 0 11 1).map (· * deg) = _
    rw [arange_eq _ _ _ 11 (by norm_num) (by norm_num), List.map_map]
    refine List.map_congr_left fun k _ => ?_
    show (0 + (k:ℝ) * 1) * deg = _
    norm_num
  · show arange 0.01 (0.8 + 0.01 / 2) 0.01 = _
    exact arange_eq _ _ _ 80 (by norm_num) (by norm_num)

end Pyirf.Examples
