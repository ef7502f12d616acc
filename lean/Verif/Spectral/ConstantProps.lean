import Verif.Spectral.Constants
import Verif.Spectral.Props
import Mathlib.Analysis.Calculus.Deriv.MeanValue
import Mathlib.Analysis.Complex.ExponentialBounds
import Mathlib.Analysis.SpecialFunctions.ExpDeriv
import Mathlib.Analysis.SpecialFunctions.Log.Deriv

/-!
# C123: the spectra that come with pyirf
-/
set_option linter.unusedSectionVars false

namespace Pyirf.Spectral
open Pyirf Pyirf.Np Pyirf.Simulations

/-- A flux given by `f`: finite and positive at all positive energies, and strictly decreasing from `lo` on. -/
structure ProperFlux (call : ℝ → FV ℝ) (lo : ℝ) : Prop where
  /-- values are positive numbers -/
  positive : ∀ E, 0 < E → ∃ v, call E = .fin v ∧ 0 < v
  /-- higher energies have less flux -/
  decreasing : ∀ E E' v v', 0 < E → lo ≤ E → E < E' → call E = .fin v → call E' = .fin v' → v' < v

theorem properFlux_powerLaw (kind : FluxKind) (N index eRef : ℝ) (hN : 0 < N) (hi : index < 0) (he : 0 < eRef) :
    ∃ pl, mkPowerLaw kind (.fin N) index eRef = .ok pl ∧ pl.kind = kind ∧ ProperFlux pl.call 0 := by
  have h := ((C35_constructor kind (.fin N) index eRef 0 0 0).2.2 hi.le).1
  obtain ⟨flux, h1, h2, -, h4⟩ := C35_positive_antitone kind N index eRef hN he _ h
  refine ⟨_, h, rfl, fun E hE => ⟨_, h1 E, h2 E hE⟩, ?_⟩
  intro E E' v v' hE _ hEE e1 e2
  rw [h1] at e1 e2
  rw [← FV.fin.inj e1, ← FV.fin.inj e2]
  exact h4 hi hE (hE.trans hEE) hEE

/-- **C123** (values) The flux of the spectra at every energy `E` (in TeV), in 1/(TeV s m²) resp. 1/(TeV s m² sr). -/
theorem C123_values (E : ℝ) (_hE : 0 < E) :
    (∃ pl, crabHegra = .ok pl ∧ pl.call E = .fin (2.83e-7 * E ^ (-2.62 : ℝ))) ∧
    crabMagic.call E = .fin (3.23e-7 * E ^ (-2.47 - 0.24 * (Real.log E / Real.log 10))) ∧
    (∃ pl, pdgAllParticle = .ok pl ∧ pl.call E = .fin (1.8e7 * (1000 * E) ^ (-2.7 : ℝ))) ∧
    (∃ pl, irfdocProton = .ok pl ∧ pl.call E = .fin (9.8e-2 * E ^ (-2.62 : ℝ))) ∧
    ∃ pl, irfdocElectron = .ok pl ∧ pl.call E = .fin (2.385e-5 * E ^ (-3.43 : ℝ) *
      (1 + 1.95 * (Real.exp (Real.exp (-(((Real.log E / Real.log 10 + 0.101) / 0.741) ^ 2 / 2))) - 1))) := by
  refine ⟨⟨_, ((C35_constructor .point _ _ _ 0 0 0).2.2 (by norm_num)).1, ?_⟩, ?_, ⟨_, ((C35_constructor .diffuse _ _ _ 0 0 0).2.2 (by norm_num)).1, ?_⟩,
    ⟨_, ((C35_constructor .diffuse _ _ _ 0 0 0).2.2 (by norm_num)).1, ?_⟩, ⟨_, ((C35_constructor .diffuse _ _ _ _ _ _).2.2 (by norm_num)).2, ?_⟩⟩
  · rw [(C35_formulas .point _ _ 0 1 0 0 1 E one_ne_zero).1, div_one, perTeVcm2]; norm_num
  · refine (C35_formulas .point _ _ _ 1 0 0 1 E one_ne_zero).2.1.trans ?_
    rw [div_one, perTeVcm2, FV.fin.injEq]
    congr 1
    · norm_num
    · congr 1; ring
  · rw [(C35_formulas .diffuse _ _ 0 _ 0 0 1 E one_ne_zero).1, perGeVm2, FV.fin.injEq]
    congr 1
    · norm_num
    · congr 1; unfold gev; ring
  · rw [(C35_formulas .diffuse _ _ 0 1 0 0 1 E one_ne_zero).1, div_one, perTeVcm2]; norm_num
  · rw [(C35_formulas .diffuse _ _ 0 1 _ _ _ E (by norm_num)).2.2, div_one, perTeVcm2, FV.fin.injEq]
    congr 1
    · norm_num
    · rw [show (-(1 / 2) * ((Real.log E / Real.log 10 - -0.101) / 0.741) ^ 2 : ℝ) = -(((Real.log E / Real.log 10 + 0.101) / 0.741) ^ 2 / 2) by ring]
      norm_num

/-- **C123** (power laws) The power laws are accepted by the constructor, have the flux unit of a point source resp. of a diffuse flux, are positive and
decrease at all energies. At 1 TeV (PDG: 1 GeV) they have the documented flux. -/
theorem C123_power_laws :
    (∃ pl, crabHegra = .ok pl ∧ pl.kind = .point ∧ ProperFlux pl.call 0 ∧ pl.call 1 = .fin (2.83e-11 * 1e4)) ∧
    (∃ pl, pdgAllParticle = .ok pl ∧ pl.kind = .diffuse ∧ ProperFlux pl.call 0 ∧ pl.call 1e-3 = .fin (1.8e4 * 1e3)) ∧
    (∃ pl, irfdocProton = .ok pl ∧ pl.kind = .diffuse ∧ ProperFlux pl.call 0 ∧ pl.call 1 = .fin (9.8e-6 * 1e4)) := by
  have at1 : ∀ kind (N index eRef : ℝ) pl, eRef ≠ 0 → index ≤ 0 → mkPowerLaw kind (.fin N) index eRef = .ok pl → pl.call eRef = .fin N := by
    intro kind N index eRef pl he hi h
    rw [((C35_constructor kind (.fin N) index eRef 0 0 0).2.2 hi).1] at h
    rw [← Except.ok.inj h]
    exact (C35_at_reference kind N index 0 eRef 0 0 1 he one_ne_zero).1
  refine ⟨?_, ?_, ?_⟩
  · obtain ⟨pl, h1, h2, h3⟩ := properFlux_powerLaw .point (2.83e-11 * perTeVcm2) (-2.62) 1 (by norm_num [perTeVcm2]) (by norm_num) one_pos
    exact ⟨pl, h1, h2, h3, at1 _ _ _ 1 _ one_ne_zero (by norm_num) h1⟩
  · obtain ⟨pl, h1, h2, h3⟩ := properFlux_powerLaw .diffuse (1.8e4 * perGeVm2) (-2.7) (1 * gev) (by norm_num [perGeVm2]) (by norm_num) (by norm_num [gev])
    have := at1 _ _ _ (1 * gev) _ (by norm_num [gev]) (by norm_num) h1
    rw [one_mul] at this
    exact ⟨pl, h1, h2, h3, this⟩
  · obtain ⟨pl, h1, h2, h3⟩ := properFlux_powerLaw .diffuse (9.8e-6 * perTeVcm2) (-2.62) 1 (by norm_num [perTeVcm2]) (by norm_num) one_pos
    exact ⟨pl, h1, h2, h3, at1 _ _ _ 1 _ one_ne_zero (by norm_num) h1⟩

/-- **C123** (log parabola) The MAGIC Crab spectrum is a positive point-source flux, with 3.23e-11 / (TeV cm² s) at 1 TeV, and decreases from 1e-5 TeV (10 MeV) on. -/
theorem C123_log_parabola : crabMagic.kind = .point ∧ ProperFlux crabMagic.call 1e-5 ∧ crabMagic.call 1 = .fin (3.23e-11 * 1e4) := by
  have hcall : ∀ E, crabMagic.call E = .fin (3.23e-11 * perTeVcm2 * (E / 1) ^ (-2.47 + -0.24 * (Real.log (E / 1) / Real.log 10))) :=
    fun E => (C35_formulas .point (3.23e-11 * perTeVcm2) (-2.47) (-0.24) 1 0 0 1 E one_ne_zero).2.1
  have hN : (0 : ℝ) < 3.23e-11 * perTeVcm2 := by norm_num [perTeVcm2]
  refine ⟨rfl, ⟨fun E hE => ⟨_, hcall E, ?_⟩, ?_⟩, ?_⟩
  · exact mul_pos hN (Real.rpow_pos_of_pos (by simpa using hE) _)
  · intro E E' v v' hE hlo hEE h1 h2
    rw [hcall] at h1 h2
    rw [← FV.fin.inj h1, ← FV.fin.inj h2]
    refine mul_lt_mul_of_pos_left ?_ hN
    simp only [div_one]
    have hE' := hE.trans hEE
    rw [Real.rpow_def_of_pos hE, Real.rpow_def_of_pos hE', Real.exp_lt_exp]
    have hl10 : 0 < Real.log 10 := Real.log_pos (by norm_num)
    set l := Real.log 10 with hl
    have hx : Real.log E < Real.log E' := Real.log_lt_log hE hEE
    have hxlo : -5 * l ≤ Real.log E := by
      have : Real.log (1e-5) = -5 * l := by
        rw [hl, show (1e-5 : ℝ) = (10 : ℝ) ^ (-5 : ℝ) by norm_num [Real.rpow_neg], Real.log_rpow (by norm_num)]
      rw [← this]
      exact Real.log_le_log (by norm_num) hlo
    set x := Real.log E
    set y := Real.log E'
    have hx' : -5 ≤ x / l := by rw [le_div_iff₀ hl10]; linarith
    have hy' : x / l < y / l := by gcongr
    have e1 : x = x / l * l := by field_simp
    have e2 : y = y / l * l := by field_simp
    set a := x / l
    set b := y / l
    rw [e1, e2]
    nlinarith [mul_pos hl10 (sub_pos.mpr hy'), mul_nonneg (mul_nonneg hl10.le (sub_pos.mpr hy').le) (by linarith : (0 : ℝ) ≤ a + b + 10)]
  · exact (C35_at_reference .point (3.23e-11 * perTeVcm2) (-2.47) (-0.24) 1 0 0 1 one_ne_zero one_ne_zero).2.1

/-- the factor of the bump in the logarithm of the energy -/
noncomputable def bump (x : ℝ) : ℝ := 1 + 1.950 * (Real.exp (Real.exp (-(1 / 2) * ((x - -0.101) / 0.741) ^ 2)) - 1)

theorem bump_pos (x : ℝ) : 1 < bump x := by
  have : 1 < Real.exp (Real.exp (-(1 / 2) * ((x - -0.101) / 0.741) ^ 2)) := Real.one_lt_exp_iff.mpr (Real.exp_pos _)
  unfold bump
  linarith

/-- the logarithm of the electron flux falls: the bump is flatter than the power law is steep -/
theorem log_electron_strictAnti : StrictAnti (fun x : ℝ => -3.43 * (x * Real.log 10) + Real.log (bump x)) := by
  have hl10 : 1 < Real.log 10 := by
    rw [Real.lt_log_iff_exp_lt (by norm_num)]
    have := Real.exp_one_lt_d9
    linarith
  have hd : ∀ x : ℝ, HasDerivAt (fun x : ℝ => -3.43 * (x * Real.log 10) + Real.log (bump x))
      (-3.43 * Real.log 10 + (1.950 * (Real.exp (Real.exp (-(1 / 2) * ((x - -0.101) / 0.741) ^ 2)) *
        (Real.exp (-(1 / 2) * ((x - -0.101) / 0.741) ^ 2) * (-(1 / 2) * (2 * ((x - -0.101) / 0.741) * (1 / 0.741)))))) / bump x) x := by
    intro x
    have h1 : HasDerivAt (fun x : ℝ => (x - -0.101) / 0.741) (1 / 0.741) x := ((hasDerivAt_id x).sub_const _).div_const _
    have h2 : HasDerivAt (fun x : ℝ => -(1 / 2 : ℝ) * ((x - -0.101) / 0.741) ^ 2) (-(1 / 2) * (2 * ((x - -0.101) / 0.741) * (1 / 0.741))) x := by
      have := (h1.pow 2).const_mul (-(1 / 2 : ℝ))
      simpa using this
    have h3 := h2.exp.exp
    have h4 : HasDerivAt bump _ x := ((h3.sub_const 1).const_mul 1.950).const_add 1
    have h5 := h4.log (by linarith [bump_pos x])
    have h6 : HasDerivAt (fun x : ℝ => -3.43 * (x * Real.log 10)) (-3.43 * (1 * Real.log 10)) x := ((hasDerivAt_id x).mul_const _).const_mul _
    rw [one_mul] at h6
    exact h6.add h5
  refine strictAnti_of_deriv_neg fun x => ?_
  rw [(hd x).deriv]
  set t := (x - -0.101) / 0.741 with ht
  set g := Real.exp (-(1 / 2) * t ^ 2) with hg
  have hg0 : 0 < g := Real.exp_pos _
  have hbump : bump x = 1 + 1.950 * (Real.exp g - 1) := rfl
  have hE : 1 < Real.exp g := Real.one_lt_exp_iff.mpr hg0
  have hb : 0 < bump x := by linarith [bump_pos x]
  -- `|t| g ≤ 1`
  have htg : -t * g ≤ 1 := by
    have h1 : t ^ 2 / 2 + 1 ≤ Real.exp (t ^ 2 / 2) := Real.add_one_le_exp _
    have h2 : g * Real.exp (t ^ 2 / 2) = 1 := by rw [hg, ← Real.exp_add]; ring_nf; exact Real.exp_zero
    have h3 : -t ≤ Real.exp (t ^ 2 / 2) := by nlinarith [sq_nonneg (t + 1)]
    calc -t * g ≤ Real.exp (t ^ 2 / 2) * g := by gcongr
      _ = 1 := by rw [mul_comm]; exact h2
  have key : 1.950 * (Real.exp g * (g * (-(1 / 2) * (2 * t * (1 / 0.741))))) / bump x ≤ 1.950 / 0.741 := by
    rw [div_le_iff₀ hb, hbump]
    have e : 1.950 * (Real.exp g * (g * (-(1 / 2) * (2 * t * (1 / 0.741))))) = 1.950 / 0.741 * (Real.exp g * (-t * g)) := by ring
    rw [e]
    have h5 : Real.exp g * (-t * g) ≤ Real.exp g := by
      calc Real.exp g * (-t * g) ≤ Real.exp g * 1 := by gcongr
        _ = Real.exp g := mul_one _
    have h6 : Real.exp g ≤ 1 + 1.950 * (Real.exp g - 1) := by nlinarith
    have : (0 : ℝ) < 1.950 / 0.741 := by norm_num
    nlinarith
  have : (1.950 / 0.741 : ℝ) < 3.43 := by norm_num
  nlinarith

/-- **C123** (electrons) The electron spectrum is accepted by the constructor, is a positive diffuse flux and decreases at all energies: the Gaussian bump never makes
it rise. -/
theorem C123_electron : ∃ pl, irfdocElectron = .ok pl ∧ pl.kind = .diffuse ∧ ProperFlux pl.call 0 := by
  have h := ((C35_constructor .diffuse (.fin (2.385e-9 * perTeVcm2)) (-3.43) 1 1.950 (-0.101) 0.741).2.2 (by norm_num)).2
  have hN : (0 : ℝ) < 2.385e-9 * perTeVcm2 := by norm_num [perTeVcm2]
  have hcall := fun E => (C35_formulas .diffuse (2.385e-9 * perTeVcm2) (-3.43) 0 1 1.950 (-0.101) 0.741 E (by norm_num)).2.2
  have hval : ∀ E, 0 < E → GaussianPowerLaw.call ⟨⟨.diffuse, .fin (2.385e-9 * perTeVcm2), -3.43, 1⟩, 1.950, -0.101, 0.741⟩ E =
      .fin (2.385e-9 * perTeVcm2 * Real.exp (-3.43 * (Real.log E / Real.log 10 * Real.log 10) + Real.log (bump (Real.log E / Real.log 10)))) := by
    intro E hE
    have hl10 : Real.log 10 ≠ 0 := (Real.log_pos (by norm_num)).ne'
    rw [hcall, FV.fin.injEq, Real.exp_add, Real.exp_log (by linarith [bump_pos (Real.log E / Real.log 10)]), div_mul_cancel₀ _ hl10, div_one,
      Real.rpow_def_of_pos hE, mul_comm (Real.log E)]
    unfold bump
    ring
  refine ⟨_, h, rfl, fun E hE => ⟨_, hval E hE, mul_pos hN (Real.exp_pos _)⟩, ?_⟩
  intro E E' v v' hE _ hEE h1 h2
  rw [hval E hE] at h1
  rw [hval E' (hE.trans hEE)] at h2
  rw [← FV.fin.inj h1, ← FV.fin.inj h2]
  refine mul_lt_mul_of_pos_left (Real.exp_lt_exp.mpr ?_) hN
  refine log_electron_strictAnti ?_
  have := Real.log_lt_log hE hEE
  have hl10 : 0 < Real.log 10 := Real.log_pos (by norm_num)
  gcongr

/-- **C123** (weights) Weighting simulated events to the shipped spectra: events of a diffuse simulation get positive weights for the diffuse spectra and
UnitConversionError for the Crab spectra; events of a point-like simulation the other way round. -/
theorem C123_weights (s : Info) (hv : Valid s) (hp : ProperViewcone s) (hR : 0 < s.maxImpact) (obstime eRef : ℝ) (hT : 0 < obstime)
    (he : 0 < eRef) (sim : PowerLaw) (hs : fromSimulation s obstime eRef = .ok sim) (target : Spectrum)
    (ht : (∃ pl, crabHegra = .ok pl ∧ target = pl.spectrum) ∨ target = ⟨crabMagic.kind, crabMagic.call⟩ ∨
      (∃ pl, pdgAllParticle = .ok pl ∧ target = pl.spectrum) ∨ (∃ pl, irfdocProton = .ok pl ∧ target = pl.spectrum) ∨
      ∃ pl, irfdocElectron = .ok pl ∧ target = ⟨pl.kind, pl.call⟩) (E : ℝ) (hE : 0 < E) :
    (target.kind = .diffuse ↔ s.viewconeMin < s.viewconeMax) ∧ (∃ w, calculateEventWeight E target sim.spectrum = .ok (.fin w) ∧ 0 < w) ∨
    ¬ (target.kind = .diffuse ↔ s.viewconeMin < s.viewconeMax) ∧ calculateEventWeight E target sim.spectrum = .error .unitsError := by
  obtain ⟨pl', flux, hf, hk, hcall, hdist, -⟩ := C33_simulated_number s hv hp hR obstime eRef hT he
  obtain rfl := Except.ok.inj (hf.symm.trans hs)
  have hpos : ∃ v, target.flux E = .fin v ∧ 0 < v := by
    rcases ht with ⟨pl, h, rfl⟩ | rfl | ⟨pl, h, rfl⟩ | ⟨pl, h, rfl⟩ | ⟨pl, h, rfl⟩
    · obtain ⟨pl', h', -, h1, -⟩ := C123_power_laws.1
      obtain rfl := Except.ok.inj (h'.symm.trans h)
      exact h1.positive E hE
    · exact C123_log_parabola.2.1.positive E hE
    · obtain ⟨pl', h', -, h1, -⟩ := C123_power_laws.2.1
      obtain rfl := Except.ok.inj (h'.symm.trans h)
      exact h1.positive E hE
    · obtain ⟨pl', h', -, h1, -⟩ := C123_power_laws.2.2
      obtain rfl := Except.ok.inj (h'.symm.trans h)
      exact h1.positive E hE
    · obtain ⟨pl', h', -, h1⟩ := C123_electron
      obtain rfl := Except.ok.inj (h'.symm.trans h)
      exact h1.positive E hE
  obtain ⟨v, hv1, hv2⟩ := hpos
  have hsim : 0 < flux E := by
    have h1 := hdist E hE
    have h2 : 0 < s.nShowers * energyPdf s E := mul_pos hv.showers (energyPdf_pos hv hE)
    have h3 : 0 < Real.pi * s.maxImpact ^ 2 * obstime * simulatedSolidAngle s := exposure_pos hp hR hT
    rw [← h1, mul_assoc, mul_assoc] at h2
    rw [mul_assoc] at h3
    by_contra hc
    nlinarith
  have hb : pl'.spectrum.flux E = .fin (flux E) := hcall E hE
  have hr := C34_ratio E target pl'.spectrum v (flux E) hv1 hb hsim.ne'
  have hkk : target.kind = pl'.spectrum.kind ↔ (target.kind = .diffuse ↔ s.viewconeMin < s.viewconeMax) := by
    rw [← hk]
    show target.kind = pl'.kind ↔ _
    cases target.kind <;> cases pl'.kind <;> simp
  by_cases h : target.kind = pl'.spectrum.kind
  · exact Or.inl ⟨hkk.mp h, _, hr.1 h, div_pos hv2 hsim⟩
  · exact Or.inr ⟨fun h' => h (hkk.mpr h'), hr.2 h⟩

/-- the hypotheses are satisfiable: a diffuse simulation weighted to the proton spectrum -/
example : ∃ sim pl, fromSimulation exInfo 3600 1 = .ok sim ∧ irfdocProton = .ok pl ∧ pl.spectrum.kind = .diffuse ∧ Valid exInfo ∧ ProperViewcone exInfo := by
  obtain ⟨sim, _, h, _⟩ := C33_simulated_number exInfo exInfo_valid (Or.inl exInfo_diffuse) (by norm_num [exInfo]) 3600 1 (by norm_num)
    (by norm_num)
  obtain ⟨pl, h1, h2, -⟩ := C123_power_laws.2.2
  exact ⟨sim, pl, h, h1, h2, exInfo_valid, Or.inl exInfo_diffuse⟩

theorem dampeEnergy_strictMono : StrictMono dampeEnergy := by
  rw [Fin.strictMono_iff_lt_succ]
  intro i
  fin_cases i <;> simp only [dampeEnergy]
  · show (5.0 : ℝ) < 50.5185; norm_num
  · show (50.5185 : ℝ) < 78.9163; norm_num
  all_goals norm_num [Fin.succ]

theorem dampeFlux_strictAnti : StrictAnti dampeFlux := by
  rw [Fin.strictAnti_iff_succ_lt]
  intro i
  fin_cases i <;> simp only [dampeFlux]
  · show (0.46837 : ℝ) < 241.37151783447848; norm_num
  · show (0.13929 : ℝ) < 0.46837; norm_num
  all_goals norm_num [Fin.succ]

/-- **C123** (DAMPE) The shipped data file can be read; the spectrum has the flux unit of the file, gives the fluxes of the file at its energies, is positive and
decreases at all energies, also below 5 GeV and above 100 TeV. -/
theorem C123_dampe : ∃ t, dampe = .ok t ∧ t.fluxUnit = "1 / (GeV m2 s sr)" ∧ (∀ i, t.call (dampeEnergy i / 1000) = dampeFlux i) ∧
    (∀ E, 0 < t.call E) ∧ StrictAntiOn t.call (Set.Ioi 0) := by
  have hpos : ∀ i, 0 < dampeEnergy i := fun i => lt_of_lt_of_le (by norm_num [dampeEnergy]) (dampeEnergy_strictMono.monotone (Fin.zero_le i))
  have hfpos : ∀ i, 0 < dampeFlux i := fun i => lt_of_lt_of_le (show (0 : ℝ) < 8.5990e-10 by norm_num) (dampeFlux_strictAnti.antitone (Fin.le_last i))
  obtain ⟨t, ht, hu, he, hl, hr, hv⟩ := ((C37_from_table dampeTable true true 1).2.1 _ _ rfl rfl).2 gev rfl
  obtain ⟨hvt, hpts⟩ := hv one_pos (by norm_num [gev]) dampeEnergy_strictMono.injective hpos (fun _ => hfpos)
  refine ⟨t, ht, hu, fun i => ?_, C37_positive t hl, C37_decreasing t hvt ?_⟩
  · rw [show dampeEnergy i / 1000 = gev * dampeEnergy i by unfold gev; ring]
    exact hpts i
  · have h1 := Except.ok.inj ((show fromTable dampeTable true true 1 = .ok _ from rfl).symm.trans ht)
    rw [← h1]
    intro i j hij
    exact dampeFlux_strictAnti (dampeEnergy_strictMono.lt_iff_lt.mp (lt_of_mul_lt_mul_left hij (by norm_num [gev])))

end Pyirf.Spectral
