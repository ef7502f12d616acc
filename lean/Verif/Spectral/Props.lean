import Verif.Spectral.Model
import Verif.Simulations.FovProps

/-!
# Spectra and event weights (C33-C37, C86)
-/
set_option linter.unusedSectionVars false
set_option linter.unusedSimpArgs false

namespace Pyirf.Spectral
open Pyirf Pyirf.Np Pyirf.Utils Pyirf.Simulations MeasureTheory

/-! ## Specification -/

/-- Solid angle between two cones around the same axis: the integral of the area element of the unit sphere. -/
noncomputable def ringSolidAngle (inner outer : ℝ) : ℝ := 2 * Real.pi * ∫ t in inner..outer, Real.sin t

/-- Solid angle into which the showers were simulated; 1 (no unit) for a point-like simulation. -/
noncomputable def simulatedSolidAngle (s : Info) : ℝ :=
  if s.viewconeMin < s.viewconeMax then ringSolidAngle s.viewconeMin s.viewconeMax else 1

/-- Exposure of the simulation: area times observation time times solid angle. -/
noncomputable def exposure (s : Info) (obstime : ℝ) : ℝ := Real.pi * s.maxImpact ^ 2 * obstime * simulatedSolidAngle s

/-- the viewcone is a proper cone, or the simulation is point-like -/
def ProperViewcone (s : Info) : Prop := Diffuse s ∨ s.viewconeMax = s.viewconeMin

/-! ## Lemmas -/

theorem ring_eq (inner outer : ℝ) : ringSolidAngle inner outer = coneSolidAngle outer - coneSolidAngle inner := by
  unfold ringSolidAngle coneSolidAngle
  rw [integral_sin]
  ring

theorem ring_pos {s : Info} (hd : Diffuse s) : 0 < ringSolidAngle s.viewconeMin s.viewconeMax := by
  unfold ringSolidAngle
  rw [integral_sin]
  have := cosDiff_pos hd
  have := Real.pi_pos
  positivity

theorem simulatedSolidAngle_pos {s : Info} (h : ProperViewcone s) : 0 < simulatedSolidAngle s := by
  unfold simulatedSolidAngle
  rcases h with h | h
  · rw [if_pos h.lt]; exact ring_pos h
  · rw [if_neg (by rw [h]; exact lt_irrefl _)]; exact one_pos

theorem exposure_pos {s : Info} (h : ProperViewcone s) (hR : 0 < s.maxImpact) {T : ℝ} (hT : 0 < T) : 0 < exposure s T := by
  unfold exposure
  have := simulatedSolidAngle_pos h
  have := Real.pi_pos
  positivity

/-- the flux that `from_simulation` describes -/
noncomputable def simFlux (s : Info) (T E : ℝ) : ℝ := s.nShowers * energyPdf s E / exposure s T

theorem fromSimulation_eq {s : Info} (hv : Valid s) (hp : ProperViewcone s) (hR : 0 < s.maxImpact) {T eRef : ℝ} (hT : 0 < T)
    (he : 0 < eRef) : ∃ N : ℝ, fromSimulation s T eRef =
      .ok ⟨if s.viewconeMin < s.viewconeMax then .diffuse else .point, .fin N, s.spectralIndex, eRef⟩ ∧
      ∀ E, 0 < E → N * (E / eRef) ^ s.spectralIndex = simFlux s T E := by
  have hx := exposure_pos hp hR hT
  have hD := rpow_diff_neg hv.pos hv.lt (p := s.spectralIndex + 1) (by linarith [hv.index])
  have hi : s.spectralIndex + 1 ≠ 0 := by linarith [hv.index]
  have hA : Real.pi * s.maxImpact ^ 2 * T * (if decide (s.viewconeMax - s.viewconeMin > 0) = true then
      coneSolidAngle s.viewconeMax - coneSolidAngle s.viewconeMin else 1) = exposure s T := by
    unfold exposure simulatedSolidAngle
    simp only [gt_iff_lt, sub_pos, decide_eq_true_eq, ring_eq]
  refine ⟨((s.spectralIndex + 1) * eRef ^ s.spectralIndex * s.nShowers) /
      (exposure s T * (s.energyMax ^ (s.spectralIndex + 1) - s.energyMin ^ (s.spectralIndex + 1))), ?_, ?_⟩
  · unfold fromSimulation mkPowerLaw
    simp only []
    rw [hA, FV.fin_div_fin _ _ (mul_ne_zero hx.ne' hD.ne), if_neg (by linarith [hv.index])]
    simp only [gt_iff_lt, sub_pos, decide_eq_true_eq]
  · intro E hE
    unfold simFlux energyPdf
    rw [integral_power hv le_rfl hv.lt.le, Real.div_rpow hE.le he.le]
    have h1 : eRef ^ s.spectralIndex ≠ 0 := (Real.rpow_pos_of_pos he _).ne'
    have h2 := hD.ne
    have h3 := hx.ne'
    field_simp

theorem energyPdf_pos {s : Info} (hv : Valid s) {E : ℝ} (hE : 0 < E) : 0 < energyPdf s E := by
  unfold energyPdf
  apply div_pos (Real.rpow_pos_of_pos hE _)
  rw [integral_power hv le_rfl hv.lt.le]
  exact div_pos_of_neg_of_neg (rpow_diff_neg hv.pos hv.lt (by linarith [hv.index])) (by linarith [hv.index])

theorem simFlux_pos {s : Info} (hv : Valid s) (hp : ProperViewcone s) (hR : 0 < s.maxImpact) {T E : ℝ} (hT : 0 < T) (hE : 0 < E) :
    0 < simFlux s T E := div_pos (mul_pos hv.showers (energyPdf_pos hv hE)) (exposure_pos hp hR hT)

theorem integral_energyPdf {s : Info} (hv : Valid s) : ∫ E in s.energyMin..s.energyMax, energyPdf s E = 1 := by
  unfold energyPdf
  rw [intervalIntegral.integral_div, integral_power hv le_rfl hv.lt.le]
  have hD := rpow_diff_neg hv.pos hv.lt (p := s.spectralIndex + 1) (by linarith [hv.index])
  have hi : s.spectralIndex + 1 ≠ 0 := by linarith [hv.index]
  exact div_self (div_ne_zero hD.ne hi)

/-! ## C33 -/

/-- **C33** The spectrum of the simulation has the unit of a flux per solid angle exactly if the viewcone is not empty. Its flux
times area, time and solid angle is, at every energy, the expected energy distribution of the simulated showers, and integrates to the
number of showers over the simulated energies. -/
theorem C33_simulated_number (s : Info) (hv : Valid s) (hp : ProperViewcone s) (hR : 0 < s.maxImpact) (obstime eRef : ℝ)
    (hT : 0 < obstime) (he : 0 < eRef) :
    ∃ (pl : PowerLaw) (flux : ℝ → ℝ), fromSimulation s obstime eRef = .ok pl ∧
      (pl.kind = .diffuse ↔ s.viewconeMin < s.viewconeMax) ∧
      (∀ E, 0 < E → pl.call E = .fin (flux E)) ∧
      (∀ E, 0 < E → flux E * (Real.pi * s.maxImpact ^ 2) * obstime * simulatedSolidAngle s = s.nShowers * energyPdf s E) ∧
      ∫ E in s.energyMin..s.energyMax, flux E * (Real.pi * s.maxImpact ^ 2) * obstime * simulatedSolidAngle s = s.nShowers := by
  obtain ⟨N, h1, h2⟩ := fromSimulation_eq hv hp hR hT he
  have hx := (exposure_pos hp hR hT).ne'
  have key : ∀ E, 0 < E → N * (E / eRef) ^ s.spectralIndex * (Real.pi * s.maxImpact ^ 2) * obstime * simulatedSolidAngle s =
      s.nShowers * energyPdf s E := by
    intro E hE
    rw [h2 E hE]
    have : exposure s obstime = (Real.pi * s.maxImpact ^ 2) * obstime * simulatedSolidAngle s := rfl
    unfold simFlux
    rw [this] at hx ⊢
    rw [mul_assoc, mul_assoc, ← mul_assoc (Real.pi * s.maxImpact ^ 2) obstime, div_mul_cancel₀ _ hx]
  refine ⟨_, fun E => N * (E / eRef) ^ s.spectralIndex, h1, ?_, ?_, key, ?_⟩
  · by_cases h : s.viewconeMin < s.viewconeMax <;> simp [h]
  · intro E _; rfl
  · have : ∀ E ∈ Set.uIcc s.energyMin s.energyMax, N * (E / eRef) ^ s.spectralIndex * (Real.pi * s.maxImpact ^ 2) * obstime *
        simulatedSolidAngle s = s.nShowers * energyPdf s E := by
      intro E hE
      rw [Set.uIcc_of_le hv.lt.le] at hE
      exact key E (lt_of_lt_of_le hv.pos hE.1)
    rw [intervalIntegral.integral_congr this, intervalIntegral.integral_const_mul, integral_energyPdf hv, mul_one]

/-- **C33** (reference energy) As a function of energy the spectrum does not depend on the reference energy. -/
theorem C33_reference_energy (s : Info) (hv : Valid s) (hp : ProperViewcone s) (hR : 0 < s.maxImpact) (obstime e₁ e₂ : ℝ)
    (hT : 0 < obstime) (h₁ : 0 < e₁) (h₂ : 0 < e₂) (p₁ p₂ : PowerLaw) (hp₁ : fromSimulation s obstime e₁ = .ok p₁)
    (hp₂ : fromSimulation s obstime e₂ = .ok p₂) : p₁.kind = p₂.kind ∧ ∀ E, 0 < E → p₁.call E = p₂.call E := by
  obtain ⟨N₁, a1, a2⟩ := fromSimulation_eq hv hp hR hT h₁
  obtain ⟨N₂, b1, b2⟩ := fromSimulation_eq hv hp hR hT h₂
  have e1 := Except.ok.inj (hp₁.symm.trans a1)
  have e2 := Except.ok.inj (hp₂.symm.trans b1)
  subst e1 e2
  refine ⟨rfl, fun E hE => ?_⟩
  show FV.fin _ = FV.fin _
  rw [a2 E hE, b2 E hE]

/-- the hypotheses are satisfiable: a diffuse and a point-like simulation -/
example : Valid exInfo ∧ ProperViewcone exInfo ∧ 0 < exInfo.maxImpact ∧
    Valid { exInfo with viewconeMax := 0 } ∧ ProperViewcone { exInfo with viewconeMax := 0 } :=
  ⟨exInfo_valid, Or.inl exInfo_diffuse, by norm_num [exInfo],
   ⟨by norm_num [exInfo], by norm_num [exInfo], by norm_num [exInfo], by norm_num [exInfo]⟩, Or.inr rfl⟩

/-! ## C34 -/

/-- **C34** (ratio) The weight of an event is the ratio of the fluxes; different units are an error. -/
theorem C34_ratio (E : ℝ) (target sim : Spectrum) (a b : ℝ) (ha : target.flux E = .fin a) (hb : sim.flux E = .fin b) (h0 : b ≠ 0) :
    (target.kind = sim.kind → calculateEventWeight E target sim = .ok (.fin (a / b))) ∧
    (target.kind ≠ sim.kind → calculateEventWeight E target sim = .error .unitsError) := by
  unfold calculateEventWeight
  constructor
  · intro h; rw [if_pos h, ha, hb, FV.fin_div_fin _ _ h0]
  · intro h; rw [if_neg h]

/-- **C34** (same spectrum) Reweighting to the simulated spectrum itself gives weight 1. -/
theorem C34_same_spectrum (E : ℝ) (sim : Spectrum) (b : ℝ) (hb : sim.flux E = .fin b) (h0 : b ≠ 0) :
    calculateEventWeight E sim sim = .ok (.fin 1) := by
  rw [(C34_ratio E sim sim b b hb hb h0).1 rfl, div_self h0]

/-- **C34** (chain) The weight from spectrum C to A is the product of the weights from C to B and from B to A. -/
theorem C34_chain (E : ℝ) (A B C : Spectrum) (a b c : ℝ) (hA : A.flux E = .fin a) (hB : B.flux E = .fin b) (hC : C.flux E = .fin c)
    (hb : b ≠ 0) (hc : c ≠ 0) (wAB wBC : FV ℝ) (h1 : calculateEventWeight E A B = .ok wAB) (h2 : calculateEventWeight E B C = .ok wBC) :
    calculateEventWeight E A C = .ok (wAB * wBC) := by
  have k1 : A.kind = B.kind := by
    by_contra h; rw [(C34_ratio E A B a b hA hB hb).2 h] at h1; cases h1
  have k2 : B.kind = C.kind := by
    by_contra h; rw [(C34_ratio E B C b c hB hC hc).2 h] at h2; cases h2
  rw [(C34_ratio E A B a b hA hB hb).1 k1] at h1
  rw [(C34_ratio E B C b c hB hC hc).1 k2] at h2
  cases h1; cases h2
  rw [(C34_ratio E A C a c hA hC hc).1 (k1.trans k2), FV.fin_mul_fin]
  congr 2
  field_simp

/-- **C34** (positive) -/
theorem C34_positive (E : ℝ) (target sim : Spectrum) (a b : ℝ) (ha : target.flux E = .fin a) (hb : sim.flux E = .fin b)
    (h1 : 0 < a) (h2 : 0 < b) (w : FV ℝ) (hw : calculateEventWeight E target sim = .ok w) : ∃ x, w = .fin x ∧ 0 < x := by
  have k : target.kind = sim.kind := by
    by_contra h; rw [(C34_ratio E target sim a b ha hb h2.ne').2 h] at hw; cases hw
  rw [(C34_ratio E target sim a b ha hb h2.ne').1 k] at hw
  cases hw
  exact ⟨_, rfl, div_pos h1 h2⟩

/-- **C34** (expectation) Events of a simulation, selected with any efficiency, and weighted with the ratio of a target spectrum and the
spectrum of the simulation: the expected sum of weights in any part of the simulated energy range is the number of events the
target spectrum makes in the exposure of the simulation. -/
theorem C34_expected_sum (s : Info) (hv : Valid s) (hp : ProperViewcone s) (hR : 0 < s.maxImpact) (obstime eRef : ℝ)
    (hT : 0 < obstime) (he : 0 < eRef) (sim : PowerLaw) (hs : fromSimulation s obstime eRef = .ok sim)
    (target : Spectrum) (flux efficiency : ℝ → ℝ) (hk : target.kind = sim.kind) (hf : ∀ E, 0 < E → target.flux E = .fin (flux E))
    (a b : ℝ) (ha : s.energyMin ≤ a) (hab : a ≤ b) :
    ∃ w : ℝ → ℝ, (∀ E, 0 < E → calculateEventWeight E target sim.spectrum = .ok (.fin (w E))) ∧
      s.nShowers * ∫ E in a..b, energyPdf s E * efficiency E * w E =
        (Real.pi * s.maxImpact ^ 2) * obstime * simulatedSolidAngle s * ∫ E in a..b, flux E * efficiency E := by
  obtain ⟨N, h1, h2⟩ := fromSimulation_eq hv hp hR hT he
  have e1 := Except.ok.inj (hs.symm.trans h1)
  have hfl : ∀ E, 0 < E → sim.spectrum.flux E = FV.fin (simFlux s obstime E) := fun E hE => by
    subst e1
    show FV.fin _ = FV.fin _
    rw [h2 E hE]
  refine ⟨fun E => flux E / simFlux s obstime E, ?_, ?_⟩
  · intro E hE
    exact (C34_ratio E target _ _ _ (hf E hE) (hfl E hE) (simFlux_pos hv hp hR hT hE).ne').1 hk
  · rw [← intervalIntegral.integral_const_mul, ← intervalIntegral.integral_const_mul]
    apply intervalIntegral.integral_congr
    intro E hE
    rw [Set.uIcc_of_le hab] at hE
    have hE0 : 0 < E := lt_of_lt_of_le hv.pos (ha.trans hE.1)
    have p1 := (energyPdf_pos hv hE0).ne'
    have p2 := hv.showers.ne'
    have p3 := (exposure_pos hp hR hT).ne'
    show s.nShowers * (energyPdf s E * efficiency E * (flux E / simFlux s obstime E)) = exposure s obstime * (flux E * efficiency E)
    unfold simFlux
    field_simp

/-- the hypotheses are satisfiable: two power laws of the same kind -/
example : ∃ sim : PowerLaw, fromSimulation exInfo 3600 1 = .ok sim ∧ (⟨sim.kind, fun E => .fin (E ^ (-3 : ℝ))⟩ : Spectrum).kind = sim.kind := by
  obtain ⟨pl, _, h, _⟩ := C33_simulated_number exInfo exInfo_valid (Or.inl exInfo_diffuse) (by norm_num [exInfo]) 3600 1 (by norm_num)
    (by norm_num)
  exact ⟨pl, h, rfl⟩

/-! ## C35 -/

/-- **C35** (constructor) `PowerLaw` and the variant with a Gaussian raise ValueError exactly for a positive index, and keep the parameters
otherwise. -/
theorem C35_constructor (kind : FluxKind) (N : FV ℝ) (index eRef f mu sigma : ℝ) :
    (mkPowerLaw kind N index eRef = .error .valueError ↔ 0 < index) ∧
    (mkGaussianPowerLaw kind N index eRef f mu sigma = .error .valueError ↔ 0 < index) ∧
    (index ≤ 0 → mkPowerLaw kind N index eRef = .ok ⟨kind, N, index, eRef⟩ ∧
      mkGaussianPowerLaw kind N index eRef f mu sigma = .ok ⟨⟨kind, N, index, eRef⟩, f, mu, sigma⟩) := by
  unfold mkGaussianPowerLaw mkPowerLaw
  by_cases h : index > 0
  · simp [h]
  · simp [h]

/-- the Gaussian for a nonzero width -/
theorem gaussF_of_ne {x mu sigma : ℝ} (hs : sigma ≠ 0) : gaussF x mu sigma = FV.fin (Real.exp (-0.5 * ((x - mu) / sigma) ^ 2)) := by
  simp only [gaussF, FV.fin_sub_fin, FV.fin_div_fin _ _ hs, FV.fin_mul_fin, expF, pow_two]

/-- the Gaussian of width 0 -/
theorem gaussF_zero (x mu : ℝ) : gaussF x mu 0 = if x = mu then FV.nan else FV.fin 0 := by
  simp only [gaussF, FV.fin_sub_fin, FV.fin_div_zero]
  rcases lt_trichotomy x mu with h | h | h
  · rw [if_neg h.ne]
    have e : (FV.infSign (x - mu) : FV ℝ) = FV.ninf := by
      have h1 : x - mu < 0 := sub_neg.2 h
      simp [FV.infSign, h1.not_gt, h1, h1.ne]
    rw [e]
    show expF (FV.fin (-0.5) * FV.pinf) = _
    have : (FV.fin (-0.5) * FV.pinf : FV ℝ) = FV.ninf := by
      show FV.infSign (-0.5 : ℝ) = _
      norm_num [FV.infSign]
    rw [this]; rfl
  · subst h
    rw [if_pos rfl, sub_self]
    have e : (FV.infSign (0 : ℝ) : FV ℝ) = FV.nan := by simp [FV.infSign]
    rw [e]; rfl
  · rw [if_neg h.ne']
    rw [FV.infSign_pos (sub_pos.2 h)]
    show expF (FV.fin (-0.5) * FV.pinf) = _
    have : (FV.fin (-0.5) * FV.pinf : FV ℝ) = FV.ninf := by
      show FV.infSign (-0.5 : ℝ) = _
      norm_num [FV.infSign]
    rw [this]; rfl

/-- **C35** (formulas) The values are those of the documented formulas, for positive energies. -/
theorem C35_formulas (kind : FluxKind) (N a b eRef f mu sigma E : ℝ) (hs : sigma ≠ 0) :
    (PowerLaw.call ⟨kind, .fin N, a, eRef⟩ E = .fin (N * (E / eRef) ^ a)) ∧
    (LogParabola.call ⟨kind, .fin N, a, b, eRef⟩ E = .fin (N * (E / eRef) ^ (a + b * (Real.log (E / eRef) / Real.log 10)))) ∧
    (GaussianPowerLaw.call ⟨⟨kind, .fin N, a, eRef⟩, f, mu, sigma⟩ E =
      .fin (N * (E / eRef) ^ a *
        (1 + f * (Real.exp (Real.exp (-(1 / 2) * ((Real.log (E / eRef) / Real.log 10 - mu) / sigma) ^ 2)) - 1)))) := by
  refine ⟨rfl, rfl, ?_⟩
  unfold GaussianPowerLaw.call PowerLaw.call log10 Real.logb
  simp only [gaussF_of_ne hs, expF, FV.fin_sub_fin, FV.fin_mul_fin, FV.fin_add_fin]
  norm_num

/-- **C35** (width 0) With `sigma = 0` the Gaussian variant is the power law, except at `log10(E / e_ref) = mu`, where it is NaN. -/
theorem C35_zero_width (kind : FluxKind) (N index eRef f mu E : ℝ) :
    (Real.log (E / eRef) / Real.log 10 ≠ mu →
      GaussianPowerLaw.call ⟨⟨kind, .fin N, index, eRef⟩, f, mu, 0⟩ E = PowerLaw.call ⟨kind, .fin N, index, eRef⟩ E) ∧
    (Real.log (E / eRef) / Real.log 10 = mu → GaussianPowerLaw.call ⟨⟨kind, .fin N, index, eRef⟩, f, mu, 0⟩ E = .nan) := by
  constructor
  · intro h
    have h' : ¬ log10 (E / eRef) = mu := h
    unfold GaussianPowerLaw.call
    simp only [gaussF_zero, h', if_true, if_false]
    show PowerLaw.call ⟨kind, .fin N, index, eRef⟩ E * (FV.fin 1 + FV.fin f * (FV.fin (Real.exp 0) - FV.fin 1)) = _
    unfold PowerLaw.call
    simp only [Real.exp_zero, FV.fin_sub_fin, FV.fin_mul_fin, FV.fin_add_fin, sub_self, mul_zero, add_zero, mul_one]
  · intro h
    have h' : log10 (E / eRef) = mu := h
    unfold GaussianPowerLaw.call
    simp only [gaussF_zero, h', if_true]
    show PowerLaw.call ⟨kind, .fin N, index, eRef⟩ E * (FV.fin 1 + FV.fin f * (FV.nan - FV.fin 1)) = _
    unfold PowerLaw.call
    rfl

/-- **C35** (reduction) Without curvature and without a Gaussian the other two models are the power law. -/
theorem C35_reduces_to_power_law (kind : FluxKind) (N : FV ℝ) (index eRef mu sigma E : ℝ) (hs : sigma ≠ 0) :
    LogParabola.call ⟨kind, N, index, 0, eRef⟩ E = PowerLaw.call ⟨kind, N, index, eRef⟩ E ∧
    GaussianPowerLaw.call ⟨⟨kind, N, index, eRef⟩, 0, mu, sigma⟩ E = PowerLaw.call ⟨kind, N, index, eRef⟩ E := by
  constructor
  · unfold LogParabola.call PowerLaw.call
    simp only [zero_mul, add_zero]
  · unfold GaussianPowerLaw.call
    simp only [gaussF_of_ne hs, expF, FV.fin_sub_fin, FV.fin_mul_fin, FV.fin_add_fin, zero_mul, add_zero]
    generalize PowerLaw.call _ E = x
    cases x with
    | fin x => rw [FV.fin_mul_fin, mul_one]
    | nan => rfl
    | pinf => exact FV.infSign_pos one_pos
    | ninf => show FV.infSign (-1) = _; simp [FV.infSign]

/-- **C35** (reference energy) At the reference energy the flux is the normalization; for the Gaussian variant it is modified by the Gaussian at
`log10(1) = 0`. -/
theorem C35_at_reference (kind : FluxKind) (N a b eRef f mu sigma : ℝ) (he : eRef ≠ 0) (hs : sigma ≠ 0) :
    PowerLaw.call ⟨kind, .fin N, a, eRef⟩ eRef = .fin N ∧ LogParabola.call ⟨kind, .fin N, a, b, eRef⟩ eRef = .fin N ∧
    GaussianPowerLaw.call ⟨⟨kind, .fin N, a, eRef⟩, f, mu, sigma⟩ eRef =
      .fin (N * (1 + f * (Real.exp (Real.exp (-(1 / 2) * (mu / sigma) ^ 2)) - 1))) := by
  obtain ⟨h1, h2, h3⟩ := C35_formulas kind N a b eRef f mu sigma eRef hs
  rw [h1, h2, h3, div_self he]
  simp [Real.log_one, neg_div]

/-- **C35** (shape) A power law with positive normalization that the constructor accepts is positive and does not increase with energy. -/
theorem C35_positive_antitone (kind : FluxKind) (N index eRef : ℝ) (hN : 0 < N) (he : 0 < eRef) (pl : PowerLaw)
    (hp : mkPowerLaw kind (.fin N) index eRef = .ok pl) :
    ∃ flux : ℝ → ℝ, (∀ E, pl.call E = .fin (flux E)) ∧ (∀ E, 0 < E → 0 < flux E) ∧ AntitoneOn flux (Set.Ioi 0) ∧
      (index < 0 → StrictAntiOn flux (Set.Ioi 0)) := by
  have hi : index ≤ 0 := by
    by_contra h
    rw [((C35_constructor kind (.fin N) index eRef 0 0 0).1).2 (not_le.mp h)] at hp
    cases hp
  rw [((C35_constructor kind (.fin N) index eRef 0 0 0).2.2 hi).1] at hp
  cases hp
  refine ⟨fun E => N * (E / eRef) ^ index, fun E => rfl, fun E hE => ?_, fun x hx y hy hxy => ?_, fun h x hx y hy hxy => ?_⟩
  · exact mul_pos hN (Real.rpow_pos_of_pos (div_pos hE he) _)
  · apply mul_le_mul_of_nonneg_left _ hN.le
    exact Real.rpow_le_rpow_of_nonpos (div_pos hx he) (by gcongr) hi
  · apply mul_lt_mul_of_pos_left _ hN
    exact Real.rpow_lt_rpow_of_neg (div_pos hx he) (by gcongr) h

/-- the hypotheses are satisfiable -/
example : mkPowerLaw .point (.fin 2) (-2.5) 1 = .ok ⟨.point, .fin 2, -2.5, 1⟩ := by
  unfold mkPowerLaw; rw [if_neg (by norm_num)]

/-! ## C36 -/

/-- **C36** The flux integrated over the sky between two cones: flux times solid angle, same index and reference energy, now a
point-source flux; a point-source flux raises ValueError. -/
theorem C36_integrate_cone (kind : FluxKind) (N index eRef inner outer : ℝ) (pl : PowerLaw)
    (hp : mkPowerLaw kind (.fin N) index eRef = .ok pl) :
    (kind = .point → pl.integrateCone inner outer = .error .valueError) ∧
    (kind = .diffuse → ∃ r : PowerLaw, pl.integrateCone inner outer = .ok r ∧ r.kind = .point ∧ r.index = index ∧ r.eRef = eRef ∧
      ∀ E, r.call E = pl.call E * .fin (ringSolidAngle inner outer)) := by
  have hi : index ≤ 0 := by
    by_contra h
    rw [((C35_constructor kind (.fin N) index eRef 0 0 0).1).2 (not_le.mp h)] at hp
    cases hp
  rw [((C35_constructor kind (.fin N) index eRef 0 0 0).2.2 hi).1] at hp
  cases hp
  unfold PowerLaw.integrateCone
  constructor
  · rintro rfl; simp
  · rintro rfl
    simp only [ne_eq, not_true_eq_false, if_false, FV.fin_mul_fin]
    rw [((C35_constructor _ _ index eRef 0 0 0).2.2 hi).1]
    refine ⟨_, rfl, rfl, rfl, rfl, fun E => ?_⟩
    rw [ring_eq]
    show FV.fin _ = FV.fin _
    congr 1
    simp only []
    ring

/-- **C36** (additive) Adjacent rings add up. -/
theorem C36_additive (N index eRef a b c : ℝ) (pl r1 r2 r : PowerLaw) (hp : mkPowerLaw .diffuse (.fin N) index eRef = .ok pl)
    (h1 : pl.integrateCone a b = .ok r1) (h2 : pl.integrateCone b c = .ok r2) (h : pl.integrateCone a c = .ok r) (E : ℝ) :
    r.call E = r1.call E + r2.call E := by
  obtain ⟨q1, e1, -, -, -, f1⟩ := (C36_integrate_cone .diffuse N index eRef a b pl hp).2 rfl
  obtain ⟨q2, e2, -, -, -, f2⟩ := (C36_integrate_cone .diffuse N index eRef b c pl hp).2 rfl
  obtain ⟨q, e, -, -, -, f⟩ := (C36_integrate_cone .diffuse N index eRef a c pl hp).2 rfl
  rw [e1] at h1; rw [e2] at h2; rw [e] at h
  cases h1; cases h2; cases h
  rw [f1, f2, f]
  have hc : pl.call E = .fin (N * (E / eRef) ^ index) := by
    unfold mkPowerLaw at hp
    split at hp
    · cases hp
    · cases hp; rfl
  rw [hc]
  simp only [FV.fin_mul_fin, FV.fin_add_fin, ring_eq]
  congr 1
  ring

/-- a satisfying case: the full sky -/
example : ∃ r : PowerLaw, PowerLaw.integrateCone ⟨.diffuse, .fin 1, -2, 1⟩ 0 Real.pi = .ok r := by
  obtain ⟨r, h, _⟩ := (C36_integrate_cone .diffuse 1 (-2) 1 0 Real.pi ⟨.diffuse, .fin 1, -2, 1⟩ (by
    unfold mkPowerLaw; rw [if_neg (by norm_num)])).2 rfl
  exact ⟨r, h⟩

/-- **C86** For a power law with a Gaussian, `integrate_cone` (inherited) returns the point-like plain power law: its flux is the solid angle times the power law
without the Gaussian. For a non-zero normalization and solid angle this is the flux times the solid angle at an energy exactly if the
Gaussian has no weight (f = 0), hence either at every energy or at none. -/
theorem C86_gaussian_integrate_cone (N index eRef f mu sigma inner outer : ℝ) (hN : N ≠ 0) (hi : index ≤ 0) (he : 0 < eRef)
    (hs : sigma ≠ 0) (hΩ : ringSolidAngle inner outer ≠ 0) :
    ∃ r : PowerLaw, (GaussianPowerLaw.toPowerLaw ⟨⟨.diffuse, .fin N, index, eRef⟩, f, mu, sigma⟩).integrateCone inner outer = .ok r ∧
      r.kind = .point ∧
      (∀ E, r.call E = .fin (N * (E / eRef) ^ index * ringSolidAngle inner outer)) ∧
      ∀ E, 0 < E →
        (r.call E = GaussianPowerLaw.call ⟨⟨.diffuse, .fin N, index, eRef⟩, f, mu, sigma⟩ E * .fin (ringSolidAngle inner outer) ↔ f = 0) := by
  obtain ⟨r, h, hk, -, -, hr⟩ := (C36_integrate_cone .diffuse N index eRef inner outer _
    ((C35_constructor .diffuse (.fin N) index eRef 0 0 0).2.2 hi).1).2 rfl
  have hr' : ∀ E, r.call E = .fin (N * (E / eRef) ^ index * ringSolidAngle inner outer) := by
    intro E
    rw [hr, (C35_formulas .diffuse N index 0 eRef f mu sigma E hs).1]
    simp only [FV.fin_mul_fin]
  refine ⟨r, h, hk, hr', fun E hE => ⟨?_, ?_⟩⟩
  · rw [hr', (C35_formulas .diffuse N index 0 eRef f mu sigma E hs).2.2]
    simp only [FV.fin_mul_fin, ne_eq, FV.fin.injEq]
    intro hh
    have hp : (E / eRef) ^ index ≠ 0 := (Real.rpow_pos_of_pos (div_pos hE he) _).ne'
    have h1 := mul_right_cancel₀ hΩ hh
    have hg : 1 < Real.exp (Real.exp (-(1 / 2) * ((Real.log (E / eRef) / Real.log 10 - mu) / sigma) ^ 2)) :=
      Real.one_lt_exp_iff.mpr (Real.exp_pos _)
    have h2 : N * (E / eRef) ^ index ≠ 0 := mul_ne_zero hN hp
    have h3 : f * (Real.exp (Real.exp (-(1 / 2) * ((Real.log (E / eRef) / Real.log 10 - mu) / sigma) ^ 2)) - 1) = 0 := by
      have := mul_left_cancel₀ h2 ((mul_one _).trans h1)
      linarith
    rcases mul_eq_zero.mp h3 with h | h
    · exact h
    · linarith
  · intro hf
    subst hf
    rw [hr, (C35_reduces_to_power_law .diffuse (.fin N) index eRef mu sigma E hs).2]

/-- the hypotheses are satisfiable: the IRFDOC electron spectrum over the full sky -/
example : (0.49 : ℝ) ≠ 0 ∧ (0.18 : ℝ) ≠ 0 ∧ (-3.43 : ℝ) ≤ 0 ∧ ringSolidAngle 0 Real.pi ≠ 0 := by
  refine ⟨by norm_num, by norm_num, by norm_num, ?_⟩
  rw [ring_eq]; unfold coneSolidAngle
  have := Real.pi_pos
  simp

/-! ## C37 -/

/-- A table of flux points: different positive energies, in any order, positive fluxes if they are interpolated in logarithms. -/
structure ValidTable {n : ℕ} (t : TableSpectrum n) : Prop where
  ref_pos : 0 < t.referenceEnergy
  distinct : Function.Injective t.energy
  energy_pos : ∀ i, 0 < t.energy i
  flux_pos : t.logFlux = true → ∀ i, 0 < t.flux i

theorem log10_lt {a b : ℝ} (ha : 0 < a) (h : a < b) : log10 a < log10 b := Real.logb_lt_logb (by norm_num) ha h
theorem pow_log10 {a : ℝ} (ha : 0 < a) : (10 : ℝ) ^ log10 a = a := Real.rpow_logb (by norm_num) (by norm_num) ha

theorem x_lt {n : ℕ} {t : TableSpectrum n} (hr : 0 < t.referenceEnergy) {a b : ℝ} (ha : 0 < a) (h : a < b) : t.x a < t.x b := by
  unfold TableSpectrum.x
  have : a / t.referenceEnergy < b / t.referenceEnergy := by gcongr
  cases t.logEnergy
  · simpa using this
  · simpa using log10_lt (div_pos ha hr) this

theorem x_le {n : ℕ} {t : TableSpectrum n} (hr : 0 < t.referenceEnergy) {a b : ℝ} (ha : 0 < a) (h : a ≤ b) : t.x a ≤ t.x b := by
  rcases h.lt_or_eq with h | h
  · exact (x_lt hr ha h).le
  · rw [h]

theorem x_inj {n : ℕ} {t : TableSpectrum n} (hv : ValidTable t) : Function.Injective (fun i => t.x (t.energy i)) := by
  intro i j h
  apply hv.distinct
  rcases lt_trichotomy (t.energy i) (t.energy j) with h' | h' | h'
  · exact absurd h (x_lt hv.ref_pos (hv.energy_pos i) h').ne
  · exact h'
  · exact absurd h (x_lt hv.ref_pos (hv.energy_pos j) h').ne'

/-- **C37** (table points) Every table point is reproduced. -/
theorem C37_table_points {n : ℕ} (t : TableSpectrum n) (hv : ValidTable t) (i : Fin (n + 2)) : t.call (t.energy i) = t.flux i := by
  unfold TableSpectrum.call
  have h : interp1d (fun i => t.x (t.energy i)) (fun i => t.y (t.flux i)) (t.x (t.energy i)) = t.y (t.flux i) :=
    interp1d_node (x := fun i => t.x (t.energy i)) (y := fun i => t.y (t.flux i)) (x_inj hv) i
  simp only [h]
  unfold TableSpectrum.y
  cases hl : t.logFlux
  · simp
  · simpa using pow_log10 (hv.flux_pos hl i)

/-- **C37** (between) Between two table energies without another one between them the flux lies between the table fluxes. -/
theorem C37_between {n : ℕ} (t : TableSpectrum n) (hv : ValidTable t) (i j : Fin (n + 2)) (hij : t.energy i < t.energy j)
    (hn : ∀ k, ¬ (t.energy i < t.energy k ∧ t.energy k < t.energy j)) (E : ℝ) (h1 : t.energy i ≤ E) (h2 : E ≤ t.energy j) :
    min (t.flux i) (t.flux j) ≤ t.call E ∧ t.call E ≤ max (t.flux i) (t.flux j) := by
  have hE : 0 < E := lt_of_lt_of_le (hv.energy_pos _) h1
  have hk : ∀ k, t.x (t.energy k) ≤ t.x (t.energy i) ∨ t.x (t.energy j) ≤ t.x (t.energy k) := by
    intro k
    rcases le_or_gt (t.energy k) (t.energy i) with h | h
    · exact Or.inl (x_le hv.ref_pos (hv.energy_pos _) h)
    · exact Or.inr (x_le hv.ref_pos (hv.energy_pos _) (not_lt.mp fun h' => hn k ⟨h, h'⟩))
  have h := interp1d_mem (x := fun i => t.x (t.energy i)) (y := fun i => t.y (t.flux i)) (x_inj hv) (v := t.x E)
    (x_lt hv.ref_pos (hv.energy_pos _) hij) hk (x_le hv.ref_pos (hv.energy_pos _) h1) (x_le hv.ref_pos hE h2)
  unfold TableSpectrum.call
  simp only []
  set y := interp1d (fun i => t.x (t.energy i)) (fun i => t.y (t.flux i)) (t.x E)
  unfold TableSpectrum.y at h
  cases hl : t.logFlux
  · simpa [hl] using h
  · simp only [hl, if_true] at h ⊢
    have p1 := hv.flux_pos hl i
    have p2 := hv.flux_pos hl j
    have mono : ∀ {a b : ℝ}, a ≤ b → (10 : ℝ) ^ a ≤ 10 ^ b := fun h => Real.rpow_le_rpow_of_exponent_le (by norm_num) h
    constructor
    · have := mono h.1
      rcases min_choice (log10 (t.flux i)) (log10 (t.flux j)) with e | e <;> rw [e, pow_log10 (by assumption)] at this
      · exact (min_le_left _ _).trans this
      · exact (min_le_right _ _).trans this
    · have := mono h.2
      rcases max_choice (log10 (t.flux i)) (log10 (t.flux j)) with e | e <;> rw [e, pow_log10 (by assumption)] at this
      · exact this.trans (le_max_left _ _)
      · exact this.trans (le_max_right _ _)

/-- **C37** (positive) With `log_flux` the flux is positive everywhere, also when extrapolated. -/
theorem C37_positive {n : ℕ} (t : TableSpectrum n) (hl : t.logFlux = true) (E : ℝ) : 0 < t.call E := by
  unfold TableSpectrum.call
  simp only [hl, if_true]
  exact Real.rpow_pos_of_pos (by norm_num) _

/-- a line through two points of a line is the line -/
theorem line_unique {x0 x1 m c v : ℝ} (h : x0 ≠ x1) : ((m * x1 + c) - (m * x0 + c)) / (x1 - x0) * (v - x0) + (m * x0 + c) = m * v + c := by
  have : x1 - x0 ≠ 0 := sub_ne_zero.mpr (Ne.symm h)
  field_simp
  ring

/-- **C37** (power law) A table of an exact power law, interpolated in log-log, gives that power law at all energies, also outside the table. -/
theorem C37_power_law {n : ℕ} (t : TableSpectrum n) (hv : ValidTable t) (he : t.logEnergy = true) (hl : t.logFlux = true)
    (N index : ℝ) (hN : 0 < N) (hpl : ∀ i, t.flux i = N * (t.energy i / t.referenceEnergy) ^ index) (E : ℝ) (hE : 0 < E) :
    t.call E = N * (E / t.referenceEnergy) ^ index := by
  obtain ⟨i, j, hne, hk⟩ := interp1d_line (x_inj hv) (fun i => t.y (t.flux i)) (t.x E)
  have hy : ∀ i, t.y (t.flux i) = index * t.x (t.energy i) + log10 N := by
    intro i
    unfold TableSpectrum.y TableSpectrum.x log10
    simp only [he, hl, if_true]
    have hp := div_pos (hv.energy_pos i) hv.ref_pos
    rw [hpl i, Real.logb_mul hN.ne' (Real.rpow_pos_of_pos hp _).ne', Real.logb_rpow_eq_mul_logb_of_pos hp]
    ring
  unfold TableSpectrum.call
  simp only [hl, if_true]
  rw [hk]
  simp only [hy]
  rw [line_unique hne.ne, Real.rpow_add (by norm_num), pow_log10 hN]
  have : t.x E = log10 (E / t.referenceEnergy) := by unfold TableSpectrum.x; simp [he]
  rw [this, mul_comm index, Real.rpow_mul (by norm_num), pow_log10 (div_pos hE hv.ref_pos)]
  ring

/-- **C37** (linear) A table of an affine function of the energy, interpolated linearly in both, gives that function at all energies, also outside. -/
theorem C37_linear {n : ℕ} (t : TableSpectrum n) (hv : ValidTable t) (he : t.logEnergy = false) (hl : t.logFlux = false)
    (m c : ℝ) (hlin : ∀ i, t.flux i = m * t.energy i + c) (E : ℝ) : t.call E = m * E + c := by
  obtain ⟨i, j, hne, hk⟩ := interp1d_line (x_inj hv) (fun i => t.y (t.flux i)) (t.x E)
  have hr := hv.ref_pos.ne'
  have hx : ∀ e, t.x e = e / t.referenceEnergy := by intro e; unfold TableSpectrum.x; simp [he]
  have hy : ∀ i, t.y (t.flux i) = (m * t.referenceEnergy) * t.x (t.energy i) + c := by
    intro i
    unfold TableSpectrum.y
    rw [hx, hlin]
    simp only [hl, Bool.false_eq_true, if_false]
    field_simp
  unfold TableSpectrum.call
  simp only [hl, Bool.false_eq_true, if_false]
  rw [hk]
  simp only [hy]
  rw [line_unique hne.ne, hx]
  field_simp

/-- **C37** (decreasing) If the fluxes of the table decrease with energy, the spectrum decreases at all energies, also outside the table. -/
theorem C37_decreasing {n : ℕ} (t : TableSpectrum n) (hv : ValidTable t) (h : ∀ i j, t.energy i < t.energy j → t.flux j < t.flux i) :
    StrictAntiOn t.call (Set.Ioi 0) := by
  intro a ha b _ hab
  have hx := x_lt (t := t) hv.ref_pos (Set.mem_Ioi.mp ha) hab
  have hs := sort_strictMono (x_inj hv)
  have hy : StrictAnti (fun i => t.y (t.flux (Tuple.sort (fun i => t.x (t.energy i)) i))) := by
    intro i j hij
    have h1 := hs hij
    simp only at h1
    set i' := Tuple.sort (fun i => t.x (t.energy i)) i
    set j' := Tuple.sort (fun i => t.x (t.energy i)) j
    have h2 : t.energy i' < t.energy j' := by
      by_contra hc
      exact absurd h1 (not_lt.mpr (x_le hv.ref_pos (hv.energy_pos _) (not_lt.mp hc)))
    have h3 := h _ _ h2
    show t.y (t.flux j') < t.y (t.flux i')
    unfold TableSpectrum.y
    cases hl : t.logFlux
    · simpa using h3
    · simpa using log10_lt (hv.flux_pos hl _) h3
  have h1 := interp1dLinear_strictAnti hs hy hx
  have h2 : interp1d (fun i => t.x (t.energy i)) (fun i => t.y (t.flux i)) (t.x b) <
      interp1d (fun i => t.x (t.energy i)) (fun i => t.y (t.flux i)) (t.x a) := h1
  unfold TableSpectrum.call
  cases hl : t.logFlux
  · simpa using h2
  · simp only [if_true]
    exact Real.rpow_lt_rpow_of_exponent_lt (by norm_num) h2

/-- **C37** (order of the rows) Reordering the rows of the table changes nothing. -/
theorem C37_row_order {n : ℕ} (t : TableSpectrum n) (hv : ValidTable t) (p : Equiv.Perm (Fin (n + 2))) (E : ℝ) :
    TableSpectrum.call { t with energy := fun i => t.energy (p i), flux := fun i => t.flux (p i) } E = t.call E := by
  have := interp1d_perm (x_inj hv) (fun i => t.y (t.flux i)) p (t.x E)
  unfold TableSpectrum.call
  exact congrArg (fun y => if t.logFlux then (10 : ℝ) ^ y else y) this

/-- **C37** (`from_table`, `from_file`) A missing column "energy" or "flux" raises KeyError, an energy column that is not an energy UnitConversionError,
an error of reading the file is passed on. Otherwise the spectrum has the fluxes of the rows at their energies, whatever energy unit the table uses, in
the unit of the flux column, and the options are those of the call (by default log-log with respect to 1 TeV). -/
theorem C37_from_table {n : ℕ} (table : String → Option (UnitColumn n)) (le lf : Bool) (ref : ℝ) :
    (fromTable table le lf ref = .error .keyError ↔ table "energy" = none ∨ table "flux" = none) ∧
    (∀ e f, table "energy" = some e → table "flux" = some f →
      (e.inTeV = none → fromTable table le lf ref = .error .unitsError) ∧
      ∀ s, e.inTeV = some s → ∃ t, fromTable table le lf ref = .ok t ∧ t.fluxUnit = f.unit ∧ t.logEnergy = le ∧ t.logFlux = lf ∧ t.referenceEnergy = ref ∧
        (0 < ref → 0 < s → Function.Injective e.values → (∀ i, 0 < e.values i) → (lf = true → ∀ i, 0 < f.values i) →
          ValidTable t ∧ ∀ i, t.call (s * e.values i) = f.values i)) ∧
    (∀ (read : String → Except Err (String → Option (UnitColumn n))) (path : String),
      (∀ e, read path = .error e → fromFile read path le lf ref = .error e) ∧
      (read path = .ok table → fromFile read path le lf ref = fromTable table le lf ref)) ∧
    fromTable table = fromTable table true true 1 := by
  refine ⟨?_, ?_, ?_, rfl⟩
  · unfold fromTable mkTable
    rcases table "energy" with _ | ⟨u, tv, v⟩
    · simp
    · rcases table "flux" with _ | f
      · simp
      · rcases tv with _ | s <;> simp
  · intro e f he hf
    constructor
    · intro hn
      unfold fromTable mkTable
      simp only [he, hf, hn]
    · intro s hs
      refine ⟨⟨f.unit, fun i => s * e.values i, f.values, le, lf, ref⟩, ?_, rfl, rfl, rfl, rfl, ?_⟩
      · unfold fromTable mkTable
        simp only [he, hf, hs]
      · intro hr hs hinj hpos hfl
        have hv : ValidTable (⟨f.unit, fun i => s * e.values i, f.values, le, lf, ref⟩ : TableSpectrum n) :=
          ⟨hr, fun i j h => hinj (mul_left_cancel₀ hs.ne' h), fun i => mul_pos hs (hpos i), hfl⟩
        exact ⟨hv, fun i => C37_table_points _ hv i⟩
  · intro read path
    constructor
    · intro e h; unfold fromFile; rw [h]
    · intro h; unfold fromFile; rw [h]

/-- the hypotheses are satisfiable: the power law `E ^ -2` at 10 and 1 TeV, in this order -/
noncomputable def exTable : TableSpectrum 0 := ⟨"1 / (TeV cm2 s)", ![10, 1], ![1 / 100, 1], true, true, 1⟩

theorem exTable_valid : ValidTable exTable := by
  refine ⟨by norm_num [exTable], ?_, ?_, fun _ => ?_⟩
  · intro i j h
    fin_cases i <;> fin_cases j <;> simp_all [exTable]
  · intro i; fin_cases i <;> simp [exTable]
  · intro i; fin_cases i <;> simp [exTable]

example : exTable.call 100 = 1 / 10000 := by
  rw [C37_power_law exTable exTable_valid rfl rfl 1 (-2) one_pos (by
    intro i
    fin_cases i <;> simp [exTable]
    norm_num) 100 (by norm_num)]
  simp only [exTable, div_one, one_mul]
  rw [Real.rpow_neg (by norm_num)]; norm_num

/-- a table in GeV -/
example : ∃ t, fromTable (n := 0) (fun name => if name = "energy" then some ⟨"GeV", some (1 / 1000), ![1000, 10000]⟩
    else if name = "flux" then some ⟨"1 / (TeV cm2 s)", none, ![1, 1 / 100]⟩ else none) = .ok t ∧ t.call (1 / 1000 * 10000) = 1 / 100 := by
  obtain ⟨t, h1, -, -, -, -, h2⟩ := ((C37_from_table (n := 0) (fun name => if name = "energy" then some ⟨"GeV", some (1 / 1000), ![1000, 10000]⟩
    else if name = "flux" then some ⟨"1 / (TeV cm2 s)", none, ![1, 1 / 100]⟩ else none) true true 1).2.1 ⟨"GeV", some (1 / 1000), ![1000, 10000]⟩
      ⟨"1 / (TeV cm2 s)", none, ![1, 1 / 100]⟩ (by simp) (by simp)).2 (1 / 1000) rfl
  refine ⟨t, h1, ?_⟩
  have := (h2 one_pos (by norm_num) (by intro i j h; fin_cases i <;> fin_cases j <;> simp_all) (by intro i; fin_cases i <;> simp)
    (by intro _ i; fin_cases i <;> simp)).2 1
  simpa using this

end Pyirf.Spectral
