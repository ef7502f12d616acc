import Verif.Units.SpectralModel
import Verif.Units.SimProps
import Verif.Units.BgProps
import Verif.Spectral.ConstantProps

/-!
# C154: spectra and event weights do not depend on the units of the arguments

The functions with units equal those of `Verif/Spectral/Model.lean` on the same quantities in TeV, m, s and sr, so all properties of those hold for every unit.
-/
set_option linter.unusedSectionVars false
set_option linter.unusedSimpArgs false

namespace Pyirf.Units
open Pyirf Pyirf.Np Pyirf.Io Pyirf.Utils Pyirf.Simulations Pyirf.Spectral
open Pyirf.Cuts (scale_pinf scale_ninf scale_scale isNan_scale lt_scale le_scale)

/-! ## Specification -/

/-- dimension of a flux: per energy, time, area (and solid angle) -/
def dimFlux : FluxKind → Dim
  | .point => ⟨-4, -1, 1, 0⟩
  | .diffuse => ⟨-4, -1, 1, -2⟩

/-- 1 / (TeV s m2) or 1 / (TeV s m2 sr) -/
noncomputable def fluxUnit (c : Consts ℝ) (kind : FluxKind) : PhysUnit ℝ := ⟨dimFlux kind, 1 / (10 ^ 12 * c.eV)⟩

/-- The fluxes `q`, in whatever unit, are the numbers `f` in 1 / (TeV s m2) or 1 / (TeV s m2 sr). -/
def IsFlux {ι : Type} (c : Consts ℝ) (q : Q (ι → FV ℝ)) (kind : FluxKind) (f : ι → FV ℝ) : Prop :=
  q.unit.dim = dimFlux kind ∧ 0 < q.unit.scale ∧ ∀ i, conv q.unit (fluxUnit c kind) (q.val i) = f i

/-- A power law with units and one in TeV, m2, s, sr are the same. -/
def IsPowerLaw (c : Consts ℝ) (p : PowerLawQ) (pl : PowerLaw) : Prop :=
  p.normalization.unit.dim = dimFlux pl.kind ∧ 0 < p.normalization.unit.scale ∧ conv p.normalization.unit (fluxUnit c pl.kind) p.normalization.val = pl.normalization ∧ p.index = pl.index ∧
  p.eRef.unit.dim = dimEnergy ∧ 0 < p.eRef.unit.scale ∧ p.eRef.num (teV c) = pl.eRef

/-- the same for log parabolas -/
def IsLogParabola (c : Consts ℝ) (p : LogParabolaQ) (pl : LogParabola) : Prop :=
  p.normalization.unit.dim = dimFlux pl.kind ∧ 0 < p.normalization.unit.scale ∧ conv p.normalization.unit (fluxUnit c pl.kind) p.normalization.val = pl.normalization ∧ p.a = pl.a ∧ p.b = pl.b ∧
  p.eRef.unit.dim = dimEnergy ∧ 0 < p.eRef.unit.scale ∧ p.eRef.num (teV c) = pl.eRef

/-- the same for power laws with a bump -/
def IsGaussian (c : Consts ℝ) (p : GaussianPowerLawQ) (pl : GaussianPowerLaw) : Prop :=
  IsPowerLaw c p.toPowerLawQ pl.toPowerLaw ∧ p.f = pl.f ∧ p.mu = pl.mu ∧ p.sigma = pl.sigma

/-- A callable with units is the spectrum `s` in TeV, m2, s, sr. -/
def IsSpectrum {ι : Type} (c : Consts ℝ) (f : Q (ι → ℝ) → Except Err (Q (ι → FV ℝ))) (s : Spectrum) : Prop :=
  ∀ energy : Q (ι → ℝ), energy.unit.dim = dimEnergy → 0 < energy.unit.scale →
    ∃ q, f energy = .ok q ∧ IsFlux c q s.kind fun i => s.flux (energy.unit.scale / (teV c).scale * energy.val i)

/-- The same error, or two related values. -/
inductive SameResult {α β : Type} (r : α → β → Prop) : Except Err α → Except Err β → Prop
  | error (e : Err) : SameResult r (.error e) (.error e)
  | ok (a : α) (b : β) : r a b → SameResult r (.ok a) (.ok b)

/-- Two arrays of energies are the same quantities. -/
def SameE {ι : Type} (x y : Q (ι → ℝ)) : Prop := x.unit.dim = y.unit.dim ∧ 0 < x.unit.scale ∧ 0 < y.unit.scale ∧ ∀ i, x.unit.scale * x.val i = y.unit.scale * y.val i
/-- Two arrays of fluxes are the same quantities. -/
def SameFlux {ι : Type} (x y : Q (ι → FV ℝ)) : Prop := x.unit.dim = y.unit.dim ∧ ∀ i, si x.unit (x.val i) = si y.unit (y.val i)

/-- the table in TeV, with the numbers of the fluxes in their unit -/
noncomputable def tableSI {n : ℕ} (c : Consts ℝ) (name : String) (energy flux : Q (Fin (n + 2) → ℝ)) (logEnergy logFlux : Bool) (referenceEnergy : Q ℝ) : TableSpectrum n :=
  ⟨name, energy.realsIn (teV c), flux.val, logEnergy, logFlux, referenceEnergy.num (teV c)⟩

/-! ## Lemmas -/

theorem checkFlux_bind {α : Type} (c : Consts ℝ) (un : PhysUnit ℝ) (k : Unit → Except Err α) :
    (checkFlux c un >>= k) = if un.dim = dimFlux .diffuse ∨ un.dim = dimFlux .point then k () else .error .unitsError := by
  unfold checkFlux
  show _ = ite (un.dim = (diffuseFluxUnit c).dim ∨ un.dim = (pointFluxUnit c).dim) _ _
  split_ifs <;> rfl

theorem toOne_bind {α ι : Type} (energy : Q (ι → ℝ)) (eRef : Q ℝ) (k : (ι → ℝ) → Except Err α) :
    (toOne energy eRef >>= k) = if energy.unit.dim = eRef.unit.dim then k (fun i => energy.unit.scale / eRef.unit.scale * (energy.val i / eRef.val)) else .error .unitsError := by
  unfold toOne
  rw [checkDim_bind]
  by_cases h : energy.unit.dim = eRef.unit.dim
  · rw [if_pos h, if_pos (show (_ : Dim) = (unitOne : PhysUnit ℝ).dim from (ratio_dim _ _).2 h)]; rfl
  · rw [if_neg h, if_neg (show ¬ ((_ : Dim) = (unitOne : PhysUnit ℝ).dim) from fun e => h ((ratio_dim _ _).1 e))]; rfl

variable {c : Consts ℝ} (hc : Consts.Pos c)
include hc

theorem fluxUnit_pos (k : FluxKind) : 0 < (fluxUnit c k).scale := by have := hc.1; show 0 < 1 / (10 ^ 12 * c.eV); positivity

theorem ratio_TeV (u v : PhysUnit ℝ) (a b : ℝ) : u.scale / v.scale * (a / b) = (u.scale / (teV c).scale * a) / (v.scale / (teV c).scale * b) := by
  have := (teV_pos hc).ne'
  rw [mul_div_mul_comm, div_div_div_cancel_right₀ this]

/-! ## Power laws -/

/-- **C154** (constructor) A normalization that is no flux or a reference energy that is no energy raises a UnitsError, also for a wrong index. Otherwise the power law is made as in TeV, m2, s, sr (the index
must not be positive) and keeps the quantities. -/
theorem C154_constructor (N : Q (FV ℝ)) (index : ℝ) (eRef : Q ℝ) (hN : 0 < N.unit.scale) (he : 0 < eRef.unit.scale) :
    (¬ ((N.unit.dim = dimFlux .diffuse ∨ N.unit.dim = dimFlux .point) ∧ eRef.unit.dim = dimEnergy) → mkPowerLawQ c N index eRef = .error .unitsError) ∧
    (∀ kind, N.unit.dim = dimFlux kind → eRef.unit.dim = dimEnergy →
      SameResult (fun p pl => IsPowerLaw c p pl ∧ p.normalization = N ∧ p.index = index ∧ p.eRef = eRef) (mkPowerLawQ c N index eRef)
        (mkPowerLaw kind (conv N.unit (fluxUnit c kind) N.val) index (eRef.num (teV c)))) := by
  unfold mkPowerLawQ mkPowerLaw
  simp only [checkFlux_bind, checkDim_bind]
  constructor
  · intro h
    split_ifs with h1 h2 h3
    · exact absurd ⟨h1, h2⟩ h
    · exact absurd ⟨h1, h2⟩ h
    · rfl
    · rfl
  · intro kind h1 h2
    rw [if_pos (by cases kind; exact Or.inr h1; exact Or.inl h1), if_pos (show eRef.unit.dim = (teV c).dim from h2)]
    split_ifs
    · exact .error _
    · exact .ok _ _ ⟨⟨h1, hN, rfl, rfl, h2, he, rfl⟩, rfl, rfl, rfl⟩

/-- **C154** (flux of a power law) The flux of a power law has the unit of its normalization and is that of the power law in TeV, m2, s, sr. -/
theorem C154_power_law {ι : Type} (p : PowerLawQ) (pl : PowerLaw) (hp : IsPowerLaw c p pl) :
    IsSpectrum (ι := ι) c (p.callQ c) pl.spectrum ∧ (∀ (energy : Q (ι → ℝ)) q, p.callQ c energy = .ok q → q.unit = p.normalization.unit) ∧
    (∀ energy : Q (ι → ℝ), energy.unit.dim ≠ dimEnergy → p.callQ c energy = .error .unitsError) := by
  obtain ⟨h1, h2, h3, h4, h5, h6, h7⟩ := hp
  have key : ∀ energy : Q (ι → ℝ), p.callQ c energy = if energy.unit.dim = dimEnergy then
      .ok ⟨p.normalization.unit, fun i => p.normalization.val * FV.fin ((energy.unit.scale / p.eRef.unit.scale * (energy.val i / p.eRef.val)) ^ p.index)⟩ else .error .unitsError := by
    intro energy
    unfold PowerLawQ.callQ
    rw [checkDim_bind, toOne_bind, h5]
    show ite (_ = dimEnergy) _ _ = _
    split_ifs <;> rfl
  refine ⟨?_, ?_, fun energy h => by rw [key, if_neg h]⟩
  · intro energy hd hs
    refine ⟨_, (key energy).trans (if_pos hd), h1, h2, fun i => ?_⟩
    show conv p.normalization.unit (fluxUnit c pl.kind) (_ * _) = pl.normalization * _
    rw [← h3, ← h4, ← h7, ratio_TeV hc]
    unfold conv Q.num
    exact (mul_scale_left (div_pos h2 (fluxUnit_pos hc _)) _ _).symm
  · intro energy q h
    rw [key] at h
    split_ifs at h
    injection h with h
    rw [← h]

/-- **C154** (flux of a log parabola) -/
theorem C154_log_parabola {ι : Type} (N : Q (FV ℝ)) (a b : ℝ) (eRef : Q ℝ) (hN : 0 < N.unit.scale) (he : 0 < eRef.unit.scale) :
    (¬ ((N.unit.dim = dimFlux .diffuse ∨ N.unit.dim = dimFlux .point) ∧ eRef.unit.dim = dimEnergy) → mkLogParabolaQ c N a b eRef = .error .unitsError) ∧
    (∀ kind, N.unit.dim = dimFlux kind → eRef.unit.dim = dimEnergy → ∃ p, mkLogParabolaQ c N a b eRef = .ok p ∧
      IsLogParabola c p ⟨kind, conv N.unit (fluxUnit c kind) N.val, a, b, eRef.num (teV c)⟩) ∧
    ∀ (p : LogParabolaQ) (pl : LogParabola), IsLogParabola c p pl →
      IsSpectrum (ι := ι) c (p.callQ c) ⟨pl.kind, pl.call⟩ ∧ (∀ (energy : Q (ι → ℝ)) q, p.callQ c energy = .ok q → q.unit = p.normalization.unit) ∧
      (∀ energy : Q (ι → ℝ), energy.unit.dim ≠ dimEnergy → p.callQ c energy = .error .unitsError) := by
  refine ⟨?_, ?_, ?_⟩
  · intro h
    unfold mkLogParabolaQ
    simp only [checkFlux_bind, checkDim_bind]
    split_ifs with h1 h2
    · exact absurd ⟨h1, h2⟩ h
    · rfl
    · rfl
  · intro kind h1 h2
    unfold mkLogParabolaQ
    simp only [checkFlux_bind, checkDim_bind]
    rw [if_pos (by cases kind; exact Or.inr h1; exact Or.inl h1), if_pos (show eRef.unit.dim = (teV c).dim from h2)]
    exact ⟨_, rfl, h1, hN, rfl, rfl, rfl, h2, he, rfl⟩
  · intro p pl hp
    obtain ⟨h1, h2, h3, h4, h4', h5, h6, h7⟩ := hp
    have key : ∀ energy : Q (ι → ℝ), p.callQ c energy = if energy.unit.dim = dimEnergy then
        .ok ⟨p.normalization.unit, fun i => p.normalization.val * FV.fin ((energy.unit.scale / p.eRef.unit.scale * (energy.val i / p.eRef.val)) ^
          (p.a + p.b * log10 (energy.unit.scale / p.eRef.unit.scale * (energy.val i / p.eRef.val))))⟩ else .error .unitsError := by
      intro energy
      unfold LogParabolaQ.callQ
      rw [checkDim_bind, toOne_bind, h5]
      show ite (_ = dimEnergy) _ _ = _
      split_ifs <;> rfl
    refine ⟨?_, ?_, fun energy h => by rw [key, if_neg h]⟩
    · intro energy hd hs
      refine ⟨_, (key energy).trans (if_pos hd), h1, h2, fun i => ?_⟩
      show conv p.normalization.unit (fluxUnit c pl.kind) (_ * _) = pl.normalization * FV.fin ((_ / pl.eRef) ^ (pl.a + pl.b * log10 (_ / pl.eRef)))
      rw [← h3, ← h4, ← h4', ← h7, ratio_TeV hc]
      unfold conv Q.num
      exact (mul_scale_left (div_pos h2 (fluxUnit_pos hc _)) _ _).symm
    · intro energy q h
      rw [key] at h
      split_ifs at h
      injection h with h
      rw [← h]

/-- **C154** (power law with a bump) -/
theorem C154_gaussian {ι : Type} (N : Q (FV ℝ)) (index : ℝ) (eRef : Q ℝ) (f mu sigma : ℝ) (hN : 0 < N.unit.scale) (he : 0 < eRef.unit.scale) :
    (¬ ((N.unit.dim = dimFlux .diffuse ∨ N.unit.dim = dimFlux .point) ∧ eRef.unit.dim = dimEnergy) → mkGaussianPowerLawQ c N index eRef f mu sigma = .error .unitsError) ∧
    (∀ kind, N.unit.dim = dimFlux kind → eRef.unit.dim = dimEnergy →
      SameResult (IsGaussian c) (mkGaussianPowerLawQ c N index eRef f mu sigma) (mkGaussianPowerLaw kind (conv N.unit (fluxUnit c kind) N.val) index (eRef.num (teV c)) f mu sigma)) ∧
    ∀ (p : GaussianPowerLawQ) (pl : GaussianPowerLaw), IsGaussian c p pl →
      IsSpectrum (ι := ι) c (p.callQ c) ⟨pl.kind, pl.call⟩ ∧ (∀ (energy : Q (ι → ℝ)) q, p.callQ c energy = .ok q → q.unit = p.normalization.unit) ∧
      (∀ energy : Q (ι → ℝ), energy.unit.dim ≠ dimEnergy → p.callQ c energy = .error .unitsError) := by
  obtain ⟨k1, k2⟩ := C154_constructor hc N index eRef hN he
  refine ⟨fun h => ?_, fun kind h1 h2 => ?_, ?_⟩
  · unfold mkGaussianPowerLawQ; rw [k1 h]; rfl
  · have := k2 kind h1 h2
    unfold mkGaussianPowerLawQ mkGaussianPowerLaw
    generalize mkPowerLawQ c N index eRef = x at this ⊢
    generalize mkPowerLaw kind (conv N.unit (fluxUnit c kind) N.val) index (eRef.num (teV c)) = y at this ⊢
    cases this with
    | error e => exact .error e
    | ok a b h => exact .ok _ _ ⟨h.1, rfl, rfl, rfl⟩
  · rintro p pl ⟨hp, hf, hm, hs⟩
    obtain ⟨q1, q2, q3⟩ := C154_power_law (ι := ι) hc p.toPowerLawQ pl.toPowerLaw hp
    have hd' := hp.2.2.2.2.1
    have h7 := hp.2.2.2.2.2.2
    have key : ∀ energy : Q (ι → ℝ), energy.unit.dim = dimEnergy → ∀ q, p.toPowerLawQ.callQ c energy = .ok q → p.callQ c energy =
        .ok ⟨q.unit, fun i => q.val i * (FV.fin 1 + FV.fin p.f * (expF (gaussF (log10 (energy.unit.scale / p.eRef.unit.scale * (energy.val i / p.eRef.val))) p.mu p.sigma) - FV.fin 1))⟩ := by
      intro energy he q hq
      unfold GaussianPowerLawQ.callQ
      rw [hq]
      show (toOne energy p.eRef >>= _) = _
      rw [toOne_bind, if_pos (he.trans hd'.symm)]
    have key3 : ∀ energy : Q (ι → ℝ), energy.unit.dim ≠ dimEnergy → p.callQ c energy = .error .unitsError := by
      intro energy h
      unfold GaussianPowerLawQ.callQ
      rw [q3 energy h]; rfl
    refine ⟨?_, ?_, key3⟩
    · intro energy he hsc
      obtain ⟨q, e1, e2, e3, e4⟩ := q1 energy he hsc
      refine ⟨_, key energy he q e1, e2, e3, fun i => ?_⟩
      show conv q.unit (fluxUnit c pl.kind) (_ * _) = pl.toPowerLaw.call _ * (FV.fin 1 + FV.fin pl.f * (expF (gaussF (log10 (_ / pl.eRef)) pl.mu pl.sigma) - FV.fin 1))
      rw [show pl.toPowerLaw.call _ = _ from (e4 i).symm, ← hf, ← hm, ← hs, ← h7, ratio_TeV hc]
      unfold conv
      exact (mul_scale_left (div_pos e3 (fluxUnit_pos hc _)) _ _).symm
    · intro energy q h
      by_cases he : energy.unit.dim = dimEnergy
      · cases hx : p.toPowerLawQ.callQ c energy with
        | error e =>
          unfold GaussianPowerLawQ.callQ at h
          rw [hx] at h
          cases h
        | ok q' =>
          rw [key energy he q' hx] at h
          injection h with h
          rw [← h]
          exact q2 energy q' hx
      · rw [key3 energy he] at h; cases h

/-- **C154** (same quantities) Two power laws that are the same power law in other units give the same flux for the same energies in other units, also for a NaN normalization. -/
theorem C154_same {ι : Type} (pl : PowerLaw) (p p' : PowerLawQ) (hp : IsPowerLaw c p pl) (hp' : IsPowerLaw c p' pl) (energy energy' : Q (ι → ℝ)) (he : SameE energy energy') (hd : energy.unit.dim = dimEnergy) :
    ∃ q q', p.callQ c energy = .ok q ∧ p'.callQ c energy' = .ok q' ∧ SameFlux q q' := by
  obtain ⟨q, e1, e2, e3, e4⟩ := (C154_power_law (ι := ι) hc p pl hp).1 energy hd he.2.1
  obtain ⟨q', f1, f2, f3, f4⟩ := (C154_power_law (ι := ι) hc p' pl hp').1 energy' (he.1 ▸ hd) he.2.2.1
  refine ⟨q, q', e1, f1, e2.trans f2.symm, fun i => ?_⟩
  rw [← si_conv (b := fluxUnit c pl.spectrum.kind) (fluxUnit_pos hc _), e4, ← si_conv (a := q'.unit) (b := fluxUnit c pl.spectrum.kind) (fluxUnit_pos hc _), f4]
  have := he.2.2.2 i
  simp only
  rw [div_mul_eq_mul_div, div_mul_eq_mul_div, this]

/-! ## From a simulation -/

omit hc in
theorem rpow_num {x : Q ℝ} (hs : 0 < x.unit.scale) (hx : 0 ≤ x.val) {T : PhysUnit ℝ} (hT : 0 < T.scale) (r : ℝ) : x.unit.scale ^ r * x.val ^ r = T.scale ^ r * x.num T ^ r := by
  rw [← Real.mul_rpow hs.le hx, ← Real.mul_rpow hT.le (by unfold Q.num; positivity)]
  congr 1
  unfold Q.num
  field_simp

/-- **C154** (`from_simulation`) The power law of a simulation is that of the same quantities in TeV, m, s, radian, whatever units the simulation, the observation time and the reference energy have; the
normalization comes in 1 / (TeV s m2 sr) if the viewcone is open and in 1 / (TeV s m2) otherwise. An observation time that is no time or a reference energy that is no energy raises a UnitsError. -/
theorem C154_from_simulation (s : InfoQ) (hd : s.DimsOk) (hs : s.Pos) (hmin : 0 ≤ s.energyMin.val) (hmax : 0 ≤ s.energyMax.val) (obstime eRef : Q ℝ) (ht : 0 < obstime.unit.scale) (he : 0 < eRef.unit.scale)
    (hr : 0 ≤ eRef.val) :
    (¬ (obstime.unit.dim = dimTime ∧ eRef.unit.dim = dimEnergy) → fromSimulationQ c s obstime eRef = .error .unitsError) ∧
    (obstime.unit.dim = dimTime → eRef.unit.dim = dimEnergy →
      SameResult (fun p pl => IsPowerLaw c p pl ∧ p.normalization.unit = fluxUnit c pl.kind ∧ (pl.kind = .diffuse ↔ s.viewconeMin.unit.scale * s.viewconeMin.val < s.viewconeMax.unit.scale * s.viewconeMax.val) ∧
          p.eRef = eRef)
        (fromSimulationQ c s obstime eRef) (fromSimulation (s.si c) (obstime.num second) (eRef.num (teV c)))) := by
  obtain ⟨d1, d2, d3, d4, d5⟩ := hd
  obtain ⟨s1, s2, s3, s4, s5⟩ := hs
  constructor
  · intro h
    unfold fromSimulationQ
    simp only [checkDim_bind]
    split_ifs with h1 h2
    all_goals first | rfl | exact absurd ⟨h1, h2⟩ h
  · intro h1 h2
    have hT := teV_pos hc
    -- the test for an open viewcone
    have hcone : (s.viewconeMax.val - s.viewconeMin.num s.viewconeMax.unit > 0) ↔ s.viewconeMin.unit.scale * s.viewconeMin.val < s.viewconeMax.unit.scale * s.viewconeMax.val := by
      unfold Q.num
      rw [gt_iff_lt, sub_pos, div_mul_eq_mul_div, div_lt_iff₀ s5, mul_comm s.viewconeMax.val]
    have hcone' : ((s.si c).viewconeMax - (s.si c).viewconeMin > 0) ↔ s.viewconeMin.unit.scale * s.viewconeMin.val < s.viewconeMax.unit.scale * s.viewconeMax.val := by
      show (s.viewconeMax.unit.scale / 1 * s.viewconeMax.val - s.viewconeMin.unit.scale / 1 * s.viewconeMin.val > 0) ↔ _
      rw [gt_iff_lt, sub_pos, div_one, div_one]
    unfold fromSimulationQ fromSimulation
    simp only [checkDim_bind]
    rw [if_pos (show obstime.unit.dim = second.dim from h1), if_pos (show eRef.unit.dim = (teV c).dim from h2)]
    simp only [hcone, hcone']
    generalize hdf : decide (s.viewconeMin.unit.scale * s.viewconeMin.val < s.viewconeMax.unit.scale * s.viewconeMax.val) = df
    have hdf' : df = true ↔ s.viewconeMin.unit.scale * s.viewconeMin.val < s.viewconeMax.unit.scale * s.viewconeMax.val := by rw [← hdf, decide_eq_true_eq]
    have hdim : Dim.inv (Dim.mul (Dim.mul (Dim.mul s.area.unit.dim obstime.unit.dim) (if df then ⟨0, 0, 0, 2⟩ else Dim.one)) s.energyMax.unit.dim) = (if df then diffuseFluxUnit c else pointFluxUnit c).dim := by
      rw [show s.area.unit.dim = Dim.mul s.maxImpact.unit.dim s.maxImpact.unit.dim from rfl, d3, h1, d2]
      cases df <;> rfl
    rw [if_pos hdim]
    have hunit : (if df then diffuseFluxUnit c else pointFluxUnit c) = fluxUnit c (if df then FluxKind.diffuse else FluxKind.point) := by cases df <;> rfl
    rw [hunit]
    set kind := (if df then FluxKind.diffuse else FluxKind.point) with hkind
    have hk : kind = .diffuse ↔ s.viewconeMin.unit.scale * s.viewconeMin.val < s.viewconeMax.unit.scale * s.viewconeMax.val := by
      rw [hkind, ← hdf']; cases df <;> simp
    set omega : ℝ := if df then coneSolidAngle (s.viewconeMax.num radian) - coneSolidAngle (s.viewconeMin.num radian) else 1 with homega
    -- the numbers
    set i := s.spectralIndex with hi
    have e1 := rpow_num s2 hmax hT (i + 1)
    have e2 := rpow_num s1 hmin hT (i + 1)
    have e3 := rpow_num he hr hT i
    have p1 : 0 < s.energyMax.unit.scale ^ (i + 1) := Real.rpow_pos_of_pos s2 _
    have p2 : 0 < (teV c).scale ^ (i + 1) := Real.rpow_pos_of_pos hT _
    have p3 : 0 < (teV c).scale ^ i := Real.rpow_pos_of_pos hT _
    have p4 : 0 < eRef.unit.scale ^ i := Real.rpow_pos_of_pos he _
    have p5 : (teV c).scale ^ (i + 1) = (teV c).scale ^ i * (teV c).scale := by rw [Real.rpow_add hT, Real.rpow_one]
    have key : conv ⟨Dim.inv (Dim.mul (Dim.mul (Dim.mul s.area.unit.dim obstime.unit.dim) (if df then ⟨0, 0, 0, 2⟩ else Dim.one)) s.energyMax.unit.dim),
          eRef.unit.scale ^ i / (s.area.unit.scale * obstime.unit.scale * s.energyMax.unit.scale ^ (i + 1))⟩ (fluxUnit c kind)
          (FV.fin ((i + 1) * eRef.val ^ i * s.nShowers) / FV.fin (s.area.val * obstime.val * omega *
            (s.energyMax.val ^ (i + 1) - s.energyMin.unit.scale ^ (i + 1) / s.energyMax.unit.scale ^ (i + 1) * s.energyMin.val ^ (i + 1)))) =
        FV.fin ((i + 1) * eRef.num (teV c) ^ i * s.nShowers) / FV.fin (Real.pi * (s.maxImpact.num metre) ^ 2 * obstime.num second * omega * (s.energyMax.num (teV c) ^ (i + 1) - s.energyMin.num (teV c) ^ (i + 1))) := by
      unfold conv
      have ha : s.area.unit.scale = s.maxImpact.unit.scale ^ 2 := rfl
      have hb : s.area.val = Real.pi * s.maxImpact.val ^ 2 := rfl
      have q1 : 0 < s.maxImpact.unit.scale ^ 2 * obstime.unit.scale * s.energyMax.unit.scale ^ (i + 1) := by positivity
      have hu : (fluxUnit c kind).scale = 1 / (teV c).scale := rfl
      simp only [ha, hb, hu]
      have hden : s.maxImpact.unit.scale ^ 2 * obstime.unit.scale * s.energyMax.unit.scale ^ (i + 1) * (Real.pi * s.maxImpact.val ^ 2 * obstime.val * omega *
            (s.energyMax.val ^ (i + 1) - s.energyMin.unit.scale ^ (i + 1) / s.energyMax.unit.scale ^ (i + 1) * s.energyMin.val ^ (i + 1))) =
          (teV c).scale ^ (i + 1) * (Real.pi * (s.maxImpact.num metre) ^ 2 * obstime.num second * omega * (s.energyMax.num (teV c) ^ (i + 1) - s.energyMin.num (teV c) ^ (i + 1))) := by
        have m1 : s.maxImpact.num metre = s.maxImpact.unit.scale * s.maxImpact.val := by unfold Q.num; rw [show metre.scale = 1 from rfl, div_one]
        have m2 : obstime.num second = obstime.unit.scale * obstime.val := by unfold Q.num; rw [show second.scale = 1 from rfl, div_one]
        have m3 : s.energyMax.unit.scale ^ (i + 1) * (s.energyMax.val ^ (i + 1) - s.energyMin.unit.scale ^ (i + 1) / s.energyMax.unit.scale ^ (i + 1) * s.energyMin.val ^ (i + 1)) =
            (teV c).scale ^ (i + 1) * (s.energyMax.num (teV c) ^ (i + 1) - s.energyMin.num (teV c) ^ (i + 1)) := by
          rw [mul_sub, mul_sub, ← e1, ← e2]
          congr 1
          field_simp
        rw [m1, m2]
        calc _ = (s.maxImpact.unit.scale ^ 2 * obstime.unit.scale * (Real.pi * s.maxImpact.val ^ 2 * obstime.val * omega)) * (s.energyMax.unit.scale ^ (i + 1) *
              (s.energyMax.val ^ (i + 1) - s.energyMin.unit.scale ^ (i + 1) / s.energyMax.unit.scale ^ (i + 1) * s.energyMin.val ^ (i + 1))) := by ring
          _ = _ := by rw [m3]; ring
      have hnom : eRef.unit.scale ^ i * ((i + 1) * eRef.val ^ i * s.nShowers) = (teV c).scale ^ i * ((i + 1) * eRef.num (teV c) ^ i * s.nShowers) := by
        calc _ = (i + 1) * (eRef.unit.scale ^ i * eRef.val ^ i) * s.nShowers := by ring
          _ = _ := by rw [e3]; ring
      have f1 : eRef.unit.scale ^ i / (s.maxImpact.unit.scale ^ 2 * obstime.unit.scale * s.energyMax.unit.scale ^ (i + 1)) / (1 / (teV c).scale) =
          (teV c).scale * (eRef.unit.scale ^ i / (s.maxImpact.unit.scale ^ 2 * obstime.unit.scale * s.energyMax.unit.scale ^ (i + 1))) := by
        rw [div_div_eq_mul_div, div_one, mul_comm]
      rw [f1, ← scale_scale hT, ← mul_div_mul p4 q1, FV.fin_mul_fin, FV.fin_mul_fin, hden, hnom, ← FV.fin_mul_fin ((teV c).scale ^ i), ← FV.fin_mul_fin ((teV c).scale ^ (i + 1)), mul_div_mul p3 p2, scale_scale hT]
      have : (teV c).scale * ((teV c).scale ^ i / (teV c).scale ^ (i + 1)) = 1 := by
        rw [p5]; field_simp
      rw [this, one_scale]
    rw [key]
    have hsi : (if df then coneSolidAngle (s.si c).viewconeMax - coneSolidAngle (s.si c).viewconeMin else 1) = omega := rfl
    rw [hsi]
    have := (C154_constructor hc ⟨fluxUnit c kind, FV.fin ((i + 1) * eRef.num (teV c) ^ i * s.nShowers) /
      FV.fin (Real.pi * (s.maxImpact.num metre) ^ 2 * obstime.num second * omega * (s.energyMax.num (teV c) ^ (i + 1) - s.energyMin.num (teV c) ^ (i + 1)))⟩ i eRef (fluxUnit_pos hc _) he).2 kind rfl h2
    simp only [conv_self (fluxUnit_pos hc kind)] at this
    show SameResult _ (mkPowerLawQ c ⟨fluxUnit c kind, _⟩ i eRef) (mkPowerLaw kind (FV.fin ((i + 1) * eRef.num (teV c) ^ i * s.nShowers) /
      FV.fin (Real.pi * (s.maxImpact.num metre) ^ 2 * obstime.num second * omega * (s.energyMax.num (teV c) ^ (i + 1) - s.energyMin.num (teV c) ^ (i + 1)))) i (eRef.num (teV c)))
    generalize hy : mkPowerLaw kind (FV.fin ((i + 1) * eRef.num (teV c) ^ i * s.nShowers) /
      FV.fin (Real.pi * (s.maxImpact.num metre) ^ 2 * obstime.num second * omega * (s.energyMax.num (teV c) ^ (i + 1) - s.energyMin.num (teV c) ^ (i + 1)))) i (eRef.num (teV c)) = y at this ⊢
    generalize mkPowerLawQ c ⟨fluxUnit c kind, _⟩ i eRef = x at this ⊢
    cases this with
    | error e => exact .error e
    | ok a b h =>
      have hb : b.kind = kind := by
        unfold mkPowerLaw at hy
        split_ifs at hy
        injection hy with hy
        rw [← hy]
      refine .ok _ _ ⟨h.1, ?_, ?_, h.2.2.2⟩
      · rw [h.2.1, hb]
      · rw [hb]; exact hk

/-! ## Integration over a cone -/

/-- **C154** (`integrate_cone`) Angles of another dimension raise a UnitsError (before the ValueError for a flux that is not diffuse); otherwise the result is that of the angles in radian. -/
theorem C154_integrate_cone (p : PowerLawQ) (pl : PowerLaw) (hp : IsPowerLaw c p pl) (inner outer : Q ℝ) :
    (¬ (inner.unit.dim = dimAngle ∧ outer.unit.dim = dimAngle) → p.integrateConeQ c inner outer = .error .unitsError) ∧
    (inner.unit.dim = dimAngle → outer.unit.dim = dimAngle →
      SameResult (IsPowerLaw c) (p.integrateConeQ c inner outer) (pl.integrateCone (inner.unit.scale * inner.val) (outer.unit.scale * outer.val))) := by
  constructor
  · intro h
    unfold PowerLawQ.integrateConeQ
    simp only [checkDim_bind]
    by_cases h1 : inner.unit.dim = radian.dim
    · rw [if_pos h1, if_neg (show ¬ (outer.unit.dim = radian.dim) from fun h2 => h ⟨h1, h2⟩)]
    · rw [if_neg h1]
  · intro h1 h2
    obtain ⟨a1, a2, a3, a4, a5, a6, a7⟩ := hp
    unfold PowerLawQ.integrateConeQ PowerLaw.integrateCone
    simp only [checkDim_bind]
    rw [if_pos (show inner.unit.dim = radian.dim from h1), if_pos (show outer.unit.dim = radian.dim from h2)]
    have hn : ∀ x : Q ℝ, x.num radian = x.unit.scale * x.val := fun x => by unfold Q.num; rw [show radian.scale = 1 from rfl, div_one]
    rw [hn, hn, a1]
    cases hkind : pl.kind with
    | point =>
      rw [if_pos (by show dimFlux .point ≠ dimFlux .diffuse; decide), if_pos (by decide)]
      exact .error _
    | diffuse =>
      rw [if_neg (by show ¬ (dimFlux .diffuse ≠ dimFlux .diffuse); simp), if_neg (by simp)]
      rw [hkind] at a3
      have := (C154_constructor hc ⟨⟨Dim.mul (dimFlux .diffuse) ⟨0, 0, 0, 2⟩, p.normalization.unit.scale⟩,
        p.normalization.val * FV.fin (coneSolidAngle (outer.unit.scale * outer.val) - coneSolidAngle (inner.unit.scale * inner.val))⟩ p.index p.eRef a2 a6).2 .point rfl a5
      rw [a4, a7] at this
      have e : conv ⟨Dim.mul (dimFlux .diffuse) ⟨0, 0, 0, 2⟩, p.normalization.unit.scale⟩ (fluxUnit c .point)
          (p.normalization.val * FV.fin (coneSolidAngle (outer.unit.scale * outer.val) - coneSolidAngle (inner.unit.scale * inner.val))) =
          pl.normalization * FV.fin (coneSolidAngle (outer.unit.scale * outer.val) - coneSolidAngle (inner.unit.scale * inner.val)) := by
        rw [← a3]
        unfold conv
        exact (mul_scale_left (div_pos a2 (fluxUnit_pos hc _)) _ _).symm
      rw [e] at this
      rw [a4]
      generalize mkPowerLawQ c _ pl.index p.eRef = x at this ⊢
      generalize mkPowerLaw _ _ pl.index pl.eRef = y at this ⊢
      cases this with
      | error e => exact .error e
      | ok a b h => exact .ok _ _ h.1

/-! ## Weights -/

/-- **C154** (weights) For spectra that are those of TeV, m2, s, sr, the weights are those of the energies in TeV: numbers without unit, or a UnitsError if one flux is diffuse and the other not, also without
events. Energies that are no energies raise a UnitsError; errors of the spectra are passed on. -/
theorem C154_weights {ι : Type} (target simulated : Q (ι → ℝ) → Except Err (Q (ι → FV ℝ))) (energy : Q (ι → ℝ)) :
    (energy.unit.dim ≠ dimEnergy → calculateEventWeightsQ c energy target simulated = .error .unitsError) ∧
    (energy.unit.dim = dimEnergy → 0 < energy.unit.scale → ∀ t s : Spectrum, IsSpectrum c target t → IsSpectrum c simulated s →
      (t.kind = s.kind → ∃ w, calculateEventWeightsQ c energy target simulated = .ok w ∧ ∀ i, calculateEventWeight (energy.unit.scale / (teV c).scale * energy.val i) t s = .ok (w i)) ∧
      (t.kind ≠ s.kind → calculateEventWeightsQ c energy target simulated = .error .unitsError)) ∧
    (energy.unit.dim = dimEnergy → ∀ e, target energy = .error e ∨ (∃ q, target energy = .ok q) ∧ simulated energy = .error e → calculateEventWeightsQ c energy target simulated = .error e) := by
  refine ⟨fun h => ?_, fun h hs t s ht hs' => ?_, fun h e he => ?_⟩
  · unfold calculateEventWeightsQ
    rw [checkDim_bind]; exact if_neg h
  · obtain ⟨q, e1, e2, e3, e4⟩ := ht energy h hs
    obtain ⟨r, f1, f2, f3, f4⟩ := hs' energy h hs
    have key : calculateEventWeightsQ c energy target simulated = if q.unit.dim = r.unit.dim then
        .ok fun i => conv ⟨Dim.mul q.unit.dim (Dim.inv r.unit.dim), q.unit.scale / r.unit.scale⟩ unitOne (q.val i / r.val i) else .error .unitsError := by
      unfold calculateEventWeightsQ
      rw [checkDim_bind, if_pos (show energy.unit.dim = (teV c).dim from h), e1, f1]
      show (checkDim _ _ >>= _) = _
      rw [checkDim_bind]
      by_cases hx : q.unit.dim = r.unit.dim
      · rw [if_pos hx, if_pos (show (_ : Dim) = (unitOne : PhysUnit ℝ).dim from (ratio_dim _ _).2 hx)]
      · rw [if_neg hx, if_neg (show ¬ ((_ : Dim) = (unitOne : PhysUnit ℝ).dim) from fun e => hx ((ratio_dim _ _).1 e))]
    have hinj : ∀ a b : FluxKind, dimFlux a = dimFlux b ↔ a = b := by
      intro a b; cases a <;> cases b <;> decide
    rw [key, e2, f2]
    constructor
    · intro hk
      refine ⟨_, if_pos ((hinj _ _).2 hk), fun i => ?_⟩
      unfold calculateEventWeight
      rw [if_pos hk]
      congr 1
      rw [show t.flux _ = _ from (e4 i).symm, show s.flux _ = _ from (f4 i).symm, hk]
      unfold conv
      rw [mul_div_mul (div_pos e3 (fluxUnit_pos hc _)) (div_pos f3 (fluxUnit_pos hc _))]
      congr 2
      rw [div_div_div_cancel_right₀ (fluxUnit_pos hc _).ne']
      show _ = q.unit.scale / r.unit.scale / 1
      rw [div_one]
    · intro hk
      exact if_neg (fun e => hk ((hinj _ _).1 e))
  · unfold calculateEventWeightsQ
    rw [checkDim_bind, if_pos (show energy.unit.dim = (teV c).dim from h)]
    rcases he with he | ⟨⟨q, hq⟩, he⟩
    · rw [he]; rfl
    · rw [hq, he]; rfl

/-! ## Tables -/

omit hc in
theorem interp1d_mul {n : ℕ} (x y : Fin (n + 2) → ℝ) (k v : ℝ) : interp1d x (fun i => k * y i) v = k * interp1d x y v := by
  unfold interp1d interp1dLinear
  simp only
  ring

omit hc in
theorem interp1d_add {n : ℕ} (x y : Fin (n + 2) → ℝ) (d v : ℝ) : interp1d x (fun i => d + y i) v = d + interp1d x y v := by
  unfold interp1d interp1dLinear
  simp only
  ring

/-- **C154** (tables) A reference energy of another dimension than the energies raises a UnitsError, and so does a call with energies of another dimension; otherwise the spectrum returns the unit of the flux
column and the numbers of the table with energies in TeV. -/
theorem C154_table {n : ℕ} {ι : Type} (name : String) (energy flux : Q (Fin (n + 2) → ℝ)) (logEnergy logFlux : Bool) (ref : Q ℝ) :
    (energy.unit.dim ≠ ref.unit.dim → mkTableQ energy flux logEnergy logFlux ref = .error .unitsError) ∧
    (energy.unit.dim = ref.unit.dim → ∃ t, mkTableQ energy flux logEnergy logFlux ref = .ok t ∧
      (∀ x : Q (ι → ℝ), x.unit.dim ≠ energy.unit.dim → t.callQ x = .error .unitsError) ∧
      ∀ x : Q (ι → ℝ), x.unit.dim = energy.unit.dim → ∃ q, t.callQ x = .ok q ∧ q.unit = flux.unit ∧
        ∀ i, q.val i = .fin ((tableSI c name energy flux logEnergy logFlux ref).call (x.unit.scale / (teV c).scale * x.val i))) := by
  unfold mkTableQ
  rw [toOne_bind]
  refine ⟨fun h => if_neg h, fun h => ⟨_, if_pos h, fun x hx => ?_, fun x hx => ?_⟩⟩
  · unfold TableSpectrumQ.callQ
    rw [toOne_bind]; exact if_neg (fun e => hx (e.trans h.symm))
  · unfold TableSpectrumQ.callQ
    rw [toOne_bind]
    refine ⟨_, if_pos (hx.trans h), rfl, fun i => ?_⟩
    unfold tableSI TableSpectrum.call TableSpectrum.x TableSpectrum.y Q.realsIn Q.num
    simp only [ratio_TeV hc]

omit hc in
theorem log10_mul' {a b : ℝ} (ha : 0 < a) (hb : 0 < b) : log10 (a * b) = log10 a + log10 b := Real.logb_mul ha.ne' hb.ne'

/-- **C154** (tables, same quantities) The same table in other units gives the same fluxes at the same energies, if the fluxes are positive where their logarithm is interpolated. -/
theorem C154_table_same {n : ℕ} {ι : Type} (energy energy' flux flux' : Q (Fin (n + 2) → ℝ)) (logEnergy logFlux : Bool) (ref ref' : Q ℝ) (x x' : Q (ι → ℝ)) (he : SameR energy energy') (hf : SameR flux flux')
    (hr : Same1 ref ref') (hx : SameE x x') (hpos : logFlux = true → ∀ i, 0 < flux.val i) :
    SameResult (fun t t' => SameResult SameFlux (t.callQ x) (t'.callQ x')) (mkTableQ energy flux logEnergy logFlux ref) (mkTableQ energy' flux' logEnergy logFlux ref') := by
  obtain ⟨a1, a2⟩ := C154_table (ι := ι) hc "" energy flux logEnergy logFlux ref
  obtain ⟨b1, b2⟩ := C154_table (ι := ι) hc "" energy' flux' logEnergy logFlux ref'
  by_cases h : energy.unit.dim = ref.unit.dim
  · have h' : energy'.unit.dim = ref'.unit.dim := by rw [← he.1, ← hr.1, h]
    obtain ⟨t, e1, e2, e3⟩ := a2 h
    obtain ⟨t', f1, f2, f3⟩ := b2 h'
    rw [e1, f1]
    refine .ok _ _ ?_
    by_cases hd : x.unit.dim = energy.unit.dim
    · obtain ⟨q, g1, g2, g3⟩ := e3 x hd
      obtain ⟨q', k1, k2, k3⟩ := f3 x' (by rw [← hx.1, ← he.1, hd])
      rw [g1, k1]
      refine .ok _ _ ⟨by rw [g2, k2, hf.1], fun i => ?_⟩
      rw [g3, k3, g2, k2]
      have hpt : x'.unit.scale / (teV c).scale * x'.val i = x.unit.scale / (teV c).scale * x.val i := by
        rw [div_mul_eq_mul_div, div_mul_eq_mul_div, hx.2.2.2 i]
      rw [hpt]
      generalize x.unit.scale / (teV c).scale * x.val i = v
      unfold si
      rw [FV.fin_mul_fin, FV.fin_mul_fin]
      congr 1
      have r1 := hr.num (teV c)
      have r2 := he.realsIn hc (target := teV c) (teV_pos hc)
      have hk : ∀ i, flux'.val i = flux.unit.scale / flux'.unit.scale * flux.val i := fun i => by
        have := hf.2.2.2 i
        have := hf.2.2.1.ne'
        field_simp
        linarith
      have hkp : 0 < flux.unit.scale / flux'.unit.scale := div_pos hf.2.1 hf.2.2.1
      have hs' := hf.2.2.1.ne'
      unfold tableSI TableSpectrum.call TableSpectrum.x TableSpectrum.y
      simp only [r1, r2, hk]
      cases hl : logFlux with
      | false =>
        simp only [Bool.false_eq_true, if_false]
        rw [interp1d_mul]
        field_simp
      | true =>
        simp only [if_true]
        have e : ∀ i, log10 (flux.unit.scale / flux'.unit.scale * flux.val i) = log10 (flux.unit.scale / flux'.unit.scale) + log10 (flux.val i) :=
          fun i => log10_mul' hkp (hpos hl i)
        simp only [e]
        rw [interp1d_add, Real.rpow_add (by norm_num), pow_log10 hkp]
        field_simp
    · rw [e2 x hd, f2 x' (by rw [← hx.1, ← he.1]; exact hd)]
      exact .error _
  · rw [a1 h, b1 (by rw [← he.1, ← hr.1]; exact h)]
    exact .error _

/-! ## The spectra defined in the module -/

omit hc in
theorem SameResult.imp {α β : Type} {r r' : α → β → Prop} {x : Except Err α} {y : Except Err β} (h : SameResult r x y) (hi : ∀ a b, r a b → r' a b) : SameResult r' x y := by
  cases h with
  | error e => exact .error e
  | ok a b h => exact .ok _ _ (hi _ _ h)

/-- 1 / (TeV cm2 s) is 1e4 / (TeV m2 s) -/
theorem conv_TeVcm (b : Bool) (kind : FluxKind) (x : ℝ) : conv (perArea (teV c) cmUnit b) (fluxUnit c kind) (.fin x) = .fin (x * perTeVcm2) := by
  have := hc.1.ne'
  unfold conv perTeVcm2
  rw [FV.fin_mul_fin]
  congr 1
  show 1 / (10 ^ 12 * c.eV * (1 / 100) ^ 2 * 1) / (1 / (10 ^ 12 * c.eV)) * x = _
  field_simp
  norm_num
  ring

/-- 1 / (GeV m2 s) is 1e3 / (TeV m2 s) -/
theorem conv_GeVm (b : Bool) (kind : FluxKind) (x : ℝ) : conv (perArea (geV c) metre b) (fluxUnit c kind) (.fin x) = .fin (x * perGeVm2) := by
  have := hc.1.ne'
  unfold conv perGeVm2
  rw [FV.fin_mul_fin]
  congr 1
  show 1 / (10 ^ 9 * c.eV * 1 ^ 2 * 1) / (1 / (10 ^ 12 * c.eV)) * x = _
  field_simp
  norm_num
  ring

theorem num_TeV : (⟨teV c, 1⟩ : Q ℝ).num (teV c) = 1 := by
  unfold Q.num
  rw [div_self (teV_pos hc).ne', one_mul]

theorem num_GeV : (⟨geV c, 1⟩ : Q ℝ).num (teV c) = 1 * gev := by
  have := hc.1.ne'
  unfold Q.num gev
  show 10 ^ 9 * c.eV / (10 ^ 12 * c.eV) * 1 = _
  field_simp
  norm_num

theorem perArea_pos (e l : PhysUnit ℝ) (he : 0 < e.scale) (hl : 0 < l.scale) (b : Bool) : 0 < (perArea e l b).scale := by
  show 0 < 1 / (e.scale * l.scale ^ 2 * 1)
  positivity

/-- **C154** (predefined spectra) The spectra of the module, with the units in which they are written in the source, are those of `Verif/Spectral/Constants.lean`, so C123 holds for them. -/
theorem C154_constants :
    (∃ p pl, crabHegraQ c = .ok p ∧ crabHegra = .ok pl ∧ IsPowerLaw c p pl ∧ pl.kind = .point) ∧
    (∃ p, crabMagicQ c = .ok p ∧ IsLogParabola c p crabMagic ∧ crabMagic.kind = .point) ∧
    (∃ p pl, pdgAllParticleQ c = .ok p ∧ pdgAllParticle = .ok pl ∧ IsPowerLaw c p pl ∧ pl.kind = .diffuse) ∧
    (∃ p pl, irfdocProtonQ c = .ok p ∧ irfdocProton = .ok pl ∧ IsPowerLaw c p pl ∧ pl.kind = .diffuse) ∧
    (∃ p pl, irfdocElectronQ c = .ok p ∧ irfdocElectron = .ok pl ∧ IsGaussian c p pl ∧ pl.kind = .diffuse) ∧
    (∃ p t, dampeQ c = .ok p ∧ dampe = .ok t ∧ ∀ (ι : Type) (energy : Q (ι → ℝ)), energy.unit.dim = dimEnergy → 0 < energy.unit.scale →
      ∃ q, p.callQ energy = .ok q ∧ IsFlux c q .diffuse fun i => .fin (t.call (energy.unit.scale / (teV c).scale * energy.val i) * 1000)) := by
  have hT := teV_pos hc
  have hG : 0 < (geV c).scale := by have := hc.1; show 0 < 10 ^ 9 * c.eV; positivity
  have hcm : 0 < cmUnit.scale := by show (0 : ℝ) < 1 / 100; norm_num
  have hm : 0 < metre.scale := one_pos
  have get : ∀ {α β : Type} {r : α → β → Prop} {x : Except Err α} {y : Except Err β} {b : β}, SameResult r x y → y = .ok b → ∃ a, x = .ok a ∧ r a b := by
    intro α β r x y b h hy
    cases h with
    | error e => cases hy
    | ok a b' h => injection hy with hy; subst hy; exact ⟨a, rfl, h⟩
  refine ⟨?_, ?_, ?_, ?_, ?_, ?_⟩
  · have := (C154_constructor hc ⟨perArea (teV c) cmUnit false, .fin 2.83e-11⟩ (-2.62) ⟨teV c, 1⟩ (perArea_pos hc _ _ hT hcm _) hT).2 .point rfl rfl
    simp only [conv_TeVcm hc, num_TeV hc] at this
    obtain ⟨pl, h, hk, -⟩ := C123_power_laws.1
    obtain ⟨p, h1, h2⟩ := get this h
    exact ⟨p, pl, h1, h, h2.1, hk⟩
  · obtain ⟨p, h1, h2⟩ := (C154_log_parabola (ι := Unit) hc ⟨perArea (teV c) cmUnit false, .fin 3.23e-11⟩ (-2.47) (-0.24) ⟨teV c, 1⟩ (perArea_pos hc _ _ hT hcm _) hT).2.1 .point rfl rfl
    simp only [conv_TeVcm hc, num_TeV hc] at h2
    exact ⟨p, h1, h2, rfl⟩
  · have := (C154_constructor hc ⟨perArea (geV c) metre true, .fin 1.8e4⟩ (-2.7) ⟨geV c, 1⟩ (perArea_pos hc _ _ hG hm _) hG).2 .diffuse rfl rfl
    simp only [conv_GeVm hc, num_GeV hc] at this
    obtain ⟨pl, h, hk, -⟩ := C123_power_laws.2.1
    obtain ⟨p, h1, h2⟩ := get this h
    exact ⟨p, pl, h1, h, h2.1, hk⟩
  · have := (C154_constructor hc ⟨perArea (teV c) cmUnit true, .fin 9.8e-6⟩ (-2.62) ⟨teV c, 1⟩ (perArea_pos hc _ _ hT hcm _) hT).2 .diffuse rfl rfl
    simp only [conv_TeVcm hc, num_TeV hc] at this
    obtain ⟨pl, h, hk, -⟩ := C123_power_laws.2.2
    obtain ⟨p, h1, h2⟩ := get this h
    exact ⟨p, pl, h1, h, h2.1, hk⟩
  · have := (C154_gaussian (ι := Unit) hc ⟨perArea (teV c) cmUnit true, .fin 2.385e-9⟩ (-3.43) ⟨teV c, 1⟩ 1.950 (-0.101) 0.741 (perArea_pos hc _ _ hT hcm _) hT).2.1 .diffuse rfl rfl
    simp only [conv_TeVcm hc, num_TeV hc] at this
    obtain ⟨pl, h, hk, -⟩ := C123_electron
    obtain ⟨p, h1, h2⟩ := get this h
    exact ⟨p, pl, h1, h, h2, hk⟩
  · have hd : ∀ ι : Type, _ := fun ι => (C154_table (n := 14) (ι := ι) hc "1 / (GeV m2 s sr)" ⟨geV c, dampeEnergy⟩ ⟨perArea (geV c) metre true, dampeFlux⟩ true true ⟨teV c, 1⟩).2 rfl
    have htab : dampe = .ok (tableSI c "1 / (GeV m2 s sr)" ⟨geV c, dampeEnergy⟩ ⟨perArea (geV c) metre true, dampeFlux⟩ true true ⟨teV c, 1⟩) := by
      show Except.ok (⟨"1 / (GeV m2 s sr)", fun i => gev * dampeEnergy i, dampeFlux, true, true, 1⟩ : TableSpectrum 14) = _
      unfold tableSI
      rw [num_TeV hc]
      congr 2
      funext i
      have := num_GeV hc
      unfold Q.num at this
      show gev * dampeEnergy i = (geV c).scale / (teV c).scale * dampeEnergy i
      rw [mul_one, one_mul] at this
      rw [this]
    obtain ⟨p, h1, -⟩ := hd Unit
    refine ⟨p, _, h1, htab, fun ι energy he hs => ?_⟩
    obtain ⟨p', h1', -, h2⟩ := hd ι
    obtain rfl := Except.ok.inj (h1.symm.trans h1')
    obtain ⟨q, q1, q2, q3⟩ := h2 energy he
    refine ⟨q, q1, ?_, ?_, fun i => ?_⟩
    · rw [q2]; rfl
    · rw [q2]; exact perArea_pos hc _ _ hG hm _
    · rw [q3, q2, conv_GeVm hc]
      unfold perGeVm2
      norm_num

/-! ## The hypotheses can be met -/

omit hc in
/-- units of 1 J and 1 degree = 1 / 60 rad, for examples -/
noncomputable def specConsts : Consts ℝ := ⟨1 / 10 ^ 12, 1 / 60⟩

omit hc in
theorem specConsts_pos : Consts.Pos specConsts := ⟨by show (0 : ℝ) < 1 / 10 ^ 12; norm_num, by show (0 : ℝ) < 1 / 60; norm_num⟩

omit hc in
/-- a power law per GeV and cm2, with a reference energy of 100 GeV (here 1 TeV = 1 J) -/
noncomputable def exLaw : PowerLawQ := ⟨⟨⟨⟨-4, -1, 1, 0⟩, 1 / (1 / 1000 * (1 / 10000))⟩, .fin 3⟩, -2, ⟨⟨⟨2, 1, -2, 0⟩, 1 / 1000⟩, 100⟩⟩

omit hc in
example : ∃ pl, mkPowerLawQ specConsts exLaw.normalization exLaw.index exLaw.eRef = .ok exLaw ∧ IsPowerLaw specConsts exLaw pl ∧ pl.normalization = .fin (3 * 10 ^ 7) ∧ pl.eRef = 1 / 10 := by
  refine ⟨⟨.point, .fin (3 * 10 ^ 7), -2, 1 / 10⟩, ?_, ⟨rfl, ?_, ?_, rfl, rfl, ?_, ?_⟩, rfl, rfl⟩
  · unfold mkPowerLawQ
    rw [checkFlux_bind, if_pos (Or.inr (show exLaw.normalization.unit.dim = dimFlux .point from rfl)), checkDim_bind, if_pos (show exLaw.eRef.unit.dim = (teV specConsts).dim from rfl), if_neg (by show ¬ ((-2 : ℝ) > 0); norm_num)]
  · show (0 : ℝ) < 1 / (1 / 1000 * (1 / 10000)); norm_num
  · unfold conv
    show FV.fin ((1 : ℝ) / (1 / 1000 * (1 / 10000)) / (1 / (10 ^ 12 * (1 / 10 ^ 12)))) * FV.fin 3 = FV.fin ((3 : ℝ) * 10 ^ 7)
    rw [FV.fin_mul_fin]; congr 1; norm_num
  · show (0 : ℝ) < 1 / 1000; norm_num
  · show (1 : ℝ) / 1000 / (10 ^ 12 * (1 / 10 ^ 12)) * 100 = (1 / 10 : ℝ); norm_num

omit hc in
/-- a simulation with several units -/
noncomputable def exSim : InfoQ :=
  ⟨1000, ⟨⟨⟨2, 1, -2, 0⟩, 1 / 1000⟩, 10⟩, ⟨⟨⟨2, 1, -2, 0⟩, 1⟩, 100⟩, ⟨⟨⟨1, 0, 0, 0⟩, 1000⟩, 1⟩, -2, ⟨⟨⟨0, 0, 0, 1⟩, 1⟩, 0⟩, ⟨⟨⟨0, 0, 0, 1⟩, 1 / 60⟩, 10⟩⟩

omit hc in
/-- a diffuse simulation, 50 h with 1 h = 3600 s -/
example : ∃ p, fromSimulationQ specConsts exSim ⟨⟨⟨0, 0, 1, 0⟩, 3600⟩, 50⟩ ⟨teV specConsts, 1⟩ = .ok p ∧ p.normalization.unit = fluxUnit specConsts .diffuse := by
  have h := (C154_from_simulation specConsts_pos exSim ⟨rfl, rfl, rfl, rfl, rfl⟩ ⟨by norm_num [exSim], by norm_num [exSim], by norm_num [exSim], by norm_num [exSim], by norm_num [exSim]⟩ (by norm_num [exSim])
    (by norm_num [exSim]) ⟨⟨⟨0, 0, 1, 0⟩, 3600⟩, 50⟩ ⟨teV specConsts, 1⟩ (by norm_num) (teV_pos specConsts_pos) (by norm_num)).2 rfl rfl
  cases hx : fromSimulation (exSim.si specConsts) ((⟨⟨⟨0, 0, 1, 0⟩, 3600⟩, 50⟩ : Q ℝ).num second) ((⟨teV specConsts, 1⟩ : Q ℝ).num (teV specConsts)) with
  | error e =>
    exfalso
    unfold fromSimulation mkPowerLaw at hx
    simp only at hx
    rw [if_neg (by show ¬ ((-2 : ℝ) > 0); norm_num)] at hx
    cases hx
  | ok pl =>
    rw [hx] at h
    cases hy : fromSimulationQ specConsts exSim ⟨⟨⟨0, 0, 1, 0⟩, 3600⟩, 50⟩ ⟨teV specConsts, 1⟩ with
    | error e => rw [hy] at h; cases h
    | ok p =>
      rw [hy] at h
      cases h with
      | ok _ _ h =>
        refine ⟨p, rfl, ?_⟩
        rw [h.2.1, h.2.2.1.2 (by norm_num [exSim])]

end Pyirf.Units
