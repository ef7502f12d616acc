import Verif.Units.IrfProps

/-!
# C152: numbers of simulated showers and effective areas do not depend on the units of the arguments

The functions with units equal those of `Verif/Simulations/Model.lean` and `Verif/Irf/Model.lean` on the same quantities in TeV, m and radian; effective areas come in the square of the unit of `max_impact`.
-/
set_option linter.unusedSectionVars false
set_option linter.unusedSimpArgs false

namespace Pyirf.Units
open Pyirf Pyirf.Np Pyirf.Io Pyirf.Utils Pyirf.Simulations Pyirf.Irf Pyirf.Binning
open Pyirf.Cuts (scale_pinf scale_ninf scale_scale isNan_scale lt_scale le_scale)

/-! ## Specification -/

/-- The object in TeV, m and radian, as the other models use it. -/
noncomputable def InfoQ.si (c : Consts ℝ) (s : InfoQ) : Info :=
  ⟨s.nShowers, s.energyMin.num (teV c), s.energyMax.num (teV c), s.maxImpact.num metre, s.spectralIndex, s.viewconeMin.num radian, s.viewconeMax.num radian⟩

/-- The fields have the dimensions the constructor asks for. -/
def InfoQ.DimsOk (s : InfoQ) : Prop :=
  s.energyMin.unit.dim = dimEnergy ∧ s.energyMax.unit.dim = dimEnergy ∧ s.maxImpact.unit.dim = dimLength ∧ s.viewconeMin.unit.dim = dimAngle ∧ s.viewconeMax.unit.dim = dimAngle

/-- The units of the fields have positive sizes. -/
def InfoQ.Pos (s : InfoQ) : Prop :=
  0 < s.energyMin.unit.scale ∧ 0 < s.energyMax.unit.scale ∧ 0 < s.maxImpact.unit.scale ∧ 0 < s.viewconeMin.unit.scale ∧ 0 < s.viewconeMax.unit.scale

/-- Two simulation infos with the same quantities, given in other units. -/
def SameInfo (s s' : InfoQ) : Prop :=
  s.nShowers = s'.nShowers ∧ s.spectralIndex = s'.spectralIndex ∧ Same1 s.energyMin s'.energyMin ∧ Same1 s.energyMax s'.energyMax ∧ Same1 s.maxImpact s'.maxImpact ∧
  Same1 s.viewconeMin s'.viewconeMin ∧ Same1 s.viewconeMax s'.viewconeMax

/-- Two tables with the same simulated events, whose columns have other units. -/
def SameTrue (t u : TrueTable) : Prop :=
  SameU t.energy u.energy ∧ SameU t.offset u.offset ∧ SameU t.positionAngle u.positionAngle ∧ SameU t.lon u.lon ∧ SameU t.lat u.lat ∧
  List.Forall₂ (fun r r' : TrueEvent => Units.si t.energy r.energy = Units.si u.energy r'.energy ∧ Units.si t.offset r.offset = Units.si u.offset r'.offset ∧
    Units.si t.positionAngle r.positionAngle = Units.si u.positionAngle r'.positionAngle ∧ Units.si t.lon r.lon = Units.si u.lon r'.lon ∧ Units.si t.lat r.lat = Units.si u.lat r'.lat) t.rows u.rows

/-- The events in TeV and radian. -/
noncomputable def TrueTable.si (c : Consts ℝ) (t : TrueTable) : List TrueEvent :=
  t.rows.map fun r => ⟨conv t.energy (teV c) r.energy, conv t.offset radian r.offset, conv t.positionAngle radian r.positionAngle, conv t.lon radian r.lon, conv t.lat radian r.lat⟩

/-- An array of areas in m^2, converted to the square of the unit of `max_impact`. -/
noncomputable def inAreaUnit {ι : Type} (s : InfoQ) (a : ι → FV ℝ) : Q (ι → FV ℝ) := ⟨⟨Dim.mul s.maxImpact.unit.dim s.maxImpact.unit.dim, s.maxImpact.unit.scale ^ 2⟩, fun i => .fin (1 / s.maxImpact.unit.scale ^ 2) * a i⟩

/-! ## Lemmas -/

theorem mul_scale_right {k : ℝ} (hk : 0 < k) (x y : FV ℝ) : x * (FV.fin k * y) = FV.fin k * (x * y) := by
  have e1 : ∀ a : ℝ, (FV.pinf * FV.fin a : FV ℝ) = FV.infSign a := fun _ => rfl
  have e2 : ∀ a : ℝ, (FV.ninf * FV.fin a : FV ℝ) = FV.infSign (-a) := fun _ => rfl
  have e3 : ∀ a : ℝ, (FV.fin a * FV.pinf : FV ℝ) = FV.infSign a := fun _ => rfl
  have e4 : ∀ a : ℝ, (FV.fin a * FV.ninf : FV ℝ) = FV.infSign (-a) := fun _ => rfl
  cases x <;> cases y
  case nan.nan => rfl
  case fin.fin a b => simp only [FV.fin_mul_fin]; congr 1; ring
  case fin.pinf a => rw [scale_pinf hk, e3, scale_infSign hk]
  case fin.ninf a => rw [scale_ninf hk, e4, scale_infSign hk]
  case pinf.fin a => rw [FV.fin_mul_fin, e1, e1, scale_infSign hk, infSign_scale hk]
  case ninf.fin a => rw [FV.fin_mul_fin, e2, e2, scale_infSign hk, ← mul_neg, infSign_scale hk]
  all_goals first | rw [scale_pinf hk] | rw [scale_ninf hk] | simp
  all_goals first | exact (scale_pinf hk).symm | exact (scale_ninf hk).symm | simp

variable {c : Consts ℝ} (hc : Consts.Pos c)

theorem SameInfo.si {s s' : InfoQ} (h : SameInfo s s') (c : Consts ℝ) : s.si c = s'.si c := by
  obtain ⟨h1, h2, h3, h4, h5, h6, h7⟩ := h
  unfold InfoQ.si
  rw [h1, h2, h3.num, h4.num, h5.num, h6.num, h7.num]

include hc in
theorem SameTrue.si {t u : TrueTable} (h : SameTrue t u) : t.si c = u.si c := by
  obtain ⟨-, -, -, -, -, h5⟩ := h
  unfold TrueTable.si
  apply List.forall₂_eq_eq_eq ▸ (List.forall₂_map_left_iff.2 (List.forall₂_map_right_iff.2 (h5.imp ?_)))
  rintro r r' ⟨e1, e2, e3, e4, e5⟩
  rw [conv_congr hc (teV_pos hc) e1, conv_congr hc one_pos e2, conv_congr hc one_pos e3, conv_congr hc one_pos e4, conv_congr hc one_pos e5]

include hc

/-! ## Constructor -/

/-- **C152** (constructor) Wrong dimensions raise a UnitsError, also when the spectral index is wrong; otherwise an index above -1 raises a ValueError and any other index gives an object with
these quantities. -/
theorem C152_constructor (nShowers : ℝ) (energyMin energyMax maxImpact : Q ℝ) (spectralIndex : ℝ) (viewconeMin viewconeMax : Q ℝ) :
    (¬ (energyMin.unit.dim = dimEnergy ∧ energyMax.unit.dim = dimEnergy ∧ maxImpact.unit.dim = dimLength ∧ viewconeMin.unit.dim = dimAngle ∧ viewconeMax.unit.dim = dimAngle) →
      mkInfoQ c nShowers energyMin energyMax maxImpact spectralIndex viewconeMin viewconeMax = .error .unitsError) ∧
    (energyMin.unit.dim = dimEnergy ∧ energyMax.unit.dim = dimEnergy ∧ maxImpact.unit.dim = dimLength ∧ viewconeMin.unit.dim = dimAngle ∧ viewconeMax.unit.dim = dimAngle →
      (-1 < spectralIndex → mkInfoQ c nShowers energyMin energyMax maxImpact spectralIndex viewconeMin viewconeMax = .error .valueError) ∧
      (spectralIndex ≤ -1 → ∃ s, mkInfoQ c nShowers energyMin energyMax maxImpact spectralIndex viewconeMin viewconeMax = .ok s ∧ s.DimsOk ∧ s.nShowers = nShowers ∧ s.spectralIndex = spectralIndex ∧
        s.energyMin = energyMin ∧ s.energyMax = energyMax ∧ s.maxImpact = maxImpact ∧ s.viewconeMin = viewconeMin ∧ s.viewconeMax = viewconeMax)) := by
  have e0 : (teV c).dim = dimEnergy := rfl
  have e1 : (degree c).dim = dimAngle := rfl
  have e2 : metre.dim = dimLength := rfl
  unfold mkInfoQ
  simp only [checkDim_bind, e0, e1, e2]
  constructor
  · intro h
    split_ifs with h1 h2 h3 h4 h5
    · exact absurd ⟨h1, h2, h3, h4, h5⟩ h
    · exact absurd ⟨h1, h2, h3, h4, h5⟩ h
    all_goals rfl
  · rintro ⟨h1, h2, h3, h4, h5⟩
    simp only [h1, h2, h3, h4, h5, if_true]
    exact ⟨fun h => if_pos h, fun h => ⟨_, if_neg (not_lt.2 h), ⟨h1, h2, h3, h4, h5⟩, rfl, rfl, rfl, rfl, rfl, rfl, rfl⟩⟩

/-! ## Numbers of showers -/

omit hc in
theorem num_conv {un target : PhysUnit ℝ} (h : 0 < un.scale) (x : Q ℝ) : FV.fin (x.num target) = conv un target (FV.fin (x.num un)) := by
  unfold conv Q.num
  rw [FV.fin_mul_fin]
  congr 1
  field_simp

/-- one bin -/
theorem energyIntegral_si (s : InfoQ) {un : PhysUnit ℝ} (hu : 0 < un.scale) (lo hi : FV ℝ) : energyIntegralQ c s un lo hi = energyIntegral (s.si c) (conv un (teV c) lo) (conv un (teV c) hi) := by
  have hp : 0 < un.scale / (teV c).scale := div_pos hu (teV_pos hc)
  unfold energyIntegralQ energyIntegral InfoQ.si FV.gt FV.ge
  simp only
  have l1 : ∀ a b : FV ℝ, FV.le (conv un (teV c) a) (conv un (teV c) b) = FV.le a b := fun a b => le_scale hp a b
  have l2 : ∀ a b : FV ℝ, FV.lt (conv un (teV c) a) (conv un (teV c) b) = FV.lt a b := fun a b => lt_scale hp a b
  have g1 := l1 hi (FV.fin (s.energyMin.num un))
  have g2 := l1 (FV.fin (s.energyMax.num un)) lo
  have g3 := l2 (FV.fin (s.energyMax.num un)) hi
  have g4 := l2 lo (FV.fin (s.energyMax.num un))
  have g5 := l2 (FV.fin (s.energyMin.num un)) hi
  have g6 := l2 lo (FV.fin (s.energyMin.num un))
  rw [← num_conv hu] at g1 g2 g3 g4 g5 g6
  rw [g1, g2, g3, g4, g5, g6]

/-- **C152** (showers per energy) -/
theorem C152_per_energy_si (s : InfoQ) {n : ℕ} (bins : Q (Fin (n + 1) → FV ℝ)) (hb : 0 < bins.unit.scale) :
    (bins.unit.dim = dimEnergy → nShowersPerEnergyQ c s bins = .ok (nShowersPerEnergy (s.si c) (bins.inUnit (teV c)))) ∧
    (bins.unit.dim ≠ dimEnergy → nShowersPerEnergyQ c s bins = .error .unitsError) := by
  unfold nShowersPerEnergyQ
  rw [checkDim_bind, show (teV c).dim = dimEnergy from rfl]
  refine ⟨fun h => ?_, fun h => if_neg h⟩
  rw [if_pos h]
  refine congrArg Except.ok ?_
  funext i
  show FV.fin s.nShowers * _ = FV.fin s.nShowers * _
  rw [energyIntegral_si hc s hb]
  rfl

/-- **C152** (showers per energy, same quantities) -/
theorem C152_per_energy {s s' : InfoQ} (h : SameInfo s s') {n : ℕ} {bins bins' : Q (Fin (n + 1) → FV ℝ)} (hb : Same bins bins') : nShowersPerEnergyQ c s bins = nShowersPerEnergyQ c s' bins' := by
  obtain ⟨a1, a2⟩ := C152_per_energy_si hc s bins hb.2.1
  obtain ⟨b1, b2⟩ := C152_per_energy_si hc s' bins' hb.2.2.1
  rw [← hb.1] at b1 b2
  by_cases hd : bins.unit.dim = dimEnergy
  · rw [a1 hd, b1 hd, h.si, hb.inUnit hc (teV_pos hc)]
  · rw [a2 hd, b2 hd]

omit hc in
/-- the zero opening test does not depend on the unit -/
theorem opening_iff {s : InfoQ} (hs : s.Pos) : s.viewconeMax.val - s.viewconeMin.num s.viewconeMax.unit = 0 ↔ s.viewconeMax.num radian - s.viewconeMin.num radian = 0 := by
  have h1 := hs.2.2.2.2
  have h2 := hs.2.2.2.1
  unfold Q.num
  show _ ↔ s.viewconeMax.unit.scale / 1 * s.viewconeMax.val - s.viewconeMin.unit.scale / 1 * s.viewconeMin.val = 0
  rw [sub_eq_zero, sub_eq_zero, div_one, div_one, div_mul_eq_mul_div, eq_div_iff h1.ne', mul_comm]

omit hc in
/-- **C152** (showers per field of view offset) Without an opening a ValueError is raised, whatever the bins. -/
theorem C152_per_fov_si (c : Consts ℝ) {s : InfoQ} (hs : s.Pos) (hd : s.DimsOk) {n : ℕ} (bins : Q (Fin (n + 1) → ℝ)) (hb : 0 < bins.unit.scale) :
    (bins.unit.dim = dimAngle → nShowersPerFovQ s bins = nShowersPerFov (s.si c) (bins.realsIn radian)) ∧
    (bins.unit.dim ≠ dimAngle → s.viewconeMin.num radian ≠ s.viewconeMax.num radian → nShowersPerFovQ s bins = .error .unitsError) ∧
    (s.viewconeMin.num radian = s.viewconeMax.num radian → nShowersPerFovQ s bins = .error .valueError) := by
  have hz := opening_iff hs
  refine ⟨fun h => ?_, fun h h' => ?_, fun h' => ?_⟩
  · unfold nShowersPerFovQ nShowersPerFov viewconePdfIntegrals
    by_cases h0 : s.viewconeMax.num radian - s.viewconeMin.num radian = 0
    · rw [if_pos (hz.2 h0)]
      rw [if_pos (show (s.si c).viewconeMax - (s.si c).viewconeMin = 0 from h0)]
    · rw [if_neg (fun e => h0 (hz.1 e))]
      rw [if_neg (show ¬ ((s.si c).viewconeMax - (s.si c).viewconeMin = 0) from h0)]
      simp only [checkDim_bind]
      rw [if_pos (show bins.unit.dim = s.viewconeMin.unit.dim from h.trans hd.2.2.2.1.symm)]
      refine congrArg Except.ok ?_
      funext i
      unfold viewconePdfIntegral
      rw [if_neg (show ¬ ((s.si c).viewconeMax - (s.si c).viewconeMin = 0) from h0)]
      show FV.fin s.nShowers * _ = FV.fin s.nShowers * _
      congr 2
      congr 1
      have hk : ∀ v : Q ℝ, v.num radian = bins.unit.scale * v.num bins.unit := fun v => by
        unfold Q.num
        show v.unit.scale / 1 * v.val = _
        field_simp
      have hr : ∀ j, bins.realsIn radian j = bins.unit.scale * bins.val j := fun j => by
        show bins.unit.scale / 1 * _ = _; rw [div_one]
      show _ = (if _ ≥ s.viewconeMin.num radian ∧ _ ≤ s.viewconeMax.num radian then
        Real.cos (if bins.realsIn radian i.castSucc > s.viewconeMin.num radian then bins.realsIn radian i.castSucc else s.viewconeMin.num radian) -
          Real.cos (if bins.realsIn radian i.succ < s.viewconeMax.num radian then bins.realsIn radian i.succ else s.viewconeMax.num radian) else 0)
      simp only [hk, hr, ge_iff_le, gt_iff_lt, mul_le_mul_iff_right₀ hb, mul_lt_mul_iff_right₀ hb, mul_ite]
  · unfold nShowersPerFovQ
    rw [if_neg (fun e => h' (sub_eq_zero.1 (hz.1 e)).symm)]
    simp only [checkDim_bind]
    exact if_neg (fun e => h (e.trans hd.2.2.2.1))
  · unfold nShowersPerFovQ
    exact if_pos (hz.2 (sub_eq_zero.2 h'.symm))

theorem dims_of_same {s s' : InfoQ} (h : SameInfo s s') (hd : s.DimsOk) : s.Pos ∧ s'.Pos ∧ s'.DimsOk := by
  obtain ⟨-, -, h3, h4, h5, h6, h7⟩ := h
  exact ⟨⟨h3.2.1, h4.2.1, h5.2.1, h6.2.1, h7.2.1⟩, ⟨h3.2.2.1, h4.2.2.1, h5.2.2.1, h6.2.2.1, h7.2.2.1⟩,
    ⟨h3.1.symm.trans hd.1, h4.1.symm.trans hd.2.1, h5.1.symm.trans hd.2.2.1, h6.1.symm.trans hd.2.2.2.1, h7.1.symm.trans hd.2.2.2.2⟩⟩

/-- **C152** (showers per field of view offset, same quantities) -/
theorem C152_per_fov {s s' : InfoQ} (h : SameInfo s s') (hd : s.DimsOk) {n : ℕ} {bins bins' : Q (Fin (n + 1) → ℝ)} (hb : SameR bins bins') : nShowersPerFovQ s bins = nShowersPerFovQ s' bins' := by
  obtain ⟨p1, p2, p3⟩ := dims_of_same hc h hd
  obtain ⟨a1, a2, a3⟩ := C152_per_fov_si c p1 hd bins hb.2.1
  obtain ⟨b1, b2, b3⟩ := C152_per_fov_si c p2 p3 bins' hb.2.2.1
  rw [← hb.1] at b1 b2
  rw [← h.2.2.2.2.2.1.num, ← h.2.2.2.2.2.2.num] at b2 b3
  by_cases hz : s.viewconeMin.num radian = s.viewconeMax.num radian
  · rw [a3 hz, b3 hz]
  · by_cases hd : bins.unit.dim = dimAngle
    · rw [a1 hd, b1 hd, h.si, hb.realsIn hc one_pos]
    · rw [a2 hd hz, b2 hd hz]

/-- **C152** (showers per energy and offset) -/
theorem C152_per_energy_fov_si {s : InfoQ} (hs : s.Pos) (hd : s.DimsOk) {n m : ℕ} (energyBins : Q (Fin (n + 1) → FV ℝ)) (he : 0 < energyBins.unit.scale) (fovBins : Q (Fin (m + 1) → ℝ))
    (hf : 0 < fovBins.unit.scale) :
    (energyBins.unit.dim = dimEnergy ∧ fovBins.unit.dim = dimAngle → nShowersPerEnergyAndFovQ c s energyBins fovBins = nShowersPerEnergyAndFov (s.si c) (energyBins.inUnit (teV c)) (fovBins.realsIn radian)) ∧
    (¬ (energyBins.unit.dim = dimEnergy ∧ fovBins.unit.dim = dimAngle) → nShowersPerEnergyAndFovQ c s energyBins fovBins = .error .unitsError) := by
  unfold nShowersPerEnergyAndFovQ nShowersPerEnergyAndFov
  simp only [checkDim_bind, show (teV c).dim = dimEnergy from rfl, show (degree c).dim = dimAngle from rfl]
  constructor
  · rintro ⟨h1, h2⟩
    rw [if_pos h1, if_pos h2, (C152_per_energy_si hc s energyBins he).1 h1, (C152_per_fov_si c hs hd fovBins hf).1 h2]
    generalize nShowersPerFov _ _ = r
    cases r <;> rfl
  · intro h
    split_ifs with h1 h2
    · exact absurd ⟨h1, h2⟩ h
    all_goals rfl

/-- **C152** (showers per energy and offset, same quantities) -/
theorem C152_per_energy_fov {s s' : InfoQ} (h : SameInfo s s') (hd : s.DimsOk) {n m : ℕ} {energyBins energyBins' : Q (Fin (n + 1) → FV ℝ)} (he : Same energyBins energyBins')
    {fovBins fovBins' : Q (Fin (m + 1) → ℝ)} (hf : SameR fovBins fovBins') : nShowersPerEnergyAndFovQ c s energyBins fovBins = nShowersPerEnergyAndFovQ c s' energyBins' fovBins' := by
  obtain ⟨p1, p2, p3⟩ := dims_of_same hc h hd
  obtain ⟨a1, a2⟩ := C152_per_energy_fov_si hc p1 hd energyBins he.2.1 fovBins hf.2.1
  obtain ⟨b1, b2⟩ := C152_per_energy_fov_si hc p2 p3 energyBins' he.2.2.1 fovBins' hf.2.2.1
  rw [← he.1, ← hf.1] at b1 b2
  by_cases hd : energyBins.unit.dim = dimEnergy ∧ fovBins.unit.dim = dimAngle
  · rw [a1 hd, b1 hd, h.si, he.inUnit hc (teV_pos hc), hf.realsIn hc one_pos]
  · rw [a2 hd, b2 hd]

/-- **C152** (showers in polar bins) -/
theorem C152_polar_si {s : InfoQ} (hs : s.Pos) (hd : s.DimsOk) {n m k : ℕ} (energyBins : Q (Fin (n + 1) → FV ℝ)) (he : 0 < energyBins.unit.scale) (offsetBins : Q (Fin (m + 1) → ℝ))
    (hf : 0 < offsetBins.unit.scale) (positionAngleBins : Q (Fin (k + 1) → ℝ)) :
    (energyBins.unit.dim = dimEnergy ∧ offsetBins.unit.dim = dimAngle ∧ positionAngleBins.unit.dim = dimAngle →
      nShowers3dPolarQ c s energyBins offsetBins positionAngleBins = nShowers3dPolar (s.si c) (energyBins.inUnit (teV c)) (offsetBins.realsIn radian) (positionAngleBins.realsIn radian)) ∧
    (¬ (energyBins.unit.dim = dimEnergy ∧ offsetBins.unit.dim = dimAngle ∧ positionAngleBins.unit.dim = dimAngle) →
      nShowers3dPolarQ c s energyBins offsetBins positionAngleBins = .error .unitsError) := by
  unfold nShowers3dPolarQ nShowers3dPolar
  simp only [checkDim_bind, show (teV c).dim = dimEnergy from rfl, show (degree c).dim = dimAngle from rfl, show radian.dim = dimAngle from rfl]
  constructor
  · rintro ⟨h1, h2, h3⟩
    rw [if_pos h1, if_pos h2, if_pos h3, (C152_per_energy_fov_si hc hs hd energyBins he offsetBins hf).1 ⟨h1, h2⟩, (C152_per_fov_si c hs hd _ (degree_pos hc)).1 rfl]
    have : (⟨degree c, ![s.viewconeMin.num (degree c), s.viewconeMax.num (degree c)]⟩ : Q (Fin 2 → ℝ)).realsIn radian = ![(s.si c).viewconeMin, (s.si c).viewconeMax] := by
      funext i
      have hdeg := hc.2.ne'
      fin_cases i
      · show c.deg / 1 * (s.viewconeMin.unit.scale / c.deg * s.viewconeMin.val) = s.viewconeMin.unit.scale / 1 * s.viewconeMin.val
        field_simp
      · show c.deg / 1 * (s.viewconeMax.unit.scale / c.deg * s.viewconeMax.val) = s.viewconeMax.unit.scale / 1 * s.viewconeMax.val
        field_simp
    rw [this]
    generalize nShowersPerEnergyAndFov _ _ _ = r
    cases r with
    | error e => rfl
    | ok r =>
      simp only [bind, Except.bind]
      generalize nShowersPerFov _ _ = r'
      cases r' <;> rfl
  · intro h
    split_ifs with h1 h2 h3
    · exact absurd ⟨h1, h2, h3⟩ h
    all_goals rfl

/-- **C152** (showers in polar bins, same quantities) -/
theorem C152_polar {s s' : InfoQ} (h : SameInfo s s') (hd : s.DimsOk) {n m k : ℕ} {energyBins energyBins' : Q (Fin (n + 1) → FV ℝ)} (he : Same energyBins energyBins')
    {offsetBins offsetBins' : Q (Fin (m + 1) → ℝ)} (hf : SameR offsetBins offsetBins') {positionAngleBins positionAngleBins' : Q (Fin (k + 1) → ℝ)} (hp : SameR positionAngleBins positionAngleBins') :
    nShowers3dPolarQ c s energyBins offsetBins positionAngleBins = nShowers3dPolarQ c s' energyBins' offsetBins' positionAngleBins' := by
  obtain ⟨p1, p2, p3⟩ := dims_of_same hc h hd
  obtain ⟨a1, a2⟩ := C152_polar_si hc p1 hd energyBins he.2.1 offsetBins hf.2.1 positionAngleBins
  obtain ⟨b1, b2⟩ := C152_polar_si hc p2 p3 energyBins' he.2.2.1 offsetBins' hf.2.2.1 positionAngleBins'
  rw [← he.1, ← hf.1, ← hp.1] at b1 b2
  by_cases hd : energyBins.unit.dim = dimEnergy ∧ offsetBins.unit.dim = dimAngle ∧ positionAngleBins.unit.dim = dimAngle
  · rw [a1 hd, b1 hd, h.si, he.inUnit hc (teV_pos hc), hf.realsIn hc one_pos, hp.realsIn hc one_pos]
  · rw [a2 hd, b2 hd]

end Pyirf.Units
