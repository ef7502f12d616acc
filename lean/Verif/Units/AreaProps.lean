import Verif.Units.SimProps

/-!
# C152: effective areas, histogram tables and longitude-latitude bins in any unit
-/
set_option linter.unusedSectionVars false
set_option linter.unusedSimpArgs false

namespace Pyirf.Units
open Pyirf Pyirf.Np Pyirf.Io Pyirf.Utils Pyirf.Simulations Pyirf.Irf Pyirf.Binning
open Pyirf.Cuts (scale_pinf scale_ninf scale_scale isNan_scale lt_scale le_scale)

/-- edges of longitude and latitude as the model without units uses them: numbers and the sizes of the units in radian -/
noncomputable def gridOf {p q : ℕ} (lon : Q (Fin (p + 1) → ℝ)) (lat : Q (Fin (q + 1) → ℝ)) : Grid p q := ⟨lon.unit.scale, lat.unit.scale, lon.val, lat.val⟩

/-- The events with the key column in another unit. -/
noncomputable def inKeyUnit (un target : PhysUnit ℝ) (t : EventTable ℝ) : EventTable ℝ := ⟨t.hasWeight, t.hasParticle, t.rows.map fun e => ⟨conv un target e.key, e.weight, e.particle⟩⟩

variable {c : Consts ℝ} (hc : Consts.Pos c)

/-! ## Longitude and latitude bins -/

include hc in
theorem overlap_si {s : InfoQ} (hs : s.Pos) {p q : ℕ} (lon : Q (Fin (p + 1) → ℝ)) (hlo : 0 < lon.unit.scale) (lat : Q (Fin (q + 1) → ℝ)) (subpixels : ℕ) :
    fovLonlatGridOverlapQ c s lon lat subpixels = fovLonlatGridOverlap (s.si c) (gridOf lon lat) subpixels := by
  have hdeg := hc.2
  have hdeg' := hc.2.ne'
  have hlon : ∀ i, lon.unit.scale / radian.scale * lon.val i = (gridOf lon lat).lon i := fun i => by
    show lon.unit.scale / 1 * lon.val i = lon.val i * lon.unit.scale; ring
  have hlat : ∀ i, lat.unit.scale / radian.scale * lat.val i = (gridOf lon lat).lat i := fun i => by
    show lat.unit.scale / 1 * lat.val i = lat.val i * lat.unit.scale; ring
  have hcl : ∀ i : Fin p, lon.unit.scale / radian.scale * (0.5 * (lon.val i.castSucc + lon.val i.succ)) = 0.5 * ((gridOf lon lat).lon i.castSucc + (gridOf lon lat).lon i.succ) := fun i => by
    rw [← hlon, ← hlon]; ring
  have hcb : ∀ j : Fin q, lat.unit.scale / radian.scale * (0.5 * (lat.val j.castSucc + lat.val j.succ)) = 0.5 * ((gridOf lon lat).lat j.castSucc + (gridOf lon lat).lat j.succ) := fun i => by
    rw [← hlat, ← hlat]; ring
  have hnum : ∀ v : Q ℝ, v.num (degree c) = v.num radian / c.deg := fun v => by
    show v.unit.scale / c.deg * v.val = v.unit.scale / 1 * v.val / c.deg
    field_simp
  have hdist : ∀ d : ℝ, radian.scale / (degree c).scale * d = d / c.deg := fun d => by
    show 1 / c.deg * d = d / c.deg; ring
  have hle : ∀ a b : ℝ, a / c.deg ≤ b / c.deg ↔ a ≤ b := fun a b => div_le_div_iff_of_pos_right hdeg
  have hplus : ∀ (v : Q ℝ) (r : ℝ), 0 < v.unit.scale → v.unit.scale / radian.scale * (v.val + lon.unit.scale / v.unit.scale * r) = v.num radian + lon.unit.scale * r := fun v r hv => by
    show v.unit.scale / 1 * (v.val + lon.unit.scale / v.unit.scale * r) = v.unit.scale / 1 * v.val + lon.unit.scale * r
    field_simp
  have hminus : ∀ (v : Q ℝ) (r : ℝ), 0 < v.unit.scale → v.unit.scale / radian.scale * (v.val - lon.unit.scale / v.unit.scale * r) = v.num radian - lon.unit.scale * r := fun v r hv => by
    show v.unit.scale / 1 * (v.val - lon.unit.scale / v.unit.scale * r) = v.unit.scale / 1 * v.val - lon.unit.scale * r
    field_simp
  have hrad : ∀ (oneP : Fin (p + 1)) (oneQ : Fin (q + 1)), lon.unit.scale * (Real.sqrt ((lon.val oneP - lon.val 0) ^ 2 + lat.unit.scale ^ 2 / lon.unit.scale ^ 2 * (lat.val oneQ - lat.val 0) ^ 2) * 0.5) =
      (gridOf lon lat).binMaxRadius oneP oneQ := fun oneP oneQ => by
    unfold Grid.binMaxRadius
    rw [← hlon, ← hlon, ← hlat, ← hlat, ← mul_assoc]
    congr 1
    have h2 : lon.unit.scale * Real.sqrt ((lon.val oneP - lon.val 0) ^ 2 + lat.unit.scale ^ 2 / lon.unit.scale ^ 2 * (lat.val oneQ - lat.val 0) ^ 2) =
        Real.sqrt (lon.unit.scale ^ 2 * ((lon.val oneP - lon.val 0) ^ 2 + lat.unit.scale ^ 2 / lon.unit.scale ^ 2 * (lat.val oneQ - lat.val 0) ^ 2)) := by
      rw [Real.sqrt_mul (by positivity), Real.sqrt_sq hlo.le]
    rw [h2]
    congr 1
    show _ = (lon.unit.scale / 1 * lon.val oneP - lon.unit.scale / 1 * lon.val 0) ^ 2 + (lat.unit.scale / 1 * lat.val oneQ - lat.unit.scale / 1 * lat.val 0) ^ 2
    field_simp
  unfold fovLonlatGridOverlapQ fovLonlatGridOverlap allOutside allInside Grid.cornerDist Grid.centerDist edgeMask coveredArea
  simp only [hlon, hlat, hcl, hcb, hnum, hdist, hle, ge_iff_le, hplus _ _ hs.2.2.2.1, hplus _ _ hs.2.2.2.2, hminus _ _ hs.2.2.2.1, hminus _ _ hs.2.2.2.2, hrad]
  rfl

include hc in
/-- **C152** (showers in longitude-latitude bins) The units of the object and of the energies do not matter; the numbers and the units of the longitudes and latitudes both matter, as C85 says. -/
theorem C152_lonlat_si {s : InfoQ} (hs : s.Pos) {n p q : ℕ} (energyBins : Q (Fin (n + 1) → FV ℝ)) (he : 0 < energyBins.unit.scale) (lonBins : Q (Fin (p + 1) → ℝ)) (hlo : 0 < lonBins.unit.scale)
    (latBins : Q (Fin (q + 1) → ℝ)) (subpixels : ℕ) :
    (energyBins.unit.dim = dimEnergy ∧ lonBins.unit.dim = dimAngle ∧ latBins.unit.dim = dimAngle →
      nShowers3dLonlatQ c s energyBins lonBins latBins subpixels = nShowers3dLonlat (s.si c) (energyBins.inUnit (teV c)) (gridOf lonBins latBins) subpixels) ∧
    (¬ (energyBins.unit.dim = dimEnergy ∧ lonBins.unit.dim = dimAngle ∧ latBins.unit.dim = dimAngle) → nShowers3dLonlatQ c s energyBins lonBins latBins subpixels = .error .unitsError) := by
  unfold nShowers3dLonlatQ nShowers3dLonlat
  simp only [checkDim_bind, show (teV c).dim = dimEnergy from rfl, show (degree c).dim = dimAngle from rfl, show radian.dim = dimAngle from rfl]
  constructor
  · rintro ⟨h1, h2, h3⟩
    rw [if_pos h1, if_pos h2, if_pos h3, overlap_si hc hs lonBins hlo latBins subpixels, (C152_per_energy_si hc s energyBins he).1 h1]
    have hr : ∀ (j : Fin q) (i : Fin p), rectangleQ lonBins.unit latBins.unit (lonBins.val i.castSucc) (lonBins.val i.succ) (latBins.val j.castSucc) (latBins.val j.succ) =
        rectangleSolidAngle ((gridOf lonBins latBins).lon i.castSucc) ((gridOf lonBins latBins).lon i.succ) ((gridOf lonBins latBins).lat j.castSucc) ((gridOf lonBins latBins).lat j.succ) := by
      intro j i
      rw [rectangleQ_eq]
      have e1 : ∀ i, lonBins.unit.scale / radian.scale * lonBins.val i = (gridOf lonBins latBins).lon i := fun i => by
        show lonBins.unit.scale / 1 * lonBins.val i = lonBins.val i * lonBins.unit.scale; ring
      have e2 : ∀ i, latBins.unit.scale / radian.scale * latBins.val i = (gridOf lonBins latBins).lat i := fun i => by
        show latBins.unit.scale / 1 * latBins.val i = latBins.val i * latBins.unit.scale; ring
      rw [e1, e1, e2, e2]
    simp only [hr]
    generalize fovLonlatGridOverlap _ _ _ = r
    cases r <;> rfl
  · intro h
    split_ifs with h1 h2 h3
    · exact absurd ⟨h1, h2, h3⟩ h
    all_goals rfl

include hc in
/-- **C152** (showers in longitude-latitude bins, same quantities, the same edges of longitude and latitude) -/
theorem C152_lonlat {s s' : InfoQ} (h : SameInfo s s') (hd : s.DimsOk) {n p q : ℕ} {energyBins energyBins' : Q (Fin (n + 1) → FV ℝ)} (he : Same energyBins energyBins') (lonBins : Q (Fin (p + 1) → ℝ))
    (hlo : 0 < lonBins.unit.scale) (latBins : Q (Fin (q + 1) → ℝ)) (subpixels : ℕ) :
    nShowers3dLonlatQ c s energyBins lonBins latBins subpixels = nShowers3dLonlatQ c s' energyBins' lonBins latBins subpixels := by
  obtain ⟨p1, p2, -⟩ := dims_of_same hc h hd
  obtain ⟨a1, a2⟩ := C152_lonlat_si hc p1 energyBins he.2.1 lonBins hlo latBins subpixels
  obtain ⟨b1, b2⟩ := C152_lonlat_si hc p2 energyBins' he.2.2.1 lonBins hlo latBins subpixels
  rw [← he.1] at b1 b2
  by_cases hd : energyBins.unit.dim = dimEnergy ∧ lonBins.unit.dim = dimAngle ∧ latBins.unit.dim = dimAngle
  · rw [a1 hd, b1 hd, h.si, he.inUnit hc (teV_pos hc)]
  · rw [a2 hd, b2 hd]

/-! ## Histogram tables -/

/-- **C152** (histogram table) The content is that of the same events with the column in the unit of the bins, and the bin columns are the bins as given; bins of another dimension raise a UnitsError. -/
theorem C152_histogram_table (events : EventTable ℝ) {un : PhysUnit ℝ} (hu : 0 < un.scale) {n : ℕ} (bins : Q (Fin n → FV ℝ)) (hb : 0 < bins.unit.scale) :
    (bins.unit.dim = un.dim → createHistogramTableQ events un bins = (createHistogramTable (inKeyUnit un bins.unit events) (List.ofFn bins.val)).map (HistTableQ.mk bins.unit)) ∧
    (bins.unit.dim ≠ un.dim → createHistogramTableQ events un bins = .error .unitsError) := by
  unfold createHistogramTableQ
  rw [edges_bind]
  refine ⟨fun h => ?_, fun h => if_neg h⟩
  rw [if_pos h]
  have hk : 0 < bins.unit.scale / un.scale := div_pos hb hu
  have := createHistogramTable_scale hk (List.ofFn bins.val) (inKeyUnit un bins.unit events)
  have e1 : scaleEvents (bins.unit.scale / un.scale) (inKeyUnit un bins.unit events) = events := by
    unfold scaleEvents inKeyUnit
    obtain ⟨w, p, rows⟩ := events
    simp only [List.map_map]
    congr 1
    refine (List.map_congr_left (g := id) ?_).trans (List.map_id _)
    rintro ⟨k, w, p⟩ -
    simp only [Function.comp, id, conv]
    rw [scale_scale hk]
    have : bins.unit.scale / un.scale * (un.scale / bins.unit.scale) = 1 := by field_simp
    rw [this, one_scale]
  have e2 : (List.ofFn bins.val).map (FV.fin (bins.unit.scale / un.scale) * ·) = List.ofFn (bins.inUnit un) := (ofFn_scale _ _).symm
  rw [e1, e2] at this
  have hb2 : ∀ (t : EventTable ℝ) (es : List (FV ℝ)), createHistogramTable t es = ((createHistogramTable t es).map HistTable.cols).map fun cols => ⟨es.dropLast, es.tail, binCenter es, cols⟩ := by
    intro t es
    unfold createHistogramTable
    generalize Np.histogram es (unitWeights t.rows) = r1
    cases r1 with
    | error e => rfl
    | ok n =>
      simp only [bind, Except.bind]
      generalize Np.histogram es (withWeights t.rows) = r2
      cases t.hasWeight <;> cases (t.hasParticle && decide (0 < t.rows.length)) <;> simp only [Bool.false_eq_true, if_false, if_true]
      · rfl
      · simp only [pure, Except.pure]
        generalize List.foldlM (addParticle es false t.rows) _ _ = r3
        cases r3 <;> rfl
      · cases r2 <;> rfl
      · cases r2 with
        | error e => rfl
        | ok w =>
          simp only
          generalize List.foldlM (addParticle es true t.rows) _ _ = r3
          cases r3 <;> rfl
  conv_rhs => rw [hb2, ← this]
  generalize createHistogramTable events _ = r
  cases r <;> rfl

/-! ## Effective areas -/

theorem area_entry {s : InfoQ} (hs : s.Pos) (c : Consts ℝ) (x y : FV ℝ) :
    effectiveArea x y s.area.val = FV.fin (1 / s.maxImpact.unit.scale ^ 2) * effectiveArea x y (Real.pi * (s.si c).maxImpact ^ 2) := by
  unfold effectiveArea
  have h := hs.2.2.1
  rw [← mul_scale_right (by positivity)]
  congr 1
  rw [FV.fin_mul_fin]
  congr 1
  show Real.pi * s.maxImpact.val ^ 2 = 1 / s.maxImpact.unit.scale ^ 2 * (Real.pi * (s.maxImpact.unit.scale / 1 * s.maxImpact.val) ^ 2)
  field_simp

theorem area_dim {s : InfoQ} (hd : s.DimsOk) : s.area.unit.dim = (m2 : PhysUnit ℝ).dim := by
  show Dim.mul s.maxImpact.unit.dim s.maxImpact.unit.dim = _
  rw [hd.2.2.1]
  rfl

include hc

/-- **C152** (effective area per energy) The result is the effective area of the same quantities in TeV and m^2, converted to the square of the unit of `max_impact`. -/
theorem C152_area_per_energy_si (events : EventTable ℝ) {un : PhysUnit ℝ} (hu : 0 < un.scale) {s : InfoQ} (hs : s.Pos) (hd : s.DimsOk) {n : ℕ} (bins : Q (Fin (n + 1) → FV ℝ)) (hb : 0 < bins.unit.scale) :
    (un.dim = dimEnergy ∧ bins.unit.dim = dimEnergy →
      effectiveAreaPerEnergyQ c events un s bins = (effectiveAreaPerEnergy (inKeyUnit un (teV c) events) (s.si c) (bins.inUnit (teV c))).map (inAreaUnit s)) ∧
    (un.dim = dimEnergy → bins.unit.dim ≠ dimEnergy → effectiveAreaPerEnergyQ c events un s bins = .error .unitsError) ∧
    (un.dim ≠ dimEnergy → bins.unit.dim = dimEnergy → effectiveAreaPerEnergyQ c events un s bins = .error .unitsError) ∧
    (un.dim ≠ dimEnergy → bins.unit.dim ≠ dimEnergy → effectiveAreaPerEnergyQ c events un s bins = (createHistogramTableQ events un bins >>= fun _ => .error .unitsError)) := by
  refine ⟨?_, ?_, ?_, ?_⟩
  · rintro ⟨h1, h2⟩
    unfold effectiveAreaPerEnergyQ effectiveAreaPerEnergy createHistogramTableQ
    rw [edges_bind, if_pos (h2.trans h1.symm), (C152_per_energy_si hc s bins hb).1 h2]
    have hk : 0 < un.scale / (teV c).scale := div_pos hu (teV_pos hc)
    have := createHistogramTable_scale hk (List.ofFn (bins.inUnit un)) events
    have e1 : scaleEvents (un.scale / (teV c).scale) events = inKeyUnit un (teV c) events := rfl
    have e2 : (List.ofFn (bins.inUnit un)).map (FV.fin (un.scale / (teV c).scale) * ·) = List.ofFn (bins.inUnit (teV c)) := by
      rw [← ofFn_scale]
      congr 1
      funext i
      unfold Q.inUnit Units.conv
      rw [scale_scale hk]
      congr 2
      have := (teV_pos hc).ne'
      field_simp
    rw [e1, e2] at this
    revert this
    generalize createHistogramTable (inKeyUnit un (teV c) events) _ = r1
    generalize createHistogramTable events _ = r2
    intro this
    cases r1 with
    | error e =>
      cases r2 with
      | error e' =>
        have : e = e' := by injection this
        subst this; rfl
      | ok t => cases this
    | ok t =>
      cases r2 with
      | error e' => cases this
      | ok t' =>
        have : t.cols = t'.cols := by injection this
        simp only [bind, Except.bind, effectiveAreaQ, checkDim, if_pos (area_dim hd), this]
        refine congrArg Except.ok ?_
        refine congrArg (Q.mk _) ?_
        funext i
        exact area_entry hs c _ _
  · intro h1 h2
    unfold effectiveAreaPerEnergyQ createHistogramTableQ
    rw [edges_bind, if_neg (fun e => h2 (e.trans h1))]
    rfl
  · intro h1 h2
    unfold effectiveAreaPerEnergyQ createHistogramTableQ
    rw [edges_bind, if_neg (fun e => h1 (e.symm.trans h2))]
    rfl
  · intro h1 h2
    unfold effectiveAreaPerEnergyQ
    rw [(C152_per_energy_si hc s bins hb).2 h2]
    rfl

/-- **C152** (effective area per energy and offset) -/
theorem C152_area_per_energy_fov_si (t : TrueTable) {s : InfoQ} (hs : s.Pos) (hd : s.DimsOk) {n m : ℕ} (energyBins : Q (Fin (n + 1) → FV ℝ)) (he : 0 < energyBins.unit.scale) (fovBins : Q (Fin (m + 1) → ℝ))
    (hf : 0 < fovBins.unit.scale) :
    (t.energy.dim = dimEnergy ∧ t.offset.dim = dimAngle ∧ energyBins.unit.dim = dimEnergy ∧ fovBins.unit.dim = dimAngle →
      effectiveAreaPerEnergyAndFovQ c t s energyBins fovBins =
        (effectiveAreaPerEnergyAndFov (t.si c) (s.si c) (energyBins.inUnit (teV c)) (fovBins.realsIn radian)).map fun a => inAreaUnit s fun ij => a ij.1 ij.2) ∧
    (¬ (energyBins.unit.dim = dimEnergy ∧ fovBins.unit.dim = dimAngle) → effectiveAreaPerEnergyAndFovQ c t s energyBins fovBins = .error .unitsError) ∧
    (energyBins.unit.dim = dimEnergy ∧ fovBins.unit.dim = dimAngle ∧ ¬ (t.energy.dim = dimEnergy ∧ t.offset.dim = dimAngle) →
      effectiveAreaPerEnergyAndFovQ c t s energyBins fovBins = if s.viewconeMin.num radian = s.viewconeMax.num radian then .error .valueError else .error .unitsError) := by
  have e0 : (teV c).dim = dimEnergy := rfl
  have e1 : (degree c).dim = dimAngle := rfl
  obtain ⟨g1, g2⟩ := C152_per_energy_fov_si hc hs hd energyBins he fovBins hf
  refine ⟨?_, ?_, ?_⟩
  · rintro ⟨h1, h2, h3, h4⟩
    unfold effectiveAreaPerEnergyAndFovQ effectiveAreaPerEnergyAndFov
    rw [g1 ⟨h3, h4⟩]
    generalize nShowersPerEnergyAndFov _ _ _ = r
    cases r with
    | error e => rfl
    | ok sim =>
      show (checkDim _ _ >>= _) = _
      simp only [checkDim_bind, edges_bind, reals_bind, e0, e1, h1, h2, h3, h4, if_true]
      have := histogram2d_scale one_pos hc.2 (energyBins.inUnit (teV c)) (finEdges (fovBins.realsIn (degree c)))
        (t.rows.map fun r => (conv t.energy (teV c) r.energy, conv t.offset (degree c) r.offset, 1))
      simp only [one_scale, ← realsIn_rad hc, List.map_map, Function.comp_def, ← conv_rad hc] at this
      unfold TrueTable.si
      rw [List.map_map]
      simp only [Function.comp_def]
      rw [this]
      generalize histogram2d (K := ℝ) _ _ _ = r
      cases r with
      | error e => rfl
      | ok hist =>
        simp only [bind, Except.bind, effectiveAreaQ, checkDim, if_pos (area_dim hd)]
        refine congrArg Except.ok ?_
        refine congrArg (Q.mk _) ?_
        funext i
        exact area_entry hs c _ _
  · intro h
    unfold effectiveAreaPerEnergyAndFovQ
    rw [g2 h]
    rfl
  · rintro ⟨h3, h4, h⟩
    unfold effectiveAreaPerEnergyAndFovQ
    rw [g1 ⟨h3, h4⟩]
    unfold nShowersPerEnergyAndFov nShowersPerFov viewconePdfIntegrals
    by_cases hz : s.viewconeMin.num radian = s.viewconeMax.num radian
    · rw [if_pos (show (s.si c).viewconeMax - (s.si c).viewconeMin = 0 from sub_eq_zero.2 hz.symm), if_pos hz]
      rfl
    · rw [if_neg (show ¬ ((s.si c).viewconeMax - (s.si c).viewconeMin = 0) from fun e => hz (sub_eq_zero.1 e).symm), if_neg hz]
      show (checkDim _ _ >>= _) = _
      simp only [checkDim_bind, edges_bind, reals_bind, e0, e1, h3, h4, if_true]
      split_ifs with h1 h2
      · exact absurd ⟨h1, h2⟩ h
      all_goals rfl

/-- **C152** (effective area in polar bins) -/
theorem C152_area_polar_si (t : TrueTable) {s : InfoQ} (hs : s.Pos) (hd : s.DimsOk) {n m k : ℕ} (energyBins : Q (Fin (n + 1) → FV ℝ)) (he : 0 < energyBins.unit.scale) (offsetBins : Q (Fin (m + 1) → ℝ))
    (hf : 0 < offsetBins.unit.scale) (positionAngleBins : Q (Fin (k + 1) → ℝ)) :
    (t.energy.dim = dimEnergy ∧ t.offset.dim = dimAngle ∧ t.positionAngle.dim = dimAngle ∧ energyBins.unit.dim = dimEnergy ∧ offsetBins.unit.dim = dimAngle ∧ positionAngleBins.unit.dim = dimAngle →
      effectiveArea3dPolarQ c t s energyBins offsetBins positionAngleBins =
        (effectiveArea3dPolar (t.si c) (s.si c) (energyBins.inUnit (teV c)) (offsetBins.realsIn radian) (positionAngleBins.realsIn radian)).map fun a => inAreaUnit s fun ijl => a ijl.1 ijl.2.1 ijl.2.2) ∧
    (¬ (energyBins.unit.dim = dimEnergy ∧ offsetBins.unit.dim = dimAngle ∧ positionAngleBins.unit.dim = dimAngle) →
      effectiveArea3dPolarQ c t s energyBins offsetBins positionAngleBins = .error .unitsError) ∧
    (energyBins.unit.dim = dimEnergy ∧ offsetBins.unit.dim = dimAngle ∧ positionAngleBins.unit.dim = dimAngle ∧ ¬ (t.energy.dim = dimEnergy ∧ t.offset.dim = dimAngle ∧ t.positionAngle.dim = dimAngle) →
      effectiveArea3dPolarQ c t s energyBins offsetBins positionAngleBins = if s.viewconeMin.num radian = s.viewconeMax.num radian then .error .valueError else .error .unitsError) := by
  have e0 : (teV c).dim = dimEnergy := rfl
  have e1 : (degree c).dim = dimAngle := rfl
  have e2 : radian.dim = dimAngle := rfl
  obtain ⟨g1, g2⟩ := C152_polar_si hc hs hd energyBins he offsetBins hf positionAngleBins
  refine ⟨?_, ?_, ?_⟩
  · rintro ⟨h1, h2, h2', h3, h4, h5⟩
    unfold effectiveArea3dPolarQ effectiveArea3dPolar
    rw [g1 ⟨h3, h4, h5⟩]
    generalize nShowers3dPolar _ _ _ _ = r
    cases r with
    | error e => rfl
    | ok sim =>
      show (checkDim _ _ >>= _) = _
      simp only [checkDim_bind, edges_bind, reals_bind, e0, e1, e2, h1, h2, h2', h3, h4, h5, if_true]
      have := histogram3d_scale one_pos hc.2 one_pos (energyBins.inUnit (teV c)) (finEdges (offsetBins.realsIn (degree c))) (finEdges (positionAngleBins.realsIn radian))
        (t.rows.map fun r => (conv t.energy (teV c) r.energy, conv t.offset (degree c) r.offset, conv t.positionAngle radian r.positionAngle, 1))
      simp only [one_scale, ← realsIn_rad hc, List.map_map, Function.comp_def, ← conv_rad hc] at this
      unfold TrueTable.si
      rw [List.map_map]
      simp only [Function.comp_def]
      rw [this]
      generalize histogram3d (K := ℝ) _ _ _ _ = r
      cases r with
      | error e => rfl
      | ok hist =>
        simp only [bind, Except.bind, effectiveAreaQ, checkDim, if_pos (area_dim hd)]
        refine congrArg Except.ok ?_
        refine congrArg (Q.mk _) ?_
        funext i
        exact area_entry hs c _ _
  · intro h
    unfold effectiveArea3dPolarQ
    rw [g2 h]
    rfl
  · rintro ⟨h3, h4, h5, h⟩
    unfold effectiveArea3dPolarQ
    rw [g1 ⟨h3, h4, h5⟩]
    unfold nShowers3dPolar nShowersPerEnergyAndFov nShowersPerFov viewconePdfIntegrals
    by_cases hz : s.viewconeMin.num radian = s.viewconeMax.num radian
    · rw [if_pos (show (s.si c).viewconeMax - (s.si c).viewconeMin = 0 from sub_eq_zero.2 hz.symm), if_pos hz]
      rfl
    · simp only [if_neg (show ¬ ((s.si c).viewconeMax - (s.si c).viewconeMin = 0) from fun e => hz (sub_eq_zero.1 e).symm), if_neg hz]
      show (checkDim _ _ >>= _) = _
      simp only [checkDim_bind, edges_bind, reals_bind, e0, e1, e2, h3, h4, h5, if_true]
      split_ifs with h1 h2 h2'
      · exact absurd ⟨h1, h2, h2'⟩ h
      all_goals rfl

/-- **C152** (effective area in longitude-latitude bins) -/
theorem C152_area_lonlat_si (t : TrueTable) {s : InfoQ} (hs : s.Pos) (hd : s.DimsOk) {n p q : ℕ} (energyBins : Q (Fin (n + 1) → FV ℝ)) (he : 0 < energyBins.unit.scale) (lonBins : Q (Fin (p + 1) → ℝ))
    (hlo : 0 < lonBins.unit.scale) (latBins : Q (Fin (q + 1) → ℝ)) (subpixels : ℕ) :
    (t.energy.dim = dimEnergy ∧ t.lon.dim = dimAngle ∧ t.lat.dim = dimAngle ∧ energyBins.unit.dim = dimEnergy ∧ lonBins.unit.dim = dimAngle ∧ latBins.unit.dim = dimAngle →
      effectiveArea3dLonlatQ c t s energyBins lonBins latBins subpixels =
        (effectiveArea3dLonlat (t.si c) (s.si c) (energyBins.inUnit (teV c)) (gridOf lonBins latBins) subpixels).map fun a =>
          ⟨⟨Dim.mul s.maxImpact.unit.dim s.maxImpact.unit.dim, s.maxImpact.unit.scale ^ 2⟩, ⟨a.shape, fun i j l => FV.fin (1 / s.maxImpact.unit.scale ^ 2) * a.val i j l⟩⟩) ∧
    (¬ (energyBins.unit.dim = dimEnergy ∧ lonBins.unit.dim = dimAngle ∧ latBins.unit.dim = dimAngle) → effectiveArea3dLonlatQ c t s energyBins lonBins latBins subpixels = .error .unitsError) ∧
    (energyBins.unit.dim = dimEnergy ∧ lonBins.unit.dim = dimAngle ∧ latBins.unit.dim = dimAngle ∧ ¬ (t.energy.dim = dimEnergy ∧ t.lon.dim = dimAngle ∧ t.lat.dim = dimAngle) →
      effectiveArea3dLonlatQ c t s energyBins lonBins latBins subpixels =
        (nShowers3dLonlat (s.si c) (energyBins.inUnit (teV c)) (gridOf lonBins latBins) subpixels >>= fun _ => .error .unitsError)) := by
  have e0 : (teV c).dim = dimEnergy := rfl
  have e1 : (degree c).dim = dimAngle := rfl
  obtain ⟨g1, g2⟩ := C152_lonlat_si hc hs energyBins he lonBins hlo latBins subpixels
  refine ⟨?_, fun h => ?_, ?_⟩
  rotate_left
  · unfold effectiveArea3dLonlatQ
    rw [g2 h]
    rfl
  · rintro ⟨h4, h5, h6, h⟩
    unfold effectiveArea3dLonlatQ
    rw [g1 ⟨h4, h5, h6⟩]
    generalize nShowers3dLonlat _ _ _ _ = r
    cases r with
    | error e => rfl
    | ok sim =>
      show (checkDim _ _ >>= _) = _
      simp only [checkDim_bind, e0, e1]
      split_ifs with h1 h2 h3
      · exact absurd ⟨h1, h2, h3⟩ h
      · exact absurd ⟨h1, h2, h3⟩ h
      all_goals rfl
  rintro ⟨h1, h2, h3, h4, h5, h6⟩
  unfold effectiveArea3dLonlatQ effectiveArea3dLonlat
  rw [g1 ⟨h4, h5, h6⟩]
  generalize nShowers3dLonlat _ _ _ _ = r
  cases r with
  | error e => rfl
  | ok sim =>
    show (checkDim _ _ >>= _) = _
    simp only [checkDim_bind, edges_bind, reals_bind, e0, e1, h1, h2, h3, h4, h5, h6, if_true]
    have := histogram3d_scale one_pos hc.2 hc.2 (energyBins.inUnit (teV c)) (finEdges (lonBins.realsIn (degree c))) (finEdges (latBins.realsIn (degree c)))
      (t.rows.map fun r => (conv t.energy (teV c) r.energy, conv t.lon (degree c) r.lon, conv t.lat (degree c) r.lat, 1))
    simp only [one_scale, ← realsIn_rad hc, List.map_map, Function.comp_def, ← conv_rad hc] at this
    have k1 : finEdges (lonBins.realsIn radian) = finEdges (gridOf lonBins latBins).lon := by
      funext i
      show FV.fin (lonBins.unit.scale / 1 * lonBins.val i) = FV.fin (lonBins.val i * lonBins.unit.scale)
      congr 1; ring
    have k2 : finEdges (latBins.realsIn radian) = finEdges (gridOf lonBins latBins).lat := by
      funext i
      show FV.fin (latBins.unit.scale / 1 * latBins.val i) = FV.fin (latBins.val i * latBins.unit.scale)
      congr 1; ring
    rw [k1, k2] at this
    unfold TrueTable.si
    rw [List.map_map]
    simp only [Function.comp_def]
    rw [this]
    generalize histogram3d (K := ℝ) _ _ _ _ = r
    cases r with
    | error e => rfl
    | ok hist =>
      simp only [bind, Except.bind]
      rw [if_pos (area_dim hd)]
      have := broadcast3_map (fun a b => effectiveArea (FV.fin a) b (Real.pi * (s.si c).maxImpact ^ 2)) (fun a b => effectiveArea (FV.fin a) b s.area.val)
        (fun x => FV.fin (1 / s.maxImpact.unit.scale ^ 2) * x) (Arr3.ofFn 0 hist) (Arr3.ofFn 0 hist) (Arr3.ofFn FV.nan sim) (Arr3.ofFn FV.nan sim) rfl rfl
        (fun i j l i' j' l' => (area_entry hs c _ _).symm)
      rw [← this]
      generalize broadcast3 _ _ _ = r
      cases r <;> rfl

/-! ## The same quantities in other units -/

/-- The areas of a result in m^2. -/
noncomputable def inM2 {ι : Type} (q : Q (ι → FV ℝ)) : ι → FV ℝ := fun i => Units.si q.unit (q.val i)

omit hc in
theorem inM2_inAreaUnit {ι : Type} {s : InfoQ} (hs : s.Pos) (a : ι → FV ℝ) : inM2 (inAreaUnit s a) = a := by
  have h := hs.2.2.1
  funext i
  unfold inM2 inAreaUnit Units.si
  rw [scale_scale (by positivity)]
  have : s.maxImpact.unit.scale ^ 2 * (1 / s.maxImpact.unit.scale ^ 2) = 1 := by field_simp
  simp only [this, one_scale]

omit hc in
theorem map_inM2 {α ι : Type} {s : InfoQ} (hs : s.Pos) (f : α → ι → FV ℝ) (r : Except Err α) : (r.map fun a => inAreaUnit s (f a)).map inM2 = r.map f := by
  cases r with
  | error e => rfl
  | ok a => exact congrArg Except.ok (inM2_inAreaUnit hs (f a))

/-- **C152** (effective area per energy, same quantities) Equal areas, whatever the units of the column, the bins and the simulation info. -/
theorem C152_area_per_energy {events events' : EventTable ℝ} {un un' : PhysUnit ℝ} (hu : SameU un un') (hdim : un.dim = dimEnergy) (hw : events.hasWeight = events'.hasWeight)
    (hp : events.hasParticle = events'.hasParticle)
    (hrows : List.Forall₂ (fun r r' : Event ℝ => Units.si un r.key = Units.si un' r'.key ∧ r.weight = r'.weight ∧ r.particle = r'.particle) events.rows events'.rows)
    {s s' : InfoQ} (h : SameInfo s s') (hd : s.DimsOk) {n : ℕ} {bins bins' : Q (Fin (n + 1) → FV ℝ)} (hb : Same bins bins') :
    (effectiveAreaPerEnergyQ c events un s bins).map inM2 = (effectiveAreaPerEnergyQ c events' un' s' bins').map inM2 := by
  obtain ⟨p1, p2, p3⟩ := dims_of_same hc h hd
  obtain ⟨a1, a2, -⟩ := C152_area_per_energy_si hc events hu.2.1 p1 hd bins hb.2.1
  obtain ⟨b1, b2, -⟩ := C152_area_per_energy_si hc events' hu.2.2 p2 p3 bins' hb.2.2.1
  rw [← hb.1, ← hu.1] at b1 b2
  by_cases hdb : bins.unit.dim = dimEnergy
  · have e : inKeyUnit un (teV c) events = inKeyUnit un' (teV c) events' := by
      unfold inKeyUnit
      rw [hw, hp]
      congr 1
      apply List.forall₂_eq_eq_eq ▸ (List.forall₂_map_left_iff.2 (List.forall₂_map_right_iff.2 (hrows.imp ?_)))
      rintro r r' ⟨e1, e2, e3⟩
      rw [conv_congr hc (teV_pos hc) e1, e2, e3]
    rw [a1 ⟨hdim, hdb⟩, b1 ⟨hdim, hdb⟩, e, h.si, hb.inUnit hc (teV_pos hc)]
    exact (map_inM2 p1 (fun a => a) _).trans (map_inM2 p2 (fun a => a) _).symm
  · rw [a2 hdim hdb, b2 hdim hdb]

/-- **C152** (effective area per energy and offset, same quantities) -/
theorem C152_area_per_energy_fov {t u : TrueTable} (ht : SameTrue t u) {s s' : InfoQ} (h : SameInfo s s') (hd : s.DimsOk) {n m : ℕ} {energyBins energyBins' : Q (Fin (n + 1) → FV ℝ)}
    (he : Same energyBins energyBins') {fovBins fovBins' : Q (Fin (m + 1) → ℝ)} (hf : SameR fovBins fovBins') :
    (effectiveAreaPerEnergyAndFovQ c t s energyBins fovBins).map inM2 = (effectiveAreaPerEnergyAndFovQ c u s' energyBins' fovBins').map inM2 := by
  obtain ⟨p1, p2, p3⟩ := dims_of_same hc h hd
  obtain ⟨a1, a2, a3⟩ := C152_area_per_energy_fov_si hc t p1 hd energyBins he.2.1 fovBins hf.2.1
  obtain ⟨b1, b2, b3⟩ := C152_area_per_energy_fov_si hc u p2 p3 energyBins' he.2.2.1 fovBins' hf.2.2.1
  rw [← he.1, ← hf.1] at b1 b2 b3
  rw [← ht.1.1, ← ht.2.1.1] at b1 b3
  by_cases hb : energyBins.unit.dim = dimEnergy ∧ fovBins.unit.dim = dimAngle
  · by_cases hx : t.energy.dim = dimEnergy ∧ t.offset.dim = dimAngle
    · rw [a1 ⟨hx.1, hx.2, hb⟩, b1 ⟨hx.1, hx.2, hb⟩, ht.si hc, h.si, he.inUnit hc (teV_pos hc), hf.realsIn hc one_pos]
      exact (map_inM2 p1 (fun (a : Fin n → Fin m → FV ℝ) (ij : Fin n × Fin m) => a ij.1 ij.2) _).trans (map_inM2 p2 (fun (a : Fin n → Fin m → FV ℝ) (ij : Fin n × Fin m) => a ij.1 ij.2) _).symm
    · rw [a3 ⟨hb.1, hb.2, hx⟩, b3 ⟨hb.1, hb.2, hx⟩, h.2.2.2.2.2.1.num, h.2.2.2.2.2.2.num]
  · rw [a2 hb, b2 hb]

/-- **C152** (effective area in polar bins, same quantities) -/
theorem C152_area_polar {t u : TrueTable} (ht : SameTrue t u) {s s' : InfoQ} (h : SameInfo s s') (hd : s.DimsOk) {n m k : ℕ} {energyBins energyBins' : Q (Fin (n + 1) → FV ℝ)}
    (he : Same energyBins energyBins') {offsetBins offsetBins' : Q (Fin (m + 1) → ℝ)} (hf : SameR offsetBins offsetBins') {positionAngleBins positionAngleBins' : Q (Fin (k + 1) → ℝ)}
    (hp : SameR positionAngleBins positionAngleBins') :
    (effectiveArea3dPolarQ c t s energyBins offsetBins positionAngleBins).map inM2 = (effectiveArea3dPolarQ c u s' energyBins' offsetBins' positionAngleBins').map inM2 := by
  obtain ⟨p1, p2, p3⟩ := dims_of_same hc h hd
  obtain ⟨a1, a2, a3⟩ := C152_area_polar_si hc t p1 hd energyBins he.2.1 offsetBins hf.2.1 positionAngleBins
  obtain ⟨b1, b2, b3⟩ := C152_area_polar_si hc u p2 p3 energyBins' he.2.2.1 offsetBins' hf.2.2.1 positionAngleBins'
  rw [← he.1, ← hf.1, ← hp.1] at b1 b2 b3
  rw [← ht.1.1, ← ht.2.1.1, ← ht.2.2.1.1] at b1 b3
  by_cases hb : energyBins.unit.dim = dimEnergy ∧ offsetBins.unit.dim = dimAngle ∧ positionAngleBins.unit.dim = dimAngle
  · by_cases hx : t.energy.dim = dimEnergy ∧ t.offset.dim = dimAngle ∧ t.positionAngle.dim = dimAngle
    · rw [a1 ⟨hx.1, hx.2.1, hx.2.2, hb⟩, b1 ⟨hx.1, hx.2.1, hx.2.2, hb⟩, ht.si hc, h.si, he.inUnit hc (teV_pos hc), hf.realsIn hc one_pos, hp.realsIn hc one_pos]
      exact (map_inM2 p1 (fun (a : Fin n → Fin m → Fin k → FV ℝ) (ijl : Fin n × Fin m × Fin k) => a ijl.1 ijl.2.1 ijl.2.2) _).trans (map_inM2 p2 (fun (a : Fin n → Fin m → Fin k → FV ℝ) (ijl : Fin n × Fin m × Fin k) => a ijl.1 ijl.2.1 ijl.2.2) _).symm
    · rw [a3 ⟨hb.1, hb.2.1, hb.2.2, hx⟩, b3 ⟨hb.1, hb.2.1, hb.2.2, hx⟩, h.2.2.2.2.2.1.num, h.2.2.2.2.2.2.num]
  · rw [a2 hb, b2 hb]

/-! ## A concrete case: a simulation info in TeV, m, degree and in GeV, km, radian -/

section example_
omit hc

/-- km -/
noncomputable def exKm : PhysUnit ℝ := ⟨dimLength, 1000⟩

example : SameInfo ⟨1000, ⟨teV exConsts, 1⟩, ⟨teV exConsts, 100⟩, ⟨metre, 500⟩, -2, ⟨degree exConsts, 0⟩, ⟨degree exConsts, 10⟩⟩
    ⟨1000, ⟨exGeV, 1000⟩, ⟨exGeV, 100000⟩, ⟨exKm, 1 / 2⟩, -2, ⟨radian, 0⟩, ⟨radian, 10 / 64⟩⟩ := by
  refine ⟨rfl, rfl, ⟨rfl, ?_, ?_, ?_⟩, ⟨rfl, ?_, ?_, ?_⟩, ⟨rfl, ?_, ?_, ?_⟩, ⟨rfl, ?_, ?_, ?_⟩, ⟨rfl, ?_, ?_, ?_⟩⟩ <;> norm_num [teV, degree, exConsts, exGeV, radian, metre, exKm]

example : InfoQ.DimsOk ⟨1000, ⟨exGeV, 1000⟩, ⟨exGeV, 100000⟩, ⟨exKm, 1 / 2⟩, -2, ⟨radian, 0⟩, ⟨radian, 10 / 64⟩⟩ := ⟨rfl, rfl, rfl, rfl, rfl⟩
example : InfoQ.Pos ⟨1000, ⟨exGeV, 1000⟩, ⟨exGeV, 100000⟩, ⟨exKm, 1 / 2⟩, -2, ⟨radian, 0⟩, ⟨radian, 10 / 64⟩⟩ := by
  refine ⟨?_, ?_, ?_, ?_, ?_⟩ <;> norm_num [exGeV, radian, exKm]

example : SameTrue ⟨teV exConsts, degree exConsts, degree exConsts, degree exConsts, degree exConsts, [⟨.fin 2, .fin 1, .fin 64, .pinf, .nan⟩]⟩
    ⟨exGeV, degree exConsts, radian, radian, radian, [⟨.fin 2000, .fin 1, .fin 1, .pinf, .nan⟩]⟩ := by
  refine ⟨⟨rfl, ?_, ?_⟩, ⟨rfl, ?_, ?_⟩, ⟨rfl, ?_, ?_⟩, ⟨rfl, ?_, ?_⟩, ⟨rfl, ?_, ?_⟩, .cons ⟨?_, ?_, ?_, ?_, ?_⟩ .nil⟩ <;> norm_num [teV, degree, exConsts, exGeV, radian, Units.si, scale_pinf]

end example_

end Pyirf.Units
