import Verif.Coords.Model

/-!
# Property C70: field-of-view coordinates
-/
set_option linter.unusedSectionVars false
set_option linter.unusedSimpArgs false

namespace Pyirf.Coords
open Pyirf Pyirf.Np

/-! ## Specification -/

/-- The unit vector of the direction with longitude `lon` and latitude `lat`. -/
noncomputable def unitVec (lon lat : ℝ) : Fin 3 → ℝ :=
  ![Real.cos lat * Real.cos lon, Real.cos lat * Real.sin lon, Real.sin lat]

/-- Scalar product of two vectors. -/
def dot (v w : Fin 3 → ℝ) : ℝ := ∑ i, v i * w i

/-- `theta` is the angle between the directions. -/
def IsAngle (theta lon1 lat1 lon2 lat2 : ℝ) : Prop :=
  0 ≤ theta ∧ theta ≤ Real.pi ∧ Real.cos theta = dot (unitVec lon1 lat1) (unitVec lon2 lat2)

/-! ## Lemmas -/

theorem dot_unit (lon1 lat1 lon2 lat2 : ℝ) : dot (unitVec lon1 lat1) (unitVec lon2 lat2) =
    Real.sin lat1 * Real.sin lat2 + Real.cos lat1 * Real.cos lat2 * Real.cos (lon2 - lon1) := by
  simp [dot, unitVec, Fin.sum_univ_three, Real.cos_sub]
  ring

theorem dot_comm (v w : Fin 3 → ℝ) : dot v w = dot w v := by
  unfold dot; congr 1; funext i; ring

theorem dot_unit_self (lon lat : ℝ) : dot (unitVec lon lat) (unitVec lon lat) = 1 := by
  rw [dot_unit]; simp only [sub_self, Real.cos_zero, mul_one]
  have := Real.sin_sq_add_cos_sq lat
  nlinarith

theorem eq_of_dot_one (lon1 lat1 lon2 lat2 : ℝ) (h : dot (unitVec lon1 lat1) (unitVec lon2 lat2) = 1) :
    unitVec lon1 lat1 = unitVec lon2 lat2 := by
  have h1 := dot_unit_self lon1 lat1
  have h2 := dot_unit_self lon2 lat2
  have hs : ∑ i, (unitVec lon1 lat1 i - unitVec lon2 lat2 i) ^ 2 = 0 := by
    have : ∑ i, (unitVec lon1 lat1 i - unitVec lon2 lat2 i) ^ 2 =
        dot (unitVec lon1 lat1) (unitVec lon1 lat1) - 2 * dot (unitVec lon1 lat1) (unitVec lon2 lat2) +
        dot (unitVec lon2 lat2) (unitVec lon2 lat2) := by
      unfold dot
      rw [Finset.mul_sum, ← Finset.sum_sub_distrib, ← Finset.sum_add_distrib]
      congr 1; funext i; ring
    rw [this, h, h1, h2]; ring
  funext i
  have := (Finset.sum_eq_zero_iff_of_nonneg (fun i _ => sq_nonneg _)).mp hs i (Finset.mem_univ i)
  have := pow_eq_zero_iff (two_ne_zero) |>.mp this
  linarith

theorem angularSeparation_isAngle (lon1 lat1 lon2 lat2 : ℝ) :
    IsAngle (angularSeparation lon1 lat1 lon2 lat2) lon1 lat1 lon2 lat2 := by
  refine ⟨(angularSeparation_mem _ _ _ _).1, (angularSeparation_mem _ _ _ _).2, ?_⟩
  rw [dot_unit, (cos_angularSeparation _ _ _ _).1]

theorem isAngle_unique {t t' lon1 lat1 lon2 lat2 lon1' lat1' lon2' lat2' : ℝ} (h : IsAngle t lon1 lat1 lon2 lat2)
    (h' : IsAngle t' lon1' lat1' lon2' lat2')
    (he : dot (unitVec lon1 lat1) (unitVec lon2 lat2) = dot (unitVec lon1' lat1') (unitVec lon2' lat2')) : t = t' := by
  apply Real.injOn_cos ⟨h.1, h.2.1⟩ ⟨h'.1, h'.2.1⟩
  rw [h.2.2, h'.2.2, he]

/-! ## C70 -/

/-- **C70** (theta) The theta of `gadf_fov_coords_theta_phi` is the angle in [0, 180] deg between pointing and direction; it is
0 exactly if they are the same direction. -/
theorem C70_theta (lon lat plon plat : ℝ) :
    let theta := (gadfFovCoordsThetaPhi lon lat plon plat).1
    IsAngle theta plon plat lon lat ∧ (theta = 0 ↔ unitVec plon plat = unitVec lon lat) := by
  intro theta
  have ha : IsAngle theta plon plat lon lat := angularSeparation_isAngle _ _ _ _
  refine ⟨ha, ?_, ?_⟩
  · intro h0
    apply eq_of_dot_one
    rw [← ha.2.2, h0, Real.cos_zero]
  · intro he
    have hc : Real.cos theta = 1 := by rw [ha.2.2, he, dot_unit_self]
    have := Real.injOn_cos (x₁ := theta) (x₂ := 0) ⟨ha.1, ha.2.1⟩ ⟨le_rfl, Real.pi_pos.le⟩ (by rw [hc, Real.cos_zero])
    exact this

/-- **C70** (functions agree) `calculate_theta` and `calculate_source_fov_offset` are symmetric in the two directions and both
give the theta of `gadf_fov_coords_theta_phi`; a full turn in longitude changes nothing. -/
theorem C70_same_theta (lon lat plon plat : ℝ) :
    calculateTheta lon lat plon plat = (gadfFovCoordsThetaPhi lon lat plon plat).1 ∧
    calculateSourceFovOffset lon lat plon plat = (gadfFovCoordsThetaPhi lon lat plon plat).1 ∧
    calculateTheta lon lat plon plat = calculateTheta plon plat lon lat ∧
    calculateSourceFovOffset lon lat plon plat = calculateSourceFovOffset plon plat lon lat ∧
    calculateTheta (lon + 2 * Real.pi) lat plon plat = calculateTheta lon lat plon plat ∧
    calculateSourceFovPositionAngle lon lat plon plat = (gadfFovCoordsThetaPhi lon lat plon plat).2 ∧
    calculateSourceFovLonlat lon lat plon plat = gadfFovCoordsLonLat lon lat plon plat := by
  have hsym : ∀ a b c d : ℝ, angularSeparation a b c d = angularSeparation c d a b := by
    intro a b c d
    exact isAngle_unique (angularSeparation_isAngle a b c d) (angularSeparation_isAngle c d a b) (dot_comm _ _)
  refine ⟨rfl, hsym _ _ _ _, hsym _ _ _ _, hsym _ _ _ _, ?_, rfl, rfl⟩
  apply isAngle_unique (angularSeparation_isAngle _ _ _ _) (angularSeparation_isAngle _ _ _ _)
  simp [unitVec]

/-- **C70** (phi) phi lies in [0, 360) deg. -/
theorem C70_phi_range (lon lat plon plat : ℝ) :
    0 ≤ (gadfFovCoordsThetaPhi lon lat plon plat).2 ∧ (gadfFovCoordsThetaPhi lon lat plon plat).2 < 2 * Real.pi :=
  wrap360_mem _

/-- **C70** (both systems describe the same direction) With (theta, phi) and (L, B) the two kinds of field-of-view coordinates of
one direction: the point with longitude L and latitude B on the sphere is the one at distance theta from the centre (1, 0, 0) in
the direction phi, where phi = 0 points north and phi = 90 deg to positive longitude L. L is in (-180, 180], B in [-90, 90].
The call succeeds exactly if both latitudes are in [-90, 90] deg. -/
theorem C70_same_direction (lon lat plon plat : ℝ) (hlat : |lat| ≤ Real.pi / 2) (hplat : |plat| ≤ Real.pi / 2) :
    ∃ L B, gadfFovCoordsLonLat lon lat plon plat = .ok (L, B) ∧
      -Real.pi < L ∧ L ≤ Real.pi ∧ |B| ≤ Real.pi / 2 ∧
      let theta := (gadfFovCoordsThetaPhi lon lat plon plat).1
      let phi := (gadfFovCoordsThetaPhi lon lat plon plat).2
      unitVec L B = ![Real.cos theta, Real.sin theta * Real.sin phi, Real.sin theta * Real.cos phi] := by
  unfold gadfFovCoordsLonLat
  rw [if_pos ⟨hplat, hlat⟩]
  simp only []
  set p := offsetCartesian lon lat plon plat with hp
  -- the rotated vector
  have hx : p.1 = Real.sin plat * Real.sin lat + Real.cos plat * Real.cos lat * Real.cos (lon - plon) := by
    rw [hp]; simp only [offsetCartesian, Real.cos_sub]; ring
  have hy : p.2.1 = Real.cos lat * Real.sin (lon - plon) := by
    rw [hp]; simp only [offsetCartesian, Real.sin_sub]; ring
  have hz : p.2.2 = Real.sin lat * Real.cos plat - Real.cos lat * Real.sin plat * Real.cos (lon - plon) := by
    rw [hp]; simp only [offsetCartesian, Real.cos_sub]; ring
  obtain ⟨ct, st⟩ := cos_angularSeparation plon plat lon lat
  have hnorm : p.1 ^ 2 + p.2.1 ^ 2 + p.2.2 ^ 2 = 1 := by
    have h1 := Real.sin_sq_add_cos_sq (angularSeparation plon plat lon lat)
    rw [ct, st, hypot_sq] at h1
    rw [hx, hy, hz]
    rw [← h1]; ring
  have hh : hypot (hypot p.1 p.2.1) p.2.2 = 1 := by
    unfold hypot
    rw [Real.sq_sqrt (by positivity), hnorm, Real.sqrt_one]
  obtain ⟨b1, b2⟩ := arctan2_polar p.2.2 (hypot p.1 p.2.1)
  rw [hh, one_mul] at b1 b2
  obtain ⟨l1, l2⟩ := arctan2_polar p.2.1 p.1
  rw [b1] at l1 l2
  obtain ⟨q1, q2⟩ := arctan2_polar p.2.1 p.2.2
  have hst : hypot p.2.2 p.2.1 = Real.sin (angularSeparation plon plat lon lat) := by
    rw [st]
    unfold hypot
    congr 1
    rw [hy, hz]; ring
  rw [hst] at q1 q2
  refine ⟨_, _, rfl, ?_, ?_, ?_, ?_⟩
  · linarith [(wrap180_mem (arctan2 p.2.1 p.1)).2]
  · linarith [(wrap180_mem (arctan2 p.2.1 p.1)).1]
  · exact Complex.abs_arg_le_pi_div_two_iff.mpr (hypot_nonneg _ _)
  · have hphi : (gadfFovCoordsThetaPhi lon lat plon plat).2 = wrap360 (-(wrap360 (arctan2 p.2.1 p.2.2))) := by
      unfold gadfFovCoordsThetaPhi positionAngle
      simp only []
      rw [hy, hz, mul_comm (Real.sin (lon - plon))]
    have hth : (gadfFovCoordsThetaPhi lon lat plon plat).1 = angularSeparation plon plat lon lat := rfl
    rw [hphi, hth, sin_wrap360, cos_wrap360, Real.sin_neg, Real.cos_neg, sin_wrap360, cos_wrap360]
    unfold unitVec
    rw [Real.cos_neg, Real.sin_neg, cos_wrap180, sin_wrap180, ← l1, ← b2]
    have hc : Real.cos (angularSeparation plon plat lon lat) = p.1 := by rw [ct, hx]
    have e2 : Real.cos (arctan2 p.2.2 (hypot p.1 p.2.1)) * -Real.sin (arctan2 p.2.1 p.1) =
        Real.sin (angularSeparation plon plat lon lat) * -Real.sin (arctan2 p.2.1 p.2.2) := by
      rw [mul_neg, mul_neg, ← l2, ← q2]
    rw [hc, e2, ← q1]

/-- the call fails exactly for invalid latitudes -/
theorem C70_latitude_error (lon lat plon plat : ℝ) :
    gadfFovCoordsLonLat lon lat plon plat = .error .valueError ↔ ¬ (|lat| ≤ Real.pi / 2 ∧ |plat| ≤ Real.pi / 2) := by
  unfold gadfFovCoordsLonLat
  split
  · rename_i h; simp [h.1, h.2]
  · rename_i h; simp only [true_iff]; exact fun h' => h ⟨h'.2, h'.1⟩

/-- example: one radian north of the pointing gives theta = 1, phi = 0 -/
example : (gadfFovCoordsThetaPhi 0 1 0 0).1 = 1 ∧
    ∃ L B, gadfFovCoordsLonLat 0 1 0 0 = .ok (L, B) := by
  constructor
  · have h := (C70_theta 0 1 0 0).1
    apply Real.injOn_cos ⟨h.1, h.2.1⟩ ⟨zero_le_one, by linarith [Real.two_le_pi]⟩
    rw [h.2.2, dot_unit]; simp
  · obtain ⟨L, B, h, -⟩ := C70_same_direction 0 1 0 0 (by rw [abs_one]; linarith [Real.two_le_pi])
      (by rw [abs_zero]; positivity)
    exact ⟨L, B, h⟩

end Pyirf.Coords
