import Verif.Coords.Props
import Verif.Np.AngleDist

/-!
# Property C139: field-of-view coordinates preserve angular distances

The specification is that of C70: `unitVec`, `IsAngle`.
-/
set_option linter.unusedSectionVars false
set_option linter.unusedSimpArgs false

namespace Pyirf.Coords
open Pyirf Pyirf.Np

/-! ## Lemmas -/

/-- the direction of the field-of-view coordinates is the rotated and mirrored direction -/
theorem lonlat_vec (lon lat plon plat : ℝ) (hlat : |lat| ≤ Real.pi / 2) (hplat : |plat| ≤ Real.pi / 2) :
    ∃ L B, gadfFovCoordsLonLat lon lat plon plat = .ok (L, B) ∧
      unitVec L B = ![(offsetCartesian lon lat plon plat).1, -(offsetCartesian lon lat plon plat).2.1,
        (offsetCartesian lon lat plon plat).2.2] := by
  unfold gadfFovCoordsLonLat
  rw [if_pos ⟨hplat, hlat⟩]
  simp only []
  set p := offsetCartesian lon lat plon plat with hp
  have hnorm : p.1 ^ 2 + p.2.1 ^ 2 + p.2.2 ^ 2 = 1 := by
    rw [hp]
    simp only [offsetCartesian]
    have e1 := Real.sin_sq_add_cos_sq lat
    have e2 := Real.sin_sq_add_cos_sq lon
    have e3 := Real.sin_sq_add_cos_sq plon
    have e4 := Real.sin_sq_add_cos_sq plat
    generalize Real.sin lat = s1 at *
    generalize Real.cos lat = c1 at *
    generalize Real.sin lon = s2 at *
    generalize Real.cos lon = c2 at *
    generalize Real.sin plon = s3 at *
    generalize Real.cos plon = c3 at *
    generalize Real.sin plat = s4 at *
    generalize Real.cos plat = c4 at *
    have e1' : s1 ^ 2 = 1 - c1 ^ 2 := by linarith
    have e2' : s2 ^ 2 = 1 - c2 ^ 2 := by linarith
    have e3' : s3 ^ 2 = 1 - c3 ^ 2 := by linarith
    have e4' : s4 ^ 2 = 1 - c4 ^ 2 := by linarith
    have : (c4 * (c3 * (c1 * c2) + s3 * (c1 * s2)) + s4 * s1) ^ 2 + (-s3 * (c1 * c2) + c3 * (c1 * s2)) ^ 2 +
        (-s4 * (c3 * (c1 * c2) + s3 * (c1 * s2)) + c4 * s1) ^ 2 =
        (s4 ^ 2 + c4 ^ 2) * ((c3 * (c1 * c2) + s3 * (c1 * s2)) ^ 2 + s1 ^ 2) + (-s3 * (c1 * c2) + c3 * (c1 * s2)) ^ 2 := by ring
    rw [this, e4]
    have : 1 * ((c3 * (c1 * c2) + s3 * (c1 * s2)) ^ 2 + s1 ^ 2) + (-s3 * (c1 * c2) + c3 * (c1 * s2)) ^ 2 =
        (s3 ^ 2 + c3 ^ 2) * ((s2 ^ 2 + c2 ^ 2) * c1 ^ 2) + s1 ^ 2 := by ring
    rw [this, e3, e2]; linarith
  have hh : hypot (hypot p.1 p.2.1) p.2.2 = 1 := by
    unfold hypot
    rw [Real.sq_sqrt (by positivity), hnorm, Real.sqrt_one]
  obtain ⟨b1, b2⟩ := arctan2_polar p.2.2 (hypot p.1 p.2.1)
  rw [hh, one_mul] at b1 b2
  obtain ⟨l1, l2⟩ := arctan2_polar p.2.1 p.1
  rw [b1] at l1 l2
  refine ⟨_, _, rfl, ?_⟩
  unfold unitVec
  rw [Real.cos_neg, Real.sin_neg, cos_wrap180, sin_wrap180, mul_neg, ← l1, ← l2, ← b2]

/-- the rotation keeps scalar products -/
theorem dot_offset (lon lat lon' lat' plon plat : ℝ) :
    dot ![(offsetCartesian lon lat plon plat).1, -(offsetCartesian lon lat plon plat).2.1, (offsetCartesian lon lat plon plat).2.2]
      ![(offsetCartesian lon' lat' plon plat).1, -(offsetCartesian lon' lat' plon plat).2.1, (offsetCartesian lon' lat' plon plat).2.2] =
    dot (unitVec lon lat) (unitVec lon' lat') := by
  simp only [dot, unitVec, offsetCartesian, Fin.sum_univ_three, Matrix.cons_val_zero, Matrix.cons_val_one, Matrix.cons_val]
  have e3 := Real.sin_sq_add_cos_sq plon
  have e4 := Real.sin_sq_add_cos_sq plat
  generalize Real.sin plon = s3 at *
  generalize Real.cos plon = c3 at *
  generalize Real.sin plat = s4 at *
  generalize Real.cos plat = c4 at *
  generalize Real.cos lat * Real.cos lon = a1
  generalize Real.cos lat * Real.sin lon = a2
  generalize Real.sin lat = a3
  generalize Real.cos lat' * Real.cos lon' = b1
  generalize Real.cos lat' * Real.sin lon' = b2
  generalize Real.sin lat' = b3
  have h1 : (c4 * (c3 * a1 + s3 * a2) + s4 * a3) * (c4 * (c3 * b1 + s3 * b2) + s4 * b3) +
      (-(-s3 * a1 + c3 * a2)) * (-(-s3 * b1 + c3 * b2)) +
      (-s4 * (c3 * a1 + s3 * a2) + c4 * a3) * (-s4 * (c3 * b1 + s3 * b2) + c4 * b3) =
      (s4 ^ 2 + c4 ^ 2) * ((c3 * a1 + s3 * a2) * (c3 * b1 + s3 * b2) + a3 * b3) + (-s3 * a1 + c3 * a2) * (-s3 * b1 + c3 * b2) := by ring
  have h2 : 1 * ((c3 * a1 + s3 * a2) * (c3 * b1 + s3 * b2) + a3 * b3) + (-s3 * a1 + c3 * a2) * (-s3 * b1 + c3 * b2) =
      (s3 ^ 2 + c3 ^ 2) * (a1 * b1 + a2 * b2) + a3 * b3 := by ring
  rw [h1, e4, h2, e3, one_mul]

/-! ## C139 -/

/-- **C139** (distances) Two directions seen with the same pointing: the angular separation of their field-of-view longitudes and latitudes
is their angular separation on the sky, so `calculate_theta` can be used with either kind of coordinates. -/
theorem C139_isometry (lon lat lon' lat' plon plat L B L' B' : ℝ)
    (h : gadfFovCoordsLonLat lon lat plon plat = .ok (L, B)) (h' : gadfFovCoordsLonLat lon' lat' plon plat = .ok (L', B')) :
    calculateTheta L B L' B' = calculateTheta lon lat lon' lat' ∧
    (∀ t, IsAngle t L B L' B' ↔ IsAngle t lon lat lon' lat') := by
  have hv : ∀ {lon lat L B : ℝ}, gadfFovCoordsLonLat lon lat plon plat = .ok (L, B) → |lat| ≤ Real.pi / 2 ∧ |plat| ≤ Real.pi / 2 := by
    intro lon lat L B h
    by_contra hc
    rw [(C70_latitude_error lon lat plon plat).mpr hc] at h
    cases h
  obtain ⟨a, b, e, v⟩ := lonlat_vec lon lat plon plat (hv h).1 (hv h).2
  obtain ⟨a', b', e', v'⟩ := lonlat_vec lon' lat' plon plat (hv h').1 (hv h').2
  rw [h] at e; rw [h'] at e'
  cases e; cases e'
  have hd : dot (unitVec L B) (unitVec L' B') = dot (unitVec lon lat) (unitVec lon' lat') := by
    rw [v, v', dot_offset]
  refine ⟨?_, fun t => by unfold IsAngle; rw [hd]⟩
  refine isAngle_unique (angularSeparation_isAngle _ _ _ _) (angularSeparation_isAngle _ _ _ _) ?_
  rw [dot_comm, hd, dot_comm]

/-- **C139** (centre) The pointing itself is at longitude and latitude 0, and the distance of a direction's coordinates to that centre is its
theta and its `calculate_source_fov_offset`. -/
theorem C139_centre (lon lat plon plat : ℝ) (hlat : |lat| ≤ Real.pi / 2) (hplat : |plat| ≤ Real.pi / 2) :
    gadfFovCoordsLonLat plon plat plon plat = .ok (0, 0) ∧
    ∃ L B, gadfFovCoordsLonLat lon lat plon plat = .ok (L, B) ∧
      calculateTheta L B 0 0 = (gadfFovCoordsThetaPhi lon lat plon plat).1 ∧
      calculateTheta L B 0 0 = calculateSourceFovOffset lon lat plon plat := by
  have h0 : gadfFovCoordsLonLat plon plat plon plat = .ok (0, 0) := by
    have e1 := Real.sin_sq_add_cos_sq plon
    have e2 := Real.sin_sq_add_cos_sq plat
    have hp : offsetCartesian plon plat plon plat = (1, 0, 0) := by
      simp only [offsetCartesian, Prod.mk.injEq]
      generalize Real.sin plon = s at *
      generalize Real.cos plon = c at *
      generalize Real.sin plat = s' at *
      generalize Real.cos plat = c' at *
      have h1 : c * (c' * c) + s * (c' * s) = c' := by
        have : c * (c' * c) + s * (c' * s) = c' * (s ^ 2 + c ^ 2) := by ring
        rw [this, e1, mul_one]
      rw [h1]
      refine ⟨by nlinarith, by ring, by ring⟩
    have ha : ∀ x : ℝ, 0 ≤ x → arctan2 0 x = 0 := fun x hx => by
      unfold arctan2
      exact Complex.arg_ofReal_of_nonneg hx
    have hw : wrap180 0 = 0 := by
      have := wrap180_mem 0
      unfold wrap180
      have hf : ⌊(0 + Real.pi) / (2 * Real.pi)⌋ = 0 := by
        rw [Int.floor_eq_zero_iff]
        have hpi := Real.pi_pos
        constructor
        · positivity
        · rw [div_lt_one (by positivity)]; linarith
      rw [hf]; simp
    unfold gadfFovCoordsLonLat
    rw [if_pos ⟨hplat, hplat⟩, hp]
    simp only []
    rw [ha 1 zero_le_one, ha _ (hypot_nonneg 1 0), hw, neg_zero]
  obtain ⟨L, B, e, -⟩ := lonlat_vec lon lat plon plat hlat hplat
  refine ⟨h0, L, B, e, ?_, ?_⟩
  · rw [(C139_isometry _ _ _ _ _ _ _ _ _ _ e h0).1]; exact (C70_same_theta _ _ _ _).1
  · rw [(C139_isometry _ _ _ _ _ _ _ _ _ _ e h0).1, (C70_same_theta _ _ _ _).1, (C70_same_theta _ _ _ _).2.1]

/-- **C139** (triangle inequality) Moving the assumed source position by a distance changes the theta of an event by at most that distance. -/
theorem C139_lipschitz (az alt lon lat lon' lat' : ℝ) :
    |calculateTheta az alt lon lat - calculateTheta az alt lon' lat'| ≤ calculateTheta lon lat lon' lat' := by
  unfold calculateTheta
  have t1 := angularSeparation_triangle lon lat lon' lat' az alt
  have t2 := angularSeparation_triangle lon' lat' lon lat az alt
  rw [angularSeparation_comm lon lat lon' lat'] at t1
  rw [abs_le]
  constructor <;> linarith

/-- example: both directions are valid for a pointing at 1 rad altitude -/
example : ∃ L B L' B', gadfFovCoordsLonLat 0 1 0.5 1 = .ok (L, B) ∧ gadfFovCoordsLonLat 1 0.5 0.5 1 = .ok (L', B') := by
  have h2 := Real.two_le_pi
  have a1 : |(1 : ℝ)| ≤ Real.pi / 2 := by rw [abs_one]; linarith
  have a2 : |(0.5 : ℝ)| ≤ Real.pi / 2 := by rw [abs_of_nonneg (by norm_num)]; linarith
  obtain ⟨L, B, e, -⟩ := lonlat_vec 0 1 0.5 1 a1 a1
  obtain ⟨L', B', e', -⟩ := lonlat_vec 1 0.5 0.5 1 a2 a1
  exact ⟨L, B, L', B', e, e'⟩

end Pyirf.Coords
