import Mathlib.Analysis.SpecialFunctions.Complex.Arg
import Mathlib.Algebra.Order.ToIntervalMod

/-!
# numpy / astropy contract: arctan2, hypot, angular separation, position angle

Angles are in radian and unrounded; signed zeros are not modelled.
-/
set_option linter.unusedSectionVars false

namespace Pyirf.Np

/-- `np.arctan2(y, x)`: the angle of the point `(x, y)`, in `(-π, π]`; 0 for the origin. -/
noncomputable def arctan2 (y x : ℝ) : ℝ := Complex.arg ⟨x, y⟩

/-- `np.hypot(x, y)` -/
noncomputable def hypot (x y : ℝ) : ℝ := Real.sqrt (x ^ 2 + y ^ 2)

/-- `astropy.coordinates.angular_separation(lon1, lat1, lon2, lat2)` (Vincenty formula, as in astropy/coordinates/angles/utils.py). -/
noncomputable def angularSeparation (lon1 lat1 lon2 lat2 : ℝ) : ℝ :=
  let sdlon := Real.sin (lon2 - lon1)
  let cdlon := Real.cos (lon2 - lon1)
  let slat1 := Real.sin lat1
  let slat2 := Real.sin lat2
  let clat1 := Real.cos lat1
  let clat2 := Real.cos lat2
  let num1 := clat2 * sdlon
  let num2 := clat1 * slat2 - slat1 * clat2 * cdlon
  let denominator := slat1 * slat2 + clat1 * clat2 * cdlon
  arctan2 (hypot num1 num2) denominator

/-- `Angle.wrap_at(360 deg)`: the equivalent angle in `[0, 2π)`. -/
noncomputable def wrap360 (x : ℝ) : ℝ := x - 2 * Real.pi * ⌊x / (2 * Real.pi)⌋

/-- `Longitude` with wrap angle 180 deg: the equivalent angle in `[-π, π)`
(astropy/coordinates/angles/core.py, `Angle._wrap_at`). -/
noncomputable def wrap180 (x : ℝ) : ℝ := x - 2 * Real.pi * ⌊(x + Real.pi) / (2 * Real.pi)⌋

/-- `astropy.coordinates.position_angle(lon1, lat1, lon2, lat2)`. -/
noncomputable def positionAngle (lon1 lat1 lon2 lat2 : ℝ) : ℝ :=
  let deltalon := lon2 - lon1
  let colat := Real.cos lat2
  let x := Real.sin lat2 * Real.cos lat1 - colat * Real.sin lat1 * Real.cos deltalon
  let y := Real.sin deltalon * colat
  wrap360 (arctan2 y x)

/-! ## Lemmas -/

theorem arctan2_polar (y x : ℝ) : x = hypot x y * Real.cos (arctan2 y x) ∧ y = hypot x y * Real.sin (arctan2 y x) := by
  have hn : ‖(⟨x, y⟩ : ℂ)‖ = hypot x y := by
    rw [Complex.norm_def, Complex.normSq_mk]
    unfold hypot; congr 1; ring
  unfold arctan2
  by_cases h : (⟨x, y⟩ : ℂ) = 0
  · have hx : x = 0 := congrArg Complex.re h
    have hy : y = 0 := congrArg Complex.im h
    subst hx; subst hy
    simp [hypot]
  · rw [Complex.cos_arg h, Complex.sin_arg, ← hn]
    have : ‖(⟨x, y⟩ : ℂ)‖ ≠ 0 := by simpa using h
    constructor <;> field_simp

theorem hypot_nonneg (x y : ℝ) : 0 ≤ hypot x y := Real.sqrt_nonneg _

theorem hypot_sq (x y : ℝ) : hypot x y ^ 2 = x ^ 2 + y ^ 2 := Real.sq_sqrt (by positivity)

theorem arctan2_mem (y x : ℝ) : -Real.pi < arctan2 y x ∧ arctan2 y x ≤ Real.pi :=
  ⟨Complex.neg_pi_lt_arg _, Complex.arg_le_pi _⟩

theorem arctan2_nonneg {y : ℝ} (h : 0 ≤ y) (x : ℝ) : 0 ≤ arctan2 y x := Complex.arg_nonneg_iff.mpr h

theorem wrap360_mem (x : ℝ) : 0 ≤ wrap360 x ∧ wrap360 x < 2 * Real.pi := by
  have hp : 0 < 2 * Real.pi := by positivity
  unfold wrap360
  have h1 := Int.floor_le (x / (2 * Real.pi))
  have h2 := Int.lt_floor_add_one (x / (2 * Real.pi))
  rw [le_div_iff₀ hp] at h1
  rw [div_lt_iff₀ hp] at h2
  constructor <;> nlinarith

theorem cos_wrap360 (x : ℝ) : Real.cos (wrap360 x) = Real.cos x := by
  unfold wrap360
  rw [mul_comm]
  exact Real.cos_sub_int_mul_two_pi x _

theorem sin_wrap360 (x : ℝ) : Real.sin (wrap360 x) = Real.sin x := by
  unfold wrap360
  rw [mul_comm]
  exact Real.sin_sub_int_mul_two_pi x _

theorem wrap180_mem (x : ℝ) : -Real.pi ≤ wrap180 x ∧ wrap180 x < Real.pi := by
  have hp : 0 < 2 * Real.pi := by positivity
  unfold wrap180
  have h1 := Int.floor_le ((x + Real.pi) / (2 * Real.pi))
  have h2 := Int.lt_floor_add_one ((x + Real.pi) / (2 * Real.pi))
  rw [le_div_iff₀ hp] at h1
  rw [div_lt_iff₀ hp] at h2
  constructor <;> nlinarith

theorem cos_wrap180 (x : ℝ) : Real.cos (wrap180 x) = Real.cos x := by
  unfold wrap180
  rw [mul_comm]
  exact Real.cos_sub_int_mul_two_pi x _

theorem sin_wrap180 (x : ℝ) : Real.sin (wrap180 x) = Real.sin x := by
  unfold wrap180
  rw [mul_comm]
  exact Real.sin_sub_int_mul_two_pi x _

/-- the angle between the two directions -/
theorem cos_angularSeparation (lon1 lat1 lon2 lat2 : ℝ) :
    Real.cos (angularSeparation lon1 lat1 lon2 lat2) =
      Real.sin lat1 * Real.sin lat2 + Real.cos lat1 * Real.cos lat2 * Real.cos (lon2 - lon1) ∧
    Real.sin (angularSeparation lon1 lat1 lon2 lat2) = hypot (Real.cos lat2 * Real.sin (lon2 - lon1))
      (Real.cos lat1 * Real.sin lat2 - Real.sin lat1 * Real.cos lat2 * Real.cos (lon2 - lon1)) := by
  unfold angularSeparation
  simp only []
  set d := Real.sin lat1 * Real.sin lat2 + Real.cos lat1 * Real.cos lat2 * Real.cos (lon2 - lon1) with hd
  set h := hypot (Real.cos lat2 * Real.sin (lon2 - lon1))
      (Real.cos lat1 * Real.sin lat2 - Real.sin lat1 * Real.cos lat2 * Real.cos (lon2 - lon1)) with hh
  have hone : hypot d h = 1 := by
    unfold hypot
    rw [hh, hypot_sq, hd]
    have e1 := Real.sin_sq_add_cos_sq lat1
    have e2 := Real.sin_sq_add_cos_sq lat2
    have e3 := Real.sin_sq_add_cos_sq (lon2 - lon1)
    rw [Real.sqrt_eq_one]
    generalize Real.sin lat1 = s1 at *
    generalize Real.cos lat1 = c1 at *
    generalize Real.sin lat2 = s2 at *
    generalize Real.cos lat2 = c2 at *
    generalize Real.sin (lon2 - lon1) = s at *
    generalize Real.cos (lon2 - lon1) = c at *
    have : (s1 * s2 + c1 * c2 * c) ^ 2 + ((c2 * s) ^ 2 + (c1 * s2 - s1 * c2 * c) ^ 2)
        = (s1 ^ 2 + c1 ^ 2) * (s2 ^ 2 + c2 ^ 2 * c ^ 2) + c2 ^ 2 * s ^ 2 := by ring
    rw [this, e1]
    have : 1 * (s2 ^ 2 + c2 ^ 2 * c ^ 2) + c2 ^ 2 * s ^ 2 = s2 ^ 2 + c2 ^ 2 * (s ^ 2 + c ^ 2) := by ring
    rw [this, e3]; linarith
  obtain ⟨p1, p2⟩ := arctan2_polar h d
  rw [hone, one_mul] at p1 p2
  exact ⟨p1.symm, p2.symm⟩

theorem angularSeparation_mem (lon1 lat1 lon2 lat2 : ℝ) :
    0 ≤ angularSeparation lon1 lat1 lon2 lat2 ∧ angularSeparation lon1 lat1 lon2 lat2 ≤ Real.pi :=
  ⟨arctan2_nonneg (hypot_nonneg _ _) _, (arctan2_mem _ _).2⟩

end Pyirf.Np
