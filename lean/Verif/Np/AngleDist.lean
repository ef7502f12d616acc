import Verif.Np.Angle
import Mathlib.Geometry.Euclidean.Angle.Unoriented.TriangleInequality
import Mathlib.Analysis.InnerProductSpace.PiL2
import Mathlib.Analysis.Convex.Deriv
import Mathlib.Analysis.Convex.SpecificFunctions.Deriv

/-!
# The angular separation is a distance and is at most the distance in the longitude/latitude plane
-/
set_option linter.unusedSectionVars false

namespace Pyirf.Np

/-! ## Triangle inequality -/

/-- the unit vector of a direction -/
noncomputable def unitE (lon lat : ℝ) : EuclideanSpace ℝ (Fin 3) :=
  !₂[Real.cos lat * Real.cos lon, Real.cos lat * Real.sin lon, Real.sin lat]

theorem inner_unitE (lon1 lat1 lon2 lat2 : ℝ) : inner ℝ (unitE lon1 lat1) (unitE lon2 lat2) =
    Real.sin lat1 * Real.sin lat2 + Real.cos lat1 * Real.cos lat2 * Real.cos (lon2 - lon1) := by
  simp [unitE, PiLp.inner_apply, Fin.sum_univ_three, Real.cos_sub]
  ring

theorem norm_unitE (lon lat : ℝ) : ‖unitE lon lat‖ = 1 := by
  have h : ‖unitE lon lat‖ ^ 2 = 1 := by
    rw [← real_inner_self_eq_norm_sq, inner_unitE]
    simp only [sub_self, Real.cos_zero, mul_one]
    have := Real.sin_sq_add_cos_sq lat
    nlinarith
  nlinarith [norm_nonneg (unitE lon lat)]

theorem angularSeparation_eq_angle (lon1 lat1 lon2 lat2 : ℝ) :
    angularSeparation lon1 lat1 lon2 lat2 = InnerProductGeometry.angle (unitE lon1 lat1) (unitE lon2 lat2) := by
  apply Real.injOn_cos (angularSeparation_mem _ _ _ _)
    ⟨InnerProductGeometry.angle_nonneg _ _, InnerProductGeometry.angle_le_pi _ _⟩
  rw [(cos_angularSeparation _ _ _ _).1, InnerProductGeometry.cos_angle, norm_unitE, norm_unitE, inner_unitE]
  simp

theorem angularSeparation_comm (lon1 lat1 lon2 lat2 : ℝ) :
    angularSeparation lon1 lat1 lon2 lat2 = angularSeparation lon2 lat2 lon1 lat1 := by
  rw [angularSeparation_eq_angle, angularSeparation_eq_angle, InnerProductGeometry.angle_comm]

theorem angularSeparation_triangle (a b c d e f : ℝ) :
    angularSeparation a b e f ≤ angularSeparation a b c d + angularSeparation c d e f := by
  simp only [angularSeparation_eq_angle]
  exact InnerProductGeometry.angle_le_angle_add_angle _ _ _

theorem abs_sub_angularSeparation_le (a b c d e f : ℝ) :
    |angularSeparation a b e f - angularSeparation c d e f| ≤ angularSeparation a b c d := by
  rw [abs_le]
  have h1 := angularSeparation_triangle a b c d e f
  have h2 := angularSeparation_triangle c d a b e f
  rw [angularSeparation_comm c d a b] at h2
  constructor <;> linarith

/-! ## Contraction -/

theorem sin_div_antitone {x y : ℝ} (hx : 0 < x) (hxy : x ≤ y) (hy : y ≤ Real.pi) : Real.sin y / y ≤ Real.sin x / x := by
  have hy0 : 0 < y := lt_of_lt_of_le hx hxy
  have hc := strictConcaveOn_sin_Icc.concaveOn
  have := hc.2 (show y ∈ Set.Icc 0 Real.pi from ⟨hy0.le, hy⟩) (show (0:ℝ) ∈ Set.Icc 0 Real.pi from ⟨le_rfl, Real.pi_pos.le⟩)
    (show 0 ≤ x / y by positivity) (show 0 ≤ 1 - x / y by rw [sub_nonneg, div_le_one hy0]; exact hxy) (by ring)
  simp only [smul_eq_mul, Real.sin_zero, mul_zero, add_zero] at this
  rw [div_mul_cancel₀ _ hy0.ne'] at this
  rw [div_le_div_iff₀ hy0 hx]
  have h2 := mul_le_mul_of_nonneg_left this hy0.le
  have : y * (x / y * Real.sin y) = Real.sin y * x := by field_simp
  linarith

theorem convexOn_cos_sqrt : ConvexOn ℝ (Set.Icc 0 (Real.pi ^ 2)) (fun s => Real.cos (Real.sqrt s)) := by
  have hderiv : ∀ s, 0 < s → HasDerivAt (fun s => Real.cos (Real.sqrt s)) (-Real.sin (Real.sqrt s) * (1 / (2 * Real.sqrt s))) s := by
    intro s hs
    exact (Real.hasDerivAt_sqrt hs.ne').cos
  apply MonotoneOn.convexOn_of_deriv (convex_Icc _ _)
  · exact (Real.continuous_cos.comp Real.continuous_sqrt).continuousOn
  · intro s hs
    rw [interior_Icc] at hs
    exact (hderiv s hs.1).differentiableAt.differentiableWithinAt
  · intro s hs t ht hst
    rw [interior_Icc] at hs ht
    rw [(hderiv s hs.1).deriv, (hderiv t ht.1).deriv]
    have h := sin_div_antitone (Real.sqrt_pos.mpr hs.1) (Real.sqrt_le_sqrt hst)
      (by rw [Real.sqrt_le_left Real.pi_pos.le]; exact ht.2.le)
    have e : ∀ w : ℝ, -Real.sin w * (1 / (2 * w)) = -(1 / 2) * (Real.sin w / w) := by intro w; ring
    rw [e, e]; linarith

theorem cos_sqrt_le_mul {a b : ℝ} (h : a ^ 2 + b ^ 2 ≤ (Real.pi / 2) ^ 2) :
    Real.cos (Real.sqrt (a ^ 2 + b ^ 2)) ≤ Real.cos a * Real.cos b := by
  have hp := Real.pi_pos
  have hc := convexOn_cos_sqrt.2 (show (a + b) ^ 2 ∈ Set.Icc 0 (Real.pi ^ 2) from ⟨by positivity, by nlinarith [sq_nonneg (a - b)]⟩)
    (show (a - b) ^ 2 ∈ Set.Icc 0 (Real.pi ^ 2) from ⟨by positivity, by nlinarith [sq_nonneg (a + b)]⟩)
    (show (0:ℝ) ≤ 1 / 2 by norm_num) (show (0:ℝ) ≤ 1 / 2 by norm_num) (by norm_num)
  simp only [smul_eq_mul, Real.sqrt_sq_eq_abs, Real.cos_abs] at hc
  have e : 1 / 2 * (a + b) ^ 2 + 1 / 2 * (a - b) ^ 2 = a ^ 2 + b ^ 2 := by ring
  rw [e, Real.cos_add, Real.cos_sub] at hc
  linarith

/-- The separation of two directions is at most their distance in the longitude/latitude plane. -/
theorem angularSeparation_le_sqrt (lon1 lat1 lon2 lat2 : ℝ) :
    angularSeparation lon1 lat1 lon2 lat2 ≤ Real.sqrt ((lon2 - lon1) ^ 2 + (lat2 - lat1) ^ 2) := by
  set dl := lon2 - lon1 with hdl
  set db := lat2 - lat1 with hdb
  set r := Real.sqrt (dl ^ 2 + db ^ 2) with hr
  have hp := Real.pi_pos
  rcases le_or_gt Real.pi r with h | h
  · exact (angularSeparation_mem _ _ _ _).2.trans h
  have hr0 : 0 ≤ r := Real.sqrt_nonneg _
  have hrsq : r ^ 2 = dl ^ 2 + db ^ 2 := Real.sq_sqrt (by positivity)
  rw [← Real.strictAntiOn_cos.le_iff_ge ⟨hr0, h.le⟩ (angularSeparation_mem _ _ _ _), (cos_angularSeparation _ _ _ _).1]
  have hprod : Real.cos lat1 * Real.cos lat2 ≤ (1 + Real.cos db) / 2 := by
    have h1 : Real.cos (lat1 + lat2) ≤ 1 := Real.cos_le_one _
    rw [Real.cos_add] at h1
    rw [hdb, Real.cos_sub]; linarith
  have hcl : Real.cos dl ≤ 1 := Real.cos_le_one _
  have hkey : Real.cos (r / 2) ^ 2 ≤ (Real.cos (dl / 2) * Real.cos (db / 2)) ^ 2 := by
    have h2 : (dl / 2) ^ 2 + (db / 2) ^ 2 = (r / 2) ^ 2 := by rw [div_pow r, hrsq]; ring
    have := cos_sqrt_le_mul (a := dl / 2) (b := db / 2) (by rw [h2]; nlinarith)
    rw [h2, Real.sqrt_sq (by positivity)] at this
    have h0 : 0 ≤ Real.cos (r / 2) := Real.cos_nonneg_of_mem_Icc ⟨by linarith, by linarith⟩
    exact pow_le_pow_left₀ h0 this 2
  have er : Real.cos r = 2 * Real.cos (r / 2) ^ 2 - 1 := by rw [← Real.cos_two_mul]; congr 1; ring
  have el : Real.cos dl = 2 * Real.cos (dl / 2) ^ 2 - 1 := by rw [← Real.cos_two_mul]; congr 1; ring
  have eb : Real.cos db = 2 * Real.cos (db / 2) ^ 2 - 1 := by rw [← Real.cos_two_mul]; congr 1; ring
  have es : Real.sin lat1 * Real.sin lat2 = Real.cos db - Real.cos lat1 * Real.cos lat2 := by
    rw [hdb, Real.cos_sub]; ring
  rw [es, er]
  have hm : Real.cos lat1 * Real.cos lat2 * (1 - Real.cos dl) ≤ (1 + Real.cos db) / 2 * (1 - Real.cos dl) :=
    mul_le_mul_of_nonneg_right hprod (by linarith)
  rw [mul_pow] at hkey
  rw [el, eb] at hm ⊢
  nlinarith

/-! ## Strict contraction -/

theorem sin_div_strictAnti {x y : ℝ} (hx : 0 < x) (hxy : x < y) (hy : y ≤ Real.pi) : Real.sin y / y < Real.sin x / x := by
  have hy0 : 0 < y := hx.trans hxy
  have hc := strictConcaveOn_sin_Icc
  have := hc.2 (show y ∈ Set.Icc 0 Real.pi from ⟨hy0.le, hy⟩) (show (0:ℝ) ∈ Set.Icc 0 Real.pi from ⟨le_rfl, Real.pi_pos.le⟩)
    hy0.ne' (show 0 < x / y by positivity) (show 0 < 1 - x / y by rw [sub_pos, div_lt_one hy0]; exact hxy) (by ring)
  simp only [smul_eq_mul, Real.sin_zero, mul_zero, add_zero] at this
  rw [div_mul_cancel₀ _ hy0.ne'] at this
  rw [div_lt_div_iff₀ hy0 hx]
  have h2 := mul_lt_mul_of_pos_left this hy0
  have : y * (x / y * Real.sin y) = Real.sin y * x := by field_simp
  linarith

theorem strictConvexOn_cos_sqrt : StrictConvexOn ℝ (Set.Icc 0 (Real.pi ^ 2)) (fun s => Real.cos (Real.sqrt s)) := by
  have hderiv : ∀ s, 0 < s → HasDerivAt (fun s => Real.cos (Real.sqrt s)) (-Real.sin (Real.sqrt s) * (1 / (2 * Real.sqrt s))) s := by
    intro s hs
    exact (Real.hasDerivAt_sqrt hs.ne').cos
  apply StrictMonoOn.strictConvexOn_of_deriv (convex_Icc _ _)
  · exact (Real.continuous_cos.comp Real.continuous_sqrt).continuousOn
  · intro s hs t ht hst
    rw [interior_Icc] at hs ht
    rw [(hderiv s hs.1).deriv, (hderiv t ht.1).deriv]
    have h := sin_div_strictAnti (Real.sqrt_pos.mpr hs.1) (Real.sqrt_lt_sqrt hs.1.le hst)
      (by rw [Real.sqrt_le_left Real.pi_pos.le]; exact ht.2.le)
    have e : ∀ w : ℝ, -Real.sin w * (1 / (2 * w)) = -(1 / 2) * (Real.sin w / w) := by intro w; ring
    rw [e, e]; linarith

theorem cos_sqrt_lt_mul {a b : ℝ} (ha : a ≠ 0) (hb : b ≠ 0) (h : a ^ 2 + b ^ 2 ≤ (Real.pi / 2) ^ 2) :
    Real.cos (Real.sqrt (a ^ 2 + b ^ 2)) < Real.cos a * Real.cos b := by
  have hp := Real.pi_pos
  have hne : (a + b) ^ 2 ≠ (a - b) ^ 2 := by
    intro h'
    have : 4 * (a * b) = 0 := by linarith
    exact mul_ne_zero ha hb (by linarith)
  have hc := strictConvexOn_cos_sqrt.2 (show (a + b) ^ 2 ∈ Set.Icc 0 (Real.pi ^ 2) from ⟨by positivity, by nlinarith [sq_nonneg (a - b)]⟩)
    (show (a - b) ^ 2 ∈ Set.Icc 0 (Real.pi ^ 2) from ⟨by positivity, by nlinarith [sq_nonneg (a + b)]⟩) hne
    (show (0:ℝ) < 1 / 2 by norm_num) (show (0:ℝ) < 1 / 2 by norm_num) (by norm_num)
  simp only [smul_eq_mul, Real.sqrt_sq_eq_abs, Real.cos_abs] at hc
  have e : 1 / 2 * (a + b) ^ 2 + 1 / 2 * (a - b) ^ 2 = a ^ 2 + b ^ 2 := by ring
  rw [e, Real.cos_add, Real.cos_sub] at hc
  linarith

/-- The separation of two directions that differ in both coordinates is smaller than their distance in the plane. -/
theorem angularSeparation_lt_sqrt (lon1 lat1 lon2 lat2 : ℝ) (h1 : lon1 ≠ lon2) (h2 : lat1 ≠ lat2) :
    angularSeparation lon1 lat1 lon2 lat2 < Real.sqrt ((lon2 - lon1) ^ 2 + (lat2 - lat1) ^ 2) := by
  have hdl0 : lon2 - lon1 ≠ 0 := sub_ne_zero.mpr h1.symm
  have hdb0 : lat2 - lat1 ≠ 0 := sub_ne_zero.mpr h2.symm
  set dl := lon2 - lon1 with hdl
  set db := lat2 - lat1 with hdb
  set r := Real.sqrt (dl ^ 2 + db ^ 2) with hr
  have hp := Real.pi_pos
  rcases lt_or_ge Real.pi r with h | h
  · exact lt_of_le_of_lt (angularSeparation_mem _ _ _ _).2 h
  have hr0 : 0 ≤ r := Real.sqrt_nonneg _
  have hrsq : r ^ 2 = dl ^ 2 + db ^ 2 := Real.sq_sqrt (by positivity)
  rw [← Real.strictAntiOn_cos.lt_iff_gt ⟨hr0, h⟩ (angularSeparation_mem _ _ _ _), (cos_angularSeparation _ _ _ _).1]
  have hprod : Real.cos lat1 * Real.cos lat2 ≤ (1 + Real.cos db) / 2 := by
    have h1 : Real.cos (lat1 + lat2) ≤ 1 := Real.cos_le_one _
    rw [Real.cos_add] at h1
    rw [hdb, Real.cos_sub]; linarith
  have hcl : Real.cos dl ≤ 1 := Real.cos_le_one _
  have hkey : Real.cos (r / 2) ^ 2 < (Real.cos (dl / 2) * Real.cos (db / 2)) ^ 2 := by
    have h2 : (dl / 2) ^ 2 + (db / 2) ^ 2 = (r / 2) ^ 2 := by rw [div_pow r, hrsq]; ring
    have := cos_sqrt_lt_mul (a := dl / 2) (b := db / 2) (by simpa using hdl0) (by simpa using hdb0) (by rw [h2]; nlinarith)
    rw [h2, Real.sqrt_sq (by positivity)] at this
    have h0 : 0 ≤ Real.cos (r / 2) := Real.cos_nonneg_of_mem_Icc ⟨by linarith, by linarith⟩
    exact pow_lt_pow_left₀ this h0 two_ne_zero
  have er : Real.cos r = 2 * Real.cos (r / 2) ^ 2 - 1 := by rw [← Real.cos_two_mul]; congr 1; ring
  have el : Real.cos dl = 2 * Real.cos (dl / 2) ^ 2 - 1 := by rw [← Real.cos_two_mul]; congr 1; ring
  have eb : Real.cos db = 2 * Real.cos (db / 2) ^ 2 - 1 := by rw [← Real.cos_two_mul]; congr 1; ring
  have es : Real.sin lat1 * Real.sin lat2 = Real.cos db - Real.cos lat1 * Real.cos lat2 := by
    rw [hdb, Real.cos_sub]; ring
  rw [es, er]
  have hm : Real.cos lat1 * Real.cos lat2 * (1 - Real.cos dl) ≤ (1 + Real.cos db) / 2 * (1 - Real.cos dl) :=
    mul_le_mul_of_nonneg_right hprod (by linarith)
  rw [mul_pow] at hkey
  rw [el, eb] at hm ⊢
  nlinarith

end Pyirf.Np
