import Verif.Bench.AngProps
import Mathlib.Analysis.Real.Pi.Bounds
import Mathlib.Analysis.SpecialFunctions.Integrals.Basic
import Mathlib.Probability.Distributions.Gaussian.Real
import Mathlib.Probability.CDF

/-! # The default column of the angular resolution (C46) -/
set_option linter.unusedSectionVars false
set_option linter.unusedSimpArgs false

namespace Pyirf.Bench
open Pyirf Pyirf.Np MeasureTheory ProbabilityTheory

/-- probability of one standard deviation as an integral -/
theorem oneSigma_integral : oneSigmaCoverage = (√(2 * Real.pi))⁻¹ * ∫ x in (-1:ℝ)..1, Real.exp (-(x ^ 2 / 2)) := by
  unfold oneSigmaCoverage normUpperSigma normLowerSigma
  rw [cdf_eq_real, cdf_eq_real, ← measureReal_diff (Set.Iic_subset_Iic.mpr (by norm_num)) measurableSet_Iic]
  rw [show Set.Iic (1:ℝ) \ Set.Iic (-1) = Set.Ioc (-1) 1 by ext x; simp [and_comm]]
  rw [Measure.real, gaussianReal_apply_eq_integral _ one_ne_zero, ENNReal.toReal_ofReal (by
    apply integral_nonneg; intro x; exact gaussianPDFReal_nonneg _ _ _)]
  rw [intervalIntegral.integral_of_le (by norm_num), ← integral_const_mul]
  refine setIntegral_congr_fun measurableSet_Ioc fun x _ => ?_
  simp [gaussianPDFReal]
  left
  ring

theorem exp_bounds (x : ℝ) (hx : x ∈ Set.Icc (-1:ℝ) 1) :
    1 - x ^ 2 / 2 + x ^ 4 / 8 - x ^ 6 / 48 - 5 / 96 * (x ^ 8 / 16) ≤ Real.exp (-(x ^ 2 / 2)) ∧
    Real.exp (-(x ^ 2 / 2)) ≤ 1 - x ^ 2 / 2 + x ^ 4 / 8 - x ^ 6 / 48 + 5 / 96 * (x ^ 8 / 16) := by
  have h1 : x ^ 2 ≤ 1 := by nlinarith [hx.1, hx.2]
  have h0 : 0 ≤ x ^ 2 := sq_nonneg x
  have habs : |-(x ^ 2 / 2)| = x ^ 2 / 2 := by rw [abs_neg, abs_of_nonneg (by positivity)]
  have h := Real.exp_bound (x := -(x ^ 2 / 2)) (by rw [habs]; linarith) (n := 4) (by norm_num)
  rw [habs, abs_le] at h
  simp only [Finset.sum_range_succ, Finset.sum_range_zero, Nat.factorial, Nat.cast_ofNat] at h
  norm_num at h
  constructor <;> nlinarith [h.1, h.2]

theorem poly_integral (c : ℝ) : ∫ x in (-1:ℝ)..1, (1 - x ^ 2 / 2 + x ^ 4 / 8 - x ^ 6 / 48 + c * x ^ 8) = 2 * (1 - 1 / 6 + 1 / 40 - 1 / 336 + c / 9) := by
  have hd : ∀ x ∈ Set.uIcc (-1:ℝ) 1, HasDerivAt (fun x : ℝ => x - x ^ 3 / 6 + x ^ 5 / 40 - x ^ 7 / 336 + c * (x ^ 9 / 9))
      (1 - x ^ 2 / 2 + x ^ 4 / 8 - x ^ 6 / 48 + c * x ^ 8) x := by
    intro x _
    have h := ((((hasDerivAt_id x).sub ((hasDerivAt_pow 3 x).div_const 6)).add ((hasDerivAt_pow 5 x).div_const 40)).sub
      ((hasDerivAt_pow 7 x).div_const 336)).add (((hasDerivAt_pow 9 x).div_const 9).const_mul c)
    refine h.congr_deriv ?_
    norm_num
    ring
  rw [intervalIntegral.integral_eq_sub_of_hasDerivAt hd (Continuous.intervalIntegrable (by fun_prop) _ _)]
  norm_num
  ring

theorem oneSigma_bounds : 0.68 < oneSigmaCoverage ∧ oneSigmaCoverage < 0.684 := by
  have hcont : Continuous fun x : ℝ => Real.exp (-(x ^ 2 / 2)) := by fun_prop
  have lower : (1.709:ℝ) ≤ ∫ x in (-1:ℝ)..1, Real.exp (-(x ^ 2 / 2)) := by
    refine le_trans ?_ (intervalIntegral.integral_mono_on (by norm_num) ?_ (hcont.intervalIntegrable _ _) fun x hx => (exp_bounds x hx).1)
    · have := poly_integral (-(5 / 96 / 16))
      rw [show (fun x : ℝ => 1 - x ^ 2 / 2 + x ^ 4 / 8 - x ^ 6 / 48 - 5 / 96 * (x ^ 8 / 16)) =
        fun x : ℝ => 1 - x ^ 2 / 2 + x ^ 4 / 8 - x ^ 6 / 48 + -(5 / 96 / 16) * x ^ 8 by funext x; ring, this]
      norm_num
    · exact Continuous.intervalIntegrable (by fun_prop) _ _
  have upper : ∫ x in (-1:ℝ)..1, Real.exp (-(x ^ 2 / 2)) ≤ 1.712 := by
    refine le_trans (intervalIntegral.integral_mono_on (by norm_num) (hcont.intervalIntegrable _ _) ?_ fun x hx => (exp_bounds x hx).2) ?_
    · exact Continuous.intervalIntegrable (by fun_prop) _ _
    · have := poly_integral (5 / 96 / 16)
      rw [show (fun x : ℝ => 1 - x ^ 2 / 2 + x ^ 4 / 8 - x ^ 6 / 48 + 5 / 96 * (x ^ 8 / 16)) =
        fun x : ℝ => 1 - x ^ 2 / 2 + x ^ 4 / 8 - x ^ 6 / 48 + (5 / 96 / 16) * x ^ 8 by funext x; ring, this]
      norm_num
  have s1 : (2.506:ℝ) < √(2 * Real.pi) := Real.lt_sqrt_of_sq_lt (by nlinarith [Real.pi_gt_d4])
  have s2 : √(2 * Real.pi) < 2.507 := by rw [Real.sqrt_lt' (by norm_num)]; nlinarith [Real.pi_lt_d4]
  rw [oneSigma_integral, inv_mul_eq_div]
  have hpos : 0 < √(2 * Real.pi) := by linarith
  constructor
  · rw [lt_div_iff₀ hpos]; nlinarith
  · rw [div_lt_iff₀ hpos]; nlinarith

/-- **C46** (default column) The default quantile of `angular_resolution` is the probability of one standard deviation, between 68.0 and 68.4 per cent, so the column is
`angular_resolution_68`. -/
theorem C46_default_column : 0.68 < oneSigmaCoverage ∧ oneSigmaCoverage < 0.684 ∧ quantileKey oneSigmaCoverage = 68 := by
  obtain ⟨h1, h2⟩ := oneSigma_bounds
  refine ⟨h1, h2, ?_⟩
  rw [C89_column_name]
  left
  rw [abs_lt]
  constructor <;> push_cast <;> linarith

end Pyirf.Bench
