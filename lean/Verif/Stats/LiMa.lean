import Verif.Stats.Model
import Mathlib.Analysis.SpecialFunctions.Log.NegMulLog
import Mathlib.Tactic.FieldSimp
import Mathlib.Tactic.Positivity

/-! # Analysis of the Li & Ma formula -/
set_option linter.unusedSectionVars false

namespace Pyirf.Stats
open Pyirf

/-- test statistic / 2 of Li & Ma, with 0 * log 0 = 0 (Lean's `Real.log 0 = 0`) -/
noncomputable def lmTS (a b α : ℝ) : ℝ :=
  a * Real.log ((1 + α) / α * (a / (a + b))) + b * Real.log ((1 + α) * (b / (a + b)))

theorem xlog_ge {x u : ℝ} (hx : 0 ≤ x) (hu : 0 < u) : x - u ≤ x * Real.log (x / u) := by
  rcases hx.eq_or_lt with rfl | hx
  · simp [hu.le]
  · have h := Real.one_sub_inv_le_log_of_pos (div_pos hx hu)
    have h2 : x * (1 - (x / u)⁻¹) ≤ x * Real.log (x / u) := mul_le_mul_of_nonneg_left h hx.le
    have h3 : x * (1 - (x / u)⁻¹) = x - u := by field_simp
    linarith

theorem xlog_gt {x u : ℝ} (hx : 0 ≤ x) (hu : 0 < u) (hne : x ≠ u) : x - u < x * Real.log (x / u) := by
  rcases hx.eq_or_lt with rfl | hx
  · simp [hu]
  · have hr : 0 < u / x := div_pos hu hx
    have h := Real.log_lt_sub_one_of_pos hr (by intro h; apply hne; field_simp at h; exact h.symm)
    have e : Real.log (x / u) = - Real.log (u / x) := by rw [← Real.log_inv, inv_div]
    have h3 : x * (u / x - 1) = u - x := by field_simp
    have h2 : x * Real.log (u / x) < x * (u / x - 1) := mul_lt_mul_of_pos_left h hx
    rw [e]; linarith

/-- upper bound `x log(x/u) ≤ x²/u - x` -/
theorem xlog_le {x u : ℝ} (hx : 0 ≤ x) (hu : 0 < u) : x * Real.log (x / u) ≤ x ^ 2 / u - x := by
  rcases hx.eq_or_lt with rfl | hx
  · simp
  · have h := Real.log_le_sub_one_of_pos (div_pos hx hu)
    have h2 : x * Real.log (x / u) ≤ x * (x / u - 1) := mul_le_mul_of_nonneg_left h hx.le
    have : x * (x / u - 1) = x ^ 2 / u - x := by ring
    linarith

/-- lower bound `x log(x/u) ≥ x - u + (√x - √u)²` -/
theorem xlog_ge_hellinger {x u : ℝ} (hx : 0 ≤ x) (hu : 0 < u) :
    x - u + (Real.sqrt x - Real.sqrt u) ^ 2 ≤ x * Real.log (x / u) := by
  rcases hx.eq_or_lt with rfl | hx
  · simp [Real.sq_sqrt hu.le]
  · have hsx : 0 < Real.sqrt x := Real.sqrt_pos.mpr hx
    have hsu : 0 < Real.sqrt u := Real.sqrt_pos.mpr hu
    have h := Real.one_sub_inv_le_log_of_pos (div_pos hsx hsu)
    have e : Real.log (x / u) = 2 * Real.log (Real.sqrt x / Real.sqrt u) := by
      rw [Real.log_div hsx.ne' hsu.ne', Real.log_sqrt hx.le, Real.log_sqrt hu.le, Real.log_div hx.ne' hu.ne']
      ring
    have h2 : x * (2 * (1 - (Real.sqrt x / Real.sqrt u)⁻¹)) ≤ x * (2 * Real.log (Real.sqrt x / Real.sqrt u)) :=
      mul_le_mul_of_nonneg_left (by linarith) hx.le
    have e2 : x * (2 * (1 - (Real.sqrt x / Real.sqrt u)⁻¹)) = 2 * x - 2 * (Real.sqrt x * Real.sqrt u) := by
      have : x = Real.sqrt x * Real.sqrt x := (Real.mul_self_sqrt hx.le).symm
      rw [inv_div]
      have : x * (Real.sqrt u / Real.sqrt x) = Real.sqrt x * Real.sqrt u := by
        nth_rewrite 1 [this]; field_simp
      linear_combination (-2) * this
    rw [e]
    have e3 : (Real.sqrt x - Real.sqrt u) ^ 2 = x + u - 2 * (Real.sqrt x * Real.sqrt u) := by
      rw [sub_sq, Real.sq_sqrt hx.le, Real.sq_sqrt hu.le]; ring
    linarith

variable {a b α : ℝ}

theorem lm_u_pos (hab : 0 < a + b) (hα : 0 < α) : 0 < α * (a + b) / (1 + α) := by positivity
theorem lm_v_pos (hab : 0 < a + b) (hα : 0 < α) : 0 < (a + b) / (1 + α) := by positivity

theorem lmTS_eq (hab : 0 < a + b) (hα : 0 < α) :
    lmTS a b α = a * Real.log (a / (α * (a + b) / (1 + α))) + b * Real.log (b / ((a + b) / (1 + α))) := by
  unfold lmTS
  congr 3 <;> field_simp

theorem lmTS_nonneg (ha : 0 ≤ a) (hb : 0 ≤ b) (hα : 0 < α) : 0 ≤ lmTS a b α := by
  rcases (add_nonneg ha hb).eq_or_lt with h | h
  · have h1 : a = 0 := by linarith
    have h2 : b = 0 := by linarith
    simp [lmTS, h1, h2]
  · rw [lmTS_eq h hα]
    have h1 := xlog_ge ha (lm_u_pos h hα)
    have h2 := xlog_ge hb (lm_v_pos h hα)
    have : α * (a + b) / (1 + α) + (a + b) / (1 + α) = a + b := by field_simp; ring
    linarith

theorem lmTS_pos (ha : 0 ≤ a) (hb : 0 ≤ b) (hα : 0 < α) (hne : a ≠ α * b) : 0 < lmTS a b α := by
  rcases (add_nonneg ha hb).eq_or_lt with h | h
  · have h1 : a = 0 := by linarith
    have h2 : b = 0 := by linarith
    exact absurd (by rw [h1, h2]; simp) hne
  · rw [lmTS_eq h hα]
    have hne' : a ≠ α * (a + b) / (1 + α) := by
      intro he; apply hne
      field_simp at he
      linarith
    have h1 := xlog_gt ha (lm_u_pos h hα) hne'
    have h2 := xlog_ge hb (lm_v_pos h hα)
    have : α * (a + b) / (1 + α) + (a + b) / (1 + α) = a + b := by field_simp; ring
    linarith

theorem lmTS_at_alpha (hb : 0 ≤ b) (hα : 0 < α) : lmTS (α * b) b α = 0 := by
  rcases hb.eq_or_lt with rfl | hb
  · simp [lmTS]
  · unfold lmTS
    have e1 : (1 + α) / α * (α * b / (α * b + b)) = 1 := by
      have : α * b + b ≠ 0 := by positivity
      field_simp; ring
    have e2 : (1 + α) * (b / (α * b + b)) = 1 := by
      have : α * b + b ≠ 0 := by positivity
      field_simp; ring
    rw [e1, e2]; simp

/-- tangent inequality: for `0 ≤ a'`, `0 < a`, `0 ≤ b` the test statistic lies above its tangent in direction `a` -/
theorem lmTS_tangent {a' : ℝ} (ha : 0 < a) (ha' : 0 ≤ a') (hb : 0 ≤ b) (hα : 0 < α) :
    (a' - a) * Real.log ((1 + α) / α * (a / (a + b))) ≤ lmTS a' b α - lmTS a b α := by
  have hN : 0 < a + b := by linarith
  rcases (add_nonneg ha' hb).eq_or_lt with h0 | hN'
  · have h1 : a' = 0 := by linarith
    have h2 : b = 0 := by linarith
    simp [lmTS, h1, h2]
  · have hu : 0 < (a' + b) * a / (a + b) := by positivity
    have h1 := xlog_ge ha' hu
    have e1 : a' * Real.log ((1 + α) / α * (a' / (a' + b)))
        = a' * Real.log ((1 + α) / α * (a / (a + b))) + a' * Real.log (a' / ((a' + b) * a / (a + b))) := by
      rcases ha'.eq_or_lt with rfl | hp
      · simp
      · rw [← mul_add, ← Real.log_mul (by positivity) (by positivity)]
        congr 2; field_simp
    have e2 : b * Real.log ((1 + α) * (b / (a' + b)))
        = b * Real.log ((1 + α) * (b / (a + b))) + b * Real.log (b / ((a' + b) * b / (a + b))) := by
      rcases hb.eq_or_lt with rfl | hp
      · simp
      · rw [← mul_add, ← Real.log_mul (by positivity) (by positivity)]
        congr 2; field_simp
    have h2 : b - (a' + b) * b / (a + b) ≤ b * Real.log (b / ((a' + b) * b / (a + b))) := by
      rcases hb.eq_or_lt with rfl | hp
      · simp
      · exact xlog_ge hb (by positivity)
    have e3 : (a' + b) * a / (a + b) + (a' + b) * b / (a + b) = a' + b := by field_simp
    unfold lmTS
    rw [e1, e2]
    nlinarith

/-- the same in direction `b` -/
theorem lmTS_tangent_b {b' : ℝ} (ha : 0 ≤ a) (hb : 0 < b) (hb' : 0 ≤ b') (hα : 0 < α) :
    (b' - b) * Real.log ((1 + α) * (b / (a + b))) ≤ lmTS a b' α - lmTS a b α := by
  have hN : 0 < a + b := by linarith
  rcases (add_nonneg ha hb').eq_or_lt with h0 | hN'
  · have h1 : b' = 0 := by linarith
    have h2 : a = 0 := by linarith
    simp [lmTS, h1, h2]
  · have hu : 0 < (a + b') * b / (a + b) := by positivity
    have h1 := xlog_ge hb' hu
    have e1 : b' * Real.log ((1 + α) * (b' / (a + b')))
        = b' * Real.log ((1 + α) * (b / (a + b))) + b' * Real.log (b' / ((a + b') * b / (a + b))) := by
      rcases hb'.eq_or_lt with rfl | hp
      · simp
      · rw [← mul_add, ← Real.log_mul (by positivity) (by positivity)]
        congr 2; field_simp
    have e2 : a * Real.log ((1 + α) / α * (a / (a + b')))
        = a * Real.log ((1 + α) / α * (a / (a + b))) + a * Real.log (a / ((a + b') * a / (a + b))) := by
      rcases ha.eq_or_lt with rfl | hp
      · simp
      · rw [← mul_add, ← Real.log_mul (by positivity) (by positivity)]
        congr 2; field_simp
    have h2 : a - (a + b') * a / (a + b) ≤ a * Real.log (a / ((a + b') * a / (a + b))) := by
      rcases ha.eq_or_lt with rfl | hp
      · simp
      · exact xlog_ge ha (by positivity)
    have e3 : (a + b') * b / (a + b) + (a + b') * a / (a + b) = a + b' := by field_simp; ring
    unfold lmTS
    rw [e1, e2]
    nlinarith

theorem lmTS_strictMono {a' : ℝ} (hb : 0 ≤ b) (hα : 0 < α) (ha : α * b ≤ a) (haa : a < a') :
    lmTS a b α < lmTS a' b α := by
  have ha0 : 0 ≤ a := le_trans (by positivity) ha
  rcases ha.eq_or_lt with rfl | hlt
  · rw [lmTS_at_alpha hb hα]
    exact lmTS_pos (by linarith) hb hα (ne_of_gt haa)
  · have hapos : 0 < a := lt_of_le_of_lt (by positivity) hlt
    have h := lmTS_tangent hapos (by linarith : 0 ≤ a') hb hα
    have hlog : 0 < Real.log ((1 + α) / α * (a / (a + b))) := by
      apply Real.log_pos
      have : 0 < α * (a + b) := by positivity
      rw [div_mul_div_comm, lt_div_iff₀ this]
      linarith
    have := mul_pos (sub_pos.mpr haa) hlog
    linarith

theorem lmTS_anti_b {b' : ℝ} (ha : 0 ≤ a) (hb : 0 ≤ b) (hα : 0 < α) (hbb : b ≤ b') (hab : α * b' ≤ a) :
    lmTS a b' α ≤ lmTS a b α := by
  rcases hbb.eq_or_lt with rfl | hlt
  · exact le_rfl
  · have hb' : 0 < b' := by linarith
    have h := lmTS_tangent_b ha hb' hb hα
    have hlog : Real.log ((1 + α) * (b' / (a + b'))) ≤ 0 := by
      apply Real.log_nonpos (by positivity)
      rw [mul_div_assoc', div_le_one (by linarith)]
      linarith
    have := mul_nonneg_of_nonpos_of_nonpos (sub_nonpos.mpr hbb) hlog
    linarith

theorem lmTS_scale {k : ℝ} (hk : 0 < k) : lmTS (k * a) (k * b) α = k * lmTS a b α := by
  unfold lmTS
  have e : ∀ x, k * x / (k * a + k * b) = x / (a + b) := fun x => by rw [← mul_add, mul_div_mul_left _ _ hk.ne']
  rw [e, e]; ring

/-- chi-square upper bound -/
theorem lmTS_le (ha : 0 ≤ a) (hb : 0 ≤ b) (hα : 0 < α) (hab : 0 < a + b) :
    lmTS a b α ≤ (a - α * b) ^ 2 / (α * (a + b)) := by
  rw [lmTS_eq hab hα]
  have h1 := xlog_le ha (lm_u_pos hab hα)
  have h2 := xlog_le hb (lm_v_pos hab hα)
  refine le_trans (add_le_add h1 h2) (le_of_eq ?_)
  field_simp
  ring

/-- Hellinger-type lower bound -/
theorem lmTS_ge (ha : 0 < a) (hb : 0 ≤ b) (hα : 0 < α) (hab : α * b ≤ a) :
    (a - α * b) ^ 2 / (4 * (1 + α) ^ 2 * a) ≤ lmTS a b α := by
  have hN : 0 < a + b := by linarith
  rw [lmTS_eq hN hα]
  set u := α * (a + b) / (1 + α) with hu
  have hup : 0 < u := lm_u_pos hN hα
  have h1 := xlog_ge_hellinger ha.le hup
  have h2 := xlog_ge hb (lm_v_pos hN hα)
  have hs : u + (a + b) / (1 + α) = a + b := by rw [hu]; field_simp; ring
  have hd : a - u = (a - α * b) / (1 + α) := by rw [hu]; field_simp; ring
  have hua : u ≤ a := by
    have : 0 ≤ (a - α * b) / (1 + α) := div_nonneg (by linarith) (by linarith)
    linarith
  have hsx : 0 < Real.sqrt a := Real.sqrt_pos.mpr ha
  have hsu : 0 < Real.sqrt u := Real.sqrt_pos.mpr hup
  have hsle : Real.sqrt u ≤ Real.sqrt a := Real.sqrt_le_sqrt hua
  have hfac : a - u = (Real.sqrt a - Real.sqrt u) * (Real.sqrt a + Real.sqrt u) := by
    have := Real.sq_sqrt ha.le; have := Real.sq_sqrt hup.le; nlinarith
  have hsum : (Real.sqrt a + Real.sqrt u) ^ 2 ≤ 4 * a := by
    have := Real.sq_sqrt ha.le; nlinarith
  have key : (a - u) ^ 2 ≤ (Real.sqrt a - Real.sqrt u) ^ 2 * (4 * a) := by
    rw [hfac, mul_pow]
    exact mul_le_mul_of_nonneg_left hsum (sq_nonneg _)
  have e : (a - α * b) ^ 2 / (4 * (1 + α) ^ 2 * a) = (a - u) ^ 2 / (4 * a) := by
    rw [hd]; field_simp
  rw [e]
  have : (a - u) ^ 2 / (4 * a) ≤ (Real.sqrt a - Real.sqrt u) ^ 2 := by
    rw [div_le_iff₀ (by linarith)]; exact key
  linarith

theorem lmTS_continuousOn (hb : 0 ≤ b) (hα : 0 < α) : ContinuousOn (fun a => lmTS a b α) (Set.Ici 0) := by
  rcases hb.eq_or_lt with rfl | hb
  · have : Set.EqOn (fun a => lmTS a 0 α) (fun a => a * Real.log ((1 + α) / α)) (Set.Ici 0) := by
      intro a ha
      simp only [lmTS, add_zero, zero_mul]
      by_cases h : a = 0
      · simp [h]
      · rw [div_self h, mul_one]
    exact ContinuousOn.congr (by fun_prop) this
  · have hxx : Continuous fun x : ℝ => x * Real.log x := Real.continuous_mul_log
    have : Set.EqOn (fun a => lmTS a b α) (fun a => a * Real.log ((1 + α) / α) + a * Real.log a
        - a * Real.log (a + b) + b * Real.log ((1 + α) * (b / (a + b)))) (Set.Ici 0) := by
      intro a ha
      have ha : 0 ≤ a := ha
      simp only [lmTS]
      rcases ha.eq_or_lt with rfl | hp
      · simp
      · rw [Real.log_mul (by positivity) (by positivity), Real.log_div (by positivity : a ≠ 0) (by positivity)]
        ring
    refine ContinuousOn.congr ?_ this
    have hab : ∀ a ∈ Set.Ici (0:ℝ), a + b ≠ 0 := fun a ha => by
      have : (0:ℝ) ≤ a := ha
      positivity
    have hab2 : ∀ a ∈ Set.Ici (0:ℝ), (1 + α) * (b / (a + b)) ≠ 0 := fun a ha => by
      have : (0:ℝ) ≤ a := ha
      positivity
    have hc1 : ContinuousOn (fun a : ℝ => Real.log (a + b)) (Set.Ici 0) :=
      ContinuousOn.log (by fun_prop) hab
    have hc2 : ContinuousOn (fun a : ℝ => Real.log ((1 + α) * (b / (a + b)))) (Set.Ici 0) :=
      ContinuousOn.log (continuousOn_const.mul (ContinuousOn.div continuousOn_const (by fun_prop) hab)) hab2
    exact (((continuousOn_id.mul continuousOn_const).add hxx.continuousOn).sub (continuousOn_id.mul hc1)).add
      (continuousOn_const.mul hc2)

end Pyirf.Stats
