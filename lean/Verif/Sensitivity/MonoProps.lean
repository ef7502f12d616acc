import Verif.Sensitivity.RelProps

/-!
# Property C130: what makes a sensitivity better or worse
-/
set_option linter.unusedSectionVars false
set_option linter.unusedSimpArgs false

namespace Pyirf.Sensitivity
open Pyirf Pyirf.Stats

/-! ## The significance -/

/-- The log sum inequality. -/
theorem log_sum {x y u v : ℝ} (hx : 0 ≤ x) (hy : 0 ≤ y) (hu : 0 < u) (hv : 0 < v) (hxy : 0 < x + y) :
    (x + y) * Real.log ((x + y) / (u + v)) ≤ x * Real.log (x / u) + y * Real.log (y / v) := by
  have hc : 0 < (x + y) / (u + v) := by positivity
  have split : ∀ {z w : ℝ}, 0 ≤ z → 0 < w → z * Real.log (z / ((x + y) / (u + v) * w)) = z * Real.log (z / w) - z * Real.log ((x + y) / (u + v)) := by
    intro z w hz hw
    rcases hz.eq_or_lt with rfl | hz
    · simp
    · have e : z / ((x + y) / (u + v) * w) = (z / w) / ((x + y) / (u + v)) := by field_simp
      rw [e, Real.log_div (by positivity) hc.ne']
      ring
  have h1 := xlog_ge hx (mul_pos hc hu)
  have h2 := xlog_ge hy (mul_pos hc hv)
  rw [split hx hu] at h1
  rw [split hy hv] at h2
  have e : (x + y) / (u + v) * u + (x + y) / (u + v) * v = x + y := by field_simp
  linarith

/-- More background with the same signal: the test statistic does not grow. -/
theorem lmTS_background {S b δ α : ℝ} (hS : 0 ≤ S) (hb : 0 ≤ b) (hδ : 0 ≤ δ) (hα : 0 < α) : lmTS (S + α * (b + δ)) (b + δ) α ≤ lmTS (S + α * b) b α := by
  rcases hδ.eq_or_lt with rfl | hδ
  · simp
  have ha : 0 ≤ S + α * b := by positivity
  rcases (add_nonneg ha hb).eq_or_lt with h0 | h0
  · have hb0 : b = 0 := by linarith
    have hS0 : S = 0 := by rw [hb0] at h0; linarith
    subst hb0 hS0
    simp only [zero_add, mul_zero]
    rw [lmTS_at_alpha hδ.le hα]
    exact lmTS_nonneg (by simp) (le_refl _) hα
  · rw [lmTS_eq h0 hα, lmTS_eq (by positivity) hα]
    have u0 := lm_u_pos h0 hα
    have v0 := lm_v_pos h0 hα
    have h1 := log_sum ha (y := α * δ) (by positivity) u0 (v := α * δ) (by positivity) (by positivity)
    have h2 := log_sum hb (y := δ) hδ.le v0 (v := δ) hδ (by positivity)
    rw [div_self (by positivity), Real.log_one, mul_zero, add_zero] at h1 h2
    have e1 : S + α * b + α * δ = S + α * (b + δ) := by ring
    have e2 : α * (S + α * b + b) / (1 + α) + α * δ = α * (S + α * (b + δ) + (b + δ)) / (1 + α) := by field_simp; ring
    have e3 : (S + α * b + b) / (1 + α) + δ = (S + α * (b + δ) + (b + δ)) / (1 + α) := by field_simp; ring
    rw [e1, e2] at h1
    rw [e3] at h2
    linarith

theorem limaR_background {S b b' α : ℝ} (hS : 0 ≤ S) (hb : 0 ≤ b) (hbb : b ≤ b') (hα : 0 < α) : limaR (S + α * b') b' α ≤ limaR (S + α * b) b α := by
  unfold limaR
  rw [if_neg (by linarith), if_neg (by linarith)]
  apply Real.sqrt_le_sqrt
  have := lmTS_background hS hb (sub_nonneg.mpr hbb) hα
  rw [add_sub_cancel] at this
  linarith

/-- A smaller exposure ratio at the same expected background: the test statistic does not shrink. -/
theorem lmTS_alpha {n B α α' : ℝ} (hn : 0 < n) (hB : 0 ≤ B) (hα : 0 < α) (haa : α ≤ α') : lmTS n (B / α') α' ≤ lmTS n (B / α) α := by
  have hα' : 0 < α' := lt_of_lt_of_le hα haa
  have form : ∀ {β : ℝ}, 0 < β → lmTS n (B / β) β = n * Real.log (n / ((β * n + B) / (1 + β))) + 1 / β * (B * Real.log (B / ((β * n + B) / (1 + β)))) := by
    intro β hβ
    rw [lmTS_eq (by positivity) hβ]
    have e1 : β * (n + B / β) / (1 + β) = (β * n + B) / (1 + β) := by field_simp
    have e2 : B / β / ((n + B / β) / (1 + β)) = B / ((β * n + B) / (1 + β)) := by
      have : 0 < β * n + B := by positivity
      have : n + B / β = (β * n + B) / β := by field_simp
      rw [this]; field_simp
    rw [e1, e2]; ring
  rw [form hα, form hα']
  set ν := (α * n + B) / (1 + α) with hν
  set ν' := (α' * n + B) / (1 + α') with hν'
  have hν0 : 0 < ν := by rw [hν]; positivity
  have hν0' : 0 < ν' := by rw [hν']; positivity
  have split : ∀ {z : ℝ}, 0 ≤ z → z * Real.log (z / ν') = z * Real.log (z / ν) - z * Real.log (ν' / ν) := by
    intro z hz
    rcases hz.eq_or_lt with rfl | hz
    · simp
    · rw [Real.log_div hz.ne' hν0'.ne', Real.log_div hz.ne' hν0.ne', Real.log_div hν0'.ne' hν0.ne']; ring
  rw [split hn.le, split hB]
  have h1 := xlog_ge hν0'.le hν0
  have h2 := xlog_ge hB hν0
  have hinv : 1 / α' ≤ 1 / α := one_div_le_one_div_of_le hα haa
  have hx : (1 + 1 / α') * ν' = n + B / α' := by rw [hν']; field_simp; ring
  have hy : (1 + 1 / α) * ν = n + B / α := by rw [hν]; field_simp; ring
  have m1 : (1 + 1 / α') * (ν' - ν) ≤ (1 + 1 / α') * (ν' * Real.log (ν' / ν)) := mul_le_mul_of_nonneg_left h1 (by positivity)
  have m2 : (1 / α - 1 / α') * (B - ν) ≤ (1 / α - 1 / α') * (B * Real.log (B / ν)) := mul_le_mul_of_nonneg_left h2 (by linarith)
  have e1 : (1 + 1 / α') * (ν' * Real.log (ν' / ν)) = n * Real.log (ν' / ν) + 1 / α' * (B * Real.log (ν' / ν)) := by
    rw [← mul_assoc, hx]; ring
  have e2 : (1 + 1 / α') * (ν' - ν) + (1 / α - 1 / α') * (B - ν) = ((1 + 1 / α') * ν' - (1 + 1 / α) * ν) + (B / α - B / α') := by ring
  have e3 : (1 + 1 / α') * (ν' - ν) + (1 / α - 1 / α') * (B - ν) = 0 := by rw [e2, hx, hy]; ring
  have e4 : (1 / α - 1 / α') * (B * Real.log (B / ν)) = 1 / α * (B * Real.log (B / ν)) - 1 / α' * (B * Real.log (B / ν)) := by ring
  rw [mul_sub]
  linarith

theorem limaR_alpha {n B α α' : ℝ} (hn : 0 ≤ n) (hB : 0 ≤ B) (hα : 0 < α) (haa : α ≤ α') : limaR n (B / α') α' ≤ limaR n (B / α) α := by
  have hα' : 0 < α' := lt_of_lt_of_le hα haa
  unfold limaR
  rw [mul_div_cancel₀ _ hα.ne', mul_div_cancel₀ _ hα'.ne']
  split
  · exact le_rfl
  · rename_i h
    rcases hn.eq_or_lt with rfl | hn
    · have : B = 0 := by linarith [not_lt.mp h]
      subst this
      simp [lmTS]
    · apply Real.sqrt_le_sqrt
      have := lmTS_alpha hn hB hα haa
      linarith

/-- **C130** With the same (expected) number of signal events, more background never makes the significance larger. -/
theorem C130_significance_background (signal nOff nOff' α s s' : ℝ) (hS : 0 ≤ signal) (h0 : 0 ≤ nOff) (hle : nOff ≤ nOff') (hα : 0 < α)
    (hs : liMaSignificance (.fin (signal + α * nOff)) (.fin nOff) (.fin α) = .fin s) (hs' : liMaSignificance (.fin (signal + α * nOff')) (.fin nOff') (.fin α) = .fin s') : s' ≤ s := by
  have h0' : 0 ≤ nOff' := le_trans h0 hle
  rw [liMa_eq (by positivity) h0 hα] at hs
  rw [liMa_eq (by positivity) h0' hα] at hs'
  cases hs; cases hs'
  exact limaR_background hS h0 hle hα

/-- **C130** With the same counts in the signal region and the same expected background there, a larger off region (a smaller `alpha`, `background / alpha` counts in it) never makes the significance smaller. -/
theorem C130_significance_alpha (nOn background α α' s s' : ℝ) (hn : 0 ≤ nOn) (hB : 0 ≤ background) (hα : 0 < α) (hle : α ≤ α')
    (hs : liMaSignificance (.fin nOn) (.fin (background / α)) (.fin α) = .fin s) (hs' : liMaSignificance (.fin nOn) (.fin (background / α')) (.fin α') = .fin s') : s' ≤ s := by
  have hα' : 0 < α' := lt_of_lt_of_le hα hle
  rw [liMa_eq hn (by positivity) hα] at hs
  rw [liMa_eq hn (by positivity) hα'] at hs'
  cases hs; cases hs'
  exact limaR_alpha hn hB hα hle

/-! ## The sensitivity -/

section
variable (brentq : RootFn) (hrf : IsRootFinder brentq)
include hrf

/-- **C130** More background at the same number of signal events never improves the sensitivity. -/
theorem C130_background (signal nOff nOff' α minSig minEvents minExcess r r' : ℝ) (hS : 0 ≤ signal) (h0 : 0 ≤ nOff) (hle : nOff ≤ nOff') (hα : 0 < α) (hm : 0 < minSig) (hx : 0 ≤ minExcess)
    (hr : relativeSensitivity1 brentq liMaSignificance (.fin (signal + α * nOff)) (.fin nOff) (.fin α) ⟨.fin minSig, .fin minEvents, .fin minExcess⟩ = .ok (.fin r))
    (hr' : relativeSensitivity1 brentq liMaSignificance (.fin (signal + α * nOff')) (.fin nOff') (.fin α) ⟨.fin minSig, .fin minEvents, .fin minExcess⟩ = .ok (.fin r')) : r ≤ r' := by
  have h0' : 0 ≤ nOff' := le_trans h0 hle
  obtain ⟨-, -, m⟩ := C18_least_detectable brentq hrf _ _ _ _ _ _ _ (by positivity) h0 hα hm hr
  obtain ⟨p', ⟨⟨s, hs, hms⟩, h2, h3⟩, -⟩ := C18_least_detectable brentq hrf _ _ _ _ _ _ _ (by positivity) h0' hα hm hr'
  rw [add_sub_cancel_right] at hs h2 h3
  apply m _ p'.le
  unfold Detectable
  rw [add_sub_cancel_right]
  have hSr : 0 ≤ signal * r' := mul_nonneg hS p'.le
  refine ⟨⟨_, liMa_eq (by positivity) h0 hα, ?_⟩, h2, le_trans ?_ h3⟩
  · exact le_trans hms (C130_significance_background _ _ _ _ _ _ hSr h0 hle hα (liMa_eq (by positivity) h0 hα) hs)
  · exact mul_le_mul_of_nonneg_left (mul_le_mul_of_nonneg_left hle hα.le) hx

/-- **C130** A larger off region (smaller `alpha`) at the same signal and the same expected background in the signal region never worsens it. -/
theorem C130_alpha (nOn background α α' minSig minEvents minExcess r r' : ℝ) (hn : background ≤ nOn) (hB : 0 ≤ background) (hα : 0 < α) (hle : α ≤ α') (hm : 0 < minSig)
    (hr : relativeSensitivity1 brentq liMaSignificance (.fin nOn) (.fin (background / α)) (.fin α) ⟨.fin minSig, .fin minEvents, .fin minExcess⟩ = .ok (.fin r))
    (hr' : relativeSensitivity1 brentq liMaSignificance (.fin nOn) (.fin (background / α')) (.fin α') ⟨.fin minSig, .fin minEvents, .fin minExcess⟩ = .ok (.fin r')) : r ≤ r' := by
  have hα' : 0 < α' := lt_of_lt_of_le hα hle
  obtain ⟨-, -, m⟩ := C18_least_detectable brentq hrf _ _ _ _ _ _ _ (le_trans hB hn) (by positivity) hα hm hr
  obtain ⟨p', ⟨⟨s, hs, hms⟩, h2, h3⟩, -⟩ := C18_least_detectable brentq hrf _ _ _ _ _ _ _ (le_trans hB hn) (by positivity) hα' hm hr'
  rw [mul_div_cancel₀ _ hα'.ne'] at hs h2 h3
  apply m _ p'.le
  unfold Detectable
  rw [mul_div_cancel₀ _ hα.ne']
  have hS : 0 ≤ (nOn - background) * r' + background := by
    have := mul_nonneg (sub_nonneg.mpr hn) p'.le
    linarith
  exact ⟨⟨_, liMa_eq hS (by positivity) hα, le_trans hms (C130_significance_alpha _ _ _ _ _ _ hS hB hα hle (liMa_eq hS (by positivity) hα) hs)⟩, h2, h3⟩

/-- **C130** More signal at the same background never worsens the sensitivity, and stricter criteria never improve it. -/
theorem C130_signal_and_criteria (signal signal' nOff α minSig minSig' minEvents minEvents' minExcess minExcess' r r' : ℝ) (hS : 0 ≤ signal) (hSS : signal ≤ signal') (h0 : 0 ≤ nOff) (hα : 0 < α)
    (hm : 0 < minSig) (h1 : minSig ≤ minSig') (h2 : minEvents ≤ minEvents') (h3 : minExcess ≤ minExcess')
    (hr : relativeSensitivity1 brentq liMaSignificance (.fin (signal' + α * nOff)) (.fin nOff) (.fin α) ⟨.fin minSig, .fin minEvents, .fin minExcess⟩ = .ok (.fin r))
    (hr' : relativeSensitivity1 brentq liMaSignificance (.fin (signal + α * nOff)) (.fin nOff) (.fin α) ⟨.fin minSig', .fin minEvents', .fin minExcess'⟩ = .ok (.fin r')) : r ≤ r' := by
  have hS' : 0 ≤ signal' := le_trans hS hSS
  have hB : 0 ≤ α * nOff := by positivity
  obtain ⟨-, -, m⟩ := C18_least_detectable brentq hrf _ _ _ _ _ _ _ (by positivity) h0 hα hm hr
  obtain ⟨p', ⟨⟨s, hs, hms⟩, d2, d3⟩, -⟩ := C18_least_detectable brentq hrf _ _ _ _ _ _ _ (by positivity) h0 hα (lt_of_lt_of_le hm h1) hr'
  rw [add_sub_cancel_right] at hs d2 d3
  apply m _ p'.le
  unfold Detectable
  rw [add_sub_cancel_right]
  have hle : signal * r' ≤ signal' * r' := mul_le_mul_of_nonneg_right hSS p'.le
  have hp1 : 0 ≤ signal * r' := mul_nonneg hS p'.le
  have hp2 : 0 ≤ signal' * r' := mul_nonneg hS' p'.le
  refine ⟨⟨_, liMa_eq (by positivity) h0 hα, ?_⟩, by linarith, ?_⟩
  · rw [liMa_eq (by positivity) h0 hα] at hs
    cases hs
    refine le_trans h1 (le_trans hms ?_)
    exact limaR_mono h0 hα (by linarith)
  · exact le_trans (mul_le_mul_of_nonneg_right h3 hB) (le_trans d3 hle)

/-- **C130** Observing `T >= 1` times as long (all counts times `T`) improves the sensitivity: the result is at most the one before, and at least a `T`-th of it. -/
theorem C130_observation_time (nOn nOff α minSig minEvents minExcess T r r' : ℝ) (hn : α * nOff ≤ nOn) (h0 : 0 ≤ nOff) (hα : 0 < α) (hm : 0 < minSig) (hx : 0 ≤ minExcess) (hT : 1 ≤ T)
    (hr : relativeSensitivity1 brentq liMaSignificance (.fin nOn) (.fin nOff) (.fin α) ⟨.fin minSig, .fin minEvents, .fin minExcess⟩ = .ok (.fin r))
    (hr' : relativeSensitivity1 brentq liMaSignificance (.fin (T * nOn)) (.fin (T * nOff)) (.fin α) ⟨.fin minSig, .fin minEvents, .fin minExcess⟩ = .ok (.fin r')) : r' ≤ r ∧ r / T ≤ r' := by
  have hT0 : 0 < T := by linarith
  have hB : 0 ≤ α * nOff := by positivity
  have hn0 : 0 ≤ nOn := le_trans hB hn
  obtain ⟨p, ⟨⟨s, hs, hms⟩, d2, d3⟩, m⟩ := C18_least_detectable brentq hrf _ _ _ _ _ _ _ hn0 h0 hα hm hr
  obtain ⟨p', ⟨⟨s', hs', hms'⟩, d2', d3'⟩, m'⟩ := C18_least_detectable brentq hrf _ _ _ _ _ _ _ (mul_nonneg hT0.le hn0) (mul_nonneg hT0.le h0) hα hm hr'
  have hE : 0 ≤ nOn - α * nOff := by linarith
  constructor
  · apply m' _ p.le
    have e : (T * nOn - α * (T * nOff)) * r = T * ((nOn - α * nOff) * r) := by ring
    have hEr : 0 ≤ (nOn - α * nOff) * r := mul_nonneg hE p.le
    unfold Detectable
    rw [e]
    refine ⟨⟨_, by
      have := C16_sqrt_scaling _ _ _ T _ (by positivity) h0 hα hT0 hs
      have e2 : T * ((nOn - α * nOff) * r) + α * (T * nOff) = T * ((nOn - α * nOff) * r + α * nOff) := by ring
      rw [e2]; exact this, ?_⟩, ?_, ?_⟩
    · have h1 : 1 ≤ Real.sqrt T := by rw [Real.one_le_sqrt]; exact hT
      nlinarith
    · nlinarith
    · have e3 : minExcess * (α * (T * nOff)) = T * (minExcess * (α * nOff)) := by ring
      rw [e3]
      exact mul_le_mul_of_nonneg_left d3 hT0.le
  · rw [div_le_iff₀ hT0]
    apply m _ (by positivity)
    have e : (nOn - α * nOff) * (r' * T) = (T * nOn - α * (T * nOff)) * r' := by ring
    have hEr : 0 ≤ (T * nOn - α * (T * nOff)) * r' := by rw [← e]; positivity
    unfold Detectable
    rw [e]
    have hle : nOff ≤ T * nOff := by nlinarith
    refine ⟨⟨_, liMa_eq (by positivity) h0 hα, ?_⟩, d2', le_trans ?_ d3'⟩
    · exact le_trans hms' (C130_significance_background _ _ _ _ _ _ hEr h0 hle hα (liMa_eq (by positivity) h0 hα) hs')
    · exact mul_le_mul_of_nonneg_left (mul_le_mul_of_nonneg_left hle hα.le) hx
end

/-! ## The hypotheses can be met: finite results for two backgrounds, two off regions, two signals and criteria, two observation times -/

/-- a finite sensitivity for `alpha = 1/5`, five sigma and counts with an expected background of at least 100 -/
theorem ex_finite (nOn nOff : ℝ) (h : 500 ≤ nOff) (hn : 1 / 5 * nOff < nOn) (minSig : ℝ) (hm : minSig = 5 ∨ minSig = 6) :
    ∃ r, relativeSensitivity1 idealRoot liMaSignificance (.fin nOn) (.fin nOff) (.fin (1 / 5)) ⟨.fin minSig, .fin 10, .fin (1 / 20)⟩ = .ok (.fin r) := by
  refine C20_enough_background idealRoot idealRoot_isRootFinder nOn nOff (1 / 5) minSig 10 (1 / 20) (by linarith) (by norm_num) (by rcases hm with rfl | rfl <;> norm_num) hn ?_
  have h10 : (10 : ℝ) ≤ Real.sqrt (1 / 5 * nOff) := by
    rw [Real.le_sqrt (by norm_num) (by linarith)]
    linarith
  rcases hm with rfl | rfl <;> nlinarith

example : ∃ r r', relativeSensitivity1 idealRoot liMaSignificance (.fin (50 + 1 / 5 * 500)) (.fin 500) (.fin (1 / 5)) ⟨.fin 5, .fin 10, .fin (1 / 20)⟩ = .ok (.fin r) ∧
    relativeSensitivity1 idealRoot liMaSignificance (.fin (50 + 1 / 5 * 600)) (.fin 600) (.fin (1 / 5)) ⟨.fin 5, .fin 10, .fin (1 / 20)⟩ = .ok (.fin r') ∧ r ≤ r' := by
  obtain ⟨r, hr⟩ := ex_finite (50 + 1 / 5 * 500) 500 (by norm_num) (by norm_num) 5 (Or.inl rfl)
  obtain ⟨r', hr'⟩ := ex_finite (50 + 1 / 5 * 600) 600 (by norm_num) (by norm_num) 5 (Or.inl rfl)
  exact ⟨r, r', hr, hr', C130_background idealRoot idealRoot_isRootFinder 50 500 600 (1 / 5) 5 10 (1 / 20) r r' (by norm_num) (by norm_num) (by norm_num) (by norm_num) (by norm_num) (by norm_num) hr hr'⟩

example : ∃ r r', relativeSensitivity1 idealRoot liMaSignificance (.fin (70 + 1 / 5 * 500)) (.fin 500) (.fin (1 / 5)) ⟨.fin 5, .fin 10, .fin (1 / 20)⟩ = .ok (.fin r) ∧
    relativeSensitivity1 idealRoot liMaSignificance (.fin (50 + 1 / 5 * 500)) (.fin 500) (.fin (1 / 5)) ⟨.fin 6, .fin 10, .fin (1 / 20)⟩ = .ok (.fin r') ∧ r ≤ r' := by
  obtain ⟨r, hr⟩ := ex_finite (70 + 1 / 5 * 500) 500 (by norm_num) (by norm_num) 5 (Or.inl rfl)
  obtain ⟨r', hr'⟩ := ex_finite (50 + 1 / 5 * 500) 500 (by norm_num) (by norm_num) 6 (Or.inr rfl)
  exact ⟨r, r', hr, hr', C130_signal_and_criteria idealRoot idealRoot_isRootFinder 50 70 500 (1 / 5) 5 6 10 10 (1 / 20) (1 / 20) r r' (by norm_num) (by norm_num) (by norm_num) (by norm_num) (by norm_num)
    (by norm_num) (by norm_num) (by norm_num) hr hr'⟩

example : ∃ r r', relativeSensitivity1 idealRoot liMaSignificance (.fin 150) (.fin 500) (.fin (1 / 5)) ⟨.fin 5, .fin 10, .fin (1 / 20)⟩ = .ok (.fin r) ∧
    relativeSensitivity1 idealRoot liMaSignificance (.fin (2 * 150)) (.fin (2 * 500)) (.fin (1 / 5)) ⟨.fin 5, .fin 10, .fin (1 / 20)⟩ = .ok (.fin r') ∧ r' ≤ r ∧ r / 2 ≤ r' := by
  obtain ⟨r, hr⟩ := ex_finite 150 500 (by norm_num) (by norm_num) 5 (Or.inl rfl)
  obtain ⟨r', hr'⟩ := ex_finite (2 * 150) (2 * 500) (by norm_num) (by norm_num) 5 (Or.inl rfl)
  exact ⟨r, r', hr, hr', C130_observation_time idealRoot idealRoot_isRootFinder 150 500 (1 / 5) 5 10 (1 / 20) 2 r r' (by norm_num) (by norm_num) (by norm_num) (by norm_num) (by norm_num) (by norm_num) hr hr'⟩

/-- two off regions -/
example : ∃ r r', relativeSensitivity1 idealRoot liMaSignificance (.fin 150) (.fin (100 / (1 / 5))) (.fin (1 / 5)) ⟨.fin 5, .fin 10, .fin (1 / 20)⟩ = .ok (.fin r) ∧
    relativeSensitivity1 idealRoot liMaSignificance (.fin 150) (.fin (100 / (1 / 2))) (.fin (1 / 2)) ⟨.fin 5, .fin 10, .fin (1 / 20)⟩ = .ok (.fin r') ∧ r ≤ r' := by
  have h10 : Real.sqrt 100 = 10 := by rw [show (100 : ℝ) = 10 ^ 2 by norm_num]; exact Real.sqrt_sq (by norm_num)
  obtain ⟨r, hr⟩ := C20_enough_background idealRoot idealRoot_isRootFinder 150 (100 / (1 / 5)) (1 / 5) 5 10 (1 / 20) (by norm_num) (by norm_num) (by norm_num) (by norm_num)
    (by rw [mul_div_cancel₀ _ (by norm_num), h10]; norm_num)
  obtain ⟨r', hr'⟩ := C20_enough_background idealRoot idealRoot_isRootFinder 150 (100 / (1 / 2)) (1 / 2) 5 10 (1 / 20) (by norm_num) (by norm_num) (by norm_num) (by norm_num)
    (by rw [mul_div_cancel₀ _ (by norm_num), h10]; norm_num)
  exact ⟨r, r', hr, hr', C130_alpha idealRoot idealRoot_isRootFinder 150 100 (1 / 5) (1 / 2) 5 10 (1 / 20) r r' (by norm_num) (by norm_num) (by norm_num) (by norm_num) (by norm_num) hr hr'⟩

end Pyirf.Sensitivity
