import Verif.Stats.LiMa

/-!
# Properties C15, C16: Li & Ma significance
-/
set_option linter.unusedSectionVars false

namespace Pyirf.Stats
open Pyirf

/-! ## Specification -/

/-- Formula (17) of Li & Ma (1983): `sqrt 2 * { n_on ln[(1+α)/α * n_on/(n_on+n_off)] + n_off ln[(1+α) n_off/(n_on+n_off)] }^{1/2}`,
where a term with a zero count is zero. -/
noncomputable def formula17 (nOn nOff α : ℝ) : ℝ :=
  Real.sqrt 2 * Real.sqrt
    ((if nOn = 0 then 0 else nOn * Real.log ((1 + α) / α * (nOn / (nOn + nOff)))) +
     (if nOff = 0 then 0 else nOff * Real.log ((1 + α) * (nOff / (nOn + nOff)))))

/-! ## Lemmas -/

/-- the significance as a real function -/
noncomputable def limaR (a b α : ℝ) : ℝ := if a < α * b then 0 else Real.sqrt (lmTS a b α * 2)

theorem liMa_eq {a b α : ℝ} (ha : 0 ≤ a) (hb : 0 ≤ b) (hα : 0 < α) :
    liMaSignificance (.fin a) (.fin b) (.fin α) = .fin (limaR a b α) := by
  have hq : FV.fin (1 + α) / FV.fin α = FV.fin ((1 + α) / α) := FV.fin_div_fin _ _ hα.ne'
  have hts := lmTS_nonneg ha hb hα
  unfold liMaSignificance limaR
  simp only [hq, FV.fin_add_fin, FV.fin_mul_fin, FV.lt_fin, decide_eq_true_eq]
  by_cases hlt : a < α * b
  · simp [hlt]
  · simp only [hlt, if_false]
    have t1 : (if FV.beq (FV.fin a) (FV.fin 0) = true then FV.fin 0
        else FV.fin a * FV.log (FV.fin ((1 + α) / α) * (FV.fin a / FV.fin (a + b))))
        = FV.fin (a * Real.log ((1 + α) / α * (a / (a + b)))) := by
      by_cases h0 : a = 0
      · subst h0; simp [FV.beq, FV.le]
      · have hp : 0 < a := lt_of_le_of_ne ha (Ne.symm h0)
        have hN : a + b ≠ 0 := by positivity
        have hb1 : FV.beq (FV.fin a) (FV.fin 0) = false := by
          simp [FV.beq, FV.le, ha, hp]
        have hpos : 0 < (1 + α) / α * (a / (a + b)) := by positivity
        rw [hb1]
        simp only [Bool.false_eq_true, if_false]
        rw [FV.fin_div_fin _ _ hN, FV.fin_mul_fin]
        simp only [FV.log, hpos.ne', if_false, not_lt.mpr hpos.le, FV.fin_mul_fin]
    have t2 : (if FV.beq (FV.fin b) (FV.fin 0) = true then FV.fin 0
        else FV.fin b * FV.log (FV.fin (1 + α) * (FV.fin b / FV.fin (a + b))))
        = FV.fin (b * Real.log ((1 + α) * (b / (a + b)))) := by
      by_cases h0 : b = 0
      · subst h0; simp [FV.beq, FV.le]
      · have hp : 0 < b := lt_of_le_of_ne hb (Ne.symm h0)
        have hN : a + b ≠ 0 := by positivity
        have hb1 : FV.beq (FV.fin b) (FV.fin 0) = false := by
          simp [FV.beq, FV.le, hb, hp]
        have hpos : 0 < (1 + α) * (b / (a + b)) := by positivity
        rw [hb1]
        simp only [Bool.false_eq_true, if_false]
        rw [FV.fin_div_fin _ _ hN, FV.fin_mul_fin]
        simp only [FV.log, hpos.ne', if_false, not_lt.mpr hpos.le, FV.fin_mul_fin]
    rw [t1, t2]
    have hs : ¬ (a * Real.log ((1 + α) / α * (a / (a + b))) + b * Real.log ((1 + α) * (b / (a + b)))) * 2 < 0 := by
      unfold lmTS at hts; linarith
    simp only [FV.fin_add_fin, FV.fin_mul_fin, FV.sqrt, hs, if_false, lmTS]

theorem limaR_nonneg (a b α : ℝ) : 0 ≤ limaR a b α := by
  unfold limaR; split
  · exact le_rfl
  · exact Real.sqrt_nonneg _

theorem limaR_pos {a b α : ℝ} (hb : 0 ≤ b) (hα : 0 < α) (h : α * b < a) : 0 < limaR a b α := by
  unfold limaR
  rw [if_neg (not_lt.mpr h.le)]
  apply Real.sqrt_pos.mpr
  have := lmTS_pos (le_trans (by positivity) h.le) hb hα h.ne'
  linarith

theorem limaR_zero {a b α : ℝ} (hb : 0 ≤ b) (hα : 0 < α) (h : a ≤ α * b) : limaR a b α = 0 := by
  unfold limaR
  rcases h.eq_or_lt with rfl | h
  · simp [lmTS_at_alpha hb hα]
  · simp [h]

theorem limaR_strictMono {a a' b α : ℝ} (hb : 0 ≤ b) (hα : 0 < α) (ha : α * b ≤ a) (haa : a < a') :
    limaR a b α < limaR a' b α := by
  unfold limaR
  rw [if_neg (not_lt.mpr ha), if_neg (not_lt.mpr (by linarith))]
  apply Real.sqrt_lt_sqrt
  · have := lmTS_nonneg (le_trans (by positivity) ha) hb hα; linarith
  · have := lmTS_strictMono hb hα ha haa; linarith

theorem limaR_mono {a a' b α : ℝ} (hb : 0 ≤ b) (hα : 0 < α) (haa : a ≤ a') :
    limaR a b α ≤ limaR a' b α := by
  rcases le_total a (α * b) with h | h
  · rw [limaR_zero hb hα h]; exact limaR_nonneg _ _ _
  · rcases haa.eq_or_lt with rfl | h2
    · exact le_rfl
    · exact (limaR_strictMono hb hα h h2).le

/-! ## C15 -/

/-- **C15** For counts `n_on, n_off >= 0` and `alpha > 0` the result is a real number `s >= 0` (never NaN or inf); it is
formula (17) if `n_on >= alpha * n_off` and 0 below; it is 0 exactly for `n_on <= alpha * n_off`. -/
theorem C15_li_ma (nOn nOff α : ℝ) (h1 : 0 ≤ nOn) (h2 : 0 ≤ nOff) (hα : 0 < α) :
    ∃ s : ℝ, liMaSignificance (.fin nOn) (.fin nOff) (.fin α) = .fin s ∧ 0 ≤ s ∧
      (α * nOff ≤ nOn → s = formula17 nOn nOff α) ∧ (nOn < α * nOff → s = 0) ∧ (s = 0 ↔ nOn ≤ α * nOff) := by
  refine ⟨_, liMa_eq h1 h2 hα, limaR_nonneg _ _ _, ?_, ?_, ?_⟩
  · intro h
    unfold limaR formula17
    rw [if_neg (not_lt.mpr h), mul_comm, Real.sqrt_mul (by norm_num)]
    congr 2
    unfold lmTS
    congr 1
    · split
      · rename_i h; rw [h]; simp
      · rfl
    · split
      · rename_i h; rw [h]; simp
      · rfl
  · intro h; exact limaR_zero h2 hα h.le
  · constructor
    · intro hs
      by_contra hc
      have := limaR_pos h2 hα (not_le.mp hc)
      linarith
    · exact limaR_zero h2 hα

/-! ## C16 -/

/-- **C16** Strictly increasing in `n_on` from `alpha * n_off` on. -/
theorem C16_strict_mono_on (nOn nOn' nOff α s s' : ℝ) (h2 : 0 ≤ nOff) (hα : 0 < α) (h : α * nOff ≤ nOn)
    (hlt : nOn < nOn') (hs : liMaSignificance (.fin nOn) (.fin nOff) (.fin α) = .fin s)
    (hs' : liMaSignificance (.fin nOn') (.fin nOff) (.fin α) = .fin s') : s < s' := by
  have h1 : 0 ≤ nOn := le_trans (by positivity) h
  rw [liMa_eq h1 h2 hα] at hs
  rw [liMa_eq (by linarith) h2 hα] at hs'
  rw [← FV.fin.inj hs, ← FV.fin.inj hs']
  exact limaR_strictMono h2 hα h hlt

/-- **C16** Non-increasing in `n_off`. -/
theorem C16_anti_off (nOn nOff nOff' α s s' : ℝ) (h1 : 0 ≤ nOn) (h2 : 0 ≤ nOff) (hα : 0 < α)
    (hle : nOff ≤ nOff') (hs : liMaSignificance (.fin nOn) (.fin nOff) (.fin α) = .fin s)
    (hs' : liMaSignificance (.fin nOn) (.fin nOff') (.fin α) = .fin s') : s' ≤ s := by
  rw [liMa_eq h1 h2 hα] at hs
  rw [liMa_eq h1 (by linarith) hα] at hs'
  rw [← FV.fin.inj hs, ← FV.fin.inj hs']
  rcases le_total nOn (α * nOff') with h | h
  · rw [limaR_zero (by linarith) hα h]; exact limaR_nonneg _ _ _
  · have hle2 : α * nOff ≤ α * nOff' := mul_le_mul_of_nonneg_left hle hα.le
    unfold limaR
    rw [if_neg (not_lt.mpr h), if_neg (not_lt.mpr (by linarith))]
    apply Real.sqrt_le_sqrt
    have := lmTS_anti_b h1 h2 hα hle h
    linarith

/-- **C16** Continuous in `n_on` on `[0, ∞)`, also across `alpha * n_off`. -/
theorem C16_continuous (nOff α : ℝ) (h2 : 0 ≤ nOff) (hα : 0 < α) :
    ∃ S : ℝ → ℝ, (∀ nOn, 0 ≤ nOn → liMaSignificance (.fin nOn) (.fin nOff) (.fin α) = .fin (S nOn)) ∧
      ContinuousOn S (Set.Ici 0) := by
  refine ⟨fun a => limaR a nOff α, fun a ha => liMa_eq ha h2 hα, ?_⟩
  have hc : ContinuousOn (fun a => Real.sqrt (lmTS a nOff α * 2)) (Set.Ici 0) :=
    ((lmTS_continuousOn h2 hα).mul continuousOn_const).sqrt
  have e : (fun a => limaR a nOff α) = fun a => if α * nOff ≤ a then Real.sqrt (lmTS a nOff α * 2) else 0 := by
    funext a; unfold limaR
    by_cases h : a < α * nOff
    · simp [h, not_le.mpr h]
    · simp [h, not_lt.mp h]
  rw [e]
  apply ContinuousOn.if
  · intro a ha
    have hfr : a ∈ frontier {a : ℝ | α * nOff ≤ a} := ha.2
    rw [show {a : ℝ | α * nOff ≤ a} = Set.Ici (α * nOff) from rfl, frontier_Ici] at hfr
    rw [hfr, lmTS_at_alpha h2 hα]; simp
  · exact hc.mono Set.inter_subset_left
  · exact continuousOn_const

/-- **C16** Scaling both counts by `k > 0` scales the significance by `sqrt k`. -/
theorem C16_sqrt_scaling (nOn nOff α k s : ℝ) (h1 : 0 ≤ nOn) (h2 : 0 ≤ nOff) (hα : 0 < α) (hk : 0 < k)
    (hs : liMaSignificance (.fin nOn) (.fin nOff) (.fin α) = .fin s) :
    liMaSignificance (.fin (k * nOn)) (.fin (k * nOff)) (.fin α) = .fin (Real.sqrt k * s) := by
  rw [liMa_eq h1 h2 hα] at hs
  rw [liMa_eq (by positivity) (by positivity) hα, ← FV.fin.inj hs]
  congr 1
  unfold limaR
  have : k * nOn < α * (k * nOff) ↔ nOn < α * nOff := by
    rw [show α * (k * nOff) = k * (α * nOff) by ring]; exact mul_lt_mul_iff_right₀ hk
  rw [lmTS_scale hk, mul_assoc, Real.sqrt_mul hk.le]
  by_cases h : nOn < α * nOff
  · simp [h, this]
  · simp [h, this]

/-- Concrete case: 30 on events, 50 off events, alpha = 0.2; the significance is positive. -/
example : ∃ s : ℝ, 0 < s ∧ liMaSignificance (.fin 30) (.fin 50) (.fin (1/5)) = .fin s :=
  ⟨_, limaR_pos (by norm_num) (by norm_num) (by norm_num), liMa_eq (by norm_num) (by norm_num) (by norm_num)⟩
/-- Zero counts are handled: no events at all gives 0. -/
example : liMaSignificance (.fin 0) (.fin 0) (.fin (1/5)) = .fin 0 := by
  rw [liMa_eq le_rfl le_rfl (by norm_num), limaR_zero le_rfl (by norm_num) (by norm_num)]

end Pyirf.Stats
