import Mathlib.Analysis.Complex.ExponentialBounds
import Verif.Sensitivity.Model
import Verif.Stats.Props
import Mathlib.Topology.Order.IntermediateValue

/-!
# Properties C17-C20, C75: relative_sensitivity
-/
set_option linter.unusedSectionVars false
set_option linter.unusedSimpArgs false

namespace Pyirf.Sensitivity
open Pyirf Pyirf.Stats

/-! ## Specification -/

/-- What is assumed of scipy's `brentq`: a returned value is a root inside the bracket (solver tolerance ignored); for a
continuous function with a sign change (or a zero at an end) on a proper bracket it returns; if both ends have the same
strict sign it raises ValueError. -/
structure IsRootFinder (brentq : RootFn) : Prop where
  /-- a result is a root in the bracket -/
  sound : ∀ (f : FV ℝ → FV ℝ) (l h : ℝ) (r : FV ℝ), brentq f (.fin l) (.fin h) = .ok r →
    ∃ x, r = .fin x ∧ l ≤ x ∧ x ≤ h ∧ f (.fin x) = .fin 0
  /-- it succeeds for continuous functions with a sign change -/
  complete : ∀ (f : FV ℝ → FV ℝ) (g : ℝ → ℝ) (l h : ℝ), l ≤ h → ContinuousOn g (Set.Icc l h) →
    (∀ x ∈ Set.Icc l h, f (.fin x) = .fin (g x)) → g l * g h ≤ 0 → ∃ r, brentq f (.fin l) (.fin h) = .ok r
  /-- it refuses brackets without a sign change -/
  rejects : ∀ (f : FV ℝ → FV ℝ) (l h y y' : ℝ), f (.fin l) = .fin y → f (.fin h) = .fin y' → 0 < y * y' →
    brentq f (.fin l) (.fin h) = .error .valueError

/-- A flux scale `ρ` is detectable: the excess scaled by `ρ` on top of the expected background reaches the significance,
the number of signal events and the fraction of the background. -/
def Detectable (nOn nOff α minSig minEvents minExcess ρ : ℝ) : Prop :=
  (∃ s, liMaSignificance (.fin ((nOn - α * nOff) * ρ + α * nOff)) (.fin nOff) (.fin α) = .fin s ∧ minSig ≤ s) ∧
  minEvents ≤ (nOn - α * nOff) * ρ ∧ minExcess * (α * nOff) ≤ (nOn - α * nOff) * ρ

/-! ## Such a root finder exists -/

open Classical in
/-- An idealised root finder. -/
noncomputable def idealRoot : RootFn := fun f l h =>
  match l, h with
  | .fin l, .fin h =>
    if hx : ∃ x, l ≤ x ∧ x ≤ h ∧ f (.fin x) = .fin 0 ∧ ¬ ∃ y y', f (.fin l) = .fin y ∧ f (.fin h) = .fin y' ∧ 0 < y * y'
    then .ok (.fin hx.choose) else .error .valueError
  | _, _ => .error .valueError

theorem idealRoot_isRootFinder : IsRootFinder idealRoot where
  sound := by
    intro f l h r hr
    unfold idealRoot at hr
    simp only at hr
    split at hr
    · rename_i hx
      obtain ⟨a, b, c, -⟩ := hx.choose_spec
      exact ⟨_, (Except.ok.inj hr).symm, a, b, c⟩
    · exact absurd hr (by simp)
  complete := by
    intro f g l h hlh hc hf hs
    have hl : l ∈ Set.Icc l h := ⟨le_rfl, hlh⟩
    have hh : h ∈ Set.Icc l h := ⟨hlh, le_rfl⟩
    have : ∃ x ∈ Set.Icc l h, g x = 0 := by
      have h0 : (0 : ℝ) ∈ Set.uIcc (g l) (g h) := by
        rw [Set.mem_uIcc]
        rcases le_total (g l) 0 with h1 | h1 <;> rcases le_total (g h) 0 with h2 | h2
        · by_cases h3 : g l = 0
          · exact Or.inr ⟨h2, h3.ge⟩
          · by_cases h4 : g h = 0
            · exact Or.inl ⟨h1, h4.ge⟩
            · have := mul_pos_of_neg_of_neg (lt_of_le_of_ne h1 h3) (lt_of_le_of_ne h2 h4); linarith
        · exact Or.inl ⟨h1, h2⟩
        · exact Or.inr ⟨h2, h1⟩
        · by_cases h3 : g l = 0
          · exact Or.inl ⟨h3.le, h2⟩
          · by_cases h4 : g h = 0
            · exact Or.inr ⟨h4.le, h1⟩
            · have := mul_pos (lt_of_le_of_ne h1 (Ne.symm h3)) (lt_of_le_of_ne h2 (Ne.symm h4)); linarith
      have := intermediate_value_uIcc (by rw [Set.uIcc_of_le hlh]; exact hc) h0
      rw [Set.uIcc_of_le hlh] at this
      exact this
    obtain ⟨x, hx, hg⟩ := this
    have hx' : ∃ x, l ≤ x ∧ x ≤ h ∧ f (.fin x) = .fin 0 ∧
        ¬ ∃ y y', f (.fin l) = .fin y ∧ f (.fin h) = .fin y' ∧ 0 < y * y' := by
      refine ⟨x, hx.1, hx.2, by rw [hf x hx, hg], ?_⟩
      rintro ⟨y, y', e1, e2, e3⟩
      rw [hf l hl] at e1; rw [hf h hh] at e2
      rw [← FV.fin.inj e1, ← FV.fin.inj e2] at e3
      linarith
    exact ⟨.fin hx'.choose, by unfold idealRoot; simp only; rw [dif_pos hx']⟩
  rejects := by
    intro f l h y y' h1 h2 h3
    unfold idealRoot
    simp only
    rw [dif_neg]
    rintro ⟨x, -, -, -, hn⟩
    exact hn ⟨y, y', h1, h2, h3⟩

/-! ## C17 -/

/-- **C17** Special inputs, for every root finder and significance function: a NaN count gives NaN; a negative count (and no
NaN) raises ValueError; an excess `n_on <= alpha * n_off` gives inf. -/
theorem C17_input_handling (brentq : RootFn) (sig : SigFn) (nOn nOff alpha : FV ℝ) (th : Thresholds) :
    (nOn = .nan ∨ nOff = .nan → relativeSensitivity1 brentq sig nOn nOff alpha th = .ok .nan) ∧
    (nOn ≠ .nan → nOff ≠ .nan → (FV.lt nOn (.fin 0) = true ∨ FV.lt nOff (.fin 0) = true) →
      relativeSensitivity1 brentq sig nOn nOff alpha th = .error .valueError) ∧
    (∀ a b α : ℝ, nOn = .fin a → nOff = .fin b → alpha = .fin α → 0 ≤ a → 0 ≤ b → a ≤ α * b →
      relativeSensitivity1 brentq sig nOn nOff alpha th = .ok .pinf) := by
  refine ⟨?_, ?_, ?_⟩
  · rintro (rfl | rfl) <;> simp [relativeSensitivity1]
  · intro h1 h2 h3
    have e1 : nOn.isNan = false := by cases nOn <;> simp_all
    have e2 : nOff.isNan = false := by cases nOff <;> simp_all
    unfold relativeSensitivity1
    rw [e1, e2]
    rcases h3 with h3 | h3 <;> simp [h3]
  · rintro a b alpha rfl rfl rfl ha hb hab
    have : a - b * alpha ≤ 0 := by rw [mul_comm]; linarith
    simp [relativeSensitivity1, not_lt.mpr ha, not_lt.mpr hb, this]

/-- **C17** When the root finder gives up with RuntimeError or ValueError the result is NaN, whatever the significance
function; so with finite valid counts no exception leaves the function. -/
theorem C17_no_root_is_nan (brentq : RootFn) (sig : SigFn) (a b α : ℝ) (th : Thresholds) (ha : 0 ≤ a) (hb : 0 ≤ b)
    (hex : α * b < a) (hfail : ∀ f l h, brentq f l h = .error .runtimeError ∨ brentq f l h = .error .valueError) :
    relativeSensitivity1 brentq sig (.fin a) (.fin b) (.fin α) th = .ok .nan := by
  have : ¬ a - b * α ≤ 0 := by rw [mul_comm]; linarith
  unfold relativeSensitivity1
  simp only [FV.isNan_fin, Bool.or_self, Bool.false_eq_true, if_false, FV.lt_fin, not_lt.mpr ha, not_lt.mpr hb,
    decide_false, FV.fin_mul_fin, FV.fin_sub_fin, FV.le_fin, this]
  rcases hfail (fun r => sig (.fin (a - b * α) * r + .fin (b * α)) (.fin b) (.fin α) - th.minSignificance)
    (bracket (.fin b) (.fin (b * α)) (.fin (a - b * α)) th.minSignificance).1
    (bracket (.fin b) (.fin (b * α)) (.fin (a - b * α)) th.minSignificance).2 with h | h <;> rw [h] <;> simp

/-! ## Lemmas: closed form on finite inputs -/

/-- lower end of the bracket -/
noncomputable def brLo (nOff α E m : ℝ) : ℝ := if 1 < nOff then 1 / 100 * (m * Real.sqrt (nOff * α) / E) else 1 / 10000
/-- upper end of the bracket -/
noncomputable def brHi (nOff α E m : ℝ) : ℝ := if 1 < nOff then 10 * (m * Real.sqrt (nOff * α) / E) else 100

theorem bracket_eq {nOff α E m : ℝ} (h0 : 0 ≤ nOff) (hα : 0 < α) (hE : 0 < E) :
    bracket (.fin nOff) (.fin (nOff * α)) (.fin E) (.fin m) = (.fin (brLo nOff α E m), .fin (brHi nOff α E m)) := by
  unfold bracket brLo brHi
  have hs : ¬ nOff * α < 0 := not_lt.mpr (by positivity)
  simp only [FV.gt, FV.lt_fin, decide_eq_true_eq, FV.sqrt, hs, if_false, FV.fin_mul_fin]
  split
  · rw [FV.fin_div_fin _ _ hE.ne']; rfl
  · rfl

theorem brLo_nonneg {nOff α E m : ℝ} (hE : 0 < E) (hm : 0 < m) : 0 ≤ brLo nOff α E m := by
  unfold brLo; split <;> positivity
theorem brLo_le_brHi {nOff α E m : ℝ} (hE : 0 < E) (hm : 0 < m) : brLo nOff α E m ≤ brHi nOff α E m := by
  unfold brLo brHi; split
  · have : 0 ≤ m * Real.sqrt (nOff * α) / E := by positivity
    linarith
  · norm_num

/-- the equation whose root is searched -/
noncomputable def eqR (E B nOff α m x : ℝ) : ℝ := limaR (E * x + B) nOff α - m

theorem eq_fin {E B nOff α m x : ℝ} (h0 : 0 ≤ nOff) (hα : 0 < α) (hE : 0 < E) (hB : 0 ≤ B) (hx : 0 ≤ x) :
    liMaSignificance (.fin E * .fin x + .fin B) (.fin nOff) (.fin α) - .fin m = .fin (eqR E B nOff α m x) := by
  rw [FV.fin_mul_fin, FV.fin_add_fin, liMa_eq (by positivity) h0 hα, FV.fin_sub_fin]
  rfl

theorem relSens_unfold (brentq : RootFn) {nOn nOff α m k ε : ℝ} (h0 : 0 ≤ nOff) (hα : 0 < α)
    (hex : α * nOff < nOn) :
    relativeSensitivity1 brentq liMaSignificance (.fin nOn) (.fin nOff) (.fin α) ⟨.fin m, .fin k, .fin ε⟩ =
      match brentq (fun r => liMaSignificance (.fin (nOn - nOff * α) * r + .fin (nOff * α)) (.fin nOff) (.fin α) - .fin m)
        (.fin (brLo nOff α (nOn - nOff * α) m)) (.fin (brHi nOff α (nOn - nOff * α) m)) with
      | .ok r => .ok (scaleFlux (.fin (nOn - nOff * α)) (.fin (nOff * α)) r ⟨.fin m, .fin k, .fin ε⟩)
      | .error e => if e = .runtimeError ∨ e = .valueError then .ok .nan else .error e := by
  have hE : 0 < nOn - nOff * α := by rw [mul_comm]; linarith
  have hn : 0 ≤ nOn := le_trans (by positivity) hex.le
  unfold relativeSensitivity1
  simp only [FV.isNan_fin, Bool.or_self, Bool.false_eq_true, if_false, FV.lt_fin, not_lt.mpr hn, not_lt.mpr h0,
    decide_false, FV.fin_mul_fin, FV.fin_sub_fin, FV.le_fin, not_le.mpr hE, bracket_eq h0 hα hE]
  rfl

theorem scaleFlux_eq {E B x k ε : ℝ} (m : FV ℝ) (hE : 0 < E) (hx : 0 < x) :
    scaleFlux (.fin E) (.fin B) (.fin x) ⟨m, .fin k, .fin ε⟩ = .fin (max x (max k (ε * B) / E)) := by
  have hEx : 0 < E * x := by positivity
  have key : ∀ M : ℝ, FV.fin x * (if FV.lt (FV.fin (E * x)) (FV.fin M) then FV.fin M / FV.fin (E * x) else .fin 1) =
      .fin (max x (M / E)) := by
    intro M
    simp only [FV.lt_fin, decide_eq_true_eq]
    split
    · rename_i h
      rw [FV.fin_div_fin _ _ hEx.ne', FV.fin_mul_fin]
      congr 1
      have : x ≤ M / E := by rw [le_div_iff₀ hE]; linarith
      rw [max_eq_right this]
      field_simp
    · rename_i h
      rw [FV.fin_mul_fin]
      congr 1
      have : M / E ≤ x := by rw [div_le_iff₀ hE]; linarith
      rw [max_eq_left this, mul_one]
  unfold scaleFlux
  by_cases h : k < ε * B
  · have h1 : FV.gt (FV.fin (ε * B)) (FV.fin k) = true := by simp [FV.gt, h]
    simp only [FV.fin_mul_fin, h1, if_true, max_eq_right h.le]
    exact key _
  · have h1 : FV.gt (FV.fin (ε * B)) (FV.fin k) = false := by simp [FV.gt, not_lt.mp h]
    simp only [FV.fin_mul_fin, h1, Bool.false_eq_true, if_false, max_eq_left (not_lt.mp h)]
    exact key _

/-- everything known about a finite result -/
theorem finite_result {brentq : RootFn} (hrf : IsRootFinder brentq) {nOn nOff α m k ε r : ℝ} (h0 : 0 ≤ nOff)
    (hα : 0 < α) (hm : 0 < m) (hn : 0 ≤ nOn)
    (hr : relativeSensitivity1 brentq liMaSignificance (.fin nOn) (.fin nOff) (.fin α) ⟨.fin m, .fin k, .fin ε⟩
      = .ok (.fin r)) :
    α * nOff < nOn ∧ ∃ x, 0 < x ∧ brLo nOff α (nOn - nOff * α) m ≤ x ∧ x ≤ brHi nOff α (nOn - nOff * α) m ∧
      limaR ((nOn - nOff * α) * x + nOff * α) nOff α = m ∧
      r = max x (max k (ε * (nOff * α)) / (nOn - nOff * α)) := by
  have hex : α * nOff < nOn := by
    by_contra hc
    have := (C17_input_handling brentq liMaSignificance (.fin nOn) (.fin nOff) (.fin α) ⟨.fin m, .fin k, .fin ε⟩).2.2 nOn nOff α
      rfl rfl rfl hn h0 (not_lt.mp hc)
    rw [this] at hr
    exact absurd hr (by simp)
  refine ⟨hex, ?_⟩
  have hE : 0 < nOn - nOff * α := by rw [mul_comm]; linarith
  rw [relSens_unfold brentq h0 hα hex] at hr
  revert hr
  cases hq : brentq (fun r => liMaSignificance (.fin (nOn - nOff * α) * r + .fin (nOff * α)) (.fin nOff) (.fin α)
      - .fin m) (.fin (brLo nOff α (nOn - nOff * α) m)) (.fin (brHi nOff α (nOn - nOff * α) m)) with
  | error e =>
    simp only []
    split <;> intro hr <;> exact absurd hr (by simp)
  | ok q =>
    simp only []
    intro hr
    obtain ⟨x, rfl, hl, hh, hfx⟩ := hrf.sound _ _ _ _ hq
    have hx0 : 0 ≤ x := le_trans (brLo_nonneg hE hm) hl
    rw [eq_fin h0 hα hE (by positivity) hx0] at hfx
    have hroot : limaR ((nOn - nOff * α) * x + nOff * α) nOff α = m := by
      have := FV.fin.inj hfx; unfold eqR at this; linarith
    have hxp : 0 < x := by
      rcases hx0.eq_or_lt with h | h
      · rw [← h, mul_zero, zero_add, limaR_zero h0 hα (by rw [mul_comm])] at hroot
        linarith
      · exact h
    rw [scaleFlux_eq _ hE hxp] at hr
    exact ⟨x, hxp, hl, hh, hroot, (FV.fin.inj (Except.ok.inj hr)).symm⟩

/-! ## C18 -/

/-- **C18** A finite result `r` is the least detectable flux scale: `r` satisfies all three criteria, and every
(non-negative) flux scale that does is at least `r`. -/
theorem C18_least_detectable (brentq : RootFn) (hrf : IsRootFinder brentq) (nOn nOff α minSig minEvents minExcess r : ℝ)
    (hn : 0 ≤ nOn) (h0 : 0 ≤ nOff) (hα : 0 < α) (hm : 0 < minSig)
    (hr : relativeSensitivity1 brentq liMaSignificance (.fin nOn) (.fin nOff) (.fin α)
      ⟨.fin minSig, .fin minEvents, .fin minExcess⟩ = .ok (.fin r)) :
    0 < r ∧ Detectable nOn nOff α minSig minEvents minExcess r ∧
      ∀ ρ, 0 ≤ ρ → Detectable nOn nOff α minSig minEvents minExcess ρ → r ≤ ρ := by
  obtain ⟨hex, x, hx, -, -, hroot, rfl⟩ := finite_result hrf h0 hα hm hn hr
  rw [mul_comm nOff α] at *
  set E := nOn - α * nOff with hEd
  have hE : 0 < E := by rw [hEd]; linarith
  have hB : 0 ≤ α * nOff := by positivity
  set M := max minEvents (minExcess * (α * nOff)) with hM
  have hrpos : 0 < max x (M / E) := lt_of_lt_of_le hx (le_max_left _ _)
  refine ⟨hrpos, ⟨⟨_, liMa_eq (by positivity) h0 hα, ?_⟩, ?_, ?_⟩, ?_⟩
  · rw [← hroot]
    apply limaR_mono h0 hα
    have : E * x ≤ E * max x (M / E) := mul_le_mul_of_nonneg_left (le_max_left _ _) hE.le
    linarith
  · have : E * (M / E) ≤ E * max x (M / E) := mul_le_mul_of_nonneg_left (le_max_right _ _) hE.le
    have e : E * (M / E) = M := by field_simp
    have := le_max_left minEvents (minExcess * (α * nOff))
    linarith
  · have : E * (M / E) ≤ E * max x (M / E) := mul_le_mul_of_nonneg_left (le_max_right _ _) hE.le
    have e : E * (M / E) = M := by field_simp
    have := le_max_right minEvents (minExcess * (α * nOff))
    linarith
  · rintro ρ hρ ⟨⟨s, hs, hms⟩, hk, hε⟩
    rw [← hEd] at hs hk hε
    rw [liMa_eq (by positivity) h0 hα] at hs
    apply max_le
    · by_contra hc
      have hc : ρ < x := not_le.mp hc
      have h1 : limaR (E * ρ + α * nOff) nOff α < limaR (E * x + α * nOff) nOff α := by
        apply limaR_strictMono h0 hα
        · have : 0 ≤ E * ρ := by positivity
          linarith
        · have := mul_lt_mul_of_pos_left hc hE; linarith
      rw [hroot, FV.fin.inj hs] at h1
      linarith
    · rw [div_le_iff₀ hE, mul_comm ρ E]
      exact max_le hk hε

/-! ## C19 -/

/-- **C19** The result does not depend on the root finder: two correct root finders that both give a finite result give
the same one. -/
theorem C19_root_finder_irrelevant (b1 b2 : RootFn) (h1 : IsRootFinder b1) (h2 : IsRootFinder b2)
    (nOn nOff α minSig minEvents minExcess r1 r2 : ℝ) (hn : 0 ≤ nOn) (h0 : 0 ≤ nOff) (hα : 0 < α) (hm : 0 < minSig)
    (hr1 : relativeSensitivity1 b1 liMaSignificance (.fin nOn) (.fin nOff) (.fin α)
      ⟨.fin minSig, .fin minEvents, .fin minExcess⟩ = .ok (.fin r1))
    (hr2 : relativeSensitivity1 b2 liMaSignificance (.fin nOn) (.fin nOff) (.fin α)
      ⟨.fin minSig, .fin minEvents, .fin minExcess⟩ = .ok (.fin r2)) : r1 = r2 := by
  obtain ⟨p1, d1, m1⟩ := C18_least_detectable b1 h1 _ _ _ _ _ _ _ hn h0 hα hm hr1
  obtain ⟨p2, d2, m2⟩ := C18_least_detectable b2 h2 _ _ _ _ _ _ _ hn h0 hα hm hr2
  exact le_antisymm (m1 _ p2.le d2) (m2 _ p1.le d1)

/-- **C19** Multiplying the excess by `c > 0` at equal background divides a finite result by `c` (if both are finite). -/
theorem C19_excess_scaling (brentq : RootFn) (hrf : IsRootFinder brentq)
    (nOn nOff α minSig minEvents minExcess c r r' : ℝ) (hc : 0 < c) (hn : α * nOff ≤ nOn) (h0 : 0 ≤ nOff) (hα : 0 < α)
    (hm : 0 < minSig)
    (hr : relativeSensitivity1 brentq liMaSignificance (.fin nOn) (.fin nOff) (.fin α)
      ⟨.fin minSig, .fin minEvents, .fin minExcess⟩ = .ok (.fin r))
    (hr' : relativeSensitivity1 brentq liMaSignificance (.fin (α * nOff + c * (nOn - α * nOff))) (.fin nOff) (.fin α)
      ⟨.fin minSig, .fin minEvents, .fin minExcess⟩ = .ok (.fin r')) : r' = r / c := by
  have hB : 0 ≤ α * nOff := by positivity
  have hn' : 0 ≤ α * nOff + c * (nOn - α * nOff) := by
    have := mul_nonneg hc.le (sub_nonneg.mpr hn); linarith
  obtain ⟨p1, d1, m1⟩ := C18_least_detectable brentq hrf _ _ _ _ _ _ _ (by linarith) h0 hα hm hr
  obtain ⟨p2, d2, m2⟩ := C18_least_detectable brentq hrf _ _ _ _ _ _ _ hn' h0 hα hm hr'
  have key : ∀ ρ, Detectable (α * nOff + c * (nOn - α * nOff)) nOff α minSig minEvents minExcess ρ ↔
      Detectable nOn nOff α minSig minEvents minExcess (c * ρ) := by
    intro ρ
    unfold Detectable
    have e : (α * nOff + c * (nOn - α * nOff) - α * nOff) * ρ = (nOn - α * nOff) * (c * ρ) := by ring
    rw [e]
  apply le_antisymm
  · apply m2 _ (by positivity)
    rw [key, mul_div_cancel₀ _ hc.ne']
    exact d1
  · rw [div_le_iff₀ hc, mul_comm]
    exact m1 _ (by positivity) ((key _).mp d2)

/-! ## C20 -/

theorem eqR_continuous {E B nOff α m l h : ℝ} (h0 : 0 ≤ nOff) (hα : 0 < α) (hE : 0 < E) (hB : 0 ≤ B) (hl : 0 ≤ l) :
    ContinuousOn (eqR E B nOff α m) (Set.Icc l h) := by
  obtain ⟨S, hS, hSc⟩ := C16_continuous nOff α h0 hα
  have hSe : ∀ a, 0 ≤ a → limaR a nOff α = S a := by
    intro a ha
    have := hS a ha
    rw [liMa_eq ha h0 hα] at this
    exact FV.fin.inj this
  have hmaps : Set.MapsTo (fun x => E * x + B) (Set.Icc l h) (Set.Ici 0) := by
    intro x hx
    have h1 : 0 ≤ x := le_trans hl hx.1
    have : 0 ≤ E * x + B := by positivity
    exact this
  have hc2 : ContinuousOn (fun x => E * x + B) (Set.Icc l h) := by fun_prop
  have hcomp : ContinuousOn (fun x => S (E * x + B) - m) (Set.Icc l h) :=
    (hSc.comp hc2 hmaps).sub continuousOn_const
  apply hcomp.congr
  intro x hx
  simp only [eqR]
  rw [hSe _ (hmaps hx)]

/-- **C20** When the code finds a solution: for `n_on > alpha * n_off` and a significance threshold > 0 the result is finite
exactly if the significance is at most the threshold at the lower end of the search bracket and at least the
threshold at the upper end; otherwise it is NaN. The ends are 1e-4 and 100 for `n_off <= 1` and 0.01 resp. 10 times
`minSig * sqrt(alpha * n_off) / excess` for `n_off > 1`. -/
theorem C20_finite_iff_in_bracket (brentq : RootFn) (hrf : IsRootFinder brentq)
    (nOn nOff α minSig minEvents minExcess : ℝ) (h0 : 0 ≤ nOff) (hα : 0 < α) (hm : 0 < minSig) (hex : α * nOff < nOn)
    (lo hi sLo sHi : ℝ)
    (hlo : lo = if 1 < nOff then 1 / 100 * (minSig * Real.sqrt (α * nOff) / (nOn - α * nOff)) else 1 / 10000)
    (hhi : hi = if 1 < nOff then 10 * (minSig * Real.sqrt (α * nOff) / (nOn - α * nOff)) else 100)
    (hsl : liMaSignificance (.fin ((nOn - α * nOff) * lo + α * nOff)) (.fin nOff) (.fin α) = .fin sLo)
    (hsh : liMaSignificance (.fin ((nOn - α * nOff) * hi + α * nOff)) (.fin nOff) (.fin α) = .fin sHi) :
    (sLo ≤ minSig ∧ minSig ≤ sHi →
      ∃ r, relativeSensitivity1 brentq liMaSignificance (.fin nOn) (.fin nOff) (.fin α)
        ⟨.fin minSig, .fin minEvents, .fin minExcess⟩ = .ok (.fin r)) ∧
    (¬ (sLo ≤ minSig ∧ minSig ≤ sHi) →
      relativeSensitivity1 brentq liMaSignificance (.fin nOn) (.fin nOff) (.fin α)
        ⟨.fin minSig, .fin minEvents, .fin minExcess⟩ = .ok .nan) := by
  have hE : 0 < nOn - nOff * α := by rw [mul_comm]; linarith
  have hB : 0 ≤ nOff * α := by positivity
  have elo : lo = brLo nOff α (nOn - nOff * α) minSig := by rw [hlo, mul_comm α nOff]; rfl
  have ehi : hi = brHi nOff α (nOn - nOff * α) minSig := by rw [hhi, mul_comm α nOff]; rfl
  rw [mul_comm α nOff] at hsl hsh
  have hl0 : 0 ≤ lo := elo ▸ brLo_nonneg hE hm
  have hlh : lo ≤ hi := by rw [elo, ehi]; exact brLo_le_brHi hE hm
  rw [liMa_eq (by positivity) h0 hα] at hsl
  have hh0 : 0 ≤ hi := le_trans hl0 hlh
  rw [liMa_eq (by positivity) h0 hα] at hsh
  have hsl := FV.fin.inj hsl
  have hsh := FV.fin.inj hsh
  rw [relSens_unfold brentq h0 hα hex, ← elo, ← ehi]
  set f := fun r => liMaSignificance (.fin (nOn - nOff * α) * r + .fin (nOff * α)) (.fin nOff) (.fin α) - FV.fin minSig
    with hf
  have hfx : ∀ x ∈ Set.Icc lo hi, f (.fin x) = .fin (eqR (nOn - nOff * α) (nOff * α) nOff α minSig x) := by
    intro x hx
    exact eq_fin h0 hα hE hB (le_trans hl0 hx.1)
  have glo : eqR (nOn - nOff * α) (nOff * α) nOff α minSig lo = sLo - minSig := by unfold eqR; rw [hsl]
  have ghi : eqR (nOn - nOff * α) (nOff * α) nOff α minSig hi = sHi - minSig := by unfold eqR; rw [hsh]
  have hsls : sLo ≤ sHi := by
    rw [← hsl, ← hsh]
    apply limaR_mono h0 hα
    have := mul_le_mul_of_nonneg_left hlh hE.le
    linarith
  constructor
  · rintro ⟨a1, a2⟩
    obtain ⟨q, hq⟩ := hrf.complete f _ lo hi hlh (eqR_continuous h0 hα hE hB hl0) hfx (by
      rw [glo, ghi]; exact mul_nonpos_of_nonpos_of_nonneg (by linarith) (by linarith))
    obtain ⟨x, rfl, hxl, hxh, hfx0⟩ := hrf.sound _ _ _ _ hq
    rw [hq]
    simp only []
    have hx0 : 0 ≤ x := le_trans hl0 hxl
    have hxp : 0 < x := by
      rcases hx0.eq_or_lt with h | h
      · rw [hfx x ⟨hxl, hxh⟩, ← h] at hfx0
        have := FV.fin.inj hfx0
        unfold eqR at this
        rw [mul_zero, zero_add, limaR_zero h0 hα (by rw [mul_comm])] at this
        linarith
      · exact h
    exact ⟨_, by rw [scaleFlux_eq _ hE hxp]⟩
  · intro hno
    have hpos : 0 < (sLo - minSig) * (sHi - minSig) := by
      by_cases h1 : sLo ≤ minSig
      · have h2 : sHi < minSig := by
          by_contra h2; exact hno ⟨h1, not_lt.mp h2⟩
        exact mul_pos_of_neg_of_neg (by linarith) (by linarith)
      · exact mul_pos (by linarith) (by linarith)
    have := hrf.rejects f lo hi _ _ (hfx lo ⟨le_rfl, hlh⟩) (hfx hi ⟨hlh, le_rfl⟩) (by rw [glo, ghi]; exact hpos)
    rw [this]
    simp

/-- **C20** So for valid counts with an excess the computation never raises: the result is finite or NaN. -/
theorem C20_total (brentq : RootFn) (hrf : IsRootFinder brentq)
    (nOn nOff α minSig minEvents minExcess : ℝ) (h0 : 0 ≤ nOff) (hα : 0 < α) (hm : 0 < minSig) (hex : α * nOff < nOn) :
    ∃ v, relativeSensitivity1 brentq liMaSignificance (.fin nOn) (.fin nOff) (.fin α)
        ⟨.fin minSig, .fin minEvents, .fin minExcess⟩ = .ok v ∧ (v = .nan ∨ ∃ r, v = .fin r) := by
  have hE : 0 < nOn - nOff * α := by rw [mul_comm]; linarith
  have hB : 0 ≤ nOff * α := by positivity
  have hl0 : 0 ≤ brLo nOff α (nOn - nOff * α) minSig := brLo_nonneg hE hm
  have hh0 : 0 ≤ brHi nOff α (nOn - nOff * α) minSig := le_trans hl0 (brLo_le_brHi hE hm)
  have key := C20_finite_iff_in_bracket brentq hrf nOn nOff α minSig minEvents minExcess h0 hα hm hex _ _ _ _ rfl rfl
    (liMa_eq (a := (nOn - α * nOff) * (if 1 < nOff then 1 / 100 * (minSig * Real.sqrt (α * nOff) / (nOn - α * nOff)) else 1 / 10000)
      + α * nOff) (by rw [mul_comm α nOff]; exact add_nonneg (mul_nonneg hE.le hl0) hB) h0 hα)
    (liMa_eq (a := (nOn - α * nOff) * (if 1 < nOff then 10 * (minSig * Real.sqrt (α * nOff) / (nOn - α * nOff)) else 100)
      + α * nOff) (by rw [mul_comm α nOff]; exact add_nonneg (mul_nonneg hE.le hh0) hB) h0 hα)
  rcases Classical.em _ with h | h
  · obtain ⟨r, hr⟩ := key.1 h
    exact ⟨_, hr, Or.inr ⟨r, rfl⟩⟩
  · exact ⟨_, key.2 h, Or.inl rfl⟩

/-- **C20** For `n_off > 1` the lower end of the bracket is always below the solution: the significance there is less than
the threshold. -/
theorem C20_lower_end_below (nOn nOff α minSig s : ℝ) (h0 : 1 < nOff) (hα : 0 < α) (hm : 0 < minSig)
    (hex : α * nOff < nOn)
    (hs : liMaSignificance (.fin ((nOn - α * nOff) * (1 / 100 * (minSig * Real.sqrt (α * nOff) / (nOn - α * nOff)))
      + α * nOff)) (.fin nOff) (.fin α) = .fin s) : s < minSig := by
  have hE : 0 < nOn - α * nOff := by linarith
  have hB : 0 < α * nOff := by positivity
  have hsq : 0 < Real.sqrt (α * nOff) := Real.sqrt_pos.mpr hB
  have e : (nOn - α * nOff) * (1 / 100 * (minSig * Real.sqrt (α * nOff) / (nOn - α * nOff)))
      = minSig * Real.sqrt (α * nOff) / 100 := by field_simp
  rw [e] at hs
  set a := minSig * Real.sqrt (α * nOff) / 100 + α * nOff with ha
  have hap : 0 < a := by positivity
  rw [liMa_eq hap.le (by linarith) hα] at hs
  rw [← FV.fin.inj hs]
  unfold limaR
  have hge : ¬ a < α * nOff := by
    have : 0 < minSig * Real.sqrt (α * nOff) / 100 := by positivity
    rw [ha]; linarith
  rw [if_neg hge]
  rw [Real.sqrt_lt' hm]
  have hle := lmTS_le hap.le (by linarith : 0 ≤ nOff) hα (by linarith)
  have hd : a - α * nOff = minSig * Real.sqrt (α * nOff) / 100 := by rw [ha]; ring
  rw [hd] at hle
  have hsq2 : Real.sqrt (α * nOff) ^ 2 = α * nOff := Real.sq_sqrt hB.le
  have hden : α * nOff ≤ α * (a + nOff) := by nlinarith
  have h3 : (minSig * Real.sqrt (α * nOff) / 100) ^ 2 / (α * (a + nOff)) ≤ minSig ^ 2 / 10000 := by
    rw [div_le_iff₀ (by positivity), div_pow, mul_pow, hsq2]
    have : minSig ^ 2 * (α * nOff) ≤ minSig ^ 2 * (α * (a + nOff)) := mul_le_mul_of_nonneg_left hden (sq_nonneg _)
    nlinarith
  nlinarith [sq_nonneg minSig, mul_pos hm hm]

/-- **C20** A sufficient condition for the upper end: if `n_off > 1` and
`(1+alpha)^2 * (sqrt(B) + 10*minSig) <= 50*sqrt(B)` with the background `B = alpha*n_off` (for alpha = 0.2 and 5 sigma:
about `B >= 2.2`), the code returns a finite value for every excess > 0. -/
theorem C20_enough_background (brentq : RootFn) (hrf : IsRootFinder brentq)
    (nOn nOff α minSig minEvents minExcess : ℝ) (h0 : 1 < nOff) (hα : 0 < α) (hm : 0 < minSig) (hex : α * nOff < nOn)
    (hcond : (1 + α) ^ 2 * (Real.sqrt (α * nOff) + 10 * minSig) ≤ 50 * Real.sqrt (α * nOff)) :
    ∃ r, relativeSensitivity1 brentq liMaSignificance (.fin nOn) (.fin nOff) (.fin α)
        ⟨.fin minSig, .fin minEvents, .fin minExcess⟩ = .ok (.fin r) := by
  have hE : 0 < nOn - α * nOff := by linarith
  have hB : 0 < α * nOff := by positivity
  have hn0 : 0 ≤ nOff := by linarith
  set q := Real.sqrt (α * nOff) with hq
  have hqp : 0 < q := Real.sqrt_pos.mpr hB
  have hq2 : q ^ 2 = α * nOff := Real.sq_sqrt hB.le
  have el : (nOn - α * nOff) * (1 / 100 * (minSig * q / (nOn - α * nOff))) = minSig * q / 100 := by
    field_simp
  have eh : (nOn - α * nOff) * (10 * (minSig * q / (nOn - α * nOff))) = 10 * (minSig * q) := by
    field_simp
  have hsl := liMa_eq (a := (nOn - α * nOff) * (1 / 100 * (minSig * q / (nOn - α * nOff))) + α * nOff)
    (b := nOff) (by rw [el]; positivity) hn0 hα
  have hsh := liMa_eq (a := (nOn - α * nOff) * (10 * (minSig * q / (nOn - α * nOff))) + α * nOff)
    (b := nOff) (by rw [eh]; positivity) hn0 hα
  refine (C20_finite_iff_in_bracket brentq hrf nOn nOff α minSig minEvents minExcess hn0 hα hm hex
    (1 / 100 * (minSig * q / (nOn - α * nOff))) (10 * (minSig * q / (nOn - α * nOff))) _ _
    (by rw [if_pos h0]) (by rw [if_pos h0]) hsl hsh).1 ⟨?_, ?_⟩
  · exact (C20_lower_end_below nOn nOff α minSig _ h0 hα hm hex hsl).le
  · rw [eh]
    unfold limaR
    rw [if_neg (by have : 0 < minSig * q := by positivity
                   linarith)]
    apply Real.le_sqrt_of_sq_le
    have hap : 0 < 10 * (minSig * q) + α * nOff := by positivity
    have hge := lmTS_ge hap hn0 hα (by have : 0 < minSig * q := by positivity
                                       linarith)
    have hd : 10 * (minSig * q) + α * nOff - α * nOff = 10 * (minSig * q) := by ring
    rw [hd] at hge
    have key : minSig ^ 2 / 2 ≤ (10 * (minSig * q)) ^ 2 / (4 * (1 + α) ^ 2 * (10 * (minSig * q) + α * nOff)) := by
      rw [le_div_iff₀ (by positivity), ← hq2]
      have h1 : (1 + α) ^ 2 * (q + 10 * minSig) * q ≤ 50 * q * q := mul_le_mul_of_nonneg_right hcond hqp.le
      have h2 : minSig ^ 2 * ((1 + α) ^ 2 * (q + 10 * minSig) * q) ≤ minSig ^ 2 * (50 * q * q) :=
        mul_le_mul_of_nonneg_left h1 (sq_nonneg _)
      nlinarith
    linarith

/-! ## C75 -/

/-- **C75** (deviation) "If some flux is detectable, relative_sensitivity is finite" is false of the code: with `n_on = 0.1`,
`n_off = 0`, `alpha = 1` and the default thresholds (5 sigma, 10 events, 5 %) the flux scale 1000 is detectable, but the code
returns NaN for every correct root finder, since the solution lies above the fixed upper end 100 of the bracket. -/
theorem C75_nan_although_detectable :
    (Detectable (1 / 10) 0 1 5 10 (1 / 20) 1000) ∧
    ∀ brentq, IsRootFinder brentq →
      relativeSensitivity1 brentq liMaSignificance (.fin (1 / 10)) (.fin 0) (.fin 1)
        ⟨.fin 5, .fin 10, .fin (1 / 20)⟩ = .ok .nan := by
  have hl2 : Real.log 2 < 7 / 10 := by
    have := Real.log_two_lt_d9; linarith
  have hl2' : 6 / 10 < Real.log 2 := by
    have := Real.log_two_gt_d9; linarith
  have val : ∀ a : ℝ, 0 < a → limaR a 0 1 = Real.sqrt (a * Real.log 2 * 2) := by
    intro a ha
    unfold limaR lmTS
    rw [if_neg (by linarith)]
    congr 2
    rw [add_zero, div_self ha.ne']
    norm_num
  constructor
  · refine ⟨⟨_, liMa_eq (by norm_num) le_rfl one_pos, ?_⟩, by norm_num, by norm_num⟩
    rw [show ((1 / 10 : ℝ) - 1 * 0) * 1000 + 1 * 0 = 100 by norm_num, val 100 (by norm_num)]
    apply Real.le_sqrt_of_sq_le
    linarith
  · intro brentq hrf
    refine (C20_finite_iff_in_bracket brentq hrf (1 / 10) 0 1 5 10 (1 / 20) le_rfl one_pos (by norm_num) (by norm_num)
      (1 / 10000) 100 _ _ (by norm_num) (by norm_num) (liMa_eq (by norm_num) le_rfl one_pos)
      (liMa_eq (by norm_num) le_rfl one_pos)).2 ?_
    rintro ⟨-, h⟩
    rw [show ((1 / 10 : ℝ) - 1 * 0) * 100 + 1 * 0 = 10 by norm_num, val 10 (by norm_num)] at h
    have : Real.sqrt (10 * Real.log 2 * 2) < 5 := by
      rw [Real.sqrt_lt' (by norm_num)]; linarith
    linarith

/-- **C75** The exact outcome for `n_on > alpha * n_off`. There is exactly one flux scale `ρ` at which the significance equals the threshold, so
the source is always detectable: `max ρ (largest required number of signal events / excess)` meets all criteria. The code returns exactly this
value if `ρ` lies in the search bracket (0.01 to 10 times `minSig * sqrt(alpha * n_off) / excess` for `n_off > 1`, else 1e-4 to 100), and NaN
otherwise. -/
theorem C75_exact (brentq : RootFn) (hrf : IsRootFinder brentq)
    (nOn nOff α minSig minEvents minExcess : ℝ) (h0 : 0 ≤ nOff) (hα : 0 < α) (hm : 0 < minSig) (hex : α * nOff < nOn)
    (lo hi : ℝ)
    (hlo : lo = if 1 < nOff then 1 / 100 * (minSig * Real.sqrt (α * nOff) / (nOn - α * nOff)) else 1 / 10000)
    (hhi : hi = if 1 < nOff then 10 * (minSig * Real.sqrt (α * nOff) / (nOn - α * nOff)) else 100) :
    ∃ ρ : ℝ, 0 < ρ ∧
      (∀ x, 0 ≤ x → (liMaSignificance (.fin ((nOn - α * nOff) * x + α * nOff)) (.fin nOff) (.fin α) = .fin minSig ↔ x = ρ)) ∧
      Detectable nOn nOff α minSig minEvents minExcess (max ρ (max minEvents (minExcess * (α * nOff)) / (nOn - α * nOff))) ∧
      (lo ≤ ρ ∧ ρ ≤ hi → relativeSensitivity1 brentq liMaSignificance (.fin nOn) (.fin nOff) (.fin α)
        ⟨.fin minSig, .fin minEvents, .fin minExcess⟩ =
          .ok (.fin (max ρ (max minEvents (minExcess * (α * nOff)) / (nOn - α * nOff))))) ∧
      (¬ (lo ≤ ρ ∧ ρ ≤ hi) → relativeSensitivity1 brentq liMaSignificance (.fin nOn) (.fin nOff) (.fin α)
        ⟨.fin minSig, .fin minEvents, .fin minExcess⟩ = .ok .nan) := by
  have hE : 0 < nOn - α * nOff := by linarith
  have hB : 0 ≤ α * nOff := by positivity
  set E := nOn - α * nOff with hEdef
  set B := α * nOff with hBdef
  have hlima : ∀ x, 0 ≤ x → liMaSignificance (.fin (E * x + B)) (.fin nOff) (.fin α) = .fin (limaR (E * x + B) nOff α) :=
    fun x hx => liMa_eq (by positivity) h0 hα
  have hmono : ∀ x y, 0 ≤ x → x < y → limaR (E * x + B) nOff α < limaR (E * y + B) nOff α := by
    intro x y hx hxy
    apply limaR_strictMono h0 hα
    · have : 0 ≤ E * x := by positivity
      linarith
    · have := mul_lt_mul_of_pos_left hxy hE
      linarith
  -- the significance is unbounded
  obtain ⟨h, hh0, hh⟩ : ∃ h, 0 < h ∧ minSig ≤ limaR (E * h + B) nOff α := by
    set d := B + 4 * (1 + α) ^ 2 * minSig ^ 2 with hd
    have hdp : 0 < d := by positivity
    refine ⟨d / E, by positivity, ?_⟩
    rw [mul_div_cancel₀ _ hE.ne']
    unfold limaR
    rw [if_neg (by linarith)]
    apply Real.le_sqrt_of_sq_le
    have hge := lmTS_ge (a := d + B) (b := nOff) (by linarith) h0 hα (by linarith)
    have : minSig ^ 2 / 2 ≤ (d + B - α * nOff) ^ 2 / (4 * (1 + α) ^ 2 * (d + B)) := by
      rw [← hBdef, add_sub_cancel_right, le_div_iff₀ (by positivity)]
      have h1 : 4 * (1 + α) ^ 2 * minSig ^ 2 * d ≤ d * d := mul_le_mul_of_nonneg_right (by linarith) hdp.le
      have h2 : minSig ^ 2 / 2 * (4 * (1 + α) ^ 2 * (d + B)) ≤ minSig ^ 2 / 2 * (4 * (1 + α) ^ 2 * (d + d)) := by
        apply mul_le_mul_of_nonneg_left _ (by positivity)
        apply mul_le_mul_of_nonneg_left _ (by positivity)
        have : 0 ≤ 4 * (1 + α) ^ 2 * minSig ^ 2 := by positivity
        linarith
      nlinarith
    linarith
  have hcont := eqR_continuous (E := E) (B := B) (m := minSig) (l := 0) (h := h) h0 hα hE hB le_rfl
  have h0' : eqR E B nOff α minSig 0 ≤ 0 := by
    unfold eqR
    rw [limaR_zero h0 hα (by linarith)]; linarith
  have hh' : 0 ≤ eqR E B nOff α minSig h := by unfold eqR; linarith
  obtain ⟨ρ, ⟨hρ0, -⟩, hρ⟩ := intermediate_value_Icc hh0.le hcont ⟨h0', hh'⟩
  have hρ : limaR (E * ρ + B) nOff α = minSig := by unfold eqR at hρ; linarith
  have hρpos : 0 < ρ := by
    rcases hρ0.eq_or_lt with h' | h'
    · rw [← h', mul_zero, zero_add, limaR_zero h0 hα le_rfl] at hρ; linarith
    · exact h'
  have huniq : ∀ x, 0 ≤ x → limaR (E * x + B) nOff α = minSig → x = ρ := by
    intro x hx h'
    rcases lt_trichotomy x ρ with h1 | h1 | h1
    · have := hmono x ρ hx h1; linarith
    · exact h1
    · have := hmono ρ x hρ0 h1; linarith
  have hlo0 : 0 ≤ lo := by rw [hlo]; split <;> positivity
  have hlohi : lo ≤ hi := by
    rw [hlo, hhi]; split
    · have : 0 ≤ minSig * Real.sqrt B / E := by positivity
      linarith
    · norm_num
  have hmono' : ∀ x y, 0 ≤ x → x ≤ y → limaR (E * x + B) nOff α ≤ limaR (E * y + B) nOff α := by
    intro x y hx hxy
    rcases hxy.eq_or_lt with rfl | h'
    · exact le_rfl
    · exact (hmono x y hx h').le
  have hiff : (limaR (E * lo + B) nOff α ≤ minSig ∧ minSig ≤ limaR (E * hi + B) nOff α) ↔ lo ≤ ρ ∧ ρ ≤ hi := by
    rw [← hρ]
    constructor
    · rintro ⟨h1, h2⟩
      constructor
      · by_contra hc; have := hmono ρ lo hρ0 (not_le.mp hc); linarith
      · by_contra hc; have := hmono hi ρ (hlo0.trans hlohi) (not_le.mp hc); linarith
    · rintro ⟨h1, h2⟩
      exact ⟨hmono' _ _ hlo0 h1, hmono' _ _ hρ0 h2⟩
  obtain ⟨c1, c2⟩ := C20_finite_iff_in_bracket brentq hrf nOn nOff α minSig minEvents minExcess h0 hα hm hex lo hi _ _ hlo hhi
    (hlima lo hlo0) (hlima hi (hlo0.trans hlohi))
  rw [hiff] at c1 c2
  refine ⟨ρ, hρpos, ?_, ?_, ?_, c2⟩
  · intro x hx
    rw [hlima x hx]
    constructor
    · intro h'; exact huniq x hx (FV.fin.inj h')
    · rintro rfl; rw [hρ]
  · have hmx : 0 ≤ max ρ (max minEvents (minExcess * B) / E) := hρ0.trans (le_max_left _ _)
    have hle : max minEvents (minExcess * B) ≤ E * max ρ (max minEvents (minExcess * B) / E) := by
      have := le_max_right ρ (max minEvents (minExcess * B) / E)
      rwa [div_le_iff₀' hE] at this
    refine ⟨⟨_, hlima _ hmx, ?_⟩, (le_max_left _ _).trans hle, (le_max_right _ _).trans hle⟩
    rw [← hρ]
    exact hmono' _ _ hρ0 (le_max_left _ _)
  · intro hin
    obtain ⟨r, hr⟩ := c1 hin
    rw [hr]
    obtain ⟨-, x, hx, -, -, hroot, hrr⟩ := finite_result hrf h0 hα hm (by linarith) hr
    rw [mul_comm nOff α] at hroot hrr
    rw [hrr, huniq x hx.le hroot]

/-- **C75** For `n_off > 1` only the upper end of the bracket can be the reason of a NaN. -/
theorem C75_nan_iff_above (brentq : RootFn) (hrf : IsRootFinder brentq)
    (nOn nOff α minSig minEvents minExcess s : ℝ) (h0 : 1 < nOff) (hα : 0 < α) (hm : 0 < minSig) (hex : α * nOff < nOn)
    (hs : liMaSignificance (.fin (10 * (minSig * Real.sqrt (α * nOff)) + α * nOff)) (.fin nOff) (.fin α) = .fin s) :
    relativeSensitivity1 brentq liMaSignificance (.fin nOn) (.fin nOff) (.fin α)
        ⟨.fin minSig, .fin minEvents, .fin minExcess⟩ = .ok .nan ↔ s < minSig := by
  have hE : 0 < nOn - α * nOff := by linarith
  have hB : 0 ≤ α * nOff := by positivity
  have eh : (nOn - α * nOff) * (10 * (minSig * Real.sqrt (α * nOff) / (nOn - α * nOff))) = 10 * (minSig * Real.sqrt (α * nOff)) := by
    field_simp
  have hsl := liMa_eq (a := (nOn - α * nOff) * (1 / 100 * (minSig * Real.sqrt (α * nOff) / (nOn - α * nOff))) + α * nOff)
    (b := nOff) (by positivity) (by linarith) hα
  have hb := C20_lower_end_below nOn nOff α minSig _ h0 hα hm hex hsl
  obtain ⟨c1, c2⟩ := C20_finite_iff_in_bracket brentq hrf nOn nOff α minSig minEvents minExcess (by linarith) hα hm hex
    (1 / 100 * (minSig * Real.sqrt (α * nOff) / (nOn - α * nOff))) (10 * (minSig * Real.sqrt (α * nOff) / (nOn - α * nOff)))
    _ s (by rw [if_pos h0]) (by rw [if_pos h0]) hsl (by rw [eh]; exact hs)
  constructor
  · intro h
    by_contra hc
    obtain ⟨r, hr⟩ := c1 ⟨hb.le, not_lt.mp hc⟩
    rw [hr] at h; cases h
  · intro h
    exact c2 (fun h' => absurd h'.2 (not_le.mpr h))

/-- **C75** With enough background (`n_off > 1` and the condition of `C20_enough_background`) the result is finite for every excess. -/
theorem C75_finite_when_enough_background (brentq : RootFn) (hrf : IsRootFinder brentq)
    (nOn nOff α minSig minEvents minExcess : ℝ) (h0 : 1 < nOff) (hα : 0 < α) (hm : 0 < minSig) (hex : α * nOff < nOn)
    (hcond : (1 + α) ^ 2 * (Real.sqrt (α * nOff) + 10 * minSig) ≤ 50 * Real.sqrt (α * nOff)) :
    ∃ r, relativeSensitivity1 brentq liMaSignificance (.fin nOn) (.fin nOff) (.fin α)
        ⟨.fin minSig, .fin minEvents, .fin minExcess⟩ = .ok (.fin r) ∧
      Detectable nOn nOff α minSig minEvents minExcess r := by
  obtain ⟨r, hr⟩ := C20_enough_background brentq hrf nOn nOff α minSig minEvents minExcess h0 hα hm hex hcond
  have hB : 0 < α * nOff := by positivity
  exact ⟨r, hr, (C18_least_detectable brentq hrf _ _ _ _ _ _ _ (by linarith) (by linarith) hα hm hr).2.1⟩

/-- The hypotheses are met: 30 on events, 100 off events, alpha = 0.2, 5 sigma, with the idealised root finder. -/
example : ∃ r, relativeSensitivity1 idealRoot liMaSignificance (.fin 30) (.fin 100) (.fin (1/5))
    ⟨.fin 5, .fin 10, .fin (1/20)⟩ = .ok (.fin r) := by
  apply C20_enough_background _ idealRoot_isRootFinder _ _ _ _ _ _ (by norm_num) (by norm_num) (by norm_num) (by norm_num)
  have h4 : (4:ℝ) ≤ Real.sqrt (1 / 5 * 100) := Real.le_sqrt_of_sq_le (by norm_num)
  nlinarith

end Pyirf.Sensitivity
