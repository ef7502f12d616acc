import Verif.Rounded.SensModel
import Verif.Rounded.CoefProps
import Verif.Rounded.LiMaProps
import Verif.Sensitivity.RelProps

/-!
# Relative sensitivities in rounded arithmetic (C165)
-/
set_option linter.unusedSectionVars false
set_option linter.unusedSimpArgs false

namespace Pyirf.Rounded
open Pyirf Pyirf.Np

variable {R : Rounding}

/-- What is relied on of scipy's `brentq` with tolerance `tol` (`xtol + rtol |x|`): a result is a floating point number in the bracket, and the function changes its sign within the tolerance: there are points in the bracket and within the
tolerance of the result where the function is at most and at least 0. (No continuity or monotonicity: the computed function has none.) -/
def SignChange (R : Rounding) (tol : ℝ → ℝ) (brentq : RootFinder) : Prop :=
  ∀ f a b x, brentq f a b = .ok x → R.Is x ∧ min a b ≤ x ∧ x ≤ max a b ∧
    (∃ l, min a b ≤ l ∧ l ≤ max a b ∧ |l - x| ≤ tol x ∧ FV.le (f l) (.fin 0) = true) ∧ (∃ h, min a b ≤ h ∧ h ≤ max a b ∧ |h - x| ≤ tol x ∧ FV.le (.fin 0) (f h) = true)

/-! ## The excess -/

/-- **C165** The number of signal events found in the sum of signal and scaled background: exactly 0 without signal, never negative, not smaller for a larger signal, and the signal up to a few roundings of the total; exactly the signal if there is no background. -/
theorem C165_excess {signal nOff alpha : ℝ} (hs : 0 ≤ signal) (hn : 0 ≤ nOff) (ha : 0 ≤ alpha) :
    excess R (countOn R 0 nOff alpha) nOff alpha = 0 ∧ 0 ≤ excess R (countOn R signal nOff alpha) nOff alpha ∧
    (∀ signal', signal ≤ signal' → excess R (countOn R signal nOff alpha) nOff alpha ≤ excess R (countOn R signal' nOff alpha) nOff alpha) ∧
    |excess R (countOn R signal nOff alpha) nOff alpha - signal| ≤ R.u * (signal + (1 + R.u) * (signal + (1 + R.u) * (alpha * nOff))) ∧
    (nOff = 0 → R.Is signal → excess R (countOn R signal nOff alpha) nOff alpha = signal) := by
  have hu := R.u_nonneg
  have hc : R.mul nOff alpha = R.mul alpha nOff := by unfold Rounding.mul; rw [mul_comm]
  have hB : R.Is (R.mul alpha nOff) := R.idem _
  have hB0 : 0 ≤ R.mul alpha nOff := R.nonneg (mul_nonneg ha hn)
  have hB1 : R.mul alpha nOff ≤ (1 + R.u) * (alpha * nOff) := (R.bounds (mul_nonneg ha hn)).2
  have hz : excess R (countOn R 0 nOff alpha) nOff alpha = 0 := by
    unfold excess countOn
    rw [hc]
    have : R.add 0 (R.mul alpha nOff) = R.mul alpha nOff := by
      unfold Rounding.add
      rw [zero_add]
      exact hB
    rw [this]
    unfold Rounding.sub
    rw [sub_self, R.zero]
  have hm : ∀ x y : ℝ, x ≤ y → excess R (countOn R x nOff alpha) nOff alpha ≤ excess R (countOn R y nOff alpha) nOff alpha := fun x y h =>
    R.mono (sub_le_sub_right (R.mono (by linarith)) _)
  refine ⟨hz, ?_, fun s' h => hm _ _ h, ?_, ?_⟩
  · have := hm 0 signal hs
    rwa [hz] at this
  · unfold excess countOn
    rw [hc]
    generalize R.mul alpha nOff = B at hB hB0 hB1 ⊢
    have h1 := R.close (signal + B)
    have h2 := R.close (R.add signal B - B)
    rw [abs_of_nonneg (show 0 ≤ signal + B by linarith)] at h1
    have e : R.sub (R.add signal B) B - signal = (R.rd (R.add signal B - B) - (R.add signal B - B)) + (R.rd (signal + B) - (signal + B)) := by
      show R.rd (R.add signal B - B) - signal = (R.rd (R.add signal B - B) - (R.rd (signal + B) - B)) + (R.rd (signal + B) - (signal + B))
      ring
    rw [e]
    refine (abs_add_le _ _).trans ?_
    have h3 : |R.add signal B - B| ≤ signal + R.u * (signal + B) := by
      have := abs_add_le (R.rd (signal + B) - (signal + B)) signal
      rw [abs_of_nonneg hs] at this
      have e2 : R.rd (signal + B) - (signal + B) + signal = R.add signal B - B := by unfold Rounding.add; ring
      rw [e2] at this
      linarith
    have h4 := mul_le_mul_of_nonneg_left h3 hu
    have h5 := mul_le_mul_of_nonneg_left hB1 hu
    have h6 := mul_le_mul_of_nonneg_left h5 hu
    nlinarith
  · intro h0 hi
    unfold excess countOn
    rw [h0, mul_zero_rd, zero_mul_rd]
    unfold Rounding.sub Rounding.add
    rw [add_zero, sub_zero, R.idem]
    exact hi

/-- **C165** Without an excess as computed, in particular without signal, the relative sensitivity is infinite; with one it is finite or NaN, unless `brentq` raises an error of another kind. -/
theorem C165_infinite (log : ℝ → ℝ) (brentq : RootFinder) (nOn nOff alpha minSig minEvents minExcess : ℝ) :
    relativeSensitivity R log brentq nOn nOff alpha minSig minEvents minExcess = .ok .pinf ↔ excess R nOn nOff alpha ≤ 0 := by
  unfold relativeSensitivity
  dsimp only
  constructor
  · intro h
    by_contra hc
    rw [if_neg hc] at h
    split at h
    · cases h
    · split at h <;> cases h
  · intro h
    rw [if_pos h]

/-- **C165** (deviation) A signal that is small compared to the background is lost: with `alpha = 1`, 2^24 background events and 2^-30 signal events the sensitivity is infinite in double precision, although the excess is positive. -/
theorem C165_lost_deviation (log : ℝ → ℝ) (brentq : RootFinder) (minSig minEvents minExcess : ℝ) :
    relativeSensitivity double log brentq (countOn double (2 ^ (-30 : ℤ)) (2 ^ 24) 1) (2 ^ 24) 1 minSig minEvents minExcess = .ok .pinf := by
  rw [C165_infinite]
  have hn : double.rd (2 ^ 24) = 2 ^ 24 := by
    have := double.nat (2 ^ 24) (by show 2 ^ 24 ≤ 2 ^ 53; norm_num)
    exact_mod_cast this
  have e1 : double.mul 1 (2 ^ 24) = 2 ^ 24 := one_mul_is hn
  have e2 : double.mul (2 ^ 24) 1 = 2 ^ 24 := mul_one_is hn
  have e3 : double.rd (2 ^ (-30 : ℤ) + 2 ^ 24) = 2 ^ 24 := by
    have := Binary.rd_eq 53 (x := 2 ^ (-30 : ℤ) + 2 ^ 24) (m := 4503599627370496) (e := -28) (by norm_num) (by norm_num) (by norm_num) (by norm_num) (by norm_num)
    refine Eq.trans this ?_
    norm_num
  unfold excess countOn
  rw [e1, e2]
  unfold Rounding.add Rounding.sub
  rw [e3, sub_self, double.zero]

/-! ## The flux -/

theorem flux_of {log : ℝ → ℝ} {brentq : RootFinder} {nOn nOff alpha minSig minEvents minExcess r : ℝ}
    (hr : relativeSensitivity R log brentq nOn nOff alpha minSig minEvents minExcess = .ok (.fin r)) :
    0 < excess R nOn nOff alpha ∧ ∃ flux, brentq (equation R log (excess R nOn nOff alpha) (R.mul nOff alpha) nOff alpha minSig)
      (searchEnds R (excess R nOn nOff alpha) (R.mul nOff alpha) nOff minSig).1 (searchEnds R (excess R nOn nOff alpha) (R.mul nOff alpha) nOff minSig).2 = .ok flux ∧
      r = scaleFlux R (excess R nOn nOff alpha) (R.mul nOff alpha) flux minEvents minExcess := by
  unfold relativeSensitivity at hr
  dsimp only at hr
  split at hr
  · cases hr
  · rename_i hpos
    refine ⟨not_le.mp hpos, ?_⟩
    split at hr
    · rename_i flux hf
      cases hr
      exact ⟨flux, hf, rfl⟩
    · split at hr <;> cases hr

theorem ends_pos {S nOff alpha minSig : ℝ} (hS : 0 < S) (hn : 0 ≤ nOff) (ha : 0 < alpha) (hm : 0 < minSig) :
    0 < min (searchEnds R S (R.mul nOff alpha) nOff minSig).1 (searchEnds R S (R.mul nOff alpha) nOff minSig).2 := by
  unfold searchEnds
  split
  · rename_i h1
    have hB : 0 < R.mul nOff alpha := R.pos (mul_pos (by linarith) ha)
    have hnaive : 0 < R.div (R.mul minSig (R.rd (Real.sqrt (R.mul nOff alpha)))) S := R.pos (div_pos (R.pos (mul_pos hm (R.pos (Real.sqrt_pos.mpr hB)))) hS)
    exact lt_min (R.pos (mul_pos (R.pos (by norm_num)) hnaive)) (R.pos (mul_pos (by norm_num) hnaive))
  · exact lt_min (R.pos (by norm_num)) (by norm_num)

/-- **C165** At a finite relative sensitivity the number of signal events is at least the minimum number of events, and the minimum fraction of the background, up to roundings; and it is at least the flux that `brentq` found, and this flux exactly if
that has enough signal events as computed; otherwise the number of signal events is the larger of the minima up to roundings. -/
theorem C165_minimum {tol : ℝ → ℝ} {log : ℝ → ℝ} {brentq : RootFinder} (hb : SignChange R tol brentq) {nOn nOff alpha minSig minEvents minExcess r : ℝ} (hn : 0 ≤ nOff) (ha : 0 < alpha)
    (hm : 0 < minSig) (hE : 0 ≤ minEvents) (hX : 0 ≤ minExcess)
    (hr : relativeSensitivity R log brentq nOn nOff alpha minSig minEvents minExcess = .ok (.fin r)) :
    let signal := excess R nOn nOff alpha
    let background := R.mul nOff alpha
    0 < r ∧ (1 - R.u) ^ 2 / (1 + R.u) * minEvents ≤ signal * r ∧ (1 - R.u) ^ 3 / (1 + R.u) * (minExcess * background) ≤ signal * r ∧
    ∃ flux, brentq (equation R log signal background nOff alpha minSig) (searchEnds R signal background nOff minSig).1 (searchEnds R signal background nOff minSig).2 = .ok flux ∧ flux ≤ r ∧
      (max minEvents (R.mul minExcess background) ≤ R.mul signal flux → r = flux) ∧
      (R.mul signal flux < max minEvents (R.mul minExcess background) → signal * r ≤ (1 + R.u) ^ 2 / (1 - R.u) * max minEvents (R.mul minExcess background)) := by
  intro signal background
  have hu := R.u_nonneg
  have hu1 : 0 < 1 - R.u := by linarith [R.u_lt_one]
  obtain ⟨hS, flux, hf, rfl⟩ := flux_of hr
  obtain ⟨hi, hlo, -, -, -⟩ := hb _ _ _ _ hf
  have hpos : 0 < flux := lt_of_lt_of_le (ends_pos hS hn ha hm) hlo
  have hB0 : 0 ≤ background := R.nonneg (mul_nonneg hn ha.le)
  change 0 < signal at hS
  show 0 < scaleFlux R signal background flux minEvents minExcess ∧ _ ≤ signal * scaleFlux R signal background flux minEvents minExcess ∧ _ ≤ signal * scaleFlux R signal background flux minEvents minExcess ∧ _
  have hM : minEvents ≤ minSignal R background minEvents minExcess := le_max_left _ _
  have hM2 : (1 - R.u) * (minExcess * background) ≤ minSignal R background minEvents minExcess := (R.bounds (mul_nonneg hX hB0)).1.trans (le_max_right _ _)
  have key : 0 < scaleFlux R signal background flux minEvents minExcess ∧ (1 - R.u) ^ 2 / (1 + R.u) * minSignal R background minEvents minExcess ≤ signal * scaleFlux R signal background flux minEvents minExcess ∧
      flux ≤ scaleFlux R signal background flux minEvents minExcess ∧
      (minSignal R background minEvents minExcess ≤ R.mul signal flux → scaleFlux R signal background flux minEvents minExcess = flux) ∧
      (R.mul signal flux < minSignal R background minEvents minExcess → signal * scaleFlux R signal background flux minEvents minExcess ≤ (1 + R.u) ^ 2 / (1 - R.u) * minSignal R background minEvents minExcess) := by
    unfold scaleFlux
    dsimp only
    generalize minSignal R background minEvents minExcess = M at hM hM2 ⊢
    have hM0 : 0 ≤ M := hE.trans hM
    have hSf : 0 < signal * flux := mul_pos hS hpos
    obtain ⟨b1, b2⟩ := R.bounds hSf.le
    change (1 - R.u) * (signal * flux) ≤ R.mul signal flux at b1
    change R.mul signal flux ≤ (1 + R.u) * (signal * flux) at b2
    have hn0 : 0 < R.mul signal flux := R.pos hSf
    by_cases hlt : R.mul signal flux < M
    · rw [if_pos hlt]
      obtain ⟨d1, d2⟩ := R.bounds (div_nonneg hM0 hn0.le)
      change (1 - R.u) * (M / R.mul signal flux) ≤ R.div M (R.mul signal flux) at d1
      change R.div M (R.mul signal flux) ≤ (1 + R.u) * (M / R.mul signal flux) at d2
      have hsc : 0 < R.div M (R.mul signal flux) := R.pos (div_pos (lt_trans hn0 hlt) hn0)
      obtain ⟨f1, f2⟩ := R.bounds (mul_pos hpos hsc).le
      change (1 - R.u) * (flux * R.div M (R.mul signal flux)) ≤ R.mul flux (R.div M (R.mul signal flux)) at f1
      change R.mul flux (R.div M (R.mul signal flux)) ≤ (1 + R.u) * (flux * R.div M (R.mul signal flux)) at f2
      have hone : 1 ≤ R.div M (R.mul signal flux) := R.ge_of_ge R.one (by rw [le_div_iff₀ hn0]; linarith)
      have q1 : 1 / (1 + R.u) * M ≤ signal * flux * (M / R.mul signal flux) := by
        have e : signal * flux * (M / R.mul signal flux) = signal * flux / R.mul signal flux * M := by ring
        rw [e]
        refine mul_le_mul_of_nonneg_right ?_ hM0
        rw [div_le_div_iff₀ (by linarith) hn0]
        linarith
      have q2 : signal * flux * (M / R.mul signal flux) ≤ 1 / (1 - R.u) * M := by
        have e : signal * flux * (M / R.mul signal flux) = signal * flux / R.mul signal flux * M := by ring
        rw [e]
        refine mul_le_mul_of_nonneg_right ?_ hM0
        rw [div_le_div_iff₀ hn0 hu1]
        linarith
      refine ⟨R.pos (mul_pos hpos hsc), ?_, R.ge_of_ge hi (by nlinarith), fun h => absurd hlt (not_lt.mpr h), fun _ => ?_⟩
      · have a1 := mul_le_mul_of_nonneg_left f1 hS.le
        have a2 : signal * flux * ((1 - R.u) * (M / R.mul signal flux)) ≤ signal * flux * R.div M (R.mul signal flux) := mul_le_mul_of_nonneg_left d1 hSf.le
        have a3 := mul_le_mul_of_nonneg_left a2 hu1.le
        have a4 := mul_le_mul_of_nonneg_left q1 (pow_nonneg hu1.le 2)
        have e1 : (1 - R.u) ^ 2 / (1 + R.u) * M = (1 - R.u) ^ 2 * (1 / (1 + R.u) * M) := by ring
        rw [e1]
        linarith
      · have a1 := mul_le_mul_of_nonneg_left f2 hS.le
        have a2 : signal * flux * R.div M (R.mul signal flux) ≤ signal * flux * ((1 + R.u) * (M / R.mul signal flux)) := mul_le_mul_of_nonneg_left d2 hSf.le
        have a3 := mul_le_mul_of_nonneg_left a2 (show 0 ≤ 1 + R.u by linarith)
        have a4 := mul_le_mul_of_nonneg_left q2 (pow_nonneg (show 0 ≤ 1 + R.u by linarith) 2)
        have e1 : (1 + R.u) ^ 2 / (1 - R.u) * M = (1 + R.u) ^ 2 * (1 / (1 - R.u) * M) := by ring
        rw [e1]
        linarith
    · rw [if_neg hlt, mul_one_is hi]
      refine ⟨hpos, ?_, le_rfl, fun _ => rfl, fun h => absurd h hlt⟩
      have hle := not_lt.mp hlt
      have a1 : M / (1 + R.u) ≤ signal * flux := by
        rw [div_le_iff₀ (by linarith)]
        linarith
      refine le_trans ?_ a1
      rw [div_mul_eq_mul_div]
      refine div_le_div_of_nonneg_right ?_ (by linarith)
      have : (1 - R.u) ^ 2 ≤ 1 := pow_le_one₀ hu1.le (by linarith)
      nlinarith
  have hc : 0 ≤ (1 - R.u) ^ 2 / (1 + R.u) := by positivity
  refine ⟨key.1, (mul_le_mul_of_nonneg_left hM hc).trans key.2.1, ?_, flux, hf, key.2.2.1, key.2.2.2.1, key.2.2.2.2⟩
  refine le_trans (le_of_eq ?_) ((mul_le_mul_of_nonneg_left hM2 hc).trans key.2.1)
  ring

/-! ## The significance at the flux, in double precision -/

/-- a computed significance of at most `m` belongs to an exact one of at most `m` up to 10^-7 -/
theorem exact_le {log : ℝ → ℝ} (hl : LogWithin ((1 / 2) ^ 52) log) {nOn nOff alpha m s S : ℝ} (n1 : 0 ≤ nOn) (n2 : 0 ≤ nOff) (ht : nOn + nOff ≤ 1000000) (ha : 1 / 1000 ≤ alpha) (ha' : alpha ≤ 1000)
    (hOn : double.Is nOn) (hm : 1 ≤ m) (hs : liMa double log nOn nOff alpha = .fin s) (hsm : s ≤ m) (hS : Stats.liMaSignificance (.fin nOn) (.fin nOff) (.fin alpha) = .fin S) : S ≤ m + 1 / 10000000 := by
  by_cases h1 : 1 ≤ S
  · have hge : alpha * nOff ≤ nOn := by
      by_contra hc
      obtain ⟨S', e, -, -, e3, -⟩ := Stats.C15_li_ma nOn nOff alpha n1 n2 (by linarith)
      rw [hS, e3 (not_le.mp hc)] at e
      have := FV.fin.inj e
      rw [this] at h1
      linarith
    obtain ⟨s', hs', hd⟩ := C149_double hl n1 n2 ht ha ha' hOn hge S hS h1
    rw [hs] at hs'
    have := FV.fin.inj hs'
    rw [← this] at hd
    linarith [(abs_le.mp hd).1]
  · linarith

/-- a computed significance of at least `m ≥ 2` belongs to an exact one of at least `m` up to 10^-7; the number of events may be one rounding below the expected background -/
theorem exact_ge {log : ℝ → ℝ} (hl : LogWithin ((1 / 2) ^ 52) log) {nOn nOff alpha m s S : ℝ} (n1 : 0 ≤ nOn) (n2 : 0 ≤ nOff) (ht : nOn + nOff ≤ 1000000) (ha : 1 / 1000 ≤ alpha) (ha' : alpha ≤ 1000)
    (hOn : double.Is nOn) (hB : (1 - (1 / 2) ^ 53) * (alpha * nOff) ≤ nOn) (hm : 2 ≤ m) (hs : liMa double log nOn nOff alpha = .fin s) (hsm : m ≤ s)
    (hS : Stats.liMaSignificance (.fin nOn) (.fin nOff) (.fin alpha) = .fin S) : m - 1 / 10000000 ≤ S := by
  have ap : 0 < alpha := by linarith
  obtain ⟨hT0, -, hE⟩ := ts_small n1 n2 ht ha ha' hB
  obtain ⟨-, -, up, -⟩ := C149_li_ma double (v := (1 / 2) ^ 52) (by positivity) hl n1 n2 ap
  obtain ⟨s', hs', -, hb⟩ := up (by rw [hs]; simp)
  rw [hs] at hs'
  have hss := FV.fin.inj hs'
  rw [← hss, show double.u = (1 / 2) ^ 53 from rfl] at hb
  -- the test statistic is not small
  have hT1 : 1 / 2 < testStatistic nOn nOff alpha := by
    by_contra hc
    have hc' := not_lt.mp hc
    have : Real.sqrt ((1 + (1 / 2) ^ 53) * (2 * (testStatistic nOn nOff alpha + tsError ((1 / 2) ^ 53) ((1 / 2) ^ 52) nOn nOff alpha))) ≤ 101 / 100 := by
      rw [Real.sqrt_le_left (by norm_num)]
      have := mul_le_mul_of_nonneg_left (show 2 * (testStatistic nOn nOff alpha + tsError ((1 / 2) ^ 53) ((1 / 2) ^ 52) nOn nOff alpha) ≤ 2 * (1 / 2 + 1 / 10 ^ 8) by linarith) (show (0 : ℝ) ≤ 1 + (1 / 2) ^ 53 by positivity)
      refine this.trans ?_
      norm_num
    have := mul_le_mul_of_nonneg_left this (show (0 : ℝ) ≤ 1 + (1 / 2) ^ 53 by positivity)
    have h2 : (1 + (1 / 2 : ℝ) ^ 53) * (101 / 100) < 2 := by norm_num
    linarith
  have hge : alpha * nOff ≤ nOn := by
    by_contra hc
    have hlt := not_le.mp hc
    have hn2 : 0 < nOff := by
      rcases n2.eq_or_lt with h | h
      · rw [← h, mul_zero] at hlt; linarith
      · exact h
    have hN : 0 < nOn + nOff := by linarith
    have k1 : nOn * Real.log (argOn nOn nOff alpha) ≤ 0 := by
      refine mul_nonpos_of_nonneg_of_nonpos n1 (Real.log_nonpos (by unfold argOn; positivity) ?_)
      unfold argOn
      rw [div_mul_div_comm, div_le_one (by positivity)]
      nlinarith
    have k2 : nOff * Real.log (argOff nOn nOff alpha) ≤ alpha * nOff - nOn := by
      have hp : 0 < argOff nOn nOff alpha := by unfold argOff; positivity
      have a := mul_le_mul_of_nonneg_left (Real.log_le_sub_one_of_pos hp) n2
      refine a.trans ?_
      have e : nOff * (argOff nOn nOff alpha - 1) = nOff / (nOn + nOff) * (alpha * nOff - nOn) := by
        unfold argOff
        field_simp
        ring
      rw [e]
      have : nOff / (nOn + nOff) ≤ 1 := by rw [div_le_one hN]; linarith
      nlinarith
    have k3 : testStatistic nOn nOff alpha ≤ alpha * nOff - nOn := by unfold testStatistic; linarith
    have k4 : alpha * nOff ≤ 2000000 := by nlinarith [mul_nonneg ap.le n2]
    have : alpha * nOff - nOn ≤ (1 / 2) ^ 53 * 2000000 := by nlinarith
    norm_num at this
    linarith
  have hSe := C149_exact nOn nOff alpha n1 n2 ap hge
  rw [hS] at hSe
  have hS1 : 1 ≤ S := by
    rw [FV.fin.inj hSe]
    apply Real.le_sqrt_of_sq_le
    linarith
  obtain ⟨s'', hs'', hd⟩ := C149_double hl n1 n2 ht ha ha' hOn hge S hS hS1
  rw [hs] at hs''
  rw [← FV.fin.inj hs''] at hd
  linarith [(abs_le.mp hd).2]

theorem liMa_cases (log : ℝ → ℝ) (nOn nOff alpha : ℝ) : liMa R log nOn nOff alpha = .nan ∨ ∃ s, liMa R log nOn nOff alpha = .fin s := by
  rw [liMa_eq]
  dsimp only
  split
  · exact Or.inr ⟨_, rfl⟩
  · split
    · exact Or.inl rfl
    · exact Or.inr ⟨_, rfl⟩

theorem equation_le {log : ℝ → ℝ} {S B nOff alpha m x : ℝ} (h : FV.le (equation R log S B nOff alpha m x) (.fin 0) = true) :
    liMa R log (R.add (R.mul S x) B) nOff alpha = .fin 0 ∨ ∃ s, liMa R log (R.add (R.mul S x) B) nOff alpha = .fin s ∧ s ≤ m := by
  unfold equation at h
  rcases liMa_cases (R := R) log (R.add (R.mul S x) B) nOff alpha with h0 | ⟨s, h0⟩
  · rw [h0] at h
    cases h
  · right
    refine ⟨s, h0, ?_⟩
    rw [h0, FV.fin_sub_fin] at h
    change FV.le (.fin (R.rd (s - m))) (.fin 0) = true at h
    rw [FV.le_fin, decide_eq_true_eq] at h
    by_contra hc
    have := R.pos (sub_pos.mpr (not_le.mp hc))
    linarith

theorem equation_ge {log : ℝ → ℝ} {S B nOff alpha m x : ℝ} (h : FV.le (.fin 0) (equation R log S B nOff alpha m x) = true) :
    ∃ s, liMa R log (R.add (R.mul S x) B) nOff alpha = .fin s ∧ m ≤ s := by
  unfold equation at h
  rcases liMa_cases (R := R) log (R.add (R.mul S x) B) nOff alpha with h0 | ⟨s, h0⟩
  · rw [h0] at h
    cases h
  · refine ⟨s, h0, ?_⟩
    rw [h0, FV.fin_sub_fin] at h
    change FV.le (.fin 0) (.fin (R.rd (s - m))) = true at h
    rw [FV.le_fin, decide_eq_true_eq] at h
    by_contra hc
    have h1 := R.pos (show 0 < -(s - m) by linarith [not_le.mp hc])
    rw [R.neg] at h1
    linarith

/-- the number of events at a flux within the tolerance -/
theorem count_near {S B flux x t : ℝ} (hS : 0 ≤ S) (hB : 0 ≤ B) (hx : 0 ≤ x) (hd : |x - flux| ≤ t) :
    |R.add (R.mul S x) B - (S * flux + B)| ≤ S * t + ((1 + R.u) ^ 2 - 1) * (S * (flux + t) + B) := by
  have hu := R.u_nonneg
  have h1 : |R.add (R.mul S x) B - (S * x + B)| ≤ ((1 + R.u) ^ 2 - 1) * (|S * x| + |B|) := by
    refine add_off (off_rd R (S * x)) ?_
    unfold Off
    rw [sub_self, abs_zero, pow_one]
    exact mul_nonneg (by linarith) (abs_nonneg _)
  rw [abs_of_nonneg (mul_nonneg hS hx), abs_of_nonneg hB] at h1
  have e : R.add (R.mul S x) B - (S * flux + B) = (R.add (R.mul S x) B - (S * x + B)) + S * (x - flux) := by ring
  rw [e]
  refine (abs_add_le _ _).trans ?_
  rw [abs_mul, abs_of_nonneg hS]
  have h2 := mul_le_mul_of_nonneg_left hd hS
  have h3 : x ≤ flux + t := by linarith [(abs_le.mp hd).2]
  have h4 := mul_le_mul_of_nonneg_left h3 hS
  have h5 : 0 ≤ (1 + R.u) ^ 2 - 1 := by nlinarith
  have h6 := mul_le_mul_of_nonneg_left (add_le_add_left h4 B) h5
  linarith

/-- **C165** In double precision (logarithm accurate to one unit in the last place, `alpha` between 0.001 and 1000, a threshold of at least 2, fewer than 10^6 events): the flux that `brentq` finds is right up to its tolerance and roundings. For every number of
events that is smaller than the one at this flux by more than the given margin the exact Li & Ma significance is at most the threshold up to 10^-7, and for every larger one at least the threshold up to 10^-7. -/
theorem C165_flux {tol : ℝ → ℝ} {log : ℝ → ℝ} (hl : LogWithin ((1 / 2) ^ 52) log) {brentq : RootFinder} (hb : SignChange double tol brentq) {nOn nOff alpha minSig minEvents minExcess r : ℝ}
    (hn : 0 ≤ nOff) (ha : 1 / 1000 ≤ alpha) (ha' : alpha ≤ 1000) (hm : 2 ≤ minSig)
    (hr : relativeSensitivity double log brentq nOn nOff alpha minSig minEvents minExcess = .ok (.fin r)) :
    let signal := excess double nOn nOff alpha
    let background := double.mul nOff alpha
    ∃ flux, r = scaleFlux double signal background flux minEvents minExcess ∧ 0 < flux ∧
      (signal * (flux + tol flux) + background + nOff ≤ 999999 →
        ∀ n S, 0 ≤ n → Stats.liMaSignificance (.fin n) (.fin nOff) (.fin alpha) = .fin S →
          (n ≤ signal * flux + background - (signal * tol flux + 3 * (1 / 2) ^ 53 * (signal * (flux + tol flux) + background)) → S ≤ minSig + 1 / 10000000) ∧
          (signal * flux + background + (signal * tol flux + 3 * (1 / 2) ^ 53 * (signal * (flux + tol flux) + background)) ≤ n → minSig - 1 / 10000000 ≤ S)) := by
  intro signal background
  have ap : 0 < alpha := by linarith
  obtain ⟨hS, flux, hf, rfl⟩ := flux_of hr
  obtain ⟨-, hlo, -, ⟨l, hl1, -, hl3, hl4⟩, ⟨h, hh1, -, hh3, hh4⟩⟩ := hb _ _ _ _ hf
  have hend := ends_pos (R := double) hS hn ap (show 0 < minSig by linarith)
  have hpos : 0 < flux := lt_of_lt_of_le hend hlo
  have hlpos : 0 < l := lt_of_lt_of_le hend hl1
  have hhpos : 0 < h := lt_of_lt_of_le hend hh1
  have hB0 : 0 ≤ background := double.nonneg (mul_nonneg hn ap.le)
  change 0 < signal at hS
  refine ⟨flux, rfl, hpos, ?_⟩
  intro hN n S hn0 hSn
  have ht0 : 0 ≤ tol flux := (abs_nonneg _).trans hl3
  have hu : double.u = (1 / 2) ^ 53 := rfl
  have hT0 : 0 ≤ signal * (flux + tol flux) + background := by positivity
  have near : ∀ x, 0 < x → |x - flux| ≤ tol flux → |double.add (double.mul signal x) background - (signal * flux + background)| ≤ signal * tol flux + 3 * (1 / 2) ^ 53 * (signal * (flux + tol flux) + background) := by
    intro x hx hd
    have := count_near (R := double) hS.le hB0 hx.le hd
    rw [hu] at this
    refine this.trans (add_le_add_right ?_ _)
    exact mul_le_mul_of_nonneg_right (by norm_num) hT0
  have tot : ∀ x, 0 < x → |x - flux| ≤ tol flux → double.add (double.mul signal x) background + nOff ≤ 1000000 := by
    intro x hx hd
    have h1 := (abs_le.mp (near x hx hd)).2
    have h2 : signal * (flux + tol flux) = signal * flux + signal * tol flux := by ring
    have h3 : 3 * (1 / 2 : ℝ) ^ 53 * (signal * (flux + tol flux) + background) ≤ 3 * (1 / 2) ^ 53 * 999999 := mul_le_mul_of_nonneg_left (by linarith) (by norm_num)
    have h4 : 3 * (1 / 2 : ℝ) ^ 53 * 999999 ≤ 1 := by norm_num
    linarith
  have cnt : ∀ x, 0 < x → 0 ≤ double.add (double.mul signal x) background ∧ (1 - (1 / 2) ^ 53) * (alpha * nOff) ≤ double.add (double.mul signal x) background := by
    intro x hx
    have h1 : 0 ≤ double.mul signal x := double.nonneg (mul_pos hS hx).le
    have h2 : background ≤ double.add (double.mul signal x) background := double.ge_of_ge (double.idem _) (by linarith)
    have h3 := (double.bounds (mul_nonneg hn ap.le)).1
    rw [hu, mul_comm nOff] at h3
    refine ⟨hB0.trans h2, h3.trans ?_⟩
    rw [mul_comm alpha]
    exact h2
  have exactAt : ∀ y : ℝ, 0 ≤ y → ∃ S', Stats.liMaSignificance (.fin y) (.fin nOff) (.fin alpha) = .fin S' := fun y hy => ⟨_, Stats.liMa_eq hy hn ap⟩
  have mono : ∀ y z Sy Sz : ℝ, 0 ≤ y → y ≤ z → Stats.liMaSignificance (.fin y) (.fin nOff) (.fin alpha) = .fin Sy → Stats.liMaSignificance (.fin z) (.fin nOff) (.fin alpha) = .fin Sz → Sy ≤ Sz := by
    intro y z Sy Sz hy hyz h1 h2
    rw [Stats.liMa_eq hy hn ap] at h1
    rw [Stats.liMa_eq (hy.trans hyz) hn ap] at h2
    rw [← FV.fin.inj h1, ← FV.fin.inj h2]
    exact Stats.limaR_mono hn ap hyz
  constructor
  · intro hle
    obtain ⟨S', hS'⟩ := exactAt _ (cnt l hlpos).1
    have h1 := (abs_le.mp (near l hlpos hl3)).1
    have h2 := mono n _ S S' hn0 (by linarith) hSn hS'
    have h3 : S' ≤ minSig + 1 / 10000000 := by
      rcases equation_le hl4 with h0 | ⟨s, h0, hsm⟩
      · exact exact_le hl (cnt l hlpos).1 hn (tot l hlpos hl3) ha ha' (double.idem _) (by linarith) h0 (by linarith) hS'
      · exact exact_le hl (cnt l hlpos).1 hn (tot l hlpos hl3) ha ha' (double.idem _) (by linarith) h0 hsm hS'
    linarith
  · intro hle
    obtain ⟨S', hS'⟩ := exactAt _ (cnt h hhpos).1
    have h1 := (abs_le.mp (near h hhpos hh3)).2
    have h2 := mono _ n S' S (cnt h hhpos).1 (by linarith) hS' hSn
    obtain ⟨s, h0, hsm⟩ := equation_ge hh4
    have h3 := exact_ge hl (cnt h hhpos).1 hn (tot h hhpos hh3) ha ha' (double.idem _) (cnt h hhpos).2 hm h0 hsm hS'
    linarith

/-! ## Without rounding -/

/-- **C165** Without rounding this is the relative sensitivity of the other theorems, for finite counts, a positive `alpha`, and the same root finder. -/
theorem C165_agrees (k : ℕ) (hk : 1 ≤ k) {brentq : RootFinder} {brentq' : Sensitivity.RootFn}
    (same : ∀ (F : FV ℝ → FV ℝ) f a b, (∀ x, min a b ≤ x → x ≤ max a b → F (.fin x) = f x) → brentq' F (.fin a) (.fin b) = (brentq f a b).map .fin)
    (hb : ∀ f a b x, brentq f a b = .ok x → min a b ≤ x) {nOn nOff alpha minSig minEvents minExcess : ℝ} (h1 : 0 ≤ nOn) (h2 : 0 ≤ nOff) (ha : 0 < alpha) (hm : 0 < minSig) :
    relativeSensitivity (Rounding.exact k hk) Real.log brentq nOn nOff alpha minSig minEvents minExcess =
      Sensitivity.relativeSensitivity1 brentq' Stats.liMaSignificance (.fin nOn) (.fin nOff) (.fin alpha) ⟨.fin minSig, .fin minEvents, .fin minExcess⟩ := by
  by_cases hex : alpha * nOff < nOn
  · rw [Sensitivity.relSens_unfold brentq' h2 ha hex]
    have hS : 0 < nOn - nOff * alpha := by rw [mul_comm]; linarith
    have hB : 0 ≤ nOff * alpha := mul_nonneg h2 ha.le
    have he : searchEnds (Rounding.exact k hk) (nOn - nOff * alpha) (nOff * alpha) nOff minSig = (Sensitivity.brLo nOff alpha (nOn - nOff * alpha) minSig, Sensitivity.brHi nOff alpha (nOn - nOff * alpha) minSig) := by
      unfold searchEnds Sensitivity.brLo Sensitivity.brHi
      split
      · refine Prod.ext ?_ ?_
        · show 1 / 100 * (minSig * Real.sqrt (nOff * alpha) / (nOn - nOff * alpha)) = _
          norm_num
        · rfl
      · refine Prod.ext ?_ ?_
        · show (1 / 10000 : ℝ) = _
          norm_num
        · rfl
    have hends := ends_pos (R := Rounding.exact k hk) hS h2 ha hm
    rw [show (Rounding.exact k hk).mul nOff alpha = nOff * alpha from rfl, he] at hends
    rw [same _ (equation (Rounding.exact k hk) Real.log (nOn - nOff * alpha) (nOff * alpha) nOff alpha minSig) _ _ (by
      intro x hx _
      have hx0 : 0 ≤ x := (lt_of_lt_of_le hends hx).le
      have hc : 0 ≤ (nOn - nOff * alpha) * x + nOff * alpha := add_nonneg (mul_nonneg hS.le hx0) hB
      rw [FV.fin_mul_fin, FV.fin_add_fin, ← C149_agrees k hk _ nOff alpha hc h2 ha]
      show _ = rdFV (Rounding.exact k hk) (liMa (Rounding.exact k hk) Real.log ((nOn - nOff * alpha) * x + nOff * alpha) nOff alpha - .fin minSig)
      generalize liMa (Rounding.exact k hk) Real.log ((nOn - nOff * alpha) * x + nOff * alpha) nOff alpha - FV.fin minSig = v
      cases v <;> rfl)]
    unfold relativeSensitivity
    dsimp only
    rw [if_neg (show ¬ excess (Rounding.exact k hk) nOn nOff alpha ≤ 0 from not_le.mpr hS)]
    rw [show excess (Rounding.exact k hk) nOn nOff alpha = nOn - nOff * alpha from rfl, show (Rounding.exact k hk).mul nOff alpha = nOff * alpha from rfl, he]
    generalize hq : brentq (equation (Rounding.exact k hk) Real.log (nOn - nOff * alpha) (nOff * alpha) nOff alpha minSig) (Sensitivity.brLo nOff alpha (nOn - nOff * alpha) minSig) (Sensitivity.brHi nOff alpha (nOn - nOff * alpha) minSig) = q
    cases q with
    | error e => rfl
    | ok x =>
      have hx : 0 < x := lt_of_lt_of_le hends (hb _ _ _ _ hq)
      show Except.ok (FV.fin (scaleFlux (Rounding.exact k hk) (nOn - nOff * alpha) (nOff * alpha) x minEvents minExcess)) =
        Except.ok (Sensitivity.scaleFlux (.fin (nOn - nOff * alpha)) (.fin (nOff * alpha)) (.fin x) ⟨.fin minSig, .fin minEvents, .fin minExcess⟩)
      rw [Sensitivity.scaleFlux_eq _ hS hx]
      congr 2
      show x * (if (nOn - nOff * alpha) * x < max minEvents (minExcess * (nOff * alpha)) then max minEvents (minExcess * (nOff * alpha)) / ((nOn - nOff * alpha) * x) else 1) = _
      generalize max minEvents (minExcess * (nOff * alpha)) = M
      generalize nOn - nOff * alpha = E at hS
      split
      · rename_i h
        have : x ≤ M / E := by rw [le_div_iff₀ hS]; linarith
        rw [max_eq_right this]
        field_simp
      · rename_i h
        have : M / E ≤ x := by rw [div_le_iff₀ hS]; linarith
        rw [max_eq_left this, mul_one]
  · rw [(C165_infinite _ _ _ _ _ _ _ _).mpr (show excess (Rounding.exact k hk) nOn nOff alpha ≤ 0 from show nOn - nOff * alpha ≤ 0 by linarith [mul_comm nOff alpha])]
    unfold Sensitivity.relativeSensitivity1
    simp only [FV.isNan_fin, Bool.or_self, Bool.false_eq_true, if_false, FV.lt_fin, not_lt.mpr h1, not_lt.mpr h2, decide_false, FV.fin_mul_fin, FV.fin_sub_fin, FV.le_fin,
      show nOn - nOff * alpha ≤ 0 by linarith [mul_comm nOff alpha], decide_true, if_true]

/-! ## The hypotheses are satisfiable -/

open Classical in
/-- a root finder that finds a change of the sign if there is one -/
noncomputable def someRoot (R : Rounding) (tol : ℝ → ℝ) : RootFinder := fun f a b =>
  if h : ∃ x, R.Is x ∧ min a b ≤ x ∧ x ≤ max a b ∧ (∃ l, min a b ≤ l ∧ l ≤ max a b ∧ |l - x| ≤ tol x ∧ FV.le (f l) (.fin 0) = true) ∧
      (∃ h, min a b ≤ h ∧ h ≤ max a b ∧ |h - x| ≤ tol x ∧ FV.le (.fin 0) (f h) = true) then .ok h.choose else .error .valueError

theorem someRoot_spec (R : Rounding) (tol : ℝ → ℝ) : SignChange R tol (someRoot R tol) := by
  intro f a b x hx
  unfold someRoot at hx
  split at hx
  · rename_i h
    have := h.choose_spec
    rwa [Except.ok.inj hx] at this
  · cases hx

/-- the root finder does find a root: 2 for `x - 2` in `[1, 4]` -/
example : ∃ x, someRoot double (fun _ => 1 / 10) (fun x => .fin (x - 2)) 1 4 = .ok x ∧ |x - 2| ≤ 1 / 10 := by
  have h2 : double.Is 2 := by have := double.nat 2 (show 2 ≤ 2 ^ 53 by norm_num); exact_mod_cast this
  unfold someRoot
  split
  · rename_i h
    refine ⟨_, rfl, ?_⟩
    obtain ⟨-, -, -, ⟨l, -, -, l1, l2⟩, ⟨u, -, -, u1, u2⟩⟩ := h.choose_spec
    rw [FV.le_fin, decide_eq_true_eq] at l2 u2
    rw [abs_le] at *
    constructor <;> linarith [l1.1, l1.2, u1.1, u1.2]
  · rename_i h
    refine absurd ⟨2, h2, by norm_num, by norm_num, ⟨2, by norm_num, by norm_num, by norm_num, ?_⟩, ⟨2, by norm_num, by norm_num, by norm_num, ?_⟩⟩ h <;>
      rw [FV.le_fin, decide_eq_true_eq] <;> norm_num

/-- `brentq` with a tolerance of 0.001 finds the sensitivity for 10 signal events, 1 background event, `alpha = 1` and the usual conditions -/
example {log : ℝ → ℝ} (hl : LogWithin ((1 / 2) ^ 52) log) : ∃ r, relativeSensitivity double log (someRoot double (fun _ => 1 / 1000)) 11 1 1 5 10 (1 / 20) = .ok (.fin r) := by
  have nat : ∀ n : ℕ, n ≤ 2 ^ 53 → double.rd n = n := fun n h => double.nat n h
  have r10 : double.rd 10 = 10 := by exact_mod_cast nat 10 (by norm_num)
  have r100 : double.rd 100 = 100 := by exact_mod_cast nat 100 (by norm_num)
  have one : double.rd 1 = 1 := double.one
  have hB : double.mul 1 1 = 1 := one_mul_is one
  have hS : excess double 11 1 1 = 10 := by
    unfold excess
    rw [hB]
    unfold Rounding.sub
    norm_num
    exact r10
  -- exact significances
  have T5 : testStatistic 5 1 1 = 5 * Real.log (5 / 3) - Real.log 3 := by
    unfold testStatistic argOn argOff
    have e : Real.log ((1 + 1) * (1 / (5 + 1))) = -Real.log 3 := by rw [← Real.log_inv]; norm_num
    rw [e]
    norm_num
    ring
  have l53 : Real.log (5 / 3) ≤ 2 / 3 := by
    have := Real.log_le_sub_one_of_pos (show (0 : ℝ) < 5 / 3 by norm_num)
    linarith
  have l53' : 2 / 5 ≤ Real.log (5 / 3) := by
    have := Real.log_le_sub_one_of_pos (show (0 : ℝ) < 3 / 5 by norm_num)
    rw [show (3 / 5 : ℝ) = (5 / 3)⁻¹ by norm_num, Real.log_inv] at this
    linarith
  have l3 : Real.log 3 ≤ 3 / 2 := by
    have h1 := Real.log_le_sub_one_of_pos (show (0 : ℝ) < 3 / 2 by norm_num)
    have h2 := Real.log_le_sub_one_of_pos (show (0 : ℝ) < 2 by norm_num)
    rw [show (3 : ℝ) = 3 / 2 * 2 by norm_num, Real.log_mul (by norm_num) (by norm_num)]
    linarith
  have l3' : 0 ≤ Real.log 3 := Real.log_nonneg (by norm_num)
  have S5 := C149_exact 5 1 1 (by norm_num) (by norm_num) (by norm_num) (by norm_num)
  have S5lo : 1 ≤ Real.sqrt (2 * testStatistic 5 1 1) := by
    apply Real.le_sqrt_of_sq_le
    rw [T5]; linarith
  have S5hi : Real.sqrt (2 * testStatistic 5 1 1) ≤ 4 := by
    rw [Real.sqrt_le_left (by norm_num), T5]; linarith
  have S1001 := C149_exact 1001 1 1 (by norm_num) (by norm_num) (by norm_num) (by norm_num)
  have S1001lo : 6 ≤ Real.sqrt (2 * testStatistic 1001 1 1) := by
    apply Real.le_sqrt_of_sq_le
    unfold testStatistic argOn argOff
    have e : Real.log ((1 + 1) * (1 / (1001 + 1))) = -Real.log 501 := by rw [← Real.log_inv]; norm_num
    have a : 2 / 5 ≤ Real.log ((1 + 1) / 1 * (1001 / (1001 + 1))) := l53'.trans (Real.log_le_log (by norm_num) (by norm_num))
    have b : Real.log 501 ≤ 9 := by
      have h2 := Real.log_le_sub_one_of_pos (show (0 : ℝ) < 2 by norm_num)
      have : Real.log 501 ≤ Real.log (2 ^ 9) := Real.log_le_log (by norm_num) (by norm_num)
      rw [Real.log_pow] at this
      push_cast at this
      linarith
    rw [e]
    linarith
  -- the function of the root search
  have cnt : ∀ x : ℝ, 2 / 5 ≤ x → x ≤ 100 → 5 ≤ double.add (double.mul 10 x) 1 ∧ double.add (double.mul 10 x) 1 ≤ 1001 := by
    intro x h1 h2
    have r4 : double.rd 4 = 4 := by exact_mod_cast nat 4 (by norm_num)
    have r1000 : double.rd 1000 = 1000 := by exact_mod_cast nat 1000 (by norm_num)
    have r5 : double.rd 5 = 5 := by exact_mod_cast nat 5 (by norm_num)
    have r1001 : double.rd 1001 = 1001 := by exact_mod_cast nat 1001 (by norm_num)
    have a1 : 4 ≤ double.mul 10 x := double.ge_of_ge r4 (by linarith)
    have a2 : double.mul 10 x ≤ 1000 := double.le_of_le r1000 (by linarith)
    exact ⟨double.ge_of_ge r5 (by linarith), double.le_of_le r1001 (by linarith)⟩
  have fin : ∀ x : ℝ, 2 / 5 ≤ x → x ≤ 100 → ∃ s S, equation double log 10 1 1 1 5 x = .fin (double.rd (s - 5)) ∧ |s - S| ≤ 1 / 10000000 ∧
      Stats.liMaSignificance (.fin (double.add (double.mul 10 x) 1)) (.fin 1) (.fin 1) = .fin S := by
    intro x h1 h2
    obtain ⟨c1, c2⟩ := cnt x h1 h2
    have hSx := C149_exact _ 1 1 (show 0 ≤ double.add (double.mul 10 x) 1 by linarith) (by norm_num) (by norm_num) (by linarith)
    have hmono : 1 ≤ Real.sqrt (2 * testStatistic (double.add (double.mul 10 x) 1) 1 1) := by
      refine S5lo.trans ?_
      have e1 := S5
      have e2 := hSx
      rw [Stats.liMa_eq (by norm_num) (by norm_num) (by norm_num)] at e1
      rw [Stats.liMa_eq (by linarith) (by norm_num) (by norm_num)] at e2
      rw [← FV.fin.inj e1, ← FV.fin.inj e2]
      exact Stats.limaR_mono (by norm_num) (by norm_num) c1
    obtain ⟨s, hs, hd⟩ := C149_double hl (show 0 ≤ double.add (double.mul 10 x) 1 by linarith) (by norm_num) (by linarith) (by norm_num) (by norm_num) (double.idem _) (by linarith) _ hSx hmono
    refine ⟨s, _, ?_, hd, hSx⟩
    unfold equation
    rw [hs]
    rfl
  have low : FV.le (equation double log 10 1 1 1 5 (2 / 5)) (.fin 0) = true := by
    obtain ⟨s, S, e1, e2, e3⟩ := fin (2 / 5) le_rfl (by norm_num)
    have e : double.add (double.mul 10 (2 / 5)) 1 = 5 := by
      have r4 : double.rd 4 = 4 := by exact_mod_cast nat 4 (by norm_num)
      have r5 : double.rd 5 = 5 := by exact_mod_cast nat 5 (by norm_num)
      unfold Rounding.add Rounding.mul
      rw [show (10 : ℝ) * (2 / 5) = 4 by norm_num, r4]
      norm_num
      exact r5
    rw [e, S5] at e3
    rw [← FV.fin.inj e3] at e2
    rw [e1, FV.le_fin, decide_eq_true_eq]
    exact double.le_of_le double.zero (by linarith [(abs_le.mp e2).2])
  have high : FV.le (.fin 0) (equation double log 10 1 1 1 5 100) = true := by
    obtain ⟨s, S, e1, e2, e3⟩ := fin 100 (by norm_num) le_rfl
    have e : double.add (double.mul 10 100) 1 = 1001 := by
      have r4 : double.rd 1000 = 1000 := by exact_mod_cast nat 1000 (by norm_num)
      have r5 : double.rd 1001 = 1001 := by exact_mod_cast nat 1001 (by norm_num)
      unfold Rounding.add Rounding.mul
      rw [show (10 : ℝ) * 100 = 1000 by norm_num, r4]
      norm_num
      exact r5
    rw [e, S1001] at e3
    rw [← FV.fin.inj e3] at e2
    rw [e1, FV.le_fin, decide_eq_true_eq]
    exact double.ge_of_ge double.zero (by linarith [(abs_le.mp e2).1])
  -- the last change of its sign
  have hlo : double.rd (1 / 10000) ≤ 2 / 5 := by
    have := (double.bounds (show (0 : ℝ) ≤ 1 / 10000 by norm_num)).2
    rw [show double.u = (1 / 2) ^ 53 from rfl] at this
    norm_num at this ⊢
    linarith
  have hex : ∃ x, double.Is x ∧ min (double.rd (1 / 10000)) 100 ≤ x ∧ x ≤ max (double.rd (1 / 10000)) 100 ∧
      (∃ l, min (double.rd (1 / 10000)) 100 ≤ l ∧ l ≤ max (double.rd (1 / 10000)) 100 ∧ |l - x| ≤ 1 / 1000 ∧ FV.le (equation double log 10 1 1 1 5 l) (.fin 0) = true) ∧
      (∃ h, min (double.rd (1 / 10000)) 100 ≤ h ∧ h ≤ max (double.rd (1 / 10000)) 100 ∧ |h - x| ≤ 1 / 1000 ∧ FV.le (.fin 0) (equation double log 10 1 1 1 5 h) = true) := by
    rw [min_eq_left (by linarith), max_eq_right (by linarith)]
    let A : Set ℝ := {x | 2 / 5 ≤ x ∧ x ≤ 100 ∧ FV.le (equation double log 10 1 1 1 5 x) (.fin 0) = true}
    have hA : (2 / 5 : ℝ) ∈ A := ⟨le_rfl, by norm_num, low⟩
    have hbd : BddAbove A := ⟨100, fun x hx => hx.2.1⟩
    have p1 : 2 / 5 ≤ sSup A := le_csSup hbd hA
    have p2 : sSup A ≤ 100 := csSup_le ⟨_, hA⟩ fun x hx => hx.2.1
    obtain ⟨l, hl1, hl2⟩ := exists_lt_of_lt_csSup ⟨_, hA⟩ (show sSup A - 1 / 2000 < sSup A by linarith)
    have hl3 := le_csSup hbd hl1
    have hc := double.close (sSup A)
    rw [abs_of_nonneg (show 0 ≤ sSup A by linarith), show double.u = (1 / 2) ^ 53 from rfl] at hc
    have hc2 : |double.rd (sSup A) - sSup A| ≤ 1 / 2000 := hc.trans ((mul_le_mul_of_nonneg_left p2 (by positivity)).trans (by norm_num))
    obtain ⟨c1, c2⟩ := abs_le.mp hc2
    refine ⟨double.rd (sSup A), double.idem _, double.mono (by linarith), double.le_of_le r100 p2, ⟨l, by linarith [hl1.1], hl1.2.1, ?_, hl1.2.2⟩, ?_⟩
    · rw [abs_le]; constructor <;> linarith
    · by_cases h100 : 100 ≤ sSup A + 1 / 2000
      · refine ⟨100, by linarith, le_rfl, ?_, high⟩
        rw [abs_le]; constructor <;> linarith
      · refine ⟨sSup A + 1 / 2000, by linarith, by linarith, ?_, ?_⟩
        · rw [abs_le]; constructor <;> linarith
        · have hnot : ¬ (sSup A + 1 / 2000 ∈ A) := fun h => by linarith [le_csSup hbd h]
          obtain ⟨s, S, e1, -, -⟩ := fin (sSup A + 1 / 2000) (by linarith) (by linarith)
          rw [e1, FV.le_fin, decide_eq_true_eq]
          by_contra hneg
          refine hnot ⟨by linarith, by linarith, ?_⟩
          rw [e1, FV.le_fin, decide_eq_true_eq]
          linarith
  unfold relativeSensitivity
  dsimp only
  rw [hS, hB, if_neg (by norm_num)]
  have he : searchEnds double 10 1 1 5 = (double.rd (1 / 10000), 100) := by
    unfold searchEnds
    rw [if_neg (lt_irrefl _)]
  rw [he]
  obtain ⟨x, hx⟩ : ∃ x, someRoot double (fun _ => 1 / 1000) (equation double log 10 1 1 1 5) (double.rd (1 / 10000)) 100 = .ok x := by
    unfold someRoot
    rw [dif_pos hex]
    exact ⟨_, rfl⟩
  dsimp only
  rw [hx]
  exact ⟨_, rfl⟩

/-- related root finders, as `C165_agrees` needs -/
example : ∃ (brentq : RootFinder) (brentq' : Sensitivity.RootFn),
    (∀ (F : FV ℝ → FV ℝ) f a b, (∀ x, min a b ≤ x → x ≤ max a b → F (.fin x) = f x) → brentq' F (.fin a) (.fin b) = (brentq f a b).map .fin) ∧
    (∀ f a b x, brentq f a b = .ok x → min a b ≤ x) ∧ ∃ f, brentq f 0 1 = .ok 1 := by
  classical
  refine ⟨fun f a b => if f (max a b) = .fin 0 then .ok (max a b) else .error .valueError,
    fun F a b => match a, b with
      | .fin a, .fin b => if F (.fin (max a b)) = .fin 0 then .ok (.fin (max a b)) else .error .valueError
      | _, _ => .error .valueError, ?_, ?_, fun _ => .fin 0, by simp⟩
  · intro F f a b h
    have := h (max a b) (min_le_max) le_rfl
    dsimp only
    rw [this]
    split <;> rfl
  · intro f a b x h
    dsimp only at h
    split at h
    · rw [← Except.ok.inj h]; exact min_le_max
    · cases h

end Pyirf.Rounded
