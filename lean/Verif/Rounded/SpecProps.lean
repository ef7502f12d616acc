import Verif.Rounded.SpecModel
import Verif.Rounded.DensityProps
import Verif.Rounded.SimProps
import Verif.Spectral.Model

/-!
# Spectra and event weights in rounded arithmetic (C162)
-/
set_option linter.unusedSectionVars false
set_option linter.unusedSimpArgs false

namespace Pyirf.Rounded
open Pyirf Pyirf.Np

variable {R : Rounding}

/-- **C162** A power law with a positive normalization is positive, does not increase with the energy and has exactly the normalization as value at the reference energy, if numpy's power is positive, does not increase and is 1 at 1. -/
theorem C162_power_law (pow : ℝ → ℝ) (hpos : ∀ x, 0 < x → 0 < pow x) (hmono : AntitoneOn pow (Set.Ioi 0)) (h1 : pow 1 = 1)
    (normalization eRef : ℝ) (hn : 0 < normalization) (hf : R.Is normalization) (hr : 0 < eRef) :
    (∀ e, 0 < e → 0 < powerLaw R pow normalization eRef e) ∧
    (∀ e e', 0 < e → e ≤ e' → powerLaw R pow normalization eRef e' ≤ powerLaw R pow normalization eRef e) ∧
    powerLaw R pow normalization eRef eRef = normalization ∧
    (∀ e, eRef ≤ e → powerLaw R pow normalization eRef e ≤ normalization) ∧ ∀ e, 0 < e → e ≤ eRef → normalization ≤ powerLaw R pow normalization eRef e := by
  have hx : ∀ {e : ℝ}, 0 < e → 0 < R.div e eRef := fun he => R.pos (div_pos he hr)
  have hm : ∀ e e', 0 < e → e ≤ e' → powerLaw R pow normalization eRef e' ≤ powerLaw R pow normalization eRef e := by
    intro e e' he hee
    refine R.mono (mul_le_mul_of_nonneg_left (hmono (hx he) (hx (he.trans_le hee)) ?_) hn.le)
    exact R.mono (div_le_div_of_nonneg_right hee hr.le)
  have he : powerLaw R pow normalization eRef eRef = normalization := by
    unfold powerLaw Rounding.div Rounding.mul
    dsimp only
    rw [div_self hr.ne', R.one, h1, mul_one]
    exact hf
  refine ⟨fun e he => R.pos (mul_pos hn (hpos _ (hx he))), hm, he, fun e h => ?_, fun e h h' => ?_⟩
  · exact (hm _ _ hr h).trans he.le
  · exact he.symm.le.trans (hm _ _ h h')

/-- **C162** (accuracy) If numpy's power is accurate to the relative error `r`, the flux is between `(1-u)(1-r)(1+u)^index` and `(1+u)(1+r)(1-u)^index` times the exact one. -/
theorem C162_power_law_accuracy (pow : ℝ → ℝ) (index r : ℝ) (hi : index ≤ 0) (hr0 : 0 ≤ r) (hr1 : r ≤ 1) (hp : ∀ x, 0 < x → |pow x - x ^ index| ≤ r * x ^ index)
    (normalization eRef e : ℝ) (hn : 0 ≤ normalization) (hr : 0 < eRef) (he : 0 < e) :
    let exact := normalization * (e / eRef) ^ index
    (1 - R.u) * (1 - r) * (1 + R.u) ^ index * exact ≤ powerLaw R pow normalization eRef e ∧ powerLaw R pow normalization eRef e ≤ (1 + R.u) * (1 + r) * (1 - R.u) ^ index * exact := by
  have hq : 0 < e / eRef := div_pos he hr
  have hx : 0 < R.div e eRef := R.pos hq
  have hu := R.u_nonneg
  have hu1 : 0 < 1 - R.u := by linarith [R.u_lt_one]
  obtain ⟨b1, b2⟩ := R.bounds hq.le
  obtain ⟨a1, a2⟩ := abs_le.mp (hp _ hx)
  have c1 : (1 + R.u) ^ index * (e / eRef) ^ index ≤ R.div e eRef ^ index := by
    rw [← Real.mul_rpow (by linarith) hq.le]
    exact Real.rpow_le_rpow_of_nonpos hx b2 hi
  have c2 : R.div e eRef ^ index ≤ (1 - R.u) ^ index * (e / eRef) ^ index := by
    rw [← Real.mul_rpow hu1.le hq.le]
    exact Real.rpow_le_rpow_of_nonpos (mul_pos hu1 hq) b1 hi
  have d1 : (1 - r) * ((1 + R.u) ^ index * (e / eRef) ^ index) ≤ pow (R.div e eRef) :=
    (mul_le_mul_of_nonneg_left c1 (by linarith)).trans (by linarith)
  have d2 : pow (R.div e eRef) ≤ (1 + r) * ((1 - R.u) ^ index * (e / eRef) ^ index) :=
    le_trans (by linarith) (mul_le_mul_of_nonneg_left c2 (by linarith))
  have hpn : 0 ≤ pow (R.div e eRef) := le_trans (mul_nonneg (by linarith) (by positivity)) d1
  obtain ⟨f1, f2⟩ := R.bounds (mul_nonneg hn hpn)
  constructor
  · refine le_trans (le_trans (le_of_eq ?_) (mul_le_mul_of_nonneg_left (mul_le_mul_of_nonneg_left d1 hn) hu1.le)) f1
    ring
  · refine f2.trans ((mul_le_mul_of_nonneg_left (mul_le_mul_of_nonneg_left d2 hn) (by linarith)).trans (le_of_eq ?_))
    ring

/-- **C162** A log parabola is positive and has exactly the normalization as value at the reference energy. -/
theorem C162_log_parabola (pow : ℝ → ℝ → ℝ) (log10 : ℝ → ℝ) (hpos : ∀ x y, 0 < x → 0 < pow x y) (h1 : ∀ y, pow 1 y = 1) (normalization a b eRef : ℝ)
    (hn : 0 < normalization) (hf : R.Is normalization) (hr : 0 < eRef) :
    (∀ e, 0 < e → 0 < logParabola R pow log10 normalization a b eRef e) ∧ logParabola R pow log10 normalization a b eRef eRef = normalization := by
  refine ⟨fun e he => R.pos (mul_pos hn (hpos _ _ (R.pos (div_pos he hr)))), ?_⟩
  unfold logParabola Rounding.div Rounding.mul
  dsimp only
  rw [div_self hr.ne', R.one, h1, mul_one]
  exact hf

/-- **C162** The electron spectrum (`f ≥ 0`, any width but 0, also negative) lies between its power law and the power law times the largest possible bump, `1 + f (exp 1 - 1)` as computed, also in rounded arithmetic. -/
theorem C162_gaussian (pow exp log10 : ℝ → ℝ) (hexp : Monotone exp) (h0 : exp 0 = 1) (hnn : ∀ x, 0 ≤ exp x) (hpos : ∀ x, 0 < x → 0 ≤ pow x)
    (normalization eRef f mu sigma : ℝ) (hn : 0 ≤ normalization) (hr : 0 < eRef) (hf : 0 ≤ f) (e : ℝ) (he : 0 < e) :
    powerLaw R pow normalization eRef e ≤ gaussianPowerLaw R pow exp log10 normalization eRef f mu sigma e ∧
    gaussianPowerLaw R pow exp log10 normalization eRef f mu sigma e ≤ R.mul (powerLaw R pow normalization eRef e) (R.add 1 (R.mul f (R.sub (exp 1) 1))) := by
  have hp : 0 ≤ powerLaw R pow normalization eRef e := R.nonneg (mul_nonneg hn (hpos _ (R.pos (div_pos he hr))))
  have hg : ∀ l, 0 ≤ gauss R exp mu sigma l ∧ gauss R exp mu sigma l ≤ 1 := by
    intro l
    refine ⟨hnn _, h0 ▸ hexp ?_⟩
    have := R.nonneg (mul_self_nonneg (R.div (R.sub l mu) sigma))
    have h2 := R.mono (show -(1 / 2) * R.mul (R.div (R.sub l mu) sigma) (R.div (R.sub l mu) sigma) ≤ 0 from mul_nonpos_of_nonpos_of_nonneg (by norm_num) this)
    rwa [R.zero] at h2
  obtain ⟨g1, g2⟩ := hg (log10 (R.div e eRef))
  have b1 : 1 ≤ R.add 1 (R.mul f (R.sub (exp (gauss R exp mu sigma (log10 (R.div e eRef)))) 1)) := by
    refine R.ge_of_ge R.one ?_
    have : 0 ≤ R.sub (exp (gauss R exp mu sigma (log10 (R.div e eRef)))) 1 := R.nonneg (sub_nonneg.mpr (h0 ▸ hexp g1))
    have h3 : 0 ≤ R.mul f (R.sub (exp (gauss R exp mu sigma (log10 (R.div e eRef)))) 1) := R.nonneg (mul_nonneg hf this)
    linarith
  constructor
  · refine R.ge_of_ge (R.idem _) ?_
    nlinarith
  · refine R.mono (mul_le_mul_of_nonneg_left (R.mono ?_) hp)
    exact add_le_add_right (R.mono (mul_le_mul_of_nonneg_left (R.mono (sub_le_sub_right (hexp g2) 1)) hf)) 1

/-- **C162** Event weights: not negative, 0 for no target flux, exactly 1 if both spectra give the same flux (in one unit), larger for a larger target flux, smaller for a larger simulated flux. -/
theorem C162_weights (conv t s t' s' : ℝ) (hc : 0 < conv) (ht : 0 ≤ t) (hs : 0 < s) (htt : t ≤ t') (hss : s ≤ s') :
    0 ≤ eventWeight R conv t s ∧ eventWeight R conv 0 s = 0 ∧ (0 < t → 0 < eventWeight R conv t s) ∧ eventWeight R 1 s s = 1 ∧
    eventWeight R conv t s ≤ eventWeight R conv t' s ∧ eventWeight R conv t s' ≤ eventWeight R conv t s := by
  refine ⟨R.nonneg (mul_nonneg (R.nonneg (div_nonneg ht hs.le)) hc.le), ?_, fun h => R.pos (mul_pos (R.pos (div_pos h hs)) hc), ?_, ?_, ?_⟩
  · unfold eventWeight Rounding.div Rounding.mul
    rw [zero_div, R.zero, zero_mul, R.zero]
  · unfold eventWeight Rounding.div Rounding.mul
    rw [div_self hs.ne', R.one, mul_one, R.one]
  · exact R.mono (mul_le_mul_of_nonneg_right (R.mono (div_le_div_of_nonneg_right htt hs.le)) hc.le)
  · exact R.mono (mul_le_mul_of_nonneg_right (R.mono (div_le_div_of_nonneg_left ht hs hss)) hc.le)

/-- **C162** (accuracy) If both fluxes are known within factors, the weight is: `t` within `(1-a)T` and `(1+b)T`, `s` within `(1-c)S` and `(1+d)S`. -/
theorem C162_weights_accuracy (conv t s T S a b c d : ℝ) (hc : 0 < conv) (hT : 0 ≤ T) (hS : 0 < S) (ha : a ≤ 1) (hb : 0 ≤ b) (hc1 : c < 1) (hd : 0 ≤ d)
    (t1 : (1 - a) * T ≤ t) (t2 : t ≤ (1 + b) * T) (s1 : (1 - c) * S ≤ s) (s2 : s ≤ (1 + d) * S) :
    (1 - R.u) ^ 2 * ((1 - a) / (1 + d)) * (T / S * conv) ≤ eventWeight R conv t s ∧ eventWeight R conv t s ≤ (1 + R.u) ^ 2 * ((1 + b) / (1 - c)) * (T / S * conv) := by
  have hu := R.u_nonneg
  have hu1 : 0 < 1 - R.u := by linarith [R.u_lt_one]
  have h1 : 0 < (1 - c) * S := mul_pos (by linarith) hS
  have hs : 0 < s := lt_of_lt_of_le h1 s1
  have h0 : 0 ≤ (1 - a) * T := mul_nonneg (by linarith) hT
  have ht : 0 ≤ t := h0.trans t1
  have e1 : (1 - a) / (1 + d) * (T / S) ≤ t / s := by
    rw [div_mul_div_comm]
    exact div_le_div₀ ht t1 hs s2
  have e2 : t / s ≤ (1 + b) / (1 - c) * (T / S) := by
    rw [div_mul_div_comm]
    exact div_le_div₀ (mul_nonneg (by linarith) hT) t2 h1 s1
  obtain ⟨f1, f2⟩ := R.bounds (div_nonneg ht hs.le)
  obtain ⟨g1, g2⟩ := R.bounds (mul_nonneg (R.nonneg (div_nonneg ht hs.le)) hc.le)
  constructor
  · refine le_trans (le_of_eq ?_) ((mul_le_mul_of_nonneg_left (mul_le_mul_of_nonneg_right ((mul_le_mul_of_nonneg_left e1 hu1.le).trans f1) hc.le) hu1.le).trans g1)
    ring
  · refine le_trans (g2.trans (mul_le_mul_of_nonneg_left (mul_le_mul_of_nonneg_right (f2.trans (mul_le_mul_of_nonneg_left e2 (by linarith))) hc.le) (by linarith))) (le_of_eq ?_)
    ring

/-- **C162** Events reweighted to the spectrum they were simulated with: the weighted number of events in a cell (`np.histogramdd`, `np.bincount`) is exactly the number of events, up to the largest exact integer. -/
theorem C162_same_spectrum {α : Type*} (flux : ℝ → ℝ) (energy : α → ℝ) (inCell : α → Bool) (events : List α) (hpos : ∀ x ∈ events, 0 < flux (energy x))
    (hlim : (events.filter inCell).length ≤ R.limit) :
    bincountCell R inCell (fun x => eventWeight R 1 (flux (energy x)) (flux (energy x))) events = ((events.filter inCell).length : ℝ) := by
  unfold bincountCell seqSum
  have hw : (events.filter inCell).map (fun x => eventWeight R 1 (flux (energy x)) (flux (energy x))) = ((events.filter inCell).map fun _ => 1).map (fun c : ℕ => (c : ℝ)) := by
    rw [List.map_map]
    refine List.map_congr_left fun x hx => ?_
    have := (C162_weights (R := R) 1 0 (flux (energy x)) 0 (flux (energy x)) one_pos le_rfl (hpos x (List.mem_filter.mp hx).1) le_rfl le_rfl).2.2.2.1
    simpa using this
  have hs : ((events.filter inCell).map fun _ => 1).sum = (events.filter inCell).length := by simp
  have := foldl_nat (R := R) ((events.filter inCell).map fun _ => 1) 0 (by rw [hs]; simpa using hlim)
  rw [hw]
  simpa [hs] using this

/-- **C162** `integrate_cone`: the normalization is not negative, 0 for an empty cone, larger for a larger outer angle, smaller for a larger inner angle (numpy's cosine decreasing), and accurate up to one rounding with respect to the computed solid angle. -/
theorem C162_integrate_cone (pi : ℝ) (hpi : 0 ≤ pi) (cos : ℝ → ℝ) (hcos : AntitoneOn cos (Set.Icc 0 Real.pi)) (normalization inner outer inner' outer' : ℝ)
    (hn : 0 ≤ normalization) (h0 : 0 ≤ inner') (h1 : inner' ≤ inner) (h2 : inner ≤ outer) (h3 : outer ≤ outer') (h4 : outer' ≤ Real.pi) :
    0 ≤ integrateCone R pi cos normalization inner outer ∧ integrateCone R pi cos normalization inner inner = 0 ∧
    integrateCone R pi cos normalization inner outer ≤ integrateCone R pi cos normalization inner' outer' ∧
    Near R 1 (integrateCone R pi cos normalization inner outer) (normalization * R.sub (coneSolidAngle R pi cos outer) (coneSolidAngle R pi cos inner)) := by
  have hcone : ∀ {x y : ℝ}, 0 ≤ x → x ≤ y → y ≤ Real.pi → coneSolidAngle R pi cos x ≤ coneSolidAngle R pi cos y := by
    intro x y hx hxy hy
    refine R.mono (mul_le_mul_of_nonneg_left (R.mono ?_) (R.nonneg (mul_nonneg (by norm_num) hpi)))
    linarith [hcos ⟨hx, hxy.trans hy⟩ ⟨hx.trans hxy, hy⟩ hxy]
  have hi := h0.trans h1
  have ho : 0 ≤ R.sub (coneSolidAngle R pi cos outer) (coneSolidAngle R pi cos inner) := sub_nonneg_of (hcone hi h2 (h3.trans h4))
  refine ⟨R.nonneg (mul_nonneg hn ho), ?_, ?_, ?_⟩
  · unfold integrateCone Rounding.sub Rounding.mul
    rw [sub_self, R.zero, mul_zero, R.zero]
  · refine R.mono (mul_le_mul_of_nonneg_left (R.mono ?_) hn)
    have := hcone h0 h1 (h2.trans (h3.trans h4))
    have := hcone (hi.trans h2) h3 h4
    linarith
  · have := R.bounds (mul_nonneg hn ho)
    simpa [Near, integrateCone, Rounding.mul] using this

/-- a rounded product of numbers with roundings -/
theorem near_mul {k l : ℕ} {x X y Y : ℝ} (hx : Near R k x X) (hy : Near R l y Y) (hX : 0 ≤ X) (hY : 0 ≤ Y) : Near R (k + l + 1) (R.mul x y) (X * Y) := by
  have hu := R.u_nonneg
  have hu1 : 0 < 1 - R.u := by linarith [R.u_lt_one]
  have h1 : 0 ≤ x := le_trans (by positivity) hx.1
  have h2 : 0 ≤ y := le_trans (by positivity) hy.1
  obtain ⟨b1, b2⟩ := R.bounds (mul_nonneg h1 h2)
  constructor
  · refine le_trans (le_trans (le_of_eq ?_) (mul_le_mul_of_nonneg_left (mul_le_mul hx.1 hy.1 (by positivity) h1) hu1.le)) b1
    ring
  · refine b2.trans (le_trans (mul_le_mul_of_nonneg_left (mul_le_mul hx.2 hy.2 h2 (by positivity)) (by linarith)) (le_of_eq ?_))
    ring

theorem mul_neg_left (x y : ℝ) : R.mul (-x) y = -R.mul x y := by
  unfold Rounding.mul
  rw [neg_mul, R.neg]

theorem mul_neg_right (x y : ℝ) : R.mul x (-y) = -R.mul x y := by
  unfold Rounding.mul
  rw [mul_neg, R.neg]

/-- **C162** `PowerLaw.from_simulation`: for an index below -1 the normalization is positive and it is the exact formula (of numpy's powers, pi and the computed solid angle) up to eleven roundings. -/
theorem C162_from_simulation (pi : ℝ) (hpi : 0 < pi) (pow1 : ℝ → ℝ) (powRef index eMin eMax nShowers maxImpact obstime solidAngle : ℝ) (hi : index < -1) (hr : 0 < powRef)
    (hd : pow1 eMax < pow1 eMin) (hn : 0 < nShowers) (hm : 0 < maxImpact) (ht : 0 < obstime) (ho : 0 < solidAngle) :
    let exact := (index + 1) * powRef * nShowers / (pi * maxImpact ^ 2 * obstime * solidAngle * (pow1 eMax - pow1 eMin))
    let computed := fromSimulation R pi pow1 powRef index eMin eMax nShowers maxImpact obstime solidAngle
    0 < exact ∧ 0 < computed ∧ (1 - R.u) ^ 4 / (1 + R.u) ^ 6 * exact ≤ computed ∧ computed ≤ (1 + R.u) ^ 4 / (1 - R.u) ^ 6 * exact := by
  intro exact computed
  have hu := R.u_nonneg
  have hu1 : 0 < 1 - R.u := by linarith [R.u_lt_one]
  have hg : 0 < -(index + 1) := by linarith
  have hD : 0 < pow1 eMin - pow1 eMax := sub_pos.mpr hd
  have one : ∀ {x : ℝ}, 0 ≤ x → Near R 1 (R.rd x) x := fun h => by simpa [Near] using R.bounds h
  set N := -(index + 1) * powRef * nShowers with hN
  set M := pi * (maxImpact * maxImpact) * obstime * solidAngle * (pow1 eMin - pow1 eMax) with hM
  have hNp : 0 < N := by positivity
  have hMp : 0 < M := by positivity
  have hex : exact = N / M := by
    show (index + 1) * powRef * nShowers / (pi * maxImpact ^ 2 * obstime * solidAngle * (pow1 eMax - pow1 eMin)) = N / M
    rw [← neg_div_neg_eq]
    congr 1 <;> simp only [hN, hM] <;> ring
  have nomNear : Near R 3 (R.mul (R.mul (R.rd (-(index + 1))) powRef) nShowers) N :=
    near_mul (near_mul (one hg.le) (near_refl _ powRef) hg.le hr.le) (near_refl _ nShowers) (by positivity) hn.le
  have denNear : Near R 6 (R.mul (R.mul (R.mul (R.mul pi (R.mul maxImpact maxImpact)) obstime) solidAngle) (R.sub (pow1 eMin) (pow1 eMax))) M :=
    near_mul (near_mul (near_mul (near_mul (near_refl _ pi) (one (mul_self_nonneg maxImpact)) hpi.le (by positivity)) (near_refl _ obstime) (by positivity) ht.le)
      (near_refl _ solidAngle) (by positivity) ho.le) (one hD.le) (by positivity) hD.le
  have hcomp : computed = R.div (R.mul (R.mul (R.rd (-(index + 1))) powRef) nShowers) (R.mul (R.mul (R.mul (R.mul pi (R.mul maxImpact maxImpact)) obstime) solidAngle) (R.sub (pow1 eMin) (pow1 eMax))) := by
    show R.div (R.mul (R.mul (R.add index 1) powRef) nShowers) (R.mul (R.mul (R.mul (R.mul pi (R.mul maxImpact maxImpact)) obstime) solidAngle) (R.sub (pow1 eMax) (pow1 eMin))) = _
    rw [R.neg (index + 1), mul_neg_left, mul_neg_left, sub_comm_neg R (pow1 eMax), mul_neg_right]
    show R.rd (_ / -_) = R.rd (-_ / _)
    rw [div_neg, neg_div]
    rfl
  generalize R.mul (R.mul (R.rd (-(index + 1))) powRef) nShowers = x at *
  generalize R.mul (R.mul (R.mul (R.mul pi (R.mul maxImpact maxImpact)) obstime) solidAngle) (R.sub (pow1 eMin) (pow1 eMax)) = y at *
  have hx : 0 < x := lt_of_lt_of_le (by positivity) nomNear.1
  have hy : 0 < y := lt_of_lt_of_le (by positivity) denNear.1
  obtain ⟨b1, b2⟩ := R.bounds (div_pos hx hy).le
  rw [hcomp, hex]
  refine ⟨by positivity, R.pos (div_pos hx hy), ?_, ?_⟩
  · refine le_trans (le_trans (le_of_eq ?_) (mul_le_mul_of_nonneg_left (div_le_div₀ hx.le nomNear.1 hy denNear.2) hu1.le)) b1
    field_simp
  · refine b2.trans (le_trans (mul_le_mul_of_nonneg_left (div_le_div₀ (by positivity) nomNear.2 (by positivity) denNear.1) (by linarith)) (le_of_eq ?_))
    field_simp

/-- **C162** (without rounding) In exact arithmetic these are the spectra, normalizations and weights of the other properties. -/
theorem C162_agrees (k : ℕ) (hk : 1 ≤ k) (kind : Spectral.FluxKind) (normalization index eRef f mu sigma e : ℝ) (he : 0 < e) (hr : 0 < eRef) (hs : sigma ≠ 0) :
    (Spectral.PowerLaw.mk kind (.fin normalization) index eRef).call e = .fin (powerLaw (Rounding.exact k hk) (· ^ index) normalization eRef e) ∧
    (Spectral.LogParabola.mk kind (.fin normalization) index f eRef).call e = .fin (logParabola (Rounding.exact k hk) (· ^ ·) Spectral.log10 normalization index f eRef e) ∧
    (Spectral.GaussianPowerLaw.mk ⟨kind, .fin normalization, index, eRef⟩ f mu sigma).call e =
      .fin (gaussianPowerLaw (Rounding.exact k hk) (· ^ index) Real.exp Spectral.log10 normalization eRef f mu sigma e) ∧
    ∀ target simulated : Spectral.Spectrum, target.kind = simulated.kind → ∀ t s : ℝ, target.flux e = .fin t → simulated.flux e = .fin s → s ≠ 0 →
      Spectral.calculateEventWeight e target simulated = .ok (.fin (eventWeight (Rounding.exact k hk) 1 t s)) := by
  refine ⟨?_, ?_, ?_, ?_⟩
  · simp [Spectral.PowerLaw.call, powerLaw, Rounding.exact, Rounding.mul, Rounding.div]
  · simp [Spectral.LogParabola.call, logParabola, Rounding.exact, Rounding.mul, Rounding.div, Rounding.add]
  · simp only [Spectral.GaussianPowerLaw.call, Spectral.PowerLaw.call, Spectral.gaussF, gaussianPowerLaw, powerLaw, gauss, Rounding.exact, Rounding.mul, Rounding.div, Rounding.add, Rounding.sub,
      FV.fin_sub_fin, FV.fin_div_fin _ _ hs, FV.fin_mul_fin, Spectral.expF, FV.fin_add_fin, id]
    norm_num
  · intro target simulated hk t s ht hss h0
    simp [Spectral.calculateEventWeight, hk, ht, hss, FV.fin_div_fin _ _ h0, eventWeight, Rounding.exact, Rounding.mul, Rounding.div]

/-! ## Satisfiability -/

/-- exact powers in double precision: the power of CRAB_HEGRA -/
example : (∀ x : ℝ, 0 < x → 0 < x ^ (-2.62 : ℝ)) ∧ AntitoneOn (fun x : ℝ => x ^ (-2.62 : ℝ)) (Set.Ioi 0) ∧ (1 : ℝ) ^ (-2.62 : ℝ) = 1 :=
  ⟨fun x hx => Real.rpow_pos_of_pos hx _, fun x hx y _ hxy => Real.rpow_le_rpow_of_nonpos hx hxy (by norm_num), Real.one_rpow _⟩

example : Monotone Real.exp ∧ Real.exp 0 = 1 ∧ ∀ x, 0 ≤ Real.exp x := ⟨Real.exp_monotone, Real.exp_zero, fun x => (Real.exp_pos x).le⟩

/-- three events of which two are in the cell -/
example : bincountCell (Rounding.binary 53 (by norm_num)) (fun x : ℕ => decide (x < 2)) (fun x => eventWeight (Rounding.binary 53 (by norm_num)) 1 ((x : ℝ) + 1) ((x : ℝ) + 1)) [0, 1, 5] = 2 := by
  have := C162_same_spectrum (R := Rounding.binary 53 (by norm_num)) (fun x => x + 1) (fun x : ℕ => (x : ℝ)) (fun x => decide (x < 2)) [0, 1, 5] (by intro x _; positivity)
    (by show ([0, 1, 5].filter fun x : ℕ => decide (x < 2)).length ≤ 2 ^ 53; simp)
  simpa using this

example : (-2 : ℝ) < -1 ∧ ((100 : ℝ) ^ (-1 : ℝ)) < (1 : ℝ) ^ (-1 : ℝ) := by
  rw [Real.rpow_neg_one, Real.one_rpow]
  norm_num

end Pyirf.Rounded
