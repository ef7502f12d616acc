import Verif.Rounded.SimModel
import Verif.Simulations.EnergyProps
import Verif.Simulations.FovProps

/-!
# Expected numbers of simulated showers in rounded arithmetic (C161)
-/
set_option linter.unusedSectionVars false

namespace Pyirf.Rounded
open Pyirf Pyirf.Np

section lemmas
variable (R : Rounding)

theorem sub_comm_neg (a b : ℝ) : R.sub a b = -R.sub b a := by
  unfold Rounding.sub
  rw [← R.neg, neg_sub]

/-- sign of numerator and denominator changed -/
theorem share_swap (a b c d : ℝ) : R.mul (R.sub a b) (R.div 1 (R.sub c d)) = R.mul (R.sub b a) (R.div 1 (R.sub d c)) := by
  rw [sub_comm_neg R a b, sub_comm_neg R c d]
  unfold Rounding.mul Rounding.div
  rw [div_neg, R.neg, neg_mul_neg]

/-- the number of showers in terms of a share `x` of `y` -/
noncomputable def shareOf (n x y : ℝ) : ℝ := R.mul n (R.mul (max 0 x) (R.div 1 y))

variable {R}

theorem sub_nonneg_of {a b : ℝ} (h : b ≤ a) : 0 ≤ R.sub a b := R.nonneg (sub_nonneg.mpr h)

theorem sub_nonpos_of {a b : ℝ} (h : a ≤ b) : R.sub a b ≤ 0 := by
  rw [sub_comm_neg]
  have := sub_nonneg_of (R := R) h
  linarith

theorem shareOf_range {n x y : ℝ} (hn : 0 ≤ n) (hy : 0 < y) (hx : x ≤ y) : 0 ≤ shareOf R n x y ∧ shareOf R n x y ≤ (1 + R.u) ^ 3 * n := by
  have hu := R.u_nonneg
  have hinv : 0 < R.div 1 y := R.pos (by positivity)
  have h1 : R.div 1 y ≤ (1 + R.u) * (1 / y) := (R.bounds (by positivity)).2
  have h0 : 0 ≤ max 0 x := le_max_left _ _
  have h2 : 0 ≤ max 0 x * R.div 1 y := mul_nonneg h0 hinv.le
  have h3 : max 0 x * R.div 1 y ≤ 1 + R.u := by
    calc max 0 x * R.div 1 y ≤ y * ((1 + R.u) * (1 / y)) := mul_le_mul (max_le hy.le hx) h1 hinv.le hy.le
      _ = 1 + R.u := by field_simp
  have h4 : R.mul (max 0 x) (R.div 1 y) ≤ (1 + R.u) * (1 + R.u) :=
    (R.bounds h2).2.trans (mul_le_mul_of_nonneg_left h3 (by linarith))
  have h5 : 0 ≤ R.mul (max 0 x) (R.div 1 y) := R.nonneg h2
  refine ⟨R.nonneg (mul_nonneg hn h5), ?_⟩
  refine (R.bounds (mul_nonneg hn h5)).2.trans ?_
  calc (1 + R.u) * (n * R.mul (max 0 x) (R.div 1 y)) ≤ (1 + R.u) * (n * ((1 + R.u) * (1 + R.u))) :=
        mul_le_mul_of_nonneg_left (mul_le_mul_of_nonneg_left h4 hn) (by linarith)
    _ = (1 + R.u) ^ 3 * n := by ring

theorem shareOf_zero {n x y : ℝ} (hx : x ≤ 0) : shareOf R n x y = 0 := by
  unfold shareOf Rounding.mul
  rw [max_eq_left hx, zero_mul, R.zero, mul_zero, R.zero]

theorem shareOf_mono {n x x' y : ℝ} (hn : 0 ≤ n) (hy : 0 < y) (h : x ≤ x') : shareOf R n x y ≤ shareOf R n x' y := by
  have hinv : 0 ≤ R.div 1 y := (R.pos (by positivity)).le
  exact R.mono (mul_le_mul_of_nonneg_left (R.mono (mul_le_mul_of_nonneg_right (max_le_max le_rfl h) hinv)) hn)

/-- the error of the share: `x` is the rounded difference of two numbers that is right up to a relative error `δ`, `y` up to `δ₀` -/
theorem shareOf_near {n a b c d D T δ δ₀ : ℝ} (hn : 0 ≤ n) (hD : 0 ≤ D) (hT : 0 < T) (hδ : δ ≤ 1) (hδ₀ : δ₀ < 1)
    (h1 : |a - b - D| ≤ δ * D) (h2 : |c - d - T| ≤ δ₀ * T) :
    (1 - R.u) ^ 4 * (1 - δ) / ((1 + R.u) * (1 + δ₀)) * (n * (D / T)) ≤ shareOf R n (R.sub a b) (R.sub c d) ∧
    shareOf R n (R.sub a b) (R.sub c d) ≤ (1 + R.u) ^ 4 * (1 + δ) / ((1 - R.u) * (1 - δ₀)) * (n * (D / T)) := by
  have hu := R.u_nonneg
  have hu1 : 0 < 1 - R.u := by linarith [R.u_lt_one]
  have hd0 : 0 ≤ δ₀ := by
    by_contra h
    have := (abs_nonneg _).trans h2
    nlinarith
  rw [abs_le] at h1 h2
  have x0 : 0 ≤ a - b := by nlinarith [h1.1]
  have y0 : 0 < c - d := by nlinarith [h2.1]
  obtain ⟨xl, xu⟩ := R.bounds x0
  obtain ⟨yl, yu⟩ := R.bounds y0.le
  set x := R.sub a b with hx
  set y := R.sub c d with hy
  have xl' : (1 - R.u) * (1 - δ) * D ≤ x := by
    refine le_trans ?_ xl
    rw [mul_assoc]
    exact mul_le_mul_of_nonneg_left (by linarith [h1.1]) hu1.le
  have xu' : x ≤ (1 + R.u) * (1 + δ) * D := by
    refine xu.trans ?_
    rw [mul_assoc]
    exact mul_le_mul_of_nonneg_left (by linarith [h1.2]) (by linarith)
  have yl' : (1 - R.u) * (1 - δ₀) * T ≤ y := by
    refine le_trans ?_ yl
    rw [mul_assoc]
    exact mul_le_mul_of_nonneg_left (by linarith [h2.1]) hu1.le
  have yu' : y ≤ (1 + R.u) * (1 + δ₀) * T := by
    refine yu.trans ?_
    rw [mul_assoc]
    exact mul_le_mul_of_nonneg_left (by linarith [h2.2]) (by linarith)
  have xp : 0 ≤ x := R.nonneg x0
  have yp : 0 < y := R.pos y0
  have hlo : 0 < (1 - R.u) * (1 - δ₀) * T := by
    have : 0 < 1 - δ₀ := by linarith
    positivity
  have hhi : 0 < (1 + R.u) * (1 + δ₀) * T := by positivity
  obtain ⟨il, iu⟩ := R.bounds (show 0 ≤ 1 / y by positivity)
  have il' : (1 - R.u) * (1 / ((1 + R.u) * (1 + δ₀) * T)) ≤ R.div 1 y :=
    le_trans (mul_le_mul_of_nonneg_left (one_div_le_one_div_of_le yp yu') hu1.le) il
  have iu' : R.div 1 y ≤ (1 + R.u) * (1 / ((1 - R.u) * (1 - δ₀) * T)) :=
    iu.trans (mul_le_mul_of_nonneg_left (one_div_le_one_div_of_le hlo yl') (by linarith))
  have ip : 0 ≤ R.div 1 y := R.nonneg (by positivity)
  obtain ⟨pl, pu⟩ := R.bounds (mul_nonneg xp ip)
  have pp : 0 ≤ R.mul x (R.div 1 y) := R.nonneg (mul_nonneg xp ip)
  obtain ⟨nl, nu⟩ := R.bounds (mul_nonneg hn pp)
  have hsh : shareOf R n x y = R.mul n (R.mul x (R.div 1 y)) := by unfold shareOf; rw [max_eq_right xp]
  rw [hsh]
  have hδ' : 0 ≤ 1 - δ := by linarith
  constructor
  · have e1 : (1 - R.u) * (1 - δ) * D * ((1 - R.u) * (1 / ((1 + R.u) * (1 + δ₀) * T))) ≤ x * R.div 1 y :=
      mul_le_mul xl' il' (by positivity) xp
    have e2 := (mul_le_mul_of_nonneg_left e1 hu1.le).trans pl
    have e3 := (mul_le_mul_of_nonneg_left (mul_le_mul_of_nonneg_left e2 hn) hu1.le).trans nl
    refine le_trans (le_of_eq ?_) e3
    have : (1 + R.u) ≠ 0 := by positivity
    have : (1 + δ₀) ≠ 0 := by positivity
    field_simp
  · have e1 : x * R.div 1 y ≤ (1 + R.u) * (1 + δ) * D * ((1 + R.u) * (1 / ((1 - R.u) * (1 - δ₀) * T))) :=
      mul_le_mul xu' iu' ip (xp.trans xu')
    have e2 := pu.trans (mul_le_mul_of_nonneg_left e1 (show 0 ≤ 1 + R.u by linarith))
    have e3 := nu.trans (mul_le_mul_of_nonneg_left (mul_le_mul_of_nonneg_left e2 hn) (show 0 ≤ 1 + R.u by linarith))
    refine e3.trans (le_of_eq ?_)
    have : (1 - R.u) ≠ 0 := hu1.ne'
    have : (1 - δ₀) ≠ 0 := by linarith
    field_simp

/-- the clipped bin -/
theorem energy_eq {pow : ℝ → ℝ} (hpow : AntitoneOn pow (Set.Ioi 0)) (n : ℝ) {eMin eMax lo hi : ℝ} (h0 : 0 < eMin) (hle : eMin < eMax) (hlo : 0 < lo) (h : lo ≤ hi)
    (hc : ¬ (lo < eMin ∧ eMax < hi)) :
    nShowersPerEnergy R pow n eMin eMax lo hi = shareOf R n (R.sub (pow (max lo eMin)) (pow (min hi eMax))) (R.sub (pow eMin) (pow eMax)) := by
  have swap : ∀ a b, powerlawPdfIntegral R pow a b eMin eMax = R.mul (R.sub (pow a) (pow b)) (R.div 1 (R.sub (pow eMin) (pow eMax))) := fun a b => share_swap R _ _ _ _
  have hmax : 0 < eMax := h0.trans hle
  have hhi : 0 < hi := lt_of_lt_of_le hlo h
  have pos : ∀ {a b : ℝ}, 0 < a → a ≤ b → max 0 (R.sub (pow a) (pow b)) = R.sub (pow a) (pow b) :=
    fun ha hab => max_eq_right (sub_nonneg_of (hpow ha (lt_of_lt_of_le ha hab) hab))
  have key : ∀ i, (let i0 := powerlawPdfIntegral R pow lo hi eMin eMax
      let i1 := if hi ≤ eMin then 0 else i0
      let i2 := if lo ≥ eMax then 0 else i1
      let i3 := if hi > eMax ∧ lo < eMax then powerlawPdfIntegral R pow lo eMax eMin eMax else i2
      if hi > eMin ∧ lo < eMin then powerlawPdfIntegral R pow eMin hi eMin eMax else i3) = i →
      i = R.mul (max 0 (R.sub (pow (max lo eMin)) (pow (min hi eMax)))) (R.div 1 (R.sub (pow eMin) (pow eMax))) → 
      nShowersPerEnergy R pow n eMin eMax lo hi = shareOf R n (R.sub (pow (max lo eMin)) (pow (min hi eMax))) (R.sub (pow eMin) (pow eMax)) := by
    intro i h1 h2
    unfold nShowersPerEnergy shareOf
    dsimp only at h1 ⊢
    rw [h1, h2]
  by_cases hA : hi ≤ eMin
  · refine key 0 ?_ ?_
    · dsimp only
      rw [if_neg (by intro h; linarith [h.1]), if_neg (by intro h; linarith [h.1]), if_neg (by linarith), if_pos hA]
    · rw [max_eq_right (h.trans hA), min_eq_left (hA.trans hle.le), max_eq_left (sub_nonpos_of (hpow hhi h0 hA))]
      unfold Rounding.mul
      rw [zero_mul, R.zero]
  · have hA' : eMin < hi := not_le.mp hA
    by_cases hB : eMax ≤ lo
    · refine key 0 ?_ ?_
      · dsimp only
        rw [if_neg (by intro h; linarith [h.2]), if_neg (by intro h; linarith [h.2]), if_pos hB]
      · rw [max_eq_left (hle.le.trans hB), min_eq_right (hB.trans h), max_eq_left (sub_nonpos_of (hpow hmax hlo hB))]
        unfold Rounding.mul
        rw [zero_mul, R.zero]
    · have hB' : lo < eMax := not_le.mp hB
      by_cases hC : lo < eMin
      · have hhe : hi ≤ eMax := by
          by_contra h'
          exact hc ⟨hC, not_le.mp h'⟩
        refine key _ ?_ rfl
        dsimp only
        rw [if_pos ⟨hA', hC⟩, max_eq_right hC.le, min_eq_left hhe, pos h0 hA'.le]
        exact swap _ _
      · have hC' : eMin ≤ lo := not_lt.mp hC
        by_cases hD : eMax < hi
        · refine key _ ?_ rfl
          dsimp only
          rw [if_neg (fun h => hC h.2), if_pos ⟨hD, hB'⟩, max_eq_left hC', min_eq_right hD.le, pos hlo hB'.le]
          exact swap _ _
        · refine key _ ?_ rfl
          dsimp only
          rw [if_neg (fun h => hC h.2), if_neg (fun h => hD h.1), if_neg (by linarith), if_neg hA, max_eq_left hC', min_eq_left (not_lt.mp hD), pos hlo h]
          exact swap _ _

theorem fov_eq {cos : ℝ → ℝ} (hcos : AntitoneOn cos (Set.Icc 0 Real.pi)) (n : ℝ) {vMin vMax lo hi : ℝ} (h0 : 0 ≤ vMin) (hle : vMin < vMax) (hpi : vMax ≤ Real.pi)
    (hlo : 0 ≤ lo) (h : lo ≤ hi) (hhi : hi ≤ Real.pi) :
    nShowersPerFov R cos n vMin vMax lo hi = shareOf R n (R.sub (cos (max lo vMin)) (cos (min hi vMax))) (R.sub (cos vMin) (cos vMax)) := by
  have e1 : (if lo > vMin then lo else vMin) = max lo vMin := by
    split
    · next h => exact (max_eq_left h.le).symm
    · next h => exact (max_eq_right (not_lt.mp h)).symm
  have e2 : (if hi < vMax then hi else vMax) = min hi vMax := by
    split
    · next h => exact (min_eq_left h.le).symm
    · next h => exact (min_eq_right (not_lt.mp h)).symm
  unfold nShowersPerFov shareOf
  dsimp only
  rw [e1, e2]
  have m1 : max lo vMin ∈ Set.Icc 0 Real.pi := ⟨hlo.trans (le_max_left _ _), max_le (h.trans hhi) (hle.le.trans hpi)⟩
  have m2 : min hi vMax ∈ Set.Icc 0 Real.pi := ⟨le_min (hlo.trans h) (h0.trans hle.le), (min_le_right _ _).trans hpi⟩
  by_cases hin : hi ≥ vMin ∧ lo ≤ vMax
  · rw [if_pos hin]
    have : max lo vMin ≤ min hi vMax := max_le (le_min h hin.2) (le_min hin.1 hle.le)
    rw [max_eq_right (sub_nonneg_of (hcos m1 m2 this))]
  · rw [if_neg hin]
    have : min hi vMax ≤ max lo vMin := by
      rw [not_and_or] at hin
      rcases hin with h' | h'
      · exact (min_le_left _ _).trans ((not_le.mp h').le.trans (le_max_right _ _))
      · exact (min_le_right _ _).trans ((not_le.mp h').le.trans (le_max_left _ _))
    rw [max_eq_left (sub_nonpos_of (hcos m2 m1 this))]
end lemmas

/-! ## C161 -/

variable (R : Rounding)

/-- **C161** Expected showers per energy, for any rounding and a power function that is not increasing and tells the ends of the simulated range apart: never negative; at most the number of
showers up to three roundings; exactly 0 in bins without simulated energies; not smaller in a larger bin. (Bins beyond both ends of the simulated range: C80.) -/
theorem C161_energy (pow : ℝ → ℝ) (hpow : AntitoneOn pow (Set.Ioi 0)) (n eMin eMax lo hi : ℝ) (hn : 0 ≤ n) (h0 : 0 < eMin) (hle : eMin < eMax) (hpos : 0 < R.sub (pow eMin) (pow eMax))
    (hlo : 0 < lo) (h : lo ≤ hi) (hc : ¬ (lo < eMin ∧ eMax < hi)) :
    0 ≤ nShowersPerEnergy R pow n eMin eMax lo hi ∧ nShowersPerEnergy R pow n eMin eMax lo hi ≤ (1 + R.u) ^ 3 * n ∧
    (hi ≤ eMin ∨ eMax ≤ lo → nShowersPerEnergy R pow n eMin eMax lo hi = 0) ∧
    ∀ lo' hi', 0 < lo' → lo' ≤ lo → hi ≤ hi' → ¬ (lo' < eMin ∧ eMax < hi') → nShowersPerEnergy R pow n eMin eMax lo hi ≤ nShowersPerEnergy R pow n eMin eMax lo' hi' := by
  have hmax : 0 < eMax := h0.trans hle
  have hhi : 0 < hi := lt_of_lt_of_le hlo h
  have a1 : pow (max lo eMin) ≤ pow eMin := hpow h0 (lt_of_lt_of_le h0 (le_max_right _ _)) (le_max_right _ _)
  have a2 : pow eMax ≤ pow (min hi eMax) := hpow (lt_min hhi hmax) hmax (min_le_right _ _)
  rw [energy_eq hpow n h0 hle hlo h hc]
  obtain ⟨b1, b2⟩ := shareOf_range (R := R) hn hpos (show R.sub (pow (max lo eMin)) (pow (min hi eMax)) ≤ R.sub (pow eMin) (pow eMax) from R.mono (by linarith))
  refine ⟨b1, b2, fun ho => ?_, fun lo' hi' hlo' hl hh hc' => ?_⟩
  · apply shareOf_zero
    apply sub_nonpos_of
    rcases ho with ho | ho
    · rw [max_eq_right (h.trans ho), min_eq_left (ho.trans hle.le)]
      exact hpow hhi h0 ho
    · rw [max_eq_left (hle.le.trans ho), min_eq_right (ho.trans h)]
      exact hpow hmax hlo ho
  · rw [energy_eq hpow n h0 hle hlo' (hl.trans (h.trans hh)) hc']
    apply shareOf_mono hn hpos
    apply R.mono
    have c1 : pow (max lo eMin) ≤ pow (max lo' eMin) :=
      hpow (lt_of_lt_of_le h0 (le_max_right _ _)) (lt_of_lt_of_le h0 (le_max_right _ _)) (max_le_max hl le_rfl)
    have c2 : pow (min hi' eMax) ≤ pow (min hi eMax) :=
      hpow (lt_min hhi hmax) (lt_min (lt_of_lt_of_le hhi hh) hmax) (min_le_min hh le_rfl)
    linarith

/-- **C161** Accuracy per energy: for a power function with relative error `r`, a bin in the simulated range gets the exact number up to five roundings and the
cancellation errors `δ` of the bin and `δ₀` of the range. -/
theorem C161_energy_accuracy (pow : ℝ → ℝ) (hpow : AntitoneOn pow (Set.Ioi 0)) (p r : ℝ) (hp : p < 0) (hr : ∀ e, 0 < e → |pow e - e ^ p| ≤ r * e ^ p)
    (n eMin eMax lo hi : ℝ) (hn : 0 ≤ n) (h0 : 0 < eMin) (h1 : eMin ≤ lo) (h : lo < hi) (h2 : hi ≤ eMax) (δ δ₀ : ℝ) (hδ : δ ≤ 1) (hδ₀ : δ₀ < 1)
    (hb : r * (lo ^ p + hi ^ p) ≤ δ * (lo ^ p - hi ^ p)) (hb₀ : r * (eMin ^ p + eMax ^ p) ≤ δ₀ * (eMin ^ p - eMax ^ p)) :
    let exact := n * ((lo ^ p - hi ^ p) / (eMin ^ p - eMax ^ p))
    (1 - R.u) ^ 4 * (1 - δ) / ((1 + R.u) * (1 + δ₀)) * exact ≤ nShowersPerEnergy R pow n eMin eMax lo hi ∧
    nShowersPerEnergy R pow n eMin eMax lo hi ≤ (1 + R.u) ^ 4 * (1 + δ) / ((1 - R.u) * (1 - δ₀)) * exact := by
  have hlo : 0 < lo := lt_of_lt_of_le h0 h1
  have hhi : 0 < hi := hlo.trans h
  have hlt : eMin < eMax := lt_of_le_of_lt h1 (lt_of_lt_of_le h h2)
  have hmax : 0 < eMax := h0.trans hlt
  rw [energy_eq hpow n h0 hlt hlo h.le (fun hc => by linarith [hc.1]), max_eq_left h1, min_eq_left h2]
  have hD : 0 < lo ^ p - hi ^ p := sub_pos.mpr (Real.rpow_lt_rpow_of_neg hlo h hp)
  have hT : 0 < eMin ^ p - eMax ^ p := sub_pos.mpr (Real.rpow_lt_rpow_of_neg h0 hlt hp)
  refine shareOf_near hn hD.le hT hδ hδ₀ ?_ ?_
  · refine le_trans ?_ hb
    have := hr lo hlo
    have := hr hi hhi
    rw [abs_le] at *
    constructor <;> linarith
  · refine le_trans ?_ hb₀
    have := hr eMin h0
    have := hr eMax hmax
    rw [abs_le] at *
    constructor <;> linarith

/-- **C161** Expected showers per field of view bin of a diffuse simulation: the same, with a cosine that is not increasing on [0, π] and tells the ends of the viewcone apart. -/
theorem C161_fov (cos : ℝ → ℝ) (hcos : AntitoneOn cos (Set.Icc 0 Real.pi)) (n vMin vMax lo hi : ℝ) (hn : 0 ≤ n) (h0 : 0 ≤ vMin) (hle : vMin < vMax) (hpi : vMax ≤ Real.pi)
    (hpos : 0 < R.sub (cos vMin) (cos vMax)) (hlo : 0 ≤ lo) (h : lo ≤ hi) (hhi : hi ≤ Real.pi) :
    0 ≤ nShowersPerFov R cos n vMin vMax lo hi ∧ nShowersPerFov R cos n vMin vMax lo hi ≤ (1 + R.u) ^ 3 * n ∧
    (hi ≤ vMin ∨ vMax ≤ lo → nShowersPerFov R cos n vMin vMax lo hi = 0) ∧
    ∀ lo' hi', 0 ≤ lo' → lo' ≤ lo → hi ≤ hi' → hi' ≤ Real.pi → nShowersPerFov R cos n vMin vMax lo hi ≤ nShowersPerFov R cos n vMin vMax lo' hi' := by
  have m : ∀ {l : ℝ}, 0 ≤ l → l ≤ Real.pi → max l vMin ∈ Set.Icc 0 Real.pi := fun h1 h2 => ⟨h1.trans (le_max_left _ _), max_le h2 (hle.le.trans hpi)⟩
  have m' : ∀ {l : ℝ}, 0 ≤ l → min l vMax ∈ Set.Icc 0 Real.pi := fun h1 => ⟨le_min h1 (h0.trans hle.le), (min_le_right _ _).trans hpi⟩
  have mv : vMin ∈ Set.Icc 0 Real.pi := ⟨h0, hle.le.trans hpi⟩
  have mV : vMax ∈ Set.Icc 0 Real.pi := ⟨h0.trans hle.le, hpi⟩
  have a1 : cos (max lo vMin) ≤ cos vMin := hcos mv (m hlo (h.trans hhi)) (le_max_right _ _)
  have a2 : cos vMax ≤ cos (min hi vMax) := hcos (m' (hlo.trans h)) mV (min_le_right _ _)
  rw [fov_eq hcos n h0 hle hpi hlo h hhi]
  obtain ⟨b1, b2⟩ := shareOf_range (R := R) hn hpos (show R.sub (cos (max lo vMin)) (cos (min hi vMax)) ≤ R.sub (cos vMin) (cos vMax) from R.mono (by linarith))
  refine ⟨b1, b2, fun ho => ?_, fun lo' hi' hlo' hl hh hpi' => ?_⟩
  · apply shareOf_zero
    apply sub_nonpos_of
    apply hcos (m' (hlo.trans h)) (m hlo (h.trans hhi))
    rcases ho with ho | ho
    · exact (min_le_left _ _).trans (ho.trans (le_max_right _ _))
    · exact (min_le_right _ _).trans (ho.trans (le_max_left _ _))
  · rw [fov_eq hcos n h0 hle hpi hlo' (hl.trans (h.trans hh)) hpi']
    apply shareOf_mono hn hpos
    apply R.mono
    have c1 : cos (max lo vMin) ≤ cos (max lo' vMin) := hcos (m hlo' (hl.trans (h.trans hhi))) (m hlo (h.trans hhi)) (max_le_max hl le_rfl)
    have c2 : cos (min hi' vMax) ≤ cos (min hi vMax) := hcos (m' (hlo.trans h)) (m' (hlo.trans (h.trans hh))) (min_le_min hh le_rfl)
    linarith

/-- **C161** Accuracy per field of view bin: for a cosine with absolute error `v`, a bin in the viewcone gets the exact number up to five roundings and the cancellation errors. -/
theorem C161_fov_accuracy (cos : ℝ → ℝ) (hcos : AntitoneOn cos (Set.Icc 0 Real.pi)) (v : ℝ) (hv : ∀ x, |cos x - Real.cos x| ≤ v)
    (n vMin vMax lo hi : ℝ) (hn : 0 ≤ n) (h0 : 0 ≤ vMin) (h1 : vMin ≤ lo) (h : lo < hi) (h2 : hi ≤ vMax) (hpi : vMax ≤ Real.pi) (δ δ₀ : ℝ) (hδ : δ ≤ 1) (hδ₀ : δ₀ < 1)
    (hb : 2 * v ≤ δ * (Real.cos lo - Real.cos hi)) (hb₀ : 2 * v ≤ δ₀ * (Real.cos vMin - Real.cos vMax)) :
    let exact := n * ((Real.cos lo - Real.cos hi) / (Real.cos vMin - Real.cos vMax))
    (1 - R.u) ^ 4 * (1 - δ) / ((1 + R.u) * (1 + δ₀)) * exact ≤ nShowersPerFov R cos n vMin vMax lo hi ∧
    nShowersPerFov R cos n vMin vMax lo hi ≤ (1 + R.u) ^ 4 * (1 + δ) / ((1 - R.u) * (1 - δ₀)) * exact := by
  have hlo : 0 ≤ lo := h0.trans h1
  have hlt : vMin < vMax := lt_of_le_of_lt h1 (lt_of_lt_of_le h h2)
  rw [fov_eq hcos n h0 hlt hpi hlo h.le (h2.trans hpi), max_eq_left h1, min_eq_left h2]
  have hD : 0 < Real.cos lo - Real.cos hi := sub_pos.mpr (Real.cos_lt_cos_of_nonneg_of_le_pi hlo (h2.trans hpi) h)
  have hT : 0 < Real.cos vMin - Real.cos vMax := sub_pos.mpr (Real.cos_lt_cos_of_nonneg_of_le_pi h0 hpi hlt)
  refine shareOf_near hn hD.le hT hδ hδ₀ ?_ ?_
  · refine le_trans ?_ hb
    have a := hv lo
    have b := hv hi
    rw [abs_le] at *
    constructor <;> linarith
  · refine le_trans ?_ hb₀
    have a := hv vMin
    have b := hv vMax
    rw [abs_le] at *
    constructor <;> linarith

/-- **C161** Per energy and field of view bin, and in polar bins: the numbers are not negative and keep zeros and order; all position angle bins get the same. -/
theorem C161_products (n e f e' f' : ℝ) (k : ℕ) (hn : 0 < n) (hk : 0 < k) (he : 0 ≤ e) (hf : 0 ≤ f) (hee : e ≤ e') (hff : f ≤ f') :
    0 ≤ nShowersPerEnergyAndFov R n e f ∧ nShowersPerEnergyAndFov R n e f ≤ nShowersPerEnergyAndFov R n e' f' ∧
    (e = 0 ∨ f = 0 → nShowersPerEnergyAndFov R n e f = 0) ∧
    (1 - R.u) ^ 2 * (e * f / n) ≤ nShowersPerEnergyAndFov R n e f ∧ nShowersPerEnergyAndFov R n e f ≤ (1 + R.u) ^ 2 * (e * f / n) ∧
    0 ≤ nShowers3dPolar R n e f k ∧ nShowers3dPolar R n e f k ≤ nShowers3dPolar R n e' f' k ∧
    (1 - R.u) ^ 3 * (e * f / k / n) ≤ nShowers3dPolar R n e f k ∧ nShowers3dPolar R n e f k ≤ (1 + R.u) ^ 3 * (e * f / k / n) := by
  have hu := R.u_nonneg
  have hu1 : 0 ≤ 1 - R.u := by linarith [R.u_lt_one]
  have hk' : (0:ℝ) < k := by exact_mod_cast hk
  have base : ∀ {a b : ℝ}, 0 ≤ a → 0 ≤ b → 0 ≤ nShowersPerEnergyAndFov R n a b := by
    intro a b ha hb
    exact R.nonneg (div_nonneg (R.nonneg (mul_nonneg ha hb)) hn.le)
  have mono : ∀ {a b a' b' : ℝ}, 0 ≤ a → 0 ≤ b → a ≤ a' → b ≤ b' → nShowersPerEnergyAndFov R n a b ≤ nShowersPerEnergyAndFov R n a' b' := by
    intro a b a' b' ha hb h1 h2
    exact R.mono (div_le_div_of_nonneg_right (R.mono (mul_le_mul h1 h2 hb (ha.trans h1))) hn.le)
  have bnd : ∀ {a b : ℝ}, 0 ≤ a → 0 ≤ b → (1 - R.u) ^ 2 * (a * b / n) ≤ nShowersPerEnergyAndFov R n a b ∧ nShowersPerEnergyAndFov R n a b ≤ (1 + R.u) ^ 2 * (a * b / n) := by
    intro a b ha hb
    have hab := mul_nonneg ha hb
    obtain ⟨l1, u1⟩ := R.bounds hab
    obtain ⟨l2, u2⟩ := R.bounds (div_nonneg (R.nonneg hab) hn.le)
    constructor
    · refine le_trans ?_ l2
      have := mul_le_mul_of_nonneg_left (div_le_div_of_nonneg_right l1 hn.le) hu1
      refine le_trans (le_of_eq ?_) this
      ring
    · refine u2.trans ?_
      have := mul_le_mul_of_nonneg_left (div_le_div_of_nonneg_right u1 hn.le) (show 0 ≤ 1 + R.u by linarith)
      refine this.trans (le_of_eq ?_)
      ring
  have hpol : ∀ a b, nShowers3dPolar R n a b k = nShowersPerEnergyAndFov R n a (R.div b k) := fun a b => rfl
  have hdiv : ∀ {b : ℝ}, 0 ≤ b → 0 ≤ R.div b k := fun hb => R.nonneg (div_nonneg hb hk'.le)
  refine ⟨base he hf, mono he hf hee hff, ?_, (bnd he hf).1, (bnd he hf).2, ?_, ?_, ?_, ?_⟩
  · intro h
    have : e * f = 0 := by rcases h with h | h <;> simp [h]
    unfold nShowersPerEnergyAndFov Rounding.div Rounding.mul
    rw [this, R.zero, zero_div, R.zero]
  · rw [hpol]; exact base he (hdiv hf)
  · rw [hpol, hpol]; exact mono he (hdiv hf) hee (R.mono (div_le_div_of_nonneg_right hff hk'.le))
  · rw [hpol]
    refine le_trans ?_ (bnd he (hdiv hf)).1
    have := (R.bounds (div_nonneg hf hk'.le)).1
    have := mul_le_mul_of_nonneg_left (div_le_div_of_nonneg_right (mul_le_mul_of_nonneg_left this he) hn.le) (show 0 ≤ (1 - R.u) ^ 2 by positivity)
    refine le_trans (le_of_eq ?_) this
    ring
  · rw [hpol]
    refine (bnd he (hdiv hf)).2.trans ?_
    have := (R.bounds (div_nonneg hf hk'.le)).2
    have := mul_le_mul_of_nonneg_left (div_le_div_of_nonneg_right (mul_le_mul_of_nonneg_left this he) hn.le) (show 0 ≤ (1 + R.u) ^ 2 by positivity)
    refine this.trans (le_of_eq ?_)
    ring

/-- **C161** (without rounding) In exact arithmetic these are the numbers of C26. -/
theorem C161_agrees (k : ℕ) (hk : 1 ≤ k) (s : Simulations.Info) (hv : Simulations.Valid s) {m : ℕ} (edges : Fin (m + 1) → ℝ) (hpos : ∀ i, 0 < edges i) (i : Fin m) :
    Simulations.nShowersPerEnergy s (fun i => .fin (edges i)) i =
      .fin (nShowersPerEnergy (Rounding.exact k hk) (fun e => e ^ (s.spectralIndex + 1)) s.nShowers s.energyMin s.energyMax (edges i.castSucc) (edges i.succ)) := by
  have hmin := hv.pos
  have hmax := hv.pos.trans hv.lt
  have hne : s.energyMax ^ (s.spectralIndex + 1) - s.energyMin ^ (s.spectralIndex + 1) ≠ 0 :=
    (sub_neg.mpr (Real.rpow_lt_rpow_of_neg hmin hv.lt (by linarith [hv.index]))).ne
  have key : ∀ {a b : ℝ}, 0 < a → 0 < b → Simulations.powerlawPdfIntegral s.spectralIndex (.fin a) (.fin b) (.fin s.energyMin) (.fin s.energyMax) =
      .fin (powerlawPdfIntegral (Rounding.exact k hk) (fun e => e ^ (s.spectralIndex + 1)) a b s.energyMin s.energyMax) := by
    intro a b ha hb
    unfold Simulations.powerlawPdfIntegral
    dsimp only
    rw [FV.pow_fin ha, FV.pow_fin hb, FV.pow_fin hmin, FV.pow_fin hmax]
    simp only [FV.fin_sub_fin]
    rw [FV.fin_div_fin _ _ hne, FV.fin_mul_fin]
    rfl
  unfold Simulations.nShowersPerEnergy Simulations.energyIntegral nShowersPerEnergy
  simp only [key (hpos _) (hpos _), key (hpos _) hmax, key hmin (hpos _), FV.le_fin, FV.lt_fin, FV.gt, FV.ge]
  split_ifs <;> simp_all [Rounding.exact, Rounding.mul, FV.fin_mul_fin]

/-! ## Satisfiability -/

/-- double precision with exact powers: a simulation from 1 to 100 with index -2 -/
example : AntitoneOn (fun e : ℝ => e ^ (-1 : ℝ)) (Set.Ioi 0) ∧ 0 < (Rounding.binary 53 (by norm_num)).sub ((1 : ℝ) ^ (-1 : ℝ)) ((100 : ℝ) ^ (-1 : ℝ)) := by
  refine ⟨fun x hx y hy hxy => Real.rpow_le_rpow_of_nonpos hx hxy (by norm_num), Rounding.pos _ ?_⟩
  rw [Real.one_rpow, Real.rpow_neg_one]
  norm_num

example : (0 : ℝ) * ((2 : ℝ) ^ (-1 : ℝ) + (3 : ℝ) ^ (-1 : ℝ)) ≤ 0 * ((2 : ℝ) ^ (-1 : ℝ) - (3 : ℝ) ^ (-1 : ℝ)) := by simp

example : AntitoneOn Real.cos (Set.Icc 0 Real.pi) ∧ 0 < (Rounding.binary 53 (by norm_num)).sub (Real.cos 0) (Real.cos (Real.pi / 3)) := by
  refine ⟨Real.strictAntiOn_cos.antitoneOn, Rounding.pos _ ?_⟩
  rw [Real.cos_zero, Real.cos_pi_div_three]
  norm_num

end Pyirf.Rounded
