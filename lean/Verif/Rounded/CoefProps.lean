import Verif.Rounded.CoefModel
import Verif.Rounded.MorphProps
import Verif.Rounded.MorphAgree
import Verif.Interpolation.CoefProps
import Verif.Interpolation.ExtrapProps

/-!
# Barycentric coefficients and linear extrapolation in rounded arithmetic (C164)
-/
set_option linter.unusedSectionVars false
set_option linter.unusedSimpArgs false

namespace Pyirf.Rounded
open Pyirf Pyirf.Np

variable {R : Rounding}

/-- a rounded number is the number times `1 + θ` -/
theorem rd_rel (R : Rounding) (x : ℝ) : ∃ θ, |θ| ≤ R.u ∧ R.rd x = x * (1 + θ) := by
  by_cases hx : x = 0
  · exact ⟨0, by simpa using R.u_nonneg, by rw [hx, R.zero, zero_mul]⟩
  · refine ⟨(R.rd x - x) / x, ?_, by field_simp; ring⟩
    rw [abs_div, div_le_iff₀ (abs_pos.mpr hx)]
    exact R.close x

/-- `y` is `x` up to `k` factors between `1 - u` and `1 + u` -/
def Off (R : Rounding) (k : ℕ) (x y : ℝ) : Prop := |y - x| ≤ ((1 + R.u) ^ k - 1) * |x|

theorem off_rd (R : Rounding) (x : ℝ) : Off R 1 x (R.rd x) := by
  unfold Off
  rw [pow_one, add_sub_cancel_left]
  exact R.close x

theorem Off.abs_le {k : ℕ} {x y : ℝ} (h : Off R k x y) : |y| ≤ (1 + R.u) ^ k * |x| := by
  have := abs_add_le (y - x) x
  rw [sub_add_cancel] at this
  unfold Off at h
  linarith

theorem Off.mul {j k : ℕ} {x y x' y' : ℝ} (h : Off R j x x') (h' : Off R k y y') : Off R (j + k) (x * y) (x' * y') := by
  have h1 := h'.abs_le
  unfold Off at *
  have hj : (1 : ℝ) ≤ (1 + R.u) ^ j := one_le_pow₀ (by linarith [R.u_nonneg])
  have e : x' * y' - x * y = (x' - x) * y' + x * (y' - y) := by ring
  rw [e]
  refine (abs_add_le _ _).trans ?_
  rw [abs_mul, abs_mul, abs_mul, pow_add]
  have a1 : |x' - x| * |y'| ≤ (((1 + R.u) ^ j - 1) * |x|) * ((1 + R.u) ^ k * |y|) := mul_le_mul h h1 (abs_nonneg _) (mul_nonneg (by linarith) (abs_nonneg _))
  have a2 : |x| * |y' - y| ≤ |x| * (((1 + R.u) ^ k - 1) * |y|) := mul_le_mul_of_nonneg_left h' (abs_nonneg _)
  refine (add_le_add a1 a2).trans (le_of_eq ?_)
  ring

theorem Off.round {k : ℕ} {x y : ℝ} (h : Off R k x y) : Off R (k + 1) x (R.rd y) := by
  have h1 := h.abs_le
  have h2 := R.close y
  have hu := R.u_nonneg
  unfold Off at *
  have e : R.rd y - x = (R.rd y - y) + (y - x) := by ring
  rw [e]
  refine (abs_add_le _ _).trans ?_
  rw [pow_succ]
  have := mul_le_mul_of_nonneg_left h1 hu
  nlinarith

theorem Off.neg {k : ℕ} {x y : ℝ} (h : Off R k x y) : Off R k (-x) (-y) := by
  unfold Off at *
  rw [abs_neg, show -y - -x = -(y - x) by ring, abs_neg]
  exact h

/-- a sum of two numbers, rounded -/
theorem add_off {k : ℕ} {x y x' y' : ℝ} (h : Off R k x x') (h' : Off R k y y') : |R.add x' y' - (x + y)| ≤ ((1 + R.u) ^ (k + 1) - 1) * (|x| + |y|) := by
  have hu := R.u_nonneg
  have h1 := h.abs_le
  have h2 := h'.abs_le
  have h3 := R.close (x' + y')
  unfold Off at *
  unfold Rounding.add
  have e : R.rd (x' + y') - (x + y) = (R.rd (x' + y') - (x' + y')) + ((x' - x) + (y' - y)) := by ring
  rw [e]
  refine (abs_add_le _ _).trans ?_
  have h4 := abs_add_le (x' - x) (y' - y)
  have h5 := mul_le_mul_of_nonneg_left (abs_add_le x' y') hu
  have h6 : R.u * (|x'| + |y'|) ≤ R.u * ((1 + R.u) ^ k * |x| + (1 + R.u) ^ k * |y|) := mul_le_mul_of_nonneg_left (add_le_add h1 h2) hu
  rw [pow_succ]
  nlinarith

/-- the cross product of two vectors in the order of the denominator -/
def cross (a b : ℝ × ℝ) : ℝ := b.2 * a.1 - b.1 * a.2

/-- the size of the two products in it -/
def spread (a b : ℝ × ℝ) : ℝ := |b.2 * a.1| + |b.1 * a.2|

theorem spread_nonneg (a b : ℝ × ℝ) : 0 ≤ spread a b := add_nonneg (abs_nonneg _) (abs_nonneg _)

theorem cross_le_spread (a b : ℝ × ℝ) : |cross a b| ≤ spread a b := abs_sub _ _

/-- the difference of two points as computed -/
noncomputable def rsub (R : Rounding) (p q : ℝ × ℝ) : ℝ × ℝ := (R.sub p.1 q.1, R.sub p.2 q.2)

theorem crossDen_off (p q r s : ℝ × ℝ) : |crossDen R (rsub R p q) (rsub R r s) - cross (p - q) (r - s)| ≤ ((1 + R.u) ^ 4 - 1) * spread (p - q) (r - s) := by
  have h1 : Off R 3 ((r - s).2 * (p - q).1) (R.mul (rsub R r s).2 (rsub R p q).1) := ((off_rd R (r.2 - s.2)).mul (off_rd R (p.1 - q.1))).round
  have h2 : Off R 3 (-((r - s).1 * (p - q).2)) (R.mul (-(rsub R r s).1) (rsub R p q).2) := by
    have := ((off_rd R (r.1 - s.1)).neg.mul (off_rd R (p.2 - q.2))).round
    rw [neg_mul] at this
    exact this
  have := add_off h1 h2
  rw [abs_neg] at this
  unfold crossDen cross spread
  rw [sub_eq_add_neg ((r - s).2 * (p - q).1)]
  exact this

theorem barycentric_of (g : Fin 3 → ℝ × ℝ) (t : ℝ × ℝ) (h : crossDen R (rsub R (g 0) (g 2)) (rsub R (g 1) (g 2)) ≠ 0) :
    let D := crossDen R (rsub R (g 0) (g 2)) (rsub R (g 1) (g 2))
    let w1 := R.div (crossDen R (rsub R t (g 2)) (rsub R (g 1) (g 2))) D
    let w2 := R.div (-crossDen R (rsub R t (g 2)) (rsub R (g 0) (g 2))) D
    barycentric R g t = fun i => .fin ((![w1, w2, R.sub (R.sub 1 w1) w2] : Fin 3 → ℝ) i) := by
  intro D w1 w2
  have hN : R.add (R.mul (-(rsub R (g 0) (g 2)).2) (rsub R t (g 2)).1) (R.mul (rsub R (g 0) (g 2)).1 (rsub R t (g 2)).2) = -crossDen R (rsub R t (g 2)) (rsub R (g 0) (g 2)) := by
    unfold crossDen Rounding.add Rounding.mul
    rw [← R.neg]
    congr 1
    simp only [neg_mul, R.neg]
    ring
  have e1 : rdFV R (.fin (crossDen R (rsub R t (g 2)) (rsub R (g 1) (g 2))) / .fin D) = .fin w1 := by
    rw [FV.fin_div_fin _ _ h]; rfl
  have e2 : rdFV R (.fin (R.add (R.mul (-(rsub R (g 0) (g 2)).2) (rsub R t (g 2)).1) (R.mul (rsub R (g 0) (g 2)).1 (rsub R t (g 2)).2)) / .fin D) = .fin w2 := by
    rw [hN, FV.fin_div_fin _ _ h]; rfl
  funext i
  match i with
  | 0 => exact e1
  | 1 => exact e2
  | 2 =>
    show rdFV R (rdFV R (.fin 1 - rdFV R (.fin (crossDen R (rsub R t (g 2)) (rsub R (g 1) (g 2))) / .fin D)) - rdFV R (.fin (R.add (R.mul (-(rsub R (g 0) (g 2)).2) (rsub R t (g 2)).1) (R.mul (rsub R (g 0) (g 2)).1 (rsub R t (g 2)).2)) / .fin D)) = _
    rw [e1, e2]
    rfl

/-- the quotient of two cross products as computed -/
theorem quotient_off {N D N' D' n m γ : ℝ} (hγ : 0 ≤ γ) (hN : |N' - N| ≤ γ * n) (hD : |D' - D| ≤ γ * m) (hn : |N| ≤ n) (hm : γ * m < |D|) :
    D' ≠ 0 ∧ |R.div N' D' - N / D| ≤ (γ * n * (|D| + m) / |D| + R.u * ((1 + γ) * n)) / (|D| - γ * m) := by
  have hu := R.u_nonneg
  have hn0 : 0 ≤ n := (abs_nonneg _).trans hn
  have hDD : |D| - γ * m ≤ |D'| := by
    have := abs_sub_abs_le_abs_sub D D'
    rw [abs_sub_comm] at this
    linarith
  have hpos : 0 < |D| - γ * m := by linarith
  have hD'pos : 0 < |D'| := by linarith
  have hD' : D' ≠ 0 := abs_pos.mp hD'pos
  have hγm : 0 ≤ γ * m := (abs_nonneg _).trans hD
  have hDpos : 0 < |D| := by linarith
  have hD0 : D ≠ 0 := abs_pos.mp hDpos
  refine ⟨hD', ?_⟩
  have hN' : |N'| ≤ (1 + γ) * n := by
    have := abs_add_le (N' - N) N
    rw [sub_add_cancel] at this
    nlinarith
  have q1 : |N' / D' - N / D| ≤ γ * n * (|D| + m) / |D| / (|D| - γ * m) := by
    have e : N' / D' - N / D = ((N' - N) * D - N * (D' - D)) / (D * D') := by field_simp; ring
    rw [e, abs_div, abs_mul, div_div, div_le_div_iff₀ (mul_pos hDpos hD'pos) (mul_pos hDpos hpos)]
    have a1 : |(N' - N) * D - N * (D' - D)| ≤ γ * n * (|D| + m) := by
      refine (abs_sub _ _).trans ?_
      rw [abs_mul, abs_mul]
      have b1 := mul_le_mul_of_nonneg_right hN (abs_nonneg D)
      have b2 := mul_le_mul hn hD (abs_nonneg _) hn0
      nlinarith
    have hnn : 0 ≤ γ * n * (|D| + m) := (abs_nonneg _).trans a1
    exact mul_le_mul a1 (mul_le_mul_of_nonneg_left hDD hDpos.le) (mul_pos hDpos hpos).le hnn
  have q2 : |R.div N' D' - N' / D'| ≤ R.u * ((1 + γ) * n) / (|D| - γ * m) := by
    refine (R.close _).trans ?_
    rw [abs_div, mul_div_assoc]
    exact mul_le_mul_of_nonneg_left (div_le_div₀ ((abs_nonneg _).trans hN') hN' hpos hDD) hu
  have := abs_add_le (R.div N' D' - N' / D') (N' / D' - N / D)
  rw [sub_add_sub_cancel] at this
  rw [add_div]
  linarith

/-- bound for the error of a coefficient: `n` the size of the two products in its numerator, `m` those in the denominator `D` -/
noncomputable def coefError (R : Rounding) (n m D : ℝ) : ℝ :=
  (((1 + R.u) ^ 4 - 1) * n * (|D| + m) / |D| + R.u * ((1 + ((1 + R.u) ^ 4 - 1)) * n)) / (|D| - ((1 + R.u) ^ 4 - 1) * m)

theorem signed_eq (g : Fin 3 → ℝ × ℝ) : cross (g 0 - g 2) (g 1 - g 2) = Interpolation.signedArea2 g := by
  unfold cross Interpolation.signedArea2
  simp only [Prod.fst_sub, Prod.snd_sub]
  ring

theorem rsub_self (p : ℝ × ℝ) : rsub R p p = 0 := by
  unfold rsub Rounding.sub
  rw [sub_self, sub_self, R.zero]
  rfl

theorem crossDen_zero (b : ℝ × ℝ) : crossDen R 0 b = 0 := by
  show R.add (R.mul b.2 0) (R.mul (-b.1) 0) = 0
  rw [mul_zero_rd, mul_zero_rd]
  unfold Rounding.add
  rw [add_zero, R.zero]

theorem crossDen_self (b : ℝ × ℝ) : crossDen R b b = 0 := by
  unfold crossDen Rounding.add Rounding.mul
  rw [show -b.1 * b.2 = -(b.2 * b.1) by ring, R.neg, add_neg_cancel, R.zero]

theorem crossDen_swap (a b : ℝ × ℝ) : -crossDen R b a = crossDen R a b := by
  unfold crossDen Rounding.add Rounding.mul
  rw [← R.neg]
  congr 1
  rw [neg_mul, neg_mul, R.neg, R.neg, mul_comm a.2, mul_comm a.1]
  ring

/-- **C164** At the corners of a triangle whose denominator as computed is not 0, the barycentric coefficients are exactly 1 for the corner and 0 for the others. -/
theorem C164_corner (g : Fin 3 → ℝ × ℝ) (k : Fin 3)
    (h : crossDen R (R.sub (g 0).1 (g 2).1, R.sub (g 0).2 (g 2).2) (R.sub (g 1).1 (g 2).1, R.sub (g 1).2 (g 2).2) ≠ 0) :
    barycentric R g (g k) = fun i => .fin ((Pi.single k 1 : Fin 3 → ℝ) i) := by
  have h' : crossDen R (rsub R (g 0) (g 2)) (rsub R (g 1) (g 2)) ≠ 0 := h
  rw [barycentric_of g (g k) h']
  have z : ∀ x : ℝ, R.div 0 x = 0 := fun x => by unfold Rounding.div; rw [zero_div, R.zero]
  have o : ∀ x : ℝ, x ≠ 0 → R.div x x = 1 := fun x hx => by unfold Rounding.div; rw [div_self hx, R.one]
  have s11 : R.sub 1 1 = 0 := by unfold Rounding.sub; rw [sub_self, R.zero]
  have s10 : R.sub 1 0 = 1 := by unfold Rounding.sub; rw [sub_zero, R.one]
  have s00 : R.sub 0 0 = 0 := by unfold Rounding.sub; rw [sub_self, R.zero]
  funext i
  congr 1
  match k with
  | 0 =>
    rw [crossDen_self, neg_zero, z, o _ h', s11, s00]
    match i with
    | 0 => rfl
    | 1 => rfl
    | 2 => rfl
  | 1 =>
    rw [crossDen_self, crossDen_swap, z, o _ h', s10, s11]
    match i with
    | 0 => rfl
    | 1 => rfl
    | 2 => rfl
  | 2 =>
    rw [rsub_self, crossDen_zero, crossDen_zero, neg_zero, z, s10, s10]
    match i with
    | 0 => rfl
    | 1 => rfl
    | 2 => rfl

/-- **C164** For a triangle that is not too thin compared to the rounding errors, the coefficients are finite, sum up to 1 up to two roundings, and each differs from the barycentric coordinate of the target by at most the given bound. -/
theorem C164_barycentric (g : Fin 3 → ℝ × ℝ) (t : ℝ × ℝ) (h : ((1 + R.u) ^ 4 - 1) * spread (g 0 - g 2) (g 1 - g 2) < |Interpolation.signedArea2 g|) :
    ∃ w : Fin 3 → ℝ, barycentric R g t = (fun i => .fin (w i)) ∧ |∑ i, w i - 1| ≤ R.u * ((2 + R.u) * |1 - w 0| + |w 1|) ∧
      ∀ c : Fin 3 → ℝ, ∑ i, c i = 1 → ∑ i, c i • g i = t →
        |w 0 - c 0| ≤ coefError R (spread (t - g 2) (g 1 - g 2)) (spread (g 0 - g 2) (g 1 - g 2)) (Interpolation.signedArea2 g) ∧
        |w 1 - c 1| ≤ coefError R (spread (t - g 2) (g 0 - g 2)) (spread (g 0 - g 2) (g 1 - g 2)) (Interpolation.signedArea2 g) ∧
        |w 2 - c 2| ≤ |w 0 - c 0| + |w 1 - c 1| + R.u * ((2 + R.u) * |1 - w 0| + |w 1|) := by
  have hu := R.u_nonneg
  have hγ : 0 ≤ (1 + R.u) ^ 4 - 1 := by
    have : (1 : ℝ) ≤ (1 + R.u) ^ 4 := one_le_pow₀ (by linarith)
    linarith
  have hD := crossDen_off (R := R) (g 0) (g 2) (g 1) (g 2)
  have hm : ((1 + R.u) ^ 4 - 1) * spread (g 0 - g 2) (g 1 - g 2) < |cross (g 0 - g 2) (g 1 - g 2)| := by rw [signed_eq]; exact h
  have q1 := quotient_off (R := R) hγ (crossDen_off (R := R) t (g 2) (g 1) (g 2)) hD (cross_le_spread _ _) hm
  have hneg : |-crossDen R (rsub R t (g 2)) (rsub R (g 0) (g 2)) - -cross (t - g 2) (g 0 - g 2)| ≤ ((1 + R.u) ^ 4 - 1) * spread (t - g 2) (g 0 - g 2) := by
    rw [show ∀ x y : ℝ, -x - -y = -(x - y) from fun x y => by ring, abs_neg]
    exact crossDen_off _ _ _ _
  have q2 := quotient_off (R := R) hγ hneg hD (by rw [abs_neg]; exact cross_le_spread _ _) hm
  rw [signed_eq] at q1 q2
  have hS : ∀ w1 w2 : ℝ, |(∑ i, (![w1, w2, R.sub (R.sub 1 w1) w2] : Fin 3 → ℝ) i) - 1| ≤ R.u * ((2 + R.u) * |1 - w1| + |w2|) := by
    intro w1 w2
    rw [Fin.sum_univ_three]
    show |w1 + w2 + R.sub (R.sub 1 w1) w2 - 1| ≤ _
    have a1 := R.close (1 - w1)
    have a2 := R.close (R.sub 1 w1 - w2)
    have e : w1 + w2 + R.sub (R.sub 1 w1) w2 - 1 = (R.rd (R.sub 1 w1 - w2) - (R.sub 1 w1 - w2)) + (R.rd (1 - w1) - (1 - w1)) := by
      unfold Rounding.sub; ring
    rw [e]
    refine (abs_add_le _ _).trans ?_
    have a3 := abs_sub (R.sub 1 w1) w2
    have a4 := abs_add_le (R.rd (1 - w1) - (1 - w1)) (1 - w1)
    rw [sub_add_cancel] at a4
    have a5 : |R.sub 1 w1| ≤ (1 + R.u) * |1 - w1| := by unfold Rounding.sub; linarith
    have a6 := mul_le_mul_of_nonneg_left (a3.trans (add_le_add_left a5 |w2|)) hu
    nlinarith
  refine ⟨_, barycentric_of g t q1.1, hS _ _, ?_⟩
  intro c hc ht
  have hc2 : c 2 = 1 - c 0 - c 1 := by rw [Fin.sum_univ_three] at hc; linarith
  have hx : (t - g 2).1 = c 0 * (g 0 - g 2).1 + c 1 * (g 1 - g 2).1 := by
    rw [← ht, Fin.sum_univ_three, hc2]
    simp only [Prod.fst_sub, Prod.fst_add, Prod.smul_fst, smul_eq_mul]
    ring
  have hy : (t - g 2).2 = c 0 * (g 0 - g 2).2 + c 1 * (g 1 - g 2).2 := by
    rw [← ht, Fin.sum_univ_three, hc2]
    simp only [Prod.snd_sub, Prod.snd_add, Prod.smul_snd, smul_eq_mul]
    ring
  have hA : Interpolation.signedArea2 g ≠ 0 := by
    intro h0
    rw [h0, abs_zero] at h
    exact absurd h (not_lt.mpr (mul_nonneg hγ (spread_nonneg _ _)))
  have e1 : cross (t - g 2) (g 1 - g 2) / Interpolation.signedArea2 g = c 0 := by
    rw [div_eq_iff hA, ← signed_eq]
    unfold cross
    rw [hx, hy]
    ring
  have e2 : -cross (t - g 2) (g 0 - g 2) / Interpolation.signedArea2 g = c 1 := by
    rw [div_eq_iff hA, ← signed_eq]
    unfold cross
    rw [hx, hy]
    ring
  rw [e1] at q1
  rw [e2] at q2
  refine ⟨q1.2, q2.2, ?_⟩
  have hs := hS (R.div (crossDen R (rsub R t (g 2)) (rsub R (g 1) (g 2))) (crossDen R (rsub R (g 0) (g 2)) (rsub R (g 1) (g 2))))
    (R.div (-crossDen R (rsub R t (g 2)) (rsub R (g 0) (g 2))) (crossDen R (rsub R (g 0) (g 2)) (rsub R (g 1) (g 2))))
  generalize R.div (crossDen R (rsub R t (g 2)) (rsub R (g 1) (g 2))) (crossDen R (rsub R (g 0) (g 2)) (rsub R (g 1) (g 2))) = w1 at hs ⊢
  generalize R.div (-crossDen R (rsub R t (g 2)) (rsub R (g 0) (g 2))) (crossDen R (rsub R (g 0) (g 2)) (rsub R (g 1) (g 2))) = w2 at hs ⊢
  rw [Fin.sum_univ_three] at hs
  change |w1 + w2 + R.sub (R.sub 1 w1) w2 - 1| ≤ _ at hs
  show |R.sub (R.sub 1 w1) w2 - c 2| ≤ |w1 - c 0| + |w2 - c 1| + R.u * ((2 + R.u) * |1 - w1| + |w2|)
  have e : R.sub (R.sub 1 w1) w2 - c 2 = -(w1 - c 0) + -(w2 - c 1) + (w1 + w2 + R.sub (R.sub 1 w1) w2 - 1) := by rw [hc2]; ring
  rw [e]
  refine (abs_add_le _ _).trans (add_le_add ((abs_add_le _ _).trans ?_) hs)
  rw [abs_neg, abs_neg]

/-! ## One dimension -/

/-- **C164** With the target at the upper end of a segment, the coefficients are 1 and 0 only up to two roundings; exactly if the reciprocal of the length as computed is a floating point number (a length that is a power of two). -/
theorem C164_upper {g0 g1 : ℝ} (h : g0 < g1) :
    (1 - R.u) ^ 2 ≤ segmentCoefficients R g0 g1 g1 1 ∧ segmentCoefficients R g0 g1 g1 1 ≤ (1 + R.u) ^ 2 ∧
    (R.Is (1 / R.sub g1 g0) → segmentCoefficients R g0 g1 g1 = Pi.single 1 1) := by
  have hu := R.u_nonneg
  have hu1 : 0 < 1 - R.u := by linarith [R.u_lt_one]
  have hd : 0 < R.sub g1 g0 := R.pos (sub_pos.mpr h)
  rw [(segment_eq g0 g1 g1).1]
  generalize hx : R.sub g1 g0 = d at hd
  have hr := R.bounds (one_div_pos.mpr hd).le
  have hr0 : 0 ≤ R.rd (1 / d) := R.nonneg (one_div_pos.mpr hd).le
  have hc := R.bounds (mul_nonneg hd.le hr0)
  have e1 : (1 - R.u) ≤ d * R.rd (1 / d) := by
    have := mul_le_mul_of_nonneg_left hr.1 hd.le
    rwa [mul_left_comm, mul_one_div_cancel hd.ne', mul_one] at this
  have e2 : d * R.rd (1 / d) ≤ 1 + R.u := by
    have := mul_le_mul_of_nonneg_left hr.2 hd.le
    rwa [mul_left_comm, mul_one_div_cancel hd.ne', mul_one] at this
  refine ⟨?_, ?_, ?_⟩
  · show _ ≤ R.rd (d * R.rd (1 / d))
    nlinarith [hc.1, mul_le_mul_of_nonneg_left e1 hu1.le]
  · show R.rd (d * R.rd (1 / d)) ≤ _
    nlinarith [hc.2, mul_le_mul_of_nonneg_left e2 (show 0 ≤ 1 + R.u by linarith)]
  · intro hi
    have e : R.mul d (R.div 1 d) = 1 := by
      unfold Rounding.mul Rounding.div
      rw [show R.rd (1 / d) = 1 / d from hi, mul_one_div_cancel hd.ne', R.one]
    funext j
    match j with
    | 0 =>
      rw [(segment_eq g0 g1 g1).2, hx, e]
      unfold Rounding.sub
      rw [sub_self, R.zero]
      rfl
    | 1 =>
      rw [(segment_eq g0 g1 g1).1, hx, e]
      rfl

/-- **C164** (deviation) In double precision, between the grid points 0 and 49 with the target 49, the coefficients are `2^-53` and `1 - 2^-53`: the estimate at this grid point is not exactly the template. -/
theorem C164_upper_deviation : segmentCoefficients double 0 49 49 = ![2 ^ (-53 : ℤ), 1 - 2 ^ (-53 : ℤ)] := by
  have e49 : double.sub 49 0 = 49 := by
    have := double.nat 49 (by show 49 ≤ 2 ^ 53; norm_num)
    unfold Rounding.sub
    rw [sub_zero]
    exact_mod_cast this
  have er : double.div 1 49 = 5882252574524729 * (2 : ℝ) ^ (-58 : ℤ) := by
    have := Binary.rd_eq 53 (x := 1 / 49) (m := 5882252574524729) (e := -58) (by norm_num) (by norm_num) (by norm_num) (by norm_num) (by norm_num)
    exact_mod_cast this
  have em : double.mul 49 (5882252574524729 * (2 : ℝ) ^ (-58 : ℤ)) = 1 - 2 ^ (-53 : ℤ) := by
    have := Binary.rd_eq 53 (x := 49 * (5882252574524729 * (2 : ℝ) ^ (-58 : ℤ))) (m := 9007199254740991) (e := -53) (by norm_num) (by norm_num) (by norm_num) (by norm_num) (by norm_num)
    refine Eq.trans this ?_
    norm_num
  funext j
  match j with
  | 0 =>
    rw [(segment_eq 0 49 49).2, e49, er, em]
    unfold Rounding.sub
    rw [sub_sub_cancel]
    have := Binary.rd_eq 53 (x := (2 : ℝ) ^ (-53 : ℤ)) (m := 4503599627370496) (e := -105) (by norm_num) (by norm_num) (by norm_num) (by norm_num) (by norm_num)
    refine Eq.trans this ?_
    show _ = (2 : ℝ) ^ (-53 : ℤ)
    norm_num
  | 1 =>
    rw [(segment_eq 0 49 49).1, e49, er, em]
    rfl

theorem combine_two (c p : Fin 2 → ℝ) : combine R c p = R.add (R.mul (c 0) (p 0)) (R.mul (c 1) (p 1)) := by
  unfold combine seqSum
  simp only [List.ofFn_succ, List.ofFn_zero, List.foldl_cons, List.foldl_nil]
  have : R.add 0 (R.mul (c 0) (p 0)) = R.mul (c 0) (p 0) := by
    unfold Rounding.add
    rw [zero_add]
    exact R.idem _
  rw [this]
  rfl

/-- **C164** At a grid point (coefficient 1 for one row of the parameters and 0 for the others) the row is returned exactly. -/
theorem C164_row {k : ℕ} (p : Fin k → ℝ) (i : Fin k) (hp : R.Is (p i)) : combine R (Pi.single i 1) p = p i := by
  have : R.mul ((Pi.single i 1 : Fin k → ℝ) i) (p i) = p i := by rw [Pi.single_eq_same, one_mul_is hp]
  unfold combine
  rw [seqSum_single _ i, this]
  · rw [this]; exact hp
  · intro j hj
    rw [Pi.single_eq_of_ne hj, zero_mul_rd]

/-- the coefficient of the second point, with any sign -/
theorem segment_off (g0 g1 t : ℝ) (h : g0 < g1) :
    |segmentCoefficients R g0 g1 t 1 - (t - g0) / (g1 - g0)| ≤ ((1 + R.u) ^ 3 / (1 - R.u) - 1) * |(t - g0) / (g1 - g0)| := by
  have hu := R.u_nonneg
  have hu1 : 0 < 1 - R.u := by linarith [R.u_lt_one]
  have hD : 0 < g1 - g0 := sub_pos.mpr h
  rw [(segment_eq g0 g1 t).1]
  obtain ⟨a, ha, ea⟩ := rd_rel R (t - g0)
  obtain ⟨b, hb, eb⟩ := rd_rel R (g1 - g0)
  obtain ⟨c, hc, ec⟩ := rd_rel R (1 / R.rd (g1 - g0))
  obtain ⟨d, hd, ed⟩ := rd_rel R (R.rd (t - g0) * R.rd (1 / R.rd (g1 - g0)))
  have hb1 : 0 < 1 + b := by linarith [(abs_le.mp hb).1]
  have e : R.mul (R.sub t g0) (R.div 1 (R.sub g1 g0)) = (t - g0) / (g1 - g0) * ((1 + a) * (1 + c) * (1 + d) / (1 + b)) := by
    show R.rd (R.rd (t - g0) * R.rd (1 / R.rd (g1 - g0))) = _
    rw [ed, ec, eb, ea]
    field_simp
  rw [e, show ∀ x y : ℝ, x * y - x = (y - 1) * x from fun x y => by ring, abs_mul]
  refine mul_le_mul_of_nonneg_right ?_ (abs_nonneg _)
  have pa := abs_le.mp ha
  have pb := abs_le.mp hb
  have pc := abs_le.mp hc
  have pd := abs_le.mp hd
  have u1 : (1 + a) * (1 + c) * (1 + d) ≤ (1 + R.u) ^ 3 := by
    have : (1 + a) * (1 + c) ≤ (1 + R.u) * (1 + R.u) := mul_le_mul (by linarith) (by linarith) (by linarith) (by linarith)
    refine (mul_le_mul this (show 1 + d ≤ 1 + R.u by linarith) (by linarith) (by positivity)).trans (le_of_eq (by ring))
  have l1 : (1 - R.u) ^ 3 ≤ (1 + a) * (1 + c) * (1 + d) := by
    have : (1 - R.u) * (1 - R.u) ≤ (1 + a) * (1 + c) := mul_le_mul (by linarith) (by linarith) (by linarith) (by linarith)
    refine (le_of_eq (by ring)).trans (mul_le_mul this (show 1 - R.u ≤ 1 + d by linarith) (by linarith) (mul_nonneg (by linarith) (by linarith)))
  have hp0 : 0 ≤ (1 + a) * (1 + c) * (1 + d) := le_trans (by positivity) l1
  rw [abs_le]
  constructor
  · have s1 : (1 - R.u) ^ 3 / (1 + R.u) ≤ (1 + a) * (1 + c) * (1 + d) / (1 + b) := div_le_div₀ hp0 l1 hb1 (by linarith)
    have s2 : 2 - (1 + R.u) ^ 3 / (1 - R.u) ≤ (1 - R.u) ^ 3 / (1 + R.u) := by
      rw [sub_le_iff_le_add, div_add_div _ _ (by linarith) hu1.ne', le_div_iff₀ (by positivity)]
      nlinarith [pow_nonneg hu 2, pow_nonneg hu 4]
    linarith
  · have s1 : (1 + a) * (1 + c) * (1 + d) / (1 + b) ≤ (1 + R.u) ^ 3 / (1 - R.u) := div_le_div₀ (by positivity) u1 hu1 (by linarith)
    linarith

/-- **C164** The extrapolated (or interpolated) value of a parameter differs from the straight line through the two grid points by at most about seven roundings of the sizes of the terms, for every target. -/
theorem C164_line {g0 g1 : ℝ} (h : g0 < g1) (p : Fin 2 → ℝ) (t : ℝ) :
    |extrapolate1D R g0 g1 p t - (p 0 + (t - g0) / (g1 - g0) * (p 1 - p 0))| ≤
      ((1 + R.u) ^ 6 / (1 - R.u) - 1) * ((1 + |(t - g0) / (g1 - g0)|) * |p 0| + |(t - g0) / (g1 - g0)| * |p 1|) := by
  have hu := R.u_nonneg
  have hu1 : 0 < 1 - R.u := by linarith [R.u_lt_one]
  have h1 := segment_off (R := R) g0 g1 t h
  have h0 : segmentCoefficients R g0 g1 t 0 = R.rd (1 - segmentCoefficients R g0 g1 t 1) := by
    rw [(segment_eq g0 g1 t).1, (segment_eq g0 g1 t).2]; rfl
  unfold extrapolate1D
  rw [combine_two]
  generalize (t - g0) / (g1 - g0) = τ at *
  generalize segmentCoefficients R g0 g1 t 0 = c0 at *
  generalize segmentCoefficients R g0 g1 t 1 = c1 at *
  have hG : (1 : ℝ) ≤ (1 + R.u) ^ 3 / (1 - R.u) := by
    rw [le_div_iff₀ hu1]
    nlinarith [pow_nonneg hu 2, pow_nonneg hu 3]
  have eG : (1 + R.u) ^ 6 / (1 - R.u) = (1 + R.u) ^ 3 / (1 - R.u) * (1 + R.u) ^ 3 := by ring
  rw [eG]
  generalize (1 + R.u) ^ 3 / (1 - R.u) = G at *
  have b1 : |c1| ≤ G * |τ| := by
    have := abs_add_le (c1 - τ) τ
    rw [sub_add_cancel] at this
    linarith
  have d0 : |c0 - (1 - τ)| ≤ (G * (1 + R.u) - 1) * (1 + |τ|) := by
    have q := R.close (1 - c1)
    rw [← h0] at q
    have e : c0 - (1 - τ) = (c0 - (1 - c1)) + -(c1 - τ) := by ring
    rw [e]
    refine (abs_add_le _ _).trans ?_
    rw [abs_neg]
    have q1 : |1 - c1| ≤ 1 + G * |τ| := by
      have := abs_sub 1 c1
      rw [abs_one] at this
      linarith
    have q2 := mul_le_mul_of_nonneg_left q1 hu
    have q3 := abs_nonneg τ
    nlinarith [mul_nonneg hu (sub_nonneg.mpr hG)]
  have b0 : |c0| ≤ G * (1 + R.u) * (1 + |τ|) := by
    have := abs_add_le (c0 - (1 - τ)) (1 - τ)
    rw [sub_add_cancel] at this
    have q := abs_sub 1 τ
    rw [abs_one] at q
    nlinarith
  have hs := add_off (off_rd R (c0 * p 0)) (off_rd R (c1 * p 1))
  change |R.add (R.mul (c0) (p 0)) (R.mul c1 (p 1)) - (c0 * p 0 + c1 * p 1)| ≤ ((1 + R.u) ^ 2 - 1) * (|c0 * p 0| + |c1 * p 1|) at hs
  have e : R.add (R.mul c0 (p 0)) (R.mul c1 (p 1)) - (p 0 + τ * (p 1 - p 0)) =
      (R.add (R.mul c0 (p 0)) (R.mul c1 (p 1)) - (c0 * p 0 + c1 * p 1)) + ((c0 - (1 - τ)) * p 0 + (c1 - τ) * p 1) := by ring
  rw [e]
  refine (abs_add_le _ _).trans ((add_le_add hs (abs_add_le _ _)).trans ?_)
  rw [abs_mul, abs_mul, abs_mul, abs_mul]
  have hp0 := abs_nonneg (p 0)
  have hp1 := abs_nonneg (p 1)
  have m0 := mul_le_mul_of_nonneg_right b0 hp0
  have m1 := mul_le_mul_of_nonneg_right b1 hp1
  have n0 := mul_le_mul_of_nonneg_right d0 hp0
  have n1 := mul_le_mul_of_nonneg_right h1 hp1
  have hv : 0 ≤ (1 + R.u) ^ 2 - 1 := by nlinarith
  have hτ := abs_nonneg τ
  have m1' : |c1| * |p 1| ≤ G * (1 + R.u) * |τ| * |p 1| := m1.trans (mul_le_mul_of_nonneg_right (by nlinarith [mul_nonneg (show 0 ≤ G by linarith) hτ]) hp1)
  have n1' : |c1 - τ| * |p 1| ≤ (G * (1 + R.u) - 1) * |τ| * |p 1| := n1.trans (mul_le_mul_of_nonneg_right (mul_le_mul_of_nonneg_right (by nlinarith) hτ) hp1)
  have k := mul_le_mul_of_nonneg_left (add_le_add m0 m1') hv
  refine (add_le_add k (add_le_add n0 n1')).trans (le_of_eq ?_)
  ring

/-! ## Triangles -/

/-- **C164** (deviation) A triangle with an area that is not 0, with corners that are double precision numbers, can have the denominator 0 as computed: all three coefficients are NaN at all three corners. -/
theorem C164_thin_deviation :
    let g : Fin 3 → ℝ × ℝ := ![(1 + 2 ^ (-52 : ℤ), 1), (1 + 2 * 2 ^ (-52 : ℤ), 1 + 2 ^ (-52 : ℤ)), (0, 0)]
    (∀ i, double.Is (g i).1 ∧ double.Is (g i).2) ∧ Interpolation.signedArea2 g ≠ 0 ∧ ∀ k i, barycentric double g (g k) i = .nan := by
  intro g
  have i1 : double.rd (1 + 2 ^ (-52 : ℤ)) = 1 + 2 ^ (-52 : ℤ) := by
    have := Binary.rd_eq 53 (x := 1 + 2 ^ (-52 : ℤ)) (m := 4503599627370497) (e := -52) (by norm_num) (by norm_num) (by norm_num) (by norm_num) (by norm_num)
    refine Eq.trans this ?_
    norm_num
  have i2 : double.rd (1 + 2 * 2 ^ (-52 : ℤ)) = 1 + 2 * 2 ^ (-52 : ℤ) := by
    have := Binary.rd_eq 53 (x := 1 + 2 * 2 ^ (-52 : ℤ)) (m := 4503599627370498) (e := -52) (by norm_num) (by norm_num) (by norm_num) (by norm_num) (by norm_num)
    refine Eq.trans this ?_
    norm_num
  have hi : ∀ i, double.Is (g i).1 ∧ double.Is (g i).2 := by
    intro i
    match i with
    | 0 => exact ⟨i1, double.one⟩
    | 1 => exact ⟨i2, i1⟩
    | 2 => exact ⟨double.zero, double.zero⟩
  have hr : ∀ i, rsub double (g i) (g 2) = g i := by
    intro i
    have a : double.rd ((g i).1 - 0) = (g i).1 := by rw [sub_zero]; exact (hi i).1
    have b : double.rd ((g i).2 - 0) = (g i).2 := by rw [sub_zero]; exact (hi i).2
    exact Prod.ext a b
  have hden : crossDen double (g 0) (g 1) = 0 := by
    show double.rd (double.rd ((1 + 2 ^ (-52 : ℤ)) * (1 + 2 ^ (-52 : ℤ))) + double.rd (-(1 + 2 * 2 ^ (-52 : ℤ)) * 1)) = 0
    have e : double.rd ((1 + 2 ^ (-52 : ℤ)) * (1 + 2 ^ (-52 : ℤ))) = 1 + 2 * 2 ^ (-52 : ℤ) := by
      have := Binary.rd_eq 53 (x := (1 + 2 ^ (-52 : ℤ)) * (1 + 2 ^ (-52 : ℤ))) (m := 4503599627370498) (e := -52) (by norm_num) (by norm_num) (by norm_num) (by norm_num) (by norm_num)
      refine Eq.trans this ?_
      norm_num
    rw [e, mul_one, double.neg, i2, add_neg_cancel, double.zero]
  refine ⟨hi, ?_, ?_⟩
  · show (1 + 2 * 2 ^ (-52 : ℤ) - (1 + 2 ^ (-52 : ℤ))) * (0 - 1) - (0 - (1 + 2 ^ (-52 : ℤ))) * (1 + 2 ^ (-52 : ℤ) - 1) ≠ (0 : ℝ)
    norm_num
  · have hN : double.add (double.mul (-(rsub double (g 0) (g 2)).2) 0) 0 = 0 := by
      rw [mul_zero_rd]
      unfold Rounding.add
      rw [add_zero, double.zero]
    have key : ∀ k, crossDen double (rsub double (g k) (g 2)) (rsub double (g 1) (g 2)) = 0 ∧ crossDen double (rsub double (g k) (g 2)) (rsub double (g 0) (g 2)) = 0 := by
      intro k
      rw [hr, hr, hr]
      match k with
      | 0 => exact ⟨hden, crossDen_self _⟩
      | 1 =>
        refine ⟨crossDen_self _, ?_⟩
        have := crossDen_swap (R := double) (g 0) (g 1)
        rw [hden] at this
        linarith
      | 2 => exact ⟨crossDen_zero _, crossDen_zero _⟩
    intro k i
    have w1 : rdFV double (.fin (crossDen double (rsub double (g k) (g 2)) (rsub double (g 1) (g 2))) / .fin (crossDen double (rsub double (g 0) (g 2)) (rsub double (g 1) (g 2)))) = .nan := by
      rw [(key k).1, (key 0).1, FV.fin_div_zero]
      simp [FV.infSign, rdFV]
    have hn : double.add (double.mul (-(rsub double (g 0) (g 2)).2) (rsub double (g k) (g 2)).1) (double.mul (rsub double (g 0) (g 2)).1 (rsub double (g k) (g 2)).2) = 0 := by
      have := (key k).2
      have e : double.add (double.mul (-(rsub double (g 0) (g 2)).2) (rsub double (g k) (g 2)).1) (double.mul (rsub double (g 0) (g 2)).1 (rsub double (g k) (g 2)).2) = -crossDen double (rsub double (g k) (g 2)) (rsub double (g 0) (g 2)) := by
        unfold crossDen Rounding.add Rounding.mul
        rw [← double.neg]
        congr 1
        simp only [neg_mul, double.neg]
        ring
      rw [e, this, neg_zero]
    have w2 : rdFV double (.fin (double.add (double.mul (-(rsub double (g 0) (g 2)).2) (rsub double (g k) (g 2)).1) (double.mul (rsub double (g 0) (g 2)).1 (rsub double (g k) (g 2)).2)) / .fin (crossDen double (rsub double (g 0) (g 2)) (rsub double (g 1) (g 2)))) = .nan := by
      rw [hn, (key 0).1, FV.fin_div_zero]
      simp [FV.infSign, rdFV]
    match i with
    | 0 => exact w1
    | 1 => exact w2
    | 2 =>
      show rdFV double (rdFV double (.fin 1 - rdFV double (.fin (crossDen double (rsub double (g k) (g 2)) (rsub double (g 1) (g 2))) / .fin (crossDen double (rsub double (g 0) (g 2)) (rsub double (g 1) (g 2))))) - rdFV double _) = _
      rw [w1]
      rfl

/-- **C164** (2-D) At a corner of the triangle moment morphing gives back the template of this corner, exactly if its integral is 1 as computed. -/
theorem C164_morph_corner {n m : ℕ} {S : List ℝ → ℝ} (hS : SumOf R m n S) {edges : Fin (n + 2) → ℝ} (h : StrictMono edges)
    (hmid : ∀ b : Fin (n + 1), edges b.castSucc ≤ binCenter R (edges b.castSucc) (edges b.succ) ∧ binCenter R (edges b.castSucc) (edges b.succ) < edges b.succ)
    (width : Fin (n + 1) → ℝ) (hw : ∀ b, 0 < width b) (p : Fin 3 → Fin (n + 1) → ℝ) (i : Fin 3) (hp : ∀ b, R.Is (p i b)) (h0 : ∀ b, 0 ≤ p i b) (hpos : ∃ b, p i b ≠ 0)
    (hz : ∀ j, 1 / 10 ^ 8 < |S (List.ofFn (p j))|) (hs : ∀ j, ∃ s, pdfStd R S edges width (p j) = .ok s) (hint : S (List.ofFn fun b => R.mul (p i b) (width b)) = 1)
    (g : Fin 3 → ℝ × ℝ) (hg : ((1 + R.u) ^ 4 - 1) * spread (g 0 - g 2) (g 1 - g 2) < |Interpolation.signedArea2 g|) :
    ∃ w : Fin 3 → ℝ, barycentric R g (g i) = (fun j => .fin (w j)) ∧ momentMorph R S edges width p w = .ok (p i) := by
  have hγ : 0 ≤ (1 + R.u) ^ 4 - 1 := by
    have : (1 : ℝ) ≤ (1 + R.u) ^ 4 := one_le_pow₀ (by linarith [R.u_nonneg])
    linarith
  have hm : ((1 + R.u) ^ 4 - 1) * spread (g 0 - g 2) (g 1 - g 2) < |cross (g 0 - g 2) (g 1 - g 2)| := by rw [signed_eq]; exact hg
  have hne := (quotient_off (R := R) hγ (crossDen_off (R := R) (g 0) (g 2) (g 1) (g 2)) (crossDen_off (R := R) (g 0) (g 2) (g 1) (g 2)) (cross_le_spread _ _) hm).1
  refine ⟨Pi.single i 1, C164_corner g i hne, ?_⟩
  obtain ⟨r, hr, _, h1, _⟩ := C163_node hS h hmid width hw p i hp h0 hpos hz hs
  rw [hr, h1 hint]

/-- **C164** (without rounding) In exact arithmetic these are the coefficients and the extrapolation of the other properties. -/
theorem C164_agrees (k : ℕ) (hk : 1 ≤ k) (g : Fin 3 → ℝ × ℝ) (t : ℝ × ℝ) {m : ℕ} (c p : Fin m → ℝ) :
    barycentric (Rounding.exact k hk) g t = Interpolation.barycentricCoefficients g t ∧ combine (Rounding.exact k hk) c p = ∑ i, c i * p i := by
  have hid : ∀ x : FV ℝ, rdFV (Rounding.exact k hk) x = x := by
    intro x
    cases x <;> rfl
  constructor
  · unfold barycentric
    dsimp only
    simp only [hid]
    rfl
  · unfold combine
    rw [seqSum_exact k hk, List.sum_ofFn]
    rfl

/-! ## Satisfiability -/

/-- the triangle with corners (1, 0), (0, 1) and (0, 0) is not too thin in double precision -/
example : ((1 + double.u) ^ 4 - 1) * spread ((![(1, 0), (0, 1), (0, 0)] : Fin 3 → ℝ × ℝ) 0 - (![(1, 0), (0, 1), (0, 0)] : Fin 3 → ℝ × ℝ) 2) ((![(1, 0), (0, 1), (0, 0)] : Fin 3 → ℝ × ℝ) 1 - (![(1, 0), (0, 1), (0, 0)] : Fin 3 → ℝ × ℝ) 2) <
    |Interpolation.signedArea2 ![(1, 0), (0, 1), (0, 0)]| := by
  have hu : double.u = (1 / 2) ^ 53 := rfl
  show ((1 + double.u) ^ 4 - 1) * (|((1 : ℝ) - 0) * (1 - 0)| + |((0 : ℝ) - 0) * (0 - 0)|) < |((0 : ℝ) - 1) * (0 - 0) - (0 - 1) * (1 - 0)|
  rw [hu]
  norm_num

/-- a segment from 1 to 3 in double precision: the reciprocal of its length is a floating point number -/
example : double.Is (1 / double.sub 3 1) := by
  have e2 : double.sub 3 1 = 2 := by
    have := double.nat 2 (by show 2 ≤ 2 ^ 53; norm_num)
    unfold Rounding.sub
    rw [show (3 : ℝ) - 1 = ((2 : ℕ) : ℝ) by norm_num, this]
    norm_num
  rw [e2]
  have := Binary.rd_eq 53 (x := 1 / 2) (m := 4503599627370496) (e := -53) (by norm_num) (by norm_num) (by norm_num) (by norm_num) (by norm_num)
  refine Eq.trans this ?_
  norm_num

end Pyirf.Rounded
