import Verif.Rounded.HistProps
import Verif.Stats.Props
import Mathlib.Analysis.SpecialFunctions.Log.Basic
import Mathlib.Analysis.Complex.ExponentialBounds

/-!
# C149: significances and bin centers in rounded arithmetic
-/
set_option linter.unusedSectionVars false
set_option linter.unusedSimpArgs false

namespace Pyirf.Rounded
open Pyirf Pyirf.Np

/-! ## Specification -/

/-- A logarithm with relative error at most `v`. -/
def LogWithin (v : ℝ) (log : ℝ → ℝ) : Prop := ∀ x, 0 < x → |log x - Real.log x| ≤ v * |Real.log x|

/-- The first argument of the logarithm in formula 17 of Li & Ma. -/
noncomputable def argOn (nOn nOff alpha : ℝ) : ℝ := (1 + alpha) / alpha * (nOn / (nOn + nOff))

/-- The second one. -/
noncomputable def argOff (nOn nOff alpha : ℝ) : ℝ := (1 + alpha) * (nOff / (nOn + nOff))

/-- Half of the square of the significance of formula 17 (`0 log 0 = 0`). -/
noncomputable def testStatistic (nOn nOff alpha : ℝ) : ℝ := nOn * Real.log (argOn nOn nOff alpha) + nOff * Real.log (argOff nOn nOff alpha)

/-- Error of a rounded logarithm whose argument has up to five rounded operations, times a number. -/
noncomputable def logError (u v x : ℝ) : ℝ := (1 + u) * (1 + v) * (|Real.log x| + 5 * u / (1 - u)) - |Real.log x|

/-- The bound on the error of half of the square of the significance. -/
noncomputable def tsError (u v nOn nOff alpha : ℝ) : ℝ :=
  (1 + u) * (nOn * logError u v (argOn nOn nOff alpha) + nOff * logError u v (argOff nOn nOff alpha)) + u * |testStatistic nOn nOff alpha|

/-! ## Lemmas -/

variable (R : Rounding)

theorem log_one_sub {u : ℝ} (h1 : u < 1) : -Real.log (1 - u) ≤ u / (1 - u) := by
  have h := Real.one_sub_inv_le_log_of_pos (show 0 < 1 - u by linarith)
  have : u / (1 - u) = (1 - u)⁻¹ - 1 := by
    have : (1 - u) ≠ 0 := by linarith
    field_simp
    ring
  linarith

theorem log_one_add {u : ℝ} (h0 : 0 ≤ u) : Real.log (1 + u) ≤ u := by
  have h := Real.log_le_sub_one_of_pos (show 0 < 1 + u by linarith)
  linarith

/-- the logarithm of a rounded positive number -/
theorem log_rd {x : ℝ} (hx : 0 < x) : |Real.log (R.rd x) - Real.log x| ≤ R.u / (1 - R.u) := by
  have h0 := R.u_nonneg
  have h1 := R.u_lt_one
  obtain ⟨b1, b2⟩ := R.bounds hx.le
  have hp := R.pos hx
  have e1 : Real.log ((1 - R.u) * x) ≤ Real.log (R.rd x) := Real.log_le_log (by nlinarith) b1
  have e2 : Real.log (R.rd x) ≤ Real.log ((1 + R.u) * x) := Real.log_le_log hp b2
  rw [Real.log_mul (by linarith) hx.ne'] at e1 e2
  have g1 := log_one_sub h1
  have g2 := log_one_add h0
  have g3 : R.u ≤ R.u / (1 - R.u) := by
    rw [le_div_iff₀ (by linarith)]; nlinarith
  rw [abs_le]; constructor <;> linarith

theorem log_mul_rd {x y X Y d e : ℝ} (hx : 0 < x) (hy : 0 < y) (hX : 0 < X) (hY : 0 < Y) (h1 : |Real.log x - Real.log X| ≤ d) (h2 : |Real.log y - Real.log Y| ≤ e) :
    0 < R.mul x y ∧ |Real.log (R.mul x y) - Real.log (X * Y)| ≤ d + e + R.u / (1 - R.u) := by
  have hxy : 0 < x * y := mul_pos hx hy
  refine ⟨R.pos hxy, ?_⟩
  have h3 := log_rd R hxy
  rw [Real.log_mul hX.ne' hY.ne']
  rw [Real.log_mul hx.ne' hy.ne'] at h3
  unfold Rounding.mul
  rw [abs_le] at *
  constructor <;> linarith [h1.1, h1.2, h2.1, h2.2, h3.1, h3.2]

theorem log_div_rd {x y X Y d e : ℝ} (hx : 0 < x) (hy : 0 < y) (hX : 0 < X) (hY : 0 < Y) (h1 : |Real.log x - Real.log X| ≤ d) (h2 : |Real.log y - Real.log Y| ≤ e) :
    0 < R.div x y ∧ |Real.log (R.div x y) - Real.log (X / Y)| ≤ d + e + R.u / (1 - R.u) := by
  have hxy : 0 < x / y := div_pos hx hy
  refine ⟨R.pos hxy, ?_⟩
  have h3 := log_rd R hxy
  rw [Real.log_div hX.ne' hY.ne']
  rw [Real.log_div hx.ne' hy.ne'] at h3
  unfold Rounding.div
  rw [abs_le] at *
  constructor <;> linarith [h1.1, h1.2, h2.1, h2.2, h3.1, h3.2]

/-- a rounded product with a rounded logarithm -/
theorem mul_log_error {v n x X : ℝ} {log : ℝ → ℝ} (hv : 0 ≤ v) (hl : LogWithin v log) (hn : 0 ≤ n) (hx : 0 < x)
    (h : |Real.log x - Real.log X| ≤ 5 * R.u / (1 - R.u)) : |R.mul n (log x) - n * Real.log X| ≤ n * logError R.u v X := by
  have h0 := R.u_nonneg
  set d := 5 * R.u / (1 - R.u) with hd
  have hd0 : 0 ≤ d := le_trans (abs_nonneg _) h
  have a1 := hl x hx
  have a2 : |Real.log x| ≤ |Real.log X| + d := by
    have := abs_sub_abs_le_abs_sub (Real.log x) (Real.log X)
    linarith
  have a3 : |log x - Real.log X| ≤ d + v * (|Real.log X| + d) := by
    have e : log x - Real.log X = (log x - Real.log x) + (Real.log x - Real.log X) := by ring
    rw [e]
    refine (abs_add_le _ _).trans ?_
    have := mul_le_mul_of_nonneg_left a2 hv
    linarith
  have a4 : |log x| ≤ (1 + v) * (|Real.log X| + d) := by
    have := abs_sub_abs_le_abs_sub (log x) (Real.log X)
    nlinarith
  have a5 := R.close (n * log x)
  rw [abs_mul, abs_of_nonneg hn] at a5
  unfold Rounding.mul
  have e : R.rd (n * log x) - n * Real.log X = (R.rd (n * log x) - n * log x) + n * (log x - Real.log X) := by ring
  rw [e]
  refine (abs_add_le _ _).trans ?_
  rw [abs_mul, abs_of_nonneg hn]
  have b1 : R.u * (n * |log x|) ≤ R.u * (n * ((1 + v) * (|Real.log X| + d))) :=
    mul_le_mul_of_nonneg_left (mul_le_mul_of_nonneg_left a4 hn) h0
  have b2 : n * |log x - Real.log X| ≤ n * (d + v * (|Real.log X| + d)) := mul_le_mul_of_nonneg_left a3 hn
  have b3 : n * logError R.u v X = R.u * (n * ((1 + v) * (|Real.log X| + d))) + n * (d + v * (|Real.log X| + d)) := by
    unfold logError; rw [← hd]; ring
  linarith

/-- the two terms of the code -/
noncomputable def onTerm (log : ℝ → ℝ) (nOn nOff alpha : ℝ) : ℝ :=
  if nOn = 0 then 0 else R.mul nOn (log (R.mul (R.div (R.add 1 alpha) alpha) (R.div nOn (R.add nOn nOff))))
/-- the two terms of the code -/
noncomputable def offTerm (log : ℝ → ℝ) (nOn nOff alpha : ℝ) : ℝ :=
  if nOff = 0 then 0 else R.mul nOff (log (R.mul (R.add 1 alpha) (R.div nOff (R.add nOn nOff))))

theorem terms_error {v nOn nOff alpha : ℝ} {log : ℝ → ℝ} (hv : 0 ≤ v) (hl : LogWithin v log) (h1 : 0 ≤ nOn) (h2 : 0 ≤ nOff) (ha : 0 < alpha) :
    |onTerm R log nOn nOff alpha - nOn * Real.log (argOn nOn nOff alpha)| ≤ nOn * logError R.u v (argOn nOn nOff alpha) ∧
    |offTerm R log nOn nOff alpha - nOff * Real.log (argOff nOn nOff alpha)| ≤ nOff * logError R.u v (argOff nOn nOff alpha) := by
  have hr0 := R.u_nonneg
  have hr1 := R.u_lt_one
  set d := R.u / (1 - R.u) with hd
  have hd0 : 0 ≤ d := div_nonneg hr0 (by linarith)
  have h5 : 5 * R.u / (1 - R.u) = 5 * d := by rw [hd]; ring
  have self : ∀ x : ℝ, |Real.log x - Real.log x| ≤ 0 := by intro x; simp
  have p1 : 0 < 1 + alpha := by linarith
  have q1 : 0 < R.add 1 alpha := R.pos p1
  have l1 : |Real.log (R.add 1 alpha) - Real.log (1 + alpha)| ≤ d := log_rd R p1
  obtain ⟨q2, l2⟩ := log_div_rd R q1 ha p1 ha l1 (self alpha)
  constructor
  · unfold onTerm
    by_cases h : nOn = 0
    · rw [if_pos h, h]; simp
    · rw [if_neg h]
      have hp : 0 < nOn := lt_of_le_of_ne h1 (Ne.symm h)
      have ht : 0 < nOn + nOff := by linarith
      have q3 : 0 < R.add nOn nOff := R.pos ht
      have l3 : |Real.log (R.add nOn nOff) - Real.log (nOn + nOff)| ≤ d := log_rd R ht
      obtain ⟨q4, l4⟩ := log_div_rd R hp q3 hp ht (self nOn) l3
      obtain ⟨q5, l5⟩ := log_mul_rd R q2 q4 (div_pos p1 ha) (div_pos hp ht) l2 l4
      exact mul_log_error R hv hl h1 q5 (by rw [h5]; exact le_trans l5 (by rw [← hd]; linarith))
  · unfold offTerm
    by_cases h : nOff = 0
    · rw [if_pos h, h]; simp
    · rw [if_neg h]
      have hp : 0 < nOff := lt_of_le_of_ne h2 (Ne.symm h)
      have ht : 0 < nOn + nOff := by linarith
      have q3 : 0 < R.add nOn nOff := R.pos ht
      have l3 : |Real.log (R.add nOn nOff) - Real.log (nOn + nOff)| ≤ d := log_rd R ht
      obtain ⟨q4, l4⟩ := log_div_rd R hp q3 hp ht (self nOff) l3
      obtain ⟨q5, l5⟩ := log_mul_rd R q1 q4 p1 (div_pos hp ht) l1 l4
      exact mul_log_error R hv hl h2 q5 (by rw [h5]; exact le_trans l5 (by rw [← hd]; linarith))

theorem ts_error {v nOn nOff alpha : ℝ} {log : ℝ → ℝ} (hv : 0 ≤ v) (hl : LogWithin v log) (h1 : 0 ≤ nOn) (h2 : 0 ≤ nOff) (ha : 0 < alpha) :
    |R.add (onTerm R log nOn nOff alpha) (offTerm R log nOn nOff alpha) - testStatistic nOn nOff alpha| ≤ tsError R.u v nOn nOff alpha := by
  obtain ⟨a1, a2⟩ := terms_error R hv hl h1 h2 ha
  have h0 := R.u_nonneg
  set t1 := onTerm R log nOn nOff alpha
  set t2 := offTerm R log nOn nOff alpha
  have c := R.close (t1 + t2)
  set s := nOn * logError R.u v (argOn nOn nOff alpha) + nOff * logError R.u v (argOff nOn nOff alpha) with hs
  have b : |t1 + t2 - testStatistic nOn nOff alpha| ≤ s := by
    have e : t1 + t2 - testStatistic nOn nOff alpha = (t1 - nOn * Real.log (argOn nOn nOff alpha)) + (t2 - nOff * Real.log (argOff nOn nOff alpha)) := by
      unfold testStatistic; ring
    rw [e]
    exact (abs_add_le _ _).trans (by linarith)
  have b2 : |t1 + t2| ≤ s + |testStatistic nOn nOff alpha| := by
    have := abs_sub_abs_le_abs_sub (t1 + t2) (testStatistic nOn nOff alpha)
    linarith
  have e : R.add t1 t2 - testStatistic nOn nOff alpha = (R.rd (t1 + t2) - (t1 + t2)) + (t1 + t2 - testStatistic nOn nOff alpha) := by
    unfold Rounding.add; ring
  rw [e]
  refine (abs_add_le _ _).trans ?_
  have := mul_le_mul_of_nonneg_left b2 h0
  unfold tsError
  rw [← hs]
  linarith

theorem liMa_eq (log : ℝ → ℝ) (nOn nOff alpha : ℝ) : liMa R log nOn nOff alpha =
    if nOn < R.mul alpha nOff then FV.fin 0 else
      let ts := R.add (onTerm R log nOn nOff alpha) (offTerm R log nOn nOff alpha)
      if R.mul ts 2 < 0 then FV.nan else FV.fin (R.rd (Real.sqrt (R.mul ts 2))) := rfl

/-! ## C149 -/

/-- **C149** (significance) For every rounding and logarithm: below `alpha * n_off` (as computed) the significance is 0. Otherwise it is NaN or a number that is not negative and at most
the exact one up to the error of the test statistic; it can be NaN only if half of the square of the exact significance is at most `tsError`; if that is larger, the
result is exact up to `tsError` below the root and the roundings. -/
theorem C149_li_ma {v nOn nOff alpha : ℝ} {log : ℝ → ℝ} (hv : 0 ≤ v) (hl : LogWithin v log) (h1 : 0 ≤ nOn) (h2 : 0 ≤ nOff) (ha : 0 < alpha) :
    (nOn < R.mul alpha nOff → liMa R log nOn nOff alpha = .fin 0) ∧
    (liMa R log nOn nOff alpha = .nan → R.mul alpha nOff ≤ nOn ∧ testStatistic nOn nOff alpha ≤ tsError R.u v nOn nOff alpha) ∧
    (liMa R log nOn nOff alpha ≠ .nan → ∃ s, liMa R log nOn nOff alpha = .fin s ∧ 0 ≤ s ∧
      s ≤ (1 + R.u) * Real.sqrt ((1 + R.u) * (2 * (testStatistic nOn nOff alpha + tsError R.u v nOn nOff alpha)))) ∧
    (R.mul alpha nOff ≤ nOn → tsError R.u v nOn nOff alpha < testStatistic nOn nOff alpha → ∃ s, liMa R log nOn nOff alpha = .fin s ∧
      (1 - R.u) * Real.sqrt ((1 - R.u) * (2 * (testStatistic nOn nOff alpha - tsError R.u v nOn nOff alpha))) ≤ s ∧
      s ≤ (1 + R.u) * Real.sqrt ((1 + R.u) * (2 * (testStatistic nOn nOff alpha + tsError R.u v nOn nOff alpha)))) := by
  have h0 := R.u_nonneg
  have hu1 := R.u_lt_one
  rw [liMa_eq]
  have hts := ts_error R hv hl h1 h2 ha
  set ts := R.add (onTerm R log nOn nOff alpha) (offTerm R log nOn nOff alpha) with hdef
  set T := testStatistic nOn nOff alpha
  set E := tsError R.u v nOn nOff alpha
  rw [abs_le] at hts
  have up : 0 ≤ R.mul ts 2 → R.rd (Real.sqrt (R.mul ts 2)) ≤ (1 + R.u) * Real.sqrt ((1 + R.u) * (2 * (T + E))) := by
    intro h
    have hts0 : 0 ≤ ts * 2 := by
      by_contra hc
      have := R.neg (-(ts * 2))
      have hp := R.pos (show 0 < -(ts * 2) by linarith)
      rw [neg_neg] at this
      have h' : 0 ≤ R.rd (ts * 2) := h
      linarith
    have b := (R.bounds hts0).2
    have hs : Real.sqrt (R.mul ts 2) ≤ Real.sqrt ((1 + R.u) * (2 * (T + E))) := by
      apply Real.sqrt_le_sqrt
      refine le_trans b ?_
      apply mul_le_mul_of_nonneg_left _ (by linarith)
      linarith
    have c := (R.bounds (Real.sqrt_nonneg (R.mul ts 2))).2
    refine c.trans (mul_le_mul_of_nonneg_left hs (by linarith))
  refine ⟨fun h => ?_, fun h => ?_, fun h => ?_, fun hge hE => ?_⟩
  · rw [if_pos h]
  · by_cases hc : nOn < R.mul alpha nOff
    · rw [if_pos hc] at h; cases h
    · rw [if_neg hc] at h
      refine ⟨not_lt.1 hc, ?_⟩
      by_contra hT
      have hpos : 0 < ts * 2 := by linarith
      have := R.pos hpos
      have h' : ¬ (R.mul ts 2 < 0) := by unfold Rounding.mul; linarith
      simp only [if_neg h'] at h
      cases h
  · by_cases hc : nOn < R.mul alpha nOff
    · rw [if_pos hc]
      exact ⟨0, rfl, le_rfl, mul_nonneg (by linarith) (Real.sqrt_nonneg _)⟩
    · rw [if_neg hc] at h ⊢
      by_cases hneg : R.mul ts 2 < 0
      · simp only [if_pos hneg] at h; exact absurd rfl h
      · simp only [if_neg hneg]
        exact ⟨_, rfl, R.nonneg (Real.sqrt_nonneg _), up (not_lt.1 hneg)⟩
  · rw [if_neg (not_lt.2 hge)]
    have hpos : 0 < ts * 2 := by linarith
    have hp := R.pos hpos
    have hneg : ¬ (R.mul ts 2 < 0) := by unfold Rounding.mul; linarith
    simp only [if_neg hneg]
    refine ⟨_, rfl, ?_, up (not_lt.1 hneg)⟩
    have b := (R.bounds hpos.le).1
    have hs : Real.sqrt ((1 - R.u) * (2 * (T - E))) ≤ Real.sqrt (R.mul ts 2) := by
      apply Real.sqrt_le_sqrt
      refine le_trans ?_ b
      apply mul_le_mul_of_nonneg_left _ (by linarith)
      linarith
    have c := (R.bounds (Real.sqrt_nonneg (R.mul ts 2))).1
    exact (mul_le_mul_of_nonneg_left hs (by linarith)).trans c

/-! ## Double precision -/

/-- Double precision without limits of the exponent. -/
noncomputable def double : Rounding := Rounding.binary 53 (by norm_num)

/-- The double precision number 0.2, the default of `alpha`. -/
noncomputable def alphaDefault : ℝ := double.rd (1 / 5)

theorem alphaDefault_eq : alphaDefault = 7205759403792794 * (2 : ℝ) ^ (-55 : ℤ) := by
  have := Binary.rd_eq 53 (x := 1 / 5) (m := 7205759403792794) (e := -55) (by norm_num) (by norm_num) (by norm_num) (by norm_num) (by norm_num)
  exact_mod_cast this

theorem double_values :
    double.add 1 alphaDefault = 5404319552844595 * (2 : ℝ) ^ (-52 : ℤ) ∧
    double.div (double.add 1 alphaDefault) alphaDefault = 6755399441055743 * (2 : ℝ) ^ (-50 : ℤ) ∧
    double.rd (1 / 6) = 6004799503160661 * (2 : ℝ) ^ (-55 : ℤ) ∧
    double.rd (5 / 6) = 7505999378950827 * (2 : ℝ) ^ (-53 : ℤ) ∧
    double.mul (double.div (double.add 1 alphaDefault) alphaDefault) (double.rd (1 / 6)) = 9007199254740990 * (2 : ℝ) ^ (-53 : ℤ) ∧
    double.mul (double.add 1 alphaDefault) (double.rd (5 / 6)) = 1 := by
  have e1 : double.add 1 alphaDefault = 5404319552844595 * (2 : ℝ) ^ (-52 : ℤ) := by
    have := Binary.rd_eq 53 (x := 1 + alphaDefault) (m := 5404319552844595) (e := -52) (by norm_num) (by rw [alphaDefault_eq]; norm_num) (by rw [alphaDefault_eq]; norm_num)
      (by rw [alphaDefault_eq]; norm_num) (by rw [alphaDefault_eq]; norm_num)
    exact_mod_cast this
  have e2 : double.div (double.add 1 alphaDefault) alphaDefault = 6755399441055743 * (2 : ℝ) ^ (-50 : ℤ) := by
    rw [e1, alphaDefault_eq]
    have := Binary.rd_eq 53 (x := 5404319552844595 * (2 : ℝ) ^ (-52 : ℤ) / (7205759403792794 * (2 : ℝ) ^ (-55 : ℤ))) (m := 6755399441055743) (e := -50) (by norm_num) (by norm_num)
      (by norm_num) (by norm_num) (by norm_num)
    exact_mod_cast this
  have e3 : double.rd (1 / 6) = 6004799503160661 * (2 : ℝ) ^ (-55 : ℤ) := by
    have := Binary.rd_eq 53 (x := 1 / 6) (m := 6004799503160661) (e := -55) (by norm_num) (by norm_num) (by norm_num) (by norm_num) (by norm_num)
    exact_mod_cast this
  have e4 : double.rd (5 / 6) = 7505999378950827 * (2 : ℝ) ^ (-53 : ℤ) := by
    have := Binary.rd_eq 53 (x := 5 / 6) (m := 7505999378950827) (e := -53) (by norm_num) (by norm_num) (by norm_num) (by norm_num) (by norm_num)
    exact_mod_cast this
  refine ⟨e1, e2, e3, e4, ?_, ?_⟩
  · rw [e2, e3]
    have := Binary.rd_eq 53 (x := 6755399441055743 * (2 : ℝ) ^ (-50 : ℤ) * (6004799503160661 * (2 : ℝ) ^ (-55 : ℤ))) (m := 9007199254740990) (e := -53) (by norm_num) (by norm_num)
      (by norm_num) (by norm_num) (by norm_num)
    exact_mod_cast this
  · rw [e1, e4]
    have := Binary.rd_eq 53 (x := 5404319552844595 * (2 : ℝ) ^ (-52 : ℤ) * (7505999378950827 * (2 : ℝ) ^ (-53 : ℤ))) (m := 4503599627370496) (e := -52) (by norm_num) (by norm_num)
      (by norm_num) (by norm_num) (by norm_num)
    refine Eq.trans this ?_
    norm_num

/-- an integer plus less than half a unit in the last place -/
theorem double_nat_add {n : ℕ} (hn : 0 < n) (hl : n < 2 ^ 52) (d : ℝ) (h0 : 0 ≤ d) (h1 : d ≤ n * (1 / 2) ^ 54) : double.rd (n + d) = n := by
  obtain ⟨k, hk1, hk2⟩ : ∃ k : ℕ, 2 ^ k ≤ n ∧ n < 2 ^ (k + 1) := ⟨Nat.log 2 n, Nat.pow_log_le_self 2 hn.ne', Nat.lt_pow_succ_log_self (by norm_num) n⟩
  have hk : k < 52 := (Nat.pow_lt_pow_iff_right (a := 2) (by norm_num)).1 (lt_of_le_of_lt hk1 hl)
  have g1 : (2 : ℝ) ^ k ≤ n := by exact_mod_cast hk1
  have g2 : (n : ℝ) + 1 ≤ 2 ^ (k + 1) := by exact_mod_cast hk2
  -- the unit in the last place
  obtain ⟨j, hj⟩ : ∃ j : ℕ, k + j = 52 := ⟨52 - k, by omega⟩
  have hz : (2 : ℝ) ^ (-(j : ℤ)) * 2 ^ j = 1 := by
    rw [zpow_neg, zpow_natCast]; exact inv_mul_cancel₀ (by positivity)
  have hz0 : (0 : ℝ) < (2 : ℝ) ^ (-(j : ℤ)) := zpow_pos (by norm_num) _
  have hkj : (2 : ℝ) ^ k * 2 ^ j = 2 ^ 52 := by rw [← pow_add, hj]
  have e52 : (2 : ℝ) ^ 52 * 2 ^ (-(j : ℤ)) = 2 ^ k := by rw [← hkj]; rw [mul_assoc, mul_comm ((2 : ℝ) ^ j), hz, mul_one]
  have e53 : (2 : ℝ) ^ 53 * 2 ^ (-(j : ℤ)) = 2 ^ (k + 1) := by
    rw [show (2 : ℝ) ^ 53 = 2 ^ 52 * 2 by norm_num, pow_succ (2 : ℝ) k, ← e52]; ring
  have hn1 : (n : ℝ) * (1 / 2) ^ 54 < 1 / 2 * 2 ^ (-(j : ℤ)) := by
    have : (2 : ℝ) ^ (-(j : ℤ)) = 2 ^ (k + 1) * (1 / 2) ^ 53 := by
      rw [← e53, mul_comm ((2 : ℝ) ^ 53), mul_assoc, ← mul_pow]; norm_num
    rw [this]
    have : (0 : ℝ) < (1 / 2) ^ 54 := by positivity
    nlinarith
  have hm : ((n * 2 ^ j : ℕ) : ℝ) * 2 ^ (-(j : ℤ)) = n := by
    push_cast; rw [mul_assoc, mul_comm ((2 : ℝ) ^ j), hz, mul_one]
  have hd1 : d < 1 := by
    have : (n : ℝ) < 2 ^ 52 := by exact_mod_cast hl
    have h2 : (n : ℝ) * (1 / 2) ^ 54 ≤ 2 ^ 52 * (1 / 2) ^ 54 := by gcongr
    have h3 : (2 : ℝ) ^ 52 * (1 / 2) ^ 54 < 1 := by norm_num
    linarith
  have := Binary.rd_eq 53 (x := n + d) (m := ((n * 2 ^ j : ℕ) : ℤ)) (e := -(j : ℤ)) (by norm_num)
    (by show (2 : ℝ) ^ 52 * _ ≤ _; rw [e52]; linarith) (by rw [e53]; linarith)
    (by rw [sub_mul]; rw [Int.cast_natCast, hm]; nlinarith) (by rw [add_mul]; rw [Int.cast_natCast, hm]; linarith)
  refine Eq.trans this ?_
  rw [Int.cast_natCast, hm]

/-- **C149** (deviation) In double precision with the default `alpha = 0.2` and counts exactly at the expected background, `n_on = n`, `n_off = 5 n`, the significance is NaN
instead of 0 (the value in exact arithmetic), for all `n` from 1 up to 5 * 10^14. -/
theorem C149_li_ma_nan {v : ℝ} {log : ℝ → ℝ} (hv : v < 1) (hl : LogWithin v log) (n : ℕ) (hn : 0 < n) (hn2 : n ≤ 500000000000000) :
    liMa double log n (5 * n) alphaDefault = .nan ∧ Stats.liMaSignificance (.fin n) (.fin (5 * n)) (.fin alphaDefault) = .fin 0 := by
  refine ⟨?_, ?_⟩
  swap
  · have ha : 0 < alphaDefault := by rw [alphaDefault_eq]; norm_num
    have hn' : (0 : ℝ) < n := by exact_mod_cast hn
    obtain ⟨s, h1, h2, h3, h4, h5⟩ := Stats.C15_li_ma n (5 * n) alphaDefault (by positivity) (by positivity) ha
    rw [h1, h4 _]
    rw [alphaDefault_eq]
    norm_num
    nlinarith
  have hnp : (0 : ℝ) < n := by exact_mod_cast hn
  have hsum : double.add n (5 * n) = 6 * n := by
    have := double.nat (6 * n) (show 6 * n ≤ 2 ^ 53 by omega)
    push_cast at this
    unfold Rounding.add
    rw [show (n : ℝ) + 5 * n = 6 * n by ring, this]
  have hcmp : double.mul alphaDefault (5 * n) = n := by
    have e : alphaDefault * (5 * (n : ℝ)) = n + n * (1 / 2) ^ 54 := by
      rw [alphaDefault_eq]; norm_num; ring
    unfold Rounding.mul
    rw [e]
    exact double_nat_add hn (by omega) _ (by positivity) le_rfl
  obtain ⟨e1, e2, e3, e4, e5, e6⟩ := double_values
  have hon : onTerm double log n (5 * n) alphaDefault < 0 := by
    unfold onTerm
    rw [if_neg hnp.ne', hsum]
    have : double.div n (6 * n) = double.rd (1 / 6) := by
      unfold Rounding.div; congr 1; field_simp
    rw [this, e5]
    set x : ℝ := 9007199254740990 * (2 : ℝ) ^ (-53 : ℤ) with hx
    have hx0 : 0 < x := by rw [hx]; norm_num
    have hx1 : x < 1 := by rw [hx]; norm_num
    have hlog : Real.log x < 0 := Real.log_neg hx0 hx1
    have h := hl x hx0
    rw [abs_of_neg hlog, abs_le] at h
    have hneg : log x < 0 := by nlinarith
    have := double.pos (show 0 < -(n * log x) by nlinarith)
    rw [double.neg] at this
    unfold Rounding.mul
    linarith
  have hoff : offTerm double log n (5 * n) alphaDefault = 0 := by
    unfold offTerm
    rw [if_neg (by positivity), hsum]
    have : double.div (5 * n) (6 * n) = double.rd (5 / 6) := by
      unfold Rounding.div; congr 1; field_simp
    rw [this, e6]
    have h := hl 1 one_pos
    rw [Real.log_one, abs_zero, mul_zero, sub_zero] at h
    have : log 1 = 0 := abs_eq_zero.1 (le_antisymm h (abs_nonneg _))
    rw [this]
    unfold Rounding.mul
    rw [mul_zero]; exact double.zero
  rw [liMa_eq, hcmp, if_neg (lt_irrefl _)]
  have neg_rd : ∀ x : ℝ, x < 0 → double.rd x < 0 := by
    intro x hx
    have := double.pos (show 0 < -x by linarith)
    rw [double.neg] at this
    linarith
  have h1 : double.add (onTerm double log n (5 * n) alphaDefault) (offTerm double log n (5 * n) alphaDefault) < 0 := by
    rw [hoff]; unfold Rounding.add; rw [add_zero]; exact neg_rd _ hon
  have h2 : double.mul (double.add (onTerm double log n (5 * n) alphaDefault) (offTerm double log n (5 * n) alphaDefault)) 2 < 0 := by
    unfold Rounding.mul; exact neg_rd _ (by linarith)
  simp only [if_pos h2]

/-- **C149** (exact value) In exact arithmetic the square of the significance is twice the test statistic. -/
theorem C149_exact (nOn nOff alpha : ℝ) (h1 : 0 ≤ nOn) (h2 : 0 ≤ nOff) (ha : 0 < alpha) (h : alpha * nOff ≤ nOn) :
    Stats.liMaSignificance (.fin nOn) (.fin nOff) (.fin alpha) = .fin (Real.sqrt (2 * testStatistic nOn nOff alpha)) := by
  obtain ⟨s, e, -, e2, -⟩ := Stats.C15_li_ma nOn nOff alpha h1 h2 ha
  rw [e, e2 h]
  unfold Stats.formula17 testStatistic argOn argOff
  rw [Real.sqrt_mul (by norm_num)]
  have a1 : (if nOn = 0 then 0 else nOn * Real.log ((1 + alpha) / alpha * (nOn / (nOn + nOff)))) = nOn * Real.log ((1 + alpha) / alpha * (nOn / (nOn + nOff))) := by
    by_cases h : nOn = 0
    · rw [if_pos h, h, zero_mul]
    · rw [if_neg h]
  have a2 : (if nOff = 0 then 0 else nOff * Real.log ((1 + alpha) * (nOff / (nOn + nOff)))) = nOff * Real.log ((1 + alpha) * (nOff / (nOn + nOff))) := by
    by_cases h : nOff = 0
    · rw [if_pos h, h, zero_mul]
    · rw [if_neg h]
  rw [a1, a2]

theorem abs_log_le {x : ℝ} (h1 : 1 / 1000000 ≤ x) (h2 : x ≤ 1001) : |Real.log x| ≤ 14 := by
  have hx : 0 < x := by linarith
  have he : (1000000 : ℝ) ≤ Real.exp 14 := by
    have h := Real.exp_one_gt_d9
    have e : Real.exp 14 = Real.exp 1 ^ 14 := by rw [← Real.exp_nat_mul]; norm_num
    rw [e]
    calc (1000000 : ℝ) ≤ 2.7182818283 ^ 14 := by norm_num
      _ ≤ Real.exp 1 ^ 14 := by gcongr
  rw [abs_le]
  constructor
  · rw [Real.le_log_iff_exp_le hx, Real.exp_neg]
    refine le_trans ?_ h1
    rw [inv_eq_one_div]
    exact one_div_le_one_div_of_le (by norm_num) he
  · rw [Real.log_le_iff_le_exp hx]; linarith

/-- the sizes of the test statistic and of its error in double precision, down to a count just below the expected background -/
theorem ts_small {nOn nOff alpha : ℝ} (n1 : 0 ≤ nOn) (n2 : 0 ≤ nOff) (ht : nOn + nOff ≤ 1000000)
    (ha : 1 / 1000 ≤ alpha) (ha' : alpha ≤ 1000) (hge : (1 - (1 / 2) ^ 53) * (alpha * nOff) ≤ nOn) :
    0 ≤ testStatistic nOn nOff alpha ∧ testStatistic nOn nOff alpha ≤ 14000000 ∧ tsError ((1 / 2) ^ 53) ((1 / 2) ^ 52) nOn nOff alpha ≤ 1 / 10 ^ 8 := by
  have ap : 0 < alpha := by linarith
  set T := testStatistic nOn nOff alpha with hT
  have hT0 : 0 ≤ T := Stats.lmTS_nonneg n1 n2 ap
  -- the arguments of the logarithms
  have l1 : nOn ≠ 0 → |Real.log (argOn nOn nOff alpha)| ≤ 14 := by
    intro h
    have hp : 0 < nOn := lt_of_le_of_ne n1 (Ne.symm h)
    apply abs_log_le
    · unfold argOn
      rw [div_mul_div_comm, div_le_div_iff₀ (by norm_num) (by positivity)]
      have : nOff * alpha ≤ 2 * nOn := by nlinarith [mul_nonneg ap.le n2]
      nlinarith [mul_nonneg ap.le n1]
    · unfold argOn
      have q1 : (1 + alpha) / alpha ≤ 1001 := by rw [div_le_iff₀ ap]; linarith
      have q2 : nOn / (nOn + nOff) ≤ 1 := by rw [div_le_iff₀ (by linarith)]; linarith
      have q3 : 0 ≤ nOn / (nOn + nOff) := by positivity
      have q4 : 0 ≤ (1 + alpha) / alpha := by positivity
      nlinarith
  have l2 : nOff ≠ 0 → Real.log (argOff nOn nOff alpha) ≤ 14 ∧ nOff * |Real.log (argOff nOn nOff alpha)| ≤ 14 * nOff + 1000000 := by
    intro h
    have hp : 0 < nOff := lt_of_le_of_ne n2 (Ne.symm h)
    have hN : 0 < nOn + nOff := by linarith
    have hpos : 0 < argOff nOn nOff alpha := by unfold argOff; positivity
    have hle : argOff nOn nOff alpha ≤ 1001 := by
      unfold argOff
      have q3 : nOff / (nOn + nOff) ≤ 1 := by rw [div_le_iff₀ hN]; linarith
      nlinarith [div_nonneg n2 hN.le]
    by_cases h1 : 1 ≤ argOff nOn nOff alpha
    · have := abs_log_le (x := argOff nOn nOff alpha) (by linarith) hle
      refine ⟨(le_abs_self _).trans this, ?_⟩
      have := mul_le_mul_of_nonneg_left this n2
      linarith
    · have hneg : Real.log (argOff nOn nOff alpha) ≤ 0 := Real.log_nonpos hpos.le (not_le.mp h1).le
      refine ⟨by linarith, ?_⟩
      rw [abs_of_nonpos hneg]
      have k := Real.one_sub_inv_le_log_of_pos hpos
      have e : nOff * (argOff nOn nOff alpha)⁻¹ ≤ 1000000 := by
        unfold argOff
        have : nOff * ((1 + alpha) * (nOff / (nOn + nOff)))⁻¹ = (nOn + nOff) / (1 + alpha) := by field_simp
        rw [this, div_le_iff₀ (by linarith)]
        nlinarith
      nlinarith [mul_le_mul_of_nonneg_left k n2]
  -- the error
  have le : ∀ x : ℝ, logError ((1 / 2) ^ 53) ((1 / 2) ^ 52) x ≤ 34 / 10 ^ 17 * |Real.log x| + 6 / 10 ^ 16 := by
    intro x
    unfold logError
    have e : (1 + (1 / 2 : ℝ) ^ 53) * (1 + (1 / 2) ^ 52) * (|Real.log x| + 5 * (1 / 2) ^ 53 / (1 - (1 / 2) ^ 53)) - |Real.log x| =
      ((1 + (1 / 2 : ℝ) ^ 53) * (1 + (1 / 2) ^ 52) - 1) * |Real.log x| + (1 + (1 / 2 : ℝ) ^ 53) * (1 + (1 / 2) ^ 52) * (5 * (1 / 2) ^ 53 / (1 - (1 / 2) ^ 53)) := by ring
    rw [e]
    exact add_le_add (mul_le_mul_of_nonneg_right (by norm_num) (abs_nonneg _)) (by norm_num)
  have g1 : nOn * logError ((1 / 2) ^ 53) ((1 / 2) ^ 52) (argOn nOn nOff alpha) ≤ nOn * (55 / 10 ^ 16) := by
    by_cases h : nOn = 0
    · rw [h]; simp
    · refine mul_le_mul_of_nonneg_left ((le _).trans ?_) n1
      have := l1 h
      linarith
  have g2 : nOff * logError ((1 / 2) ^ 53) ((1 / 2) ^ 52) (argOff nOn nOff alpha) ≤ nOff * (55 / 10 ^ 16) + 34 / 10 ^ 11 := by
    by_cases h : nOff = 0
    · rw [h]; simp; norm_num
    · have a := mul_le_mul_of_nonneg_left (le (argOff nOn nOff alpha)) n2
      have b := (l2 h).2
      refine a.trans ?_
      have : nOff * (34 / 10 ^ 17 * |Real.log (argOff nOn nOff alpha)| + 6 / 10 ^ 16) = 34 / 10 ^ 17 * (nOff * |Real.log (argOff nOn nOff alpha)|) + nOff * (6 / 10 ^ 16) := by ring
      rw [this]
      nlinarith
  have gT : T ≤ 14000000 := by
    have k1 : nOn * Real.log (argOn nOn nOff alpha) ≤ nOn * 14 := by
      by_cases h : nOn = 0
      · rw [h]; simp
      · exact mul_le_mul_of_nonneg_left ((le_abs_self _).trans (l1 h)) n1
    have k2 : nOff * Real.log (argOff nOn nOff alpha) ≤ nOff * 14 := by
      by_cases h : nOff = 0
      · rw [h]; simp
      · exact mul_le_mul_of_nonneg_left (l2 h).1 n2
    rw [hT]; unfold testStatistic; linarith
  refine ⟨hT0, gT, ?_⟩
  unfold tsError
  rw [← hT, abs_of_nonneg hT0]
  have : nOn * logError ((1 / 2) ^ 53) ((1 / 2) ^ 52) (argOn nOn nOff alpha) + nOff * logError ((1 / 2) ^ 53) ((1 / 2) ^ 52) (argOff nOn nOff alpha) ≤ 60 / 10 ^ 10 := by
    have : (nOn + nOff) * (55 / 10 ^ 16) ≤ 1000000 * (55 / 10 ^ 16) := mul_le_mul_of_nonneg_right ht (by norm_num)
    norm_num at this g1 g2 ⊢
    linarith
  have a1 := mul_le_mul_of_nonneg_left this (show (0 : ℝ) ≤ 1 + (1 / 2) ^ 53 by positivity)
  have a2 := mul_le_mul_of_nonneg_left gT (show (0 : ℝ) ≤ (1 / 2) ^ 53 by positivity)
  refine (add_le_add a1 a2).trans ?_
  norm_num

/-- **C149** (double precision) In double precision with a logarithm accurate to one unit in the last place, `alpha` between 0.001 and 1000, and counts (integers or not) up to 10^6 events
in total: a significance of at least 1 is a number, and differs from the exact one by less than 10^-7. -/
theorem C149_double {log : ℝ → ℝ} (hl : LogWithin ((1 / 2) ^ 52) log) {nOn nOff alpha : ℝ} (n1 : 0 ≤ nOn) (n2 : 0 ≤ nOff) (ht : nOn + nOff ≤ 1000000)
    (ha : 1 / 1000 ≤ alpha) (ha' : alpha ≤ 1000) (hOn : double.Is nOn) (hge : alpha * nOff ≤ nOn) (S : ℝ)
    (hS : Stats.liMaSignificance (.fin nOn) (.fin nOff) (.fin alpha) = .fin S) (hS1 : 1 ≤ S) :
    ∃ s, liMa double log nOn nOff alpha = .fin s ∧ |s - S| ≤ 1 / 10000000 := by
  have ap : 0 < alpha := by linarith
  rw [C149_exact nOn nOff alpha n1 n2 ap hge] at hS
  have hS' := FV.fin.inj hS
  have hcmp : double.mul alpha nOff ≤ nOn := double.le_of_le hOn hge
  obtain ⟨-, -, -, main⟩ := C149_li_ma double (v := (1 / 2) ^ 52) (by positivity) hl n1 n2 ap
  have hu : double.u = (1 / 2) ^ 53 := rfl
  rw [hu] at main
  obtain ⟨hT0', gT, gE⟩ := ts_small n1 n2 ht ha ha' (le_trans (by nlinarith [mul_nonneg ap.le n2]) hge)
  set T := testStatistic nOn nOff alpha with hT
  set E := tsError ((1 / 2) ^ 53) ((1 / 2) ^ 52) nOn nOff alpha with hE
  have hT0 : 0 ≤ 2 * T := by linarith
  have hST : S ^ 2 = 2 * T := by rw [← hS', Real.sq_sqrt hT0]
  have gET : E < T := by nlinarith
  obtain ⟨s, hs, lo, hi⟩ := main hcmp gET
  refine ⟨s, hs, ?_⟩
  have hS2 : S ≤ 5300 := by nlinarith
  have up : Real.sqrt ((1 + (1 / 2) ^ 53) * (2 * (T + E))) ≤ S + 3 / 10 ^ 8 := by
    rw [Real.sqrt_le_left (by linarith)]
    have : (1 + (1 / 2 : ℝ) ^ 53) * (2 * (T + E)) ≤ S ^ 2 + 2 / 10 ^ 8 + (1 / 2) ^ 53 * (2 * 14000000 + 2 / 10 ^ 8) := by
      have := mul_le_mul_of_nonneg_left (show 2 * (T + E) ≤ 2 * 14000000 + 2 / 10 ^ 8 by linarith) (show (0 : ℝ) ≤ (1 / 2) ^ 53 by positivity)
      rw [add_mul, one_mul]
      linarith
    refine this.trans ?_
    norm_num
    nlinarith
  have dn : S - 3 / 10 ^ 8 ≤ Real.sqrt ((1 - (1 / 2) ^ 53) * (2 * (T - E))) := by
    apply Real.le_sqrt_of_sq_le
    have : S ^ 2 - 2 / 10 ^ 8 - (1 / 2) ^ 53 * (2 * 14000000) ≤ (1 - (1 / 2 : ℝ) ^ 53) * (2 * (T - E)) := by
      have hE0 : 0 ≤ E := by
        have hh := ts_error double (v := (1 / 2) ^ 52) (by positivity) hl n1 n2 ap
        exact (abs_nonneg _).trans hh
      have := mul_le_mul_of_nonneg_left (show 2 * (T - E) ≤ 2 * 14000000 by linarith) (show (0 : ℝ) ≤ (1 / 2) ^ 53 by positivity)
      rw [sub_mul, one_mul]
      linarith
    refine le_trans ?_ this
    norm_num
    nlinarith
  have up2 := mul_le_mul_of_nonneg_left up (show (0 : ℝ) ≤ 1 + (1 / 2) ^ 53 by positivity)
  have dn2 := mul_le_mul_of_nonneg_left dn (show (0 : ℝ) ≤ 1 - (1 / 2) ^ 53 by norm_num)
  have hi2 := hi.trans up2
  have lo2 := dn2.trans lo
  norm_num at hi2 lo2 ⊢
  rw [abs_le]
  constructor <;> linarith

/-- **C149** (without rounding) In exact arithmetic it is the significance of C15 and C16. -/
theorem C149_agrees (k : ℕ) (hk : 1 ≤ k) (nOn nOff alpha : ℝ) (h1 : 0 ≤ nOn) (h2 : 0 ≤ nOff) (ha : 0 < alpha) :
    liMa (Rounding.exact k hk) Real.log nOn nOff alpha = Stats.liMaSignificance (.fin nOn) (.fin nOff) (.fin alpha) := by
  have hts : (Rounding.exact k hk).add (onTerm (Rounding.exact k hk) Real.log nOn nOff alpha) (offTerm (Rounding.exact k hk) Real.log nOn nOff alpha) = testStatistic nOn nOff alpha := by
    have := ts_error (Rounding.exact k hk) (v := 0) (log := Real.log) le_rfl (fun x _ => by simp) h1 h2 ha
    have e : tsError (Rounding.exact k hk).u 0 nOn nOff alpha = 0 := by
      show tsError 0 0 nOn nOff alpha = 0
      simp [tsError, logError]
    rw [e] at this
    have := abs_eq_zero.1 (le_antisymm this (abs_nonneg _))
    linarith
  rw [liMa_eq, hts]
  by_cases h : nOn < alpha * nOff
  · obtain ⟨s, e, -, -, e3, -⟩ := Stats.C15_li_ma nOn nOff alpha h1 h2 ha
    rw [e, e3 h]
    exact if_pos h
  · rw [C149_exact nOn nOff alpha h1 h2 ha (not_lt.1 h)]
    have hT : 0 ≤ testStatistic nOn nOff alpha := by
      exact Stats.lmTS_nonneg h1 h2 ha
    refine (if_neg h).trans ?_
    show (if testStatistic nOn nOff alpha * 2 < 0 then FV.nan else FV.fin (Real.sqrt (testStatistic nOn nOff alpha * 2))) = _
    rw [if_neg (by linarith), mul_comm]

/-- **C149** (bin centers) If twice a floating point number is one (no overflow): the computed center of a bin lies between its edges, the center of an empty bin is its edge, and centers of
bins one above the other do not decrease; up to two roundings it is the exact center. -/
theorem C149_bin_center (hdouble : ∀ x, R.Is x → R.Is (2 * x)) {lo hi lo' hi' : ℝ} (h1 : R.Is lo) (h2 : R.Is hi) (h : lo ≤ hi) (hl : lo ≤ lo') (hh : hi ≤ hi') :
    lo ≤ binCenter R lo hi ∧ binCenter R lo hi ≤ hi ∧ binCenter R lo lo = lo ∧ binCenter R lo hi ≤ binCenter R lo' hi' ∧
    |binCenter R lo hi - (lo + hi) / 2| ≤ (2 * R.u + R.u ^ 2) * (|lo + hi| / 2) := by
  have a1 : 2 * lo ≤ R.add lo hi := R.ge_of_ge (hdouble lo h1) (by linarith)
  have a2 : R.add lo hi ≤ 2 * hi := R.le_of_le (hdouble hi h2) (by linarith)
  have h0 := R.u_nonneg
  refine ⟨R.ge_of_ge h1 (by linarith), R.le_of_le h2 (by linarith), ?_, ?_, ?_⟩
  · unfold binCenter Rounding.mul Rounding.add
    rw [show lo + lo = 2 * lo by ring, hdouble lo h1, show 1 / 2 * (2 * lo) = lo by ring]
    exact h1
  · apply R.mono
    have : R.add lo hi ≤ R.add lo' hi' := R.mono (by linarith)
    linarith
  · have c1 := R.close (lo + hi)
    have c2 := R.close (1 / 2 * R.add lo hi)
    have e : binCenter R lo hi - (lo + hi) / 2 = (R.rd (1 / 2 * R.add lo hi) - 1 / 2 * R.add lo hi) + 1 / 2 * (R.rd (lo + hi) - (lo + hi)) := by
      unfold binCenter Rounding.mul; rw [show R.add lo hi = R.rd (lo + hi) from rfl]; ring
    rw [e]
    refine (abs_add_le _ _).trans ?_
    rw [abs_mul (1 / 2) (R.rd (lo + hi) - (lo + hi)), abs_of_pos (by norm_num : (0 : ℝ) < 1 / 2)]
    rw [abs_mul, abs_of_pos (by norm_num : (0 : ℝ) < 1 / 2)] at c2
    have c3 : |R.add lo hi| ≤ (1 + R.u) * |lo + hi| := by
      have := abs_sub_abs_le_abs_sub (R.rd (lo + hi)) (lo + hi)
      unfold Rounding.add
      linarith
    have c4 := mul_le_mul_of_nonneg_left c3 h0
    nlinarith

/-- binary rounding meets the hypothesis on doubling -/
theorem binary_double (p : ℕ) (hp : 1 ≤ p) (x : ℝ) (h : (Rounding.binary p hp).Is x) : (Rounding.binary p hp).Is (2 * x) := by
  show Binary.rd p (2 * x) = 2 * x
  rw [Binary.rd_double]
  have : Binary.rd p x = x := h
  rw [this]

/-! ## The hypotheses are satisfiable -/

example : LogWithin ((1 / 2) ^ 52) Real.log := fun x _ => by rw [sub_self, abs_zero]; positivity

/-- 10 events with 2 background events and `alpha = 0.2`: the computed significance is a number close to the exact one -/
example {log : ℝ → ℝ} (hl : LogWithin ((1 / 2) ^ 52) log) :
    ∃ S s, Stats.liMaSignificance (.fin 10) (.fin 2) (.fin (1 / 5)) = .fin S ∧ 1 ≤ S ∧ liMa double log 10 2 (1 / 5) = .fin s ∧ |s - S| ≤ 1 / 10000000 := by
  have hS := C149_exact 10 2 (1 / 5) (by norm_num) (by norm_num) (by norm_num) (by norm_num)
  have hT : testStatistic 10 2 (1 / 5) = 8 * Real.log 5 := by
    unfold testStatistic argOn argOff
    have e : Real.log ((1 + 1 / 5) * (2 / (10 + 2))) = -Real.log 5 := by rw [← Real.log_inv]; norm_num
    rw [e]
    norm_num
    ring
  have h5 : 1 ≤ Real.log 5 := by
    rw [Real.le_log_iff_exp_le (by norm_num)]
    have := Real.exp_one_lt_d9
    linarith
  have hS1 : 1 ≤ Real.sqrt (2 * testStatistic 10 2 (1 / 5)) := by
    apply Real.le_sqrt_of_sq_le
    rw [hT]; linarith
  obtain ⟨s, h1, h2⟩ := C149_double hl (by norm_num) (by norm_num) (by norm_num) (by norm_num) (by norm_num)
    (by have := double.nat 10 (show 10 ≤ 2 ^ 53 by norm_num); exact_mod_cast this) (by norm_num) _ hS hS1
  exact ⟨_, s, hS, hS1, h1, h2⟩

/-- 20 events for 100 background events with the default `alpha`: NaN -/
example : liMa double Real.log 20 100 alphaDefault = .nan := by
  have := (C149_li_ma_nan (v := 0) (log := Real.log) (by norm_num) (fun x _ => by simp) 20 (by norm_num) (by norm_num)).1
  norm_num at this
  exact this

end Pyirf.Rounded
