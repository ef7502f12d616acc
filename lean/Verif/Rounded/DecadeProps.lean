import Verif.Rounded.Model
import Mathlib.Analysis.SpecialFunctions.Log.Base
import Mathlib.Analysis.SpecialFunctions.Pow.Real
import Mathlib.Analysis.Complex.ExponentialBounds

/-!
# C146: bins per decade in rounded arithmetic
-/
set_option linter.unusedSectionVars false
set_option linter.unusedSimpArgs false

namespace Pyirf.Rounded
open Pyirf Pyirf.Np

/-! ## Specification -/

/-- numpy's `log10` and `10 ** x`: the logarithm has an absolute error of at most `δ`, the power a relative error of at most `ρ`. -/
structure LogPow (log10 pow10 : ℝ → ℝ) (δ ρ : ℝ) : Prop where
  log : ∀ x, 0 < x → |log10 x - Real.logb 10 x| ≤ δ
  pow : ∀ y, |pow10 y - (10 : ℝ) ^ y| ≤ ρ * (10 : ℝ) ^ y

variable (R : Rounding)

/-! ## Errors -/

theorem step_bounds {n : ℕ} (hn : 1 ≤ n) : (1 - R.u) / n ≤ R.div 1 n ∧ R.div 1 n ≤ (1 + R.u) / n := by
  have hn' : (0 : ℝ) < n := by exact_mod_cast hn
  have := R.bounds (show 0 ≤ 1 / (n : ℝ) by positivity)
  rwa [mul_one_div, mul_one_div] at this

set_option maxHeartbeats 1000000 in
theorem count_err (hu : R.u ≤ 1 / 1000) {n : ℕ} (hn : 1 ≤ n) (L U : ℝ) :
    |R.div (R.sub (R.add U (R.div (R.div 1 n) 10000)) L) (R.div 1 n) - n * (U - L + R.div (R.div 1 n) 10000)| ≤ 5 * R.u * (|L| + |U| + 1) * n ∧
    998 / 10000000 ≤ n * R.div (R.div 1 n) 10000 ∧ n * R.div (R.div 1 n) 10000 ≤ 1003 / 10000000 := by
  have hu0 := R.u_nonneg
  have hn' : (1 : ℝ) ≤ n := by exact_mod_cast hn
  have hn0 : (0 : ℝ) < n := by linarith
  obtain ⟨s1, s2⟩ := step_bounds R hn
  set step := R.div 1 n with hstep
  rw [div_le_iff₀ hn0] at s1
  rw [le_div_iff₀ hn0] at s2
  have hs0 : 0 < step := by
    by_contra h
    push Not at h
    nlinarith
  have hs1 : step ≤ 1001 / 1000 := by nlinarith
  obtain ⟨e1, e2⟩ := R.bounds (show 0 ≤ step / 10000 by positivity)
  set eps := R.div step 10000 with heps
  have e1' : (1 - R.u) * (step / 10000) ≤ eps := e1
  have e2' : eps ≤ (1 + R.u) * (step / 10000) := e2
  have heps0 : 0 ≤ eps := le_trans (mul_nonneg (by linarith) (by positivity)) e1'
  have hn1 : 999 / 1000 ≤ step * n := by linarith
  have hn2 : step * n ≤ 1001 / 1000 := by linarith
  have l1 : 998 / 10000000 ≤ n * eps := by
    have h1 : n * ((1 - R.u) * (step / 10000)) ≤ n * eps := mul_le_mul_of_nonneg_left e1' hn0.le
    have h2 : (999 / 1000) * (999 / 1000) ≤ (1 - R.u) * (step * n) := mul_le_mul (by linarith) hn1 (by norm_num) (by linarith)
    nlinarith
  have l2 : n * eps ≤ 1003 / 10000000 := by
    have h1 : n * eps ≤ n * ((1 + R.u) * (step / 10000)) := mul_le_mul_of_nonneg_left e2' hn0.le
    have h2 : (1 + R.u) * (step * n) ≤ (1001 / 1000) * (1001 / 1000) := mul_le_mul (by linarith) hn2 (by positivity) (by norm_num)
    nlinarith
  have heps1 : eps ≤ 1 := by nlinarith
  refine ⟨?_, l1, l2⟩
  set S := |L| + |U| + 1 with hS
  have hL := abs_nonneg L
  have hU := abs_nonneg U
  have hS1 : 1 ≤ S := by linarith
  -- the upper end
  have b := R.close (U + eps)
  set B := R.add U eps with hB
  have hb : |B - (U + eps)| ≤ R.u * S := by
    refine b.trans (mul_le_mul_of_nonneg_left ?_ hu0)
    refine (abs_add_le _ _).trans ?_
    rw [abs_of_nonneg heps0]
    linarith
  have a := R.close (B - L)
  set A := R.sub B L with hA
  have huS : R.u * S ≤ 1 / 1000 * S := mul_le_mul_of_nonneg_right hu (by linarith)
  have hBL : |B - L| ≤ 1001 / 1000 * S := by
    have : B - L = (B - (U + eps)) + (U + eps - L) := by ring
    rw [this]
    refine (abs_add_le _ _).trans ?_
    have h3 : |U + eps - L| ≤ S := by
      rw [abs_le]
      constructor <;> cases abs_cases U <;> cases abs_cases L <;> linarith
    linarith
  have ha : |A - (U - L + eps)| ≤ 2001 / 1000 * (R.u * S) := by
    have : A - (U - L + eps) = (A - (B - L)) + (B - (U + eps)) := by ring
    rw [this]
    refine (abs_add_le _ _).trans ?_
    have h4 : |A - (B - L)| ≤ R.u * (1001 / 1000 * S) := a.trans (mul_le_mul_of_nonneg_left hBL hu0)
    linarith
  have hAabs : |A| ≤ 1003 / 1000 * S := by
    have h3 : |U - L + eps| ≤ S := by
      rw [abs_le]
      constructor <;> cases abs_cases U <;> cases abs_cases L <;> linarith
    have : A = (A - (U - L + eps)) + (U - L + eps) := by ring
    rw [this]
    refine (abs_add_le _ _).trans ?_
    nlinarith
  -- division by the step
  have hinv : 1 / step ≤ 1002 / 1000 * n := by
    rw [div_le_iff₀ hs0]
    nlinarith
  have hdiff : |1 / step - n| ≤ R.u * (1002 / 1000 * n) := by
    have : 1 / step - n = (1 - step * n) * (1 / step) := by field_simp
    rw [this, abs_mul, abs_of_pos (show 0 < 1 / step by positivity)]
    refine mul_le_mul ?_ hinv (by positivity) hu0
    rw [abs_le]
    constructor <;> linarith
  have hQ : |A / step| ≤ 1003 / 1000 * S * (1002 / 1000 * n) := by
    rw [div_eq_mul_one_div, abs_mul, abs_of_pos (show 0 < 1 / step by positivity)]
    exact mul_le_mul hAabs hinv (by positivity) (by positivity)
  have hQn : |A / step - n * A| ≤ 1003 / 1000 * S * (R.u * (1002 / 1000 * n)) := by
    have : A / step - n * A = A * (1 / step - n) := by ring
    rw [this, abs_mul]
    exact mul_le_mul hAabs hdiff (abs_nonneg _) (by positivity)
  have q := R.close (A / step)
  have hq : |R.div A step - A / step| ≤ R.u * (1003 / 1000 * S * (1002 / 1000 * n)) := q.trans (mul_le_mul_of_nonneg_left hQ hu0)
  have hfin : |n * A - n * (U - L + eps)| ≤ n * (2001 / 1000 * (R.u * S)) := by
    rw [← mul_sub, abs_mul, abs_of_pos hn0]
    exact mul_le_mul_of_nonneg_left ha hn0.le
  have : R.div A step - n * (U - L + eps) = (R.div A step - A / step) + (A / step - n * A) + (n * A - n * (U - L + eps)) := by ring
  rw [this]
  refine (abs_add_three _ _ _).trans ?_
  have hX : 0 ≤ R.u * S * n := by positivity
  nlinarith

/-- the number of edges -/
noncomputable def nEdges (L U : ℝ) (n : ℕ) : ℕ := ⌈R.div (R.sub (R.add U (R.div (R.div 1 n) 10000)) L) (R.div 1 n)⌉.toNat

theorem nEdges_eq (hu : R.u ≤ 1 / 1000) {n : ℕ} (hn : 1 ≤ n) (L U L₀ U₀ δ : ℝ) (hL : |L - L₀| ≤ δ) (hU : |U - U₀| ≤ δ) (hacc : (5 * R.u * (|L| + |U| + 1) + 2 * δ) * n ≤ 9 / 100000)
    (m : ℕ) (h1 : (m : ℝ) - 9 / 1000000 ≤ n * (U₀ - L₀)) (h2 : n * (U₀ - L₀) ≤ m + 1 - 2 / 10000) : nEdges R L U n = m + 1 := by
  obtain ⟨h, l1, l2⟩ := count_err R hu hn L U
  have hn' : (1 : ℝ) ≤ n := by exact_mod_cast hn
  have hd : |n * (U - L) - n * (U₀ - L₀)| ≤ 2 * δ * n := by
    have : n * (U - L) - n * (U₀ - L₀) = n * ((U - U₀) - (L - L₀)) := by ring
    rw [this, abs_mul, abs_of_pos (by linarith : (0 : ℝ) < n), mul_comm]
    refine mul_le_mul_of_nonneg_right ?_ (by linarith)
    refine (abs_sub _ _).trans ?_
    linarith
  obtain ⟨d1, d2⟩ := abs_le.mp hd
  obtain ⟨q1, q2⟩ := abs_le.mp h
  unfold nEdges
  have : ⌈R.div (R.sub (R.add U (R.div (R.div 1 n) 10000)) L) (R.div 1 n)⌉ = (m : ℤ) + 1 := by
    rw [Int.ceil_eq_iff]
    push_cast
    constructor
    · nlinarith
    · nlinarith
  rw [this]
  omega

/-- the exponent of edge `k` -/
noncomputable def exponent (L : ℝ) (n k : ℕ) : ℝ :=
  if k = 0 then L else if k = 1 then R.add L (R.div 1 n) else R.add L (R.mul k (R.sub (R.add L (R.div 1 n)) L))

set_option maxHeartbeats 1000000 in
theorem exponent_err (hu : R.u ≤ 1 / 1000) {n : ℕ} (hn : 1 ≤ n) (L : ℝ) (k : ℕ) (hk : (6 : ℝ) * R.u * (|L| + 2) ≤ 1) : |exponent R L n k - (L + k / n)| ≤ 7 * R.u * (k + 1) * (|L| + 2) := by
  have hu0 := R.u_nonneg
  have hn' : (1 : ℝ) ≤ n := by exact_mod_cast hn
  have hn0 : (0 : ℝ) < n := by linarith
  have hL := abs_nonneg L
  have hT0 : 2 ≤ |L| + 2 := by linarith
  have hk0 : (0 : ℝ) ≤ k := Nat.cast_nonneg k
  have hinv : 1 / (n : ℝ) ≤ 1 := by rw [div_le_one hn0]; exact hn'
  have hinv0 : 0 ≤ 1 / (n : ℝ) := by positivity
  set T := |L| + 2 with hT
  -- the step
  have st := R.close (1 / (n : ℝ))
  rw [abs_of_nonneg hinv0] at st
  set step := R.div 1 n with hstep
  have st' : |step - 1 / n| ≤ R.u := by
    refine st.trans ?_
    nlinarith
  obtain ⟨st1, st2⟩ := abs_le.mp st'
  -- the second value
  have sc := R.close (L + step)
  set s := R.add L step with hs
  have hLs : |L + step| ≤ T := by
    refine (abs_add_le _ _).trans ?_
    have : |step| ≤ 2 := by rw [abs_le]; constructor <;> linarith
    linarith
  have sc' : |s - (L + step)| ≤ R.u * T := sc.trans (mul_le_mul_of_nonneg_left hLs hu0)
  have huT : 0 ≤ R.u * T := by positivity
  unfold exponent
  split
  · rename_i h0
    subst h0
    simp only [Nat.cast_zero, zero_div, add_zero, sub_self, abs_zero]
    positivity
  split
  · rename_i h1
    subst h1
    have : s - (L + ((1 : ℕ) : ℝ) / n) = (s - (L + step)) + (step - 1 / n) := by push_cast; ring
    rw [this]
    refine (abs_add_le _ _).trans ?_
    push_cast
    nlinarith
  · -- the difference
    have dl := R.close (s - L)
    set d := R.sub s L with hd
    have hsL : |s - L| ≤ 2 * T := by
      have : s - L = (s - (L + step)) + step := by ring
      rw [this]
      refine (abs_add_le _ _).trans ?_
      have : |step| ≤ 1001 / 1000 := by rw [abs_le]; constructor <;> linarith
      nlinarith
    have hsL2 : |s - L| ≤ 1001 / 1000 + R.u * T := by
      have : s - L = (s - (L + step)) + step := by ring
      rw [this]
      refine (abs_add_le _ _).trans ?_
      have : |step| ≤ 1001 / 1000 := by rw [abs_le]; constructor <;> linarith
      linarith
    have hderr : |d - 1 / n| ≤ 3 * (R.u * T) := by
      have : d - 1 / n = (d - (s - L)) + (s - (L + step)) + (step - 1 / n) := by ring
      rw [this]
      refine (abs_add_three _ _ _).trans ?_
      have h3 : |d - (s - L)| ≤ R.u * (1001 / 1000 + R.u * T) := dl.trans (mul_le_mul_of_nonneg_left hsL2 hu0)
      have h4 : R.u * (R.u * T) ≤ 1 / 1000 * (R.u * T) := mul_le_mul_of_nonneg_right hu huT
      have h5 : R.u * 2 ≤ R.u * T := mul_le_mul_of_nonneg_left hT0 hu0
      linarith
    have hdabs : |d| ≤ 3 / 2 := by
      obtain ⟨x1, x2⟩ := abs_le.mp hderr
      rw [abs_le]
      constructor <;> linarith
    have mk := R.close ((k : ℝ) * d)
    set M := R.mul k d with hM
    have hkd : |(k : ℝ) * d| ≤ 3 / 2 * k := by rw [abs_mul, abs_of_nonneg hk0]; nlinarith
    have hMerr : |M - k * d| ≤ R.u * (3 / 2 * k) := mk.trans (mul_le_mul_of_nonneg_left hkd hu0)
    have hMk : |M - k / n| ≤ k * (15 / 4 * (R.u * T)) := by
      have : M - k / n = (M - k * d) + k * (d - 1 / n) := by ring
      rw [this]
      refine (abs_add_le _ _).trans ?_
      rw [abs_mul, abs_of_nonneg hk0]
      have h3 := mul_le_mul_of_nonneg_left hderr hk0
      have h5 : R.u * 2 * k ≤ R.u * T * k := mul_le_mul_of_nonneg_right (mul_le_mul_of_nonneg_left hT0 hu0) hk0
      nlinarith
    have hMabs : |M| ≤ 2 * k := by
      obtain ⟨x1, x2⟩ := abs_le.mp hMerr
      obtain ⟨y1, y2⟩ := abs_le.mp hkd
      rw [abs_le]
      constructor <;> nlinarith
    have e := R.close (L + M)
    have he : |R.add L M - (L + M)| ≤ R.u * (|L| + 2 * k) := e.trans (mul_le_mul_of_nonneg_left ((abs_add_le _ _).trans (by linarith)) hu0)
    have : R.add L M - (L + k / n) = (R.add L M - (L + M)) + (M - k / n) := by ring
    rw [this]
    refine (abs_add_le _ _).trans ?_
    have h5 : R.u * 2 * k ≤ R.u * T * k := mul_le_mul_of_nonneg_right (mul_le_mul_of_nonneg_left hT0 hu0) hk0
    have h6 : R.u * |L| ≤ R.u * T := mul_le_mul_of_nonneg_left (by linarith) hu0
    have h7 : 0 ≤ R.u * T * k := by positivity
    nlinarith

theorem createBins_eq (log10 pow10 : ℝ → ℝ) (eMin eMax : ℝ) (n : ℕ) :
    createBinsPerDecade R log10 pow10 eMin eMax n = (List.range (nEdges R (log10 eMin) (log10 eMax) n)).map fun k => pow10 (exponent R (log10 eMin) n k) := by
  unfold createBinsPerDecade arange
  simp only [List.map_map]
  rfl

/-! ## Property -/

/-- **C146** Rounding does not change the number of edges, and the end point is included although rounding may place it slightly too high or too low (this is what the `eps` in the code is for): let the accuracy be
`5 u (|log10 e_min| + |log10 e_max| + 1) + 2 δ ≤ 9e-5 / bins_per_decade`. If `e_max` is `m` steps above `e_min`, up to 9e-6 steps too low or almost one step (2e-4 less) too high, there are exactly `m + 1` edges. The edge `k` is
`e_min 10^(k/bins_per_decade)` up to a factor between `10^-τ (1-ρ)` and `10^τ (1+ρ)` with `τ = δ + 7 u (k+1) (|log10 e_min| + 2)`. -/
theorem C146_edges (hu : R.u ≤ 1 / 1000) (log10 pow10 : ℝ → ℝ) (δ ρ : ℝ) (hlp : LogPow log10 pow10 δ ρ) (hρ : ρ ≤ 1) (eMin eMax : ℝ) (h0 : 0 < eMin) (h1 : 0 < eMax) (n : ℕ) (hn : 1 ≤ n)
    (hacc : (5 * R.u * (|log10 eMin| + |log10 eMax| + 1) + 2 * δ) * n ≤ 9 / 100000)
    (m : ℕ) (hlo : (m : ℝ) - 9 / 1000000 ≤ n * Real.logb 10 (eMax / eMin)) (hhi : n * Real.logb 10 (eMax / eMin) ≤ m + 1 - 2 / 10000) :
    (createBinsPerDecade R log10 pow10 eMin eMax n).length = m + 1 ∧
    ∀ k ≤ m, ∃ e, (createBinsPerDecade R log10 pow10 eMin eMax n)[k]? = some e ∧
      (1 - ρ) * (10 : ℝ) ^ (-(δ + 7 * R.u * (k + 1) * (|log10 eMin| + 2))) * (eMin * (10 : ℝ) ^ ((k : ℝ) / n)) ≤ e ∧
      e ≤ (1 + ρ) * (10 : ℝ) ^ (δ + 7 * R.u * (k + 1) * (|log10 eMin| + 2)) * (eMin * (10 : ℝ) ^ ((k : ℝ) / n)) := by
  have hn' : (1 : ℝ) ≤ n := by exact_mod_cast hn
  have hu0 := R.u_nonneg
  have hL := hlp.log eMin h0
  have hU := hlp.log eMax h1
  have hδ : 0 ≤ δ := (abs_nonneg _).trans hL
  rw [Real.logb_div h1.ne' h0.ne'] at hlo hhi
  have hN := nEdges_eq R hu hn _ _ _ _ δ hL hU hacc m hlo hhi
  rw [createBins_eq, hN]
  refine ⟨by simp, fun k hk => ?_⟩
  refine ⟨pow10 (exponent R (log10 eMin) n k), by simp [Nat.lt_succ_of_le hk], ?_⟩
  have hX : 0 ≤ R.u * (|log10 eMin| + |log10 eMax| + 1) := by positivity
  have hacc1 : 5 * R.u * (|log10 eMin| + |log10 eMax| + 1) ≤ 9 / 100000 := by
    have h3 : (5 * R.u * (|log10 eMin| + |log10 eMax| + 1) + 2 * δ) * 1 ≤ (5 * R.u * (|log10 eMin| + |log10 eMax| + 1) + 2 * δ) * n :=
      mul_le_mul_of_nonneg_left hn' (by nlinarith)
    linarith
  have hk1 : (6 : ℝ) * R.u * (|log10 eMin| + 2) ≤ 1 := by
    have hA := mul_nonneg hu0 (abs_nonneg (log10 eMax))
    nlinarith
  have herr := exponent_err R hu hn (log10 eMin) k hk1
  set y := exponent R (log10 eMin) n k with hy
  set τ := δ + 7 * R.u * (k + 1) * (|log10 eMin| + 2) with hτ
  have hyτ : |y - (Real.logb 10 eMin + k / n)| ≤ τ := by
    have : y - (Real.logb 10 eMin + k / n) = (log10 eMin - Real.logb 10 eMin) + (y - (log10 eMin + k / n)) := by ring
    rw [this]
    refine (abs_add_le _ _).trans ?_
    linarith
  obtain ⟨y1, y2⟩ := abs_le.mp hyτ
  have hpow : (10 : ℝ) ^ (Real.logb 10 eMin + k / n) = eMin * (10 : ℝ) ^ ((k : ℝ) / n) := by
    rw [Real.rpow_add (by norm_num), Real.rpow_logb (by norm_num) (by norm_num) h0]
  obtain ⟨p1, p2⟩ := abs_le.mp (hlp.pow y)
  have hpos : (0 : ℝ) < (10 : ℝ) ^ y := Real.rpow_pos_of_pos (by norm_num) y
  have hρ0 : 0 ≤ ρ := by
    have h5 := (abs_nonneg _).trans (hlp.pow y)
    by_contra h
    push Not at h
    nlinarith
  constructor
  · have h3 : (10 : ℝ) ^ (-τ) * (eMin * (10 : ℝ) ^ ((k : ℝ) / n)) ≤ (10 : ℝ) ^ y := by
      rw [← hpow, ← Real.rpow_add (by norm_num)]
      exact Real.rpow_le_rpow_of_exponent_le (by norm_num) (by linarith)
    rw [mul_assoc]
    refine (mul_le_mul_of_nonneg_left h3 (by linarith)).trans ?_
    linarith
  · have h3 : (10 : ℝ) ^ y ≤ (10 : ℝ) ^ τ * (eMin * (10 : ℝ) ^ ((k : ℝ) / n)) := by
      rw [← hpow, ← Real.rpow_add (by norm_num)]
      exact Real.rpow_le_rpow_of_exponent_le (by norm_num) (by linarith)
    rw [mul_assoc]
    refine le_trans ?_ (mul_le_mul_of_nonneg_left h3 (by linarith))
    linarith

set_option maxHeartbeats 1000000 in
/-- **C146** The edges increase strictly if `28 u (m+1) (|log10 e_min| + 2) bins_per_decade ≤ 1` and `ρ bins_per_decade ≤ 1/8`. -/
theorem C146_increasing (hu : R.u ≤ 1 / 1000) (log10 pow10 : ℝ → ℝ) (δ ρ : ℝ) (hlp : LogPow log10 pow10 δ ρ) (eMin eMax : ℝ) (n : ℕ) (hn : 1 ≤ n)
    (hacc : 28 * R.u * (createBinsPerDecade R log10 pow10 eMin eMax n).length * (|log10 eMin| + 2) * n ≤ 1) (hρ : ρ * n ≤ 1 / 8) :
    (createBinsPerDecade R log10 pow10 eMin eMax n).Pairwise (· < ·) := by
  have hn' : (1 : ℝ) ≤ n := by exact_mod_cast hn
  have hn0 : (0 : ℝ) < n := by linarith
  have hu0 := R.u_nonneg
  have hL := abs_nonneg (log10 eMin)
  rw [createBins_eq] at hacc ⊢
  rw [List.length_map, List.length_range] at hacc
  set N := nEdges R (log10 eMin) (log10 eMax) n with hN
  rw [List.pairwise_map]
  refine List.Pairwise.imp_of_mem ?_ (List.pairwise_lt_range (n := N))
  intro i j hi hj hij
  rw [List.mem_range] at hi hj
  have hN1 : (1 : ℝ) ≤ N := by exact_mod_cast (by omega : 1 ≤ N)
  set X := R.u * (|log10 eMin| + 2) with hX
  have hX0 : 0 ≤ X := by positivity
  have hXN : 28 * X * N * n ≤ 1 := by
    have : 28 * X * N * n = 28 * R.u * N * (|log10 eMin| + 2) * n := by rw [hX]; ring
    linarith
  have hk1 : (6 : ℝ) * R.u * (|log10 eMin| + 2) ≤ 1 := by
    have h3 : 28 * X * 1 * 1 ≤ 28 * X * N * n := by
      refine mul_le_mul (mul_le_mul_of_nonneg_left hN1 (by linarith)) hn' (by norm_num) (by positivity)
    have : 6 * R.u * (|log10 eMin| + 2) = 6 * X := by rw [hX]; ring
    linarith
  have ei := exponent_err R hu hn (log10 eMin) i hk1
  have ej := exponent_err R hu hn (log10 eMin) j hk1
  have hb : ∀ k : ℕ, k < N → 7 * R.u * (k + 1) * (|log10 eMin| + 2) ≤ 1 / (4 * n) := by
    intro k hk
    have hk' : (k : ℝ) + 1 ≤ N := by exact_mod_cast hk
    rw [le_div_iff₀ (by positivity)]
    have h3 : X * (k + 1) * n ≤ X * N * n := mul_le_mul_of_nonneg_right (mul_le_mul_of_nonneg_left hk' hX0) hn0.le
    have : 7 * R.u * (k + 1) * (|log10 eMin| + 2) * (4 * n) = 28 * (X * (k + 1) * n) := by rw [hX]; ring
    linarith
  obtain ⟨i1, i2⟩ := abs_le.mp (ei.trans (hb i hi))
  obtain ⟨j1, j2⟩ := abs_le.mp (ej.trans (hb j hj))
  have hij' : (i : ℝ) / n + 1 / n ≤ j / n := by
    rw [← add_div]
    have : (i : ℝ) + 1 ≤ j := by exact_mod_cast hij
    gcongr
  have e4 : 1 / (4 * (n : ℝ)) = 1 / n / 4 := by field_simp
  have hdiff : exponent R (log10 eMin) n i + 1 / n / 2 ≤ exponent R (log10 eMin) n j := by linarith
  set yi := exponent R (log10 eMin) n i with hyi
  set yj := exponent R (log10 eMin) n j with hyj
  obtain ⟨_, pi2⟩ := abs_le.mp (hlp.pow yi)
  obtain ⟨pj1, _⟩ := abs_le.mp (hlp.pow yj)
  have hpi : (0 : ℝ) < (10 : ℝ) ^ yi := Real.rpow_pos_of_pos (by norm_num) yi
  have hgrow : (10 : ℝ) ^ yi * (1 + 1 / n) ≤ (10 : ℝ) ^ yj := by
    have h3 : (10 : ℝ) ^ (yi + 1 / n / 2) ≤ (10 : ℝ) ^ yj := Real.rpow_le_rpow_of_exponent_le (by norm_num) hdiff
    refine le_trans ?_ h3
    rw [Real.rpow_add (by norm_num)]
    refine mul_le_mul_of_nonneg_left ?_ hpi.le
    have hlog : 2 ≤ Real.log 10 := by
      rw [Real.le_log_iff_exp_le (by norm_num)]
      have h4 : Real.exp 2 = Real.exp 1 * Real.exp 1 := by rw [← Real.exp_add]; norm_num
      have h5 := Real.exp_one_lt_d9
      have h6 := Real.exp_pos 1
      rw [h4]
      nlinarith
    rw [Real.rpow_def_of_pos (by norm_num)]
    have h4 := Real.add_one_le_exp (Real.log 10 * (1 / n / 2))
    have h5 : 0 < 1 / (n : ℝ) := by positivity
    nlinarith
  have hρn : ρ ≤ 1 / 8 * (1 / n) := by
    rw [mul_one_div, le_div_iff₀ hn0]
    exact hρ
  have hinv1 : 1 / (n : ℝ) ≤ 1 := by rw [div_le_one hn0]; exact hn'
  have hinv0 : 0 < 1 / (n : ℝ) := by positivity
  set w := 1 / (n : ℝ) with hw
  have g1 : pow10 yi ≤ (1 + 1 / 8 * w) * (10 : ℝ) ^ yi := by nlinarith
  have g2 : (1 - 1 / 8 * w) * ((10 : ℝ) ^ yi * (1 + w)) ≤ pow10 yj := by
    refine le_trans (mul_le_mul_of_nonneg_left hgrow (by linarith)) ?_
    have : (0 : ℝ) < (10 : ℝ) ^ yj := Real.rpow_pos_of_pos (by norm_num) yj
    nlinarith
  refine lt_of_le_of_lt g1 (lt_of_lt_of_le ?_ g2)
  have : (1 + 1 / 8 * w) < (1 - 1 / 8 * w) * (1 + w) := by nlinarith
  nlinarith

/-- **C146** In double precision: for energies between 1e-100 and 1e100, `log10` accurate to 1e-12 and up to 10^7 bins per decade there are exactly `m + 1` edges if `e_max` is `e_min 10^(m/bins_per_decade)` up to a relative error of 1e-5 / bins_per_decade. -/
theorem C146_binary64 (log10 pow10 : ℝ → ℝ) (ρ : ℝ) (hlp : LogPow log10 pow10 (1 / 10 ^ 12) ρ) (hρ : ρ ≤ 1) (eMin eMax : ℝ) (hmin : |Real.logb 10 eMin| ≤ 100) (hmax : |Real.logb 10 eMax| ≤ 100) (h0 : 0 < eMin) (n : ℕ) (hn : 1 ≤ n)
    (hn7 : n ≤ 10 ^ 7) (m : ℕ) (x : ℝ) (hx : |x| ≤ 1 / 100000 / n) (hm : eMax = eMin * (10 : ℝ) ^ ((m : ℝ) / n) * (1 + x)) :
    (createBinsPerDecade (Rounding.binary 53 (by norm_num)) log10 pow10 eMin eMax n).length = m + 1 := by
  have hn' : (1 : ℝ) ≤ n := by exact_mod_cast hn
  have hn0 : (0 : ℝ) < n := by linarith
  have hn7' : (n : ℝ) ≤ 10 ^ 7 := by exact_mod_cast hn7
  have hu : (Rounding.binary 53 (by norm_num)).u = (1 / 2 : ℝ) ^ 53 := rfl
  have hsmall : 1 / 100000 / (n : ℝ) ≤ 1 / 100000 := by
    rw [div_le_iff₀ hn0]
    nlinarith
  obtain ⟨x1, x2⟩ := abs_le.mp (hx.trans hsmall)
  have hx0 : 0 < 1 + x := by linarith
  have hp : (0 : ℝ) < (10 : ℝ) ^ ((m : ℝ) / n) := Real.rpow_pos_of_pos (by norm_num) _
  have h1 : 0 < eMax := by rw [hm]; positivity
  have habs : ∀ e : ℝ, 0 < e → |Real.logb 10 e| ≤ 100 → |log10 e| ≤ 101 := by
    intro e he h
    have h2 := hlp.log e he
    have : log10 e = (log10 e - Real.logb 10 e) + Real.logb 10 e := by ring
    rw [this]
    refine (abs_add_le _ _).trans ?_
    have : (1 : ℝ) / 10 ^ 12 ≤ 1 := by norm_num
    linarith
  have a1 := habs eMin h0 hmin
  have a2 := habs eMax h1 hmax
  have hratio : eMax / eMin = (10 : ℝ) ^ ((m : ℝ) / n) * (1 + x) := by rw [hm]; field_simp
  have hlog : n * Real.logb 10 (eMax / eMin) = m + n * Real.logb 10 (1 + x) := by
    rw [hratio, Real.logb_mul hp.ne' hx0.ne', Real.logb_rpow (by norm_num) (by norm_num)]
    field_simp
  have hlog10 : 2 ≤ Real.log 10 := by
    rw [Real.le_log_iff_exp_le (by norm_num)]
    have h4 : Real.exp 2 = Real.exp 1 * Real.exp 1 := by rw [← Real.exp_add]; norm_num
    have h5 := Real.exp_one_lt_d9
    have h6 := Real.exp_pos 1
    rw [h4]
    nlinarith
  have hnx : |n * x| ≤ 1 / 100000 := by
    rw [abs_mul, abs_of_pos hn0, mul_comm]
    exact (le_div_iff₀ hn0).mp hx
  obtain ⟨g1, g2⟩ := abs_le.mp hnx
  -- bounds of the logarithm
  have hup : Real.log (1 + x) ≤ x := by
    have := Real.log_le_sub_one_of_pos hx0
    linarith
  have hlow : x / (1 + x) ≤ Real.log (1 + x) := by
    have := Real.one_sub_inv_le_log_of_pos hx0
    have e : 1 - (1 + x)⁻¹ = x / (1 + x) := by field_simp; ring
    rwa [e] at this
  have hl1 : n * Real.logb 10 (1 + x) ≤ 1 / 10000 := by
    unfold Real.logb
    rw [← mul_div_assoc, div_le_iff₀ (by linarith)]
    have : n * Real.log (1 + x) ≤ n * x := mul_le_mul_of_nonneg_left hup hn0.le
    nlinarith
  have hl2 : -(6 / 1000000) ≤ n * Real.logb 10 (1 + x) := by
    unfold Real.logb
    rw [← mul_div_assoc, le_div_iff₀ (by linarith)]
    have h3 : n * (x / (1 + x)) ≤ n * Real.log (1 + x) := mul_le_mul_of_nonneg_left hlow hn0.le
    have h4 : -(11 / 1000000) ≤ n * (x / (1 + x)) := by
      rw [← mul_div_assoc, le_div_iff₀ hx0]
      nlinarith
    nlinarith
  refine (C146_edges _ ?_ log10 pow10 _ ρ hlp hρ eMin eMax h0 h1 n hn ?_ m ?_ ?_).1
  · rw [hu]; norm_num
  · rw [hu]
    have h3 : 5 * (1 / 2 : ℝ) ^ 53 * (|log10 eMin| + |log10 eMax| + 1) + 2 * (1 / 10 ^ 12) ≤ 9 / 100000 / 10 ^ 7 := by
      have : 5 * (1 / 2 : ℝ) ^ 53 * (|log10 eMin| + |log10 eMax| + 1) ≤ 5 * (1 / 2 : ℝ) ^ 53 * 203 := mul_le_mul_of_nonneg_left (by linarith) (by norm_num)
      refine (add_le_add this le_rfl).trans ?_
      norm_num
    have h4 : (0 : ℝ) ≤ 5 * (1 / 2 : ℝ) ^ 53 * (|log10 eMin| + |log10 eMax| + 1) + 2 * (1 / 10 ^ 12) := by positivity
    calc _ ≤ (9 / 100000 / 10 ^ 7 : ℝ) * 10 ^ 7 := mul_le_mul h3 hn7' hn0.le (by norm_num)
      _ = 9 / 100000 := by norm_num
  · rw [hlog]; linarith
  · rw [hlog]; linarith

/-! ## The hypotheses can be met -/

/-- The exact functions meet the contract; 0.01 TeV to 100 TeV with 5 bins per decade in double precision has 21 edges. -/
example : LogPow (fun x => Real.logb 10 x) (fun y => (10 : ℝ) ^ y) (1 / 10 ^ 12) 0 :=
  ⟨fun x _ => by simp, fun y => by simp⟩

example : (createBinsPerDecade (Rounding.binary 53 (by norm_num)) (fun x => Real.logb 10 x) (fun y => (10 : ℝ) ^ y) (1 / 100) 100 5).length = 21 := by
  have h2 : Real.logb 10 100 = 2 := by rw [show (100 : ℝ) = 10 ^ (2 : ℕ) by norm_num, Real.logb_pow, Real.logb_self_eq_one (by norm_num)]; norm_num
  have h3 : Real.logb 10 (1 / 100) = -2 := by rw [one_div, Real.logb_inv, h2]
  refine C146_binary64 _ _ 0 ⟨fun x _ => by simp, fun y => by simp⟩ (by norm_num) _ _ (by rw [h3]; norm_num) (by rw [h2]; norm_num) (by norm_num) 5 (by norm_num) (by norm_num) 20 0 (by norm_num) ?_
  norm_num

end Pyirf.Rounded
