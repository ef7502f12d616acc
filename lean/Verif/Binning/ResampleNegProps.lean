import Verif.Binning.ResampleProps
import Mathlib.Tactic.Positivity
import Mathlib.Tactic.LinearCombination

/-!
# Property C122: resampling can make contents negative

scipy's quadratic spline through three points is the parabola through them, so for histograms of two bins the result of
`resample_histogram1d` is known exactly.
-/
set_option linter.unusedSectionVars false

namespace Pyirf.Binning
open Pyirf
variable {K : Type*} [Field K] [LinearOrder K] [IsStrictOrderedRing K]

/-- Contract of the quadratic spline on three nodes: a polynomial of degree at most 2 through the nodes. -/
def IsParabola (spline : (Fin 3 → K) → (Fin 3 → K) → K → K) : Prop :=
  ∀ xs ys : Fin 3 → K, StrictMono xs → (∀ i, spline xs ys (xs i) = ys i) ∧ ∃ a b c, ∀ t, spline xs ys t = a + b * t + c * t ^ 2

/-- three points determine the parabola -/
theorem parabola_formula {x0 x1 x2 y1 y2 a b c : K} (h01 : x0 < x1) (h12 : x1 < x2) (e0 : a + b * x0 + c * x0 ^ 2 = 0)
    (e1 : a + b * x1 + c * x1 ^ 2 = y1) (e2 : a + b * x2 + c * x2 ^ 2 = y2) (t : K) :
    a + b * t + c * t ^ 2 =
      y1 / (x1 - x0) * (t - x0) + ((y2 - y1) / (x2 - x1) - y1 / (x1 - x0)) / (x2 - x0) * ((t - x0) * (t - x1)) := by
  have n1 : x1 - x0 ≠ 0 := (sub_pos.mpr h01).ne'
  have n2 : x2 - x1 ≠ 0 := (sub_pos.mpr h12).ne'
  have n3 : x2 - x0 ≠ 0 := (sub_pos.mpr (h01.trans h12)).ne'
  have f1 : y1 / (x1 - x0) = b + c * (x1 + x0) := by
    rw [div_eq_iff n1]; linear_combination e0 - e1
  have f2 : (y2 - y1) / (x2 - x1) = b + c * (x2 + x1) := by
    rw [div_eq_iff n2]; linear_combination e1 - e2
  rw [f1, f2]
  have : (b + c * (x2 + x1) - (b + c * (x1 + x0))) / (x2 - x0) = c := by
    rw [div_eq_iff n3]; ring
  rw [this]
  linear_combination e0

section
variable (spline : (Fin 3 → K) → (Fin 3 → K) → K → K) (hs : IsParabola spline) (big : K) (D0 D1 x0 x1 x2 : K) (h01 : x0 < x1) (h12 : x1 < x2)

include h01 h12 in
theorem strictMono3 : StrictMono ![x0, x1, x2] := by
  intro i j h
  fin_cases i <;> fin_cases j <;> simp_all
  · exact h01.trans h12

include hs h01 h12 in
/-- the interpolated cumulative content, times the normalization -/
theorem cumulative_eq (htot : D0 + D1 ≠ 0) (t : K) :
    interpFill spline ![x0, x1, x2] (fun i => cumsum0 ![D0, D1] i / (D0 + D1)) t * (D0 + D1) =
      if t < x0 then 0 else if x2 < t then D0 + D1 else
        D0 / (x1 - x0) * (t - x0) + (D1 / (x2 - x1) - D0 / (x1 - x0)) / (x2 - x0) * ((t - x0) * (t - x1)) := by
  obtain ⟨hn, a, b, c, habc⟩ := hs ![x0, x1, x2] (fun i => cumsum0 ![D0, D1] i / (D0 + D1)) (strictMono3 x0 x1 x2 h01 h12)
  unfold interpFill
  show (if t < x0 then 0 else if x2 < t then 1 else _) * (D0 + D1) = _
  by_cases h1 : t < x0
  · rw [if_pos h1, if_pos h1, zero_mul]
  · rw [if_neg h1, if_neg h1]
    by_cases h2 : x2 < t
    · rw [if_pos h2, if_pos h2, one_mul]
    · rw [if_neg h2, if_neg h2, habc]
      have e0 : a + b * x0 + c * x0 ^ 2 = 0 := by
        have := hn 0
        rw [habc] at this
        simpa [cumsum0] using this
      have e1 : a + b * x1 + c * x1 ^ 2 = D0 / (D0 + D1) := by
        have := hn 1
        rw [habc] at this
        simpa [cumsum0, Fin.sum_univ_two] using this
      have e2 : a + b * x2 + c * x2 ^ 2 = 1 := by
        have := hn 2
        rw [habc] at this
        simpa [cumsum0, Fin.sum_univ_two, htot] using this
      rw [parabola_formula h01 h12 e0 e1 e2 t]
      have n1 : x1 - x0 ≠ 0 := (sub_pos.mpr h01).ne'
      have n2 : x2 - x1 ≠ 0 := (sub_pos.mpr h12).ne'
      have n3 : x2 - x0 ≠ 0 := (sub_pos.mpr (h01.trans h12)).ne'
      field_simp
      ring

include hs h01 h12 in
theorem resample_two {m : ℕ} (htot : D0 + D1 ≠ 0) (new : Fin (m + 1) → K) :
    ∃ out, resampleHistogram1d spline big ![D0, D1] (fun i => .fin (![x0, x1, x2] i)) (fun j => .fin (new j)) = .ok out ∧
      ∀ j : Fin m, out j = interpFill spline ![x0, x1, x2] (fun i => cumsum0 ![D0, D1] i / (D0 + D1)) (new j.succ) * (D0 + D1) -
        interpFill spline ![x0, x1, x2] (fun i => cumsum0 ![D0, D1] i / (D0 + D1)) (new j.castSucc) * (D0 + D1) := by
  refine ⟨_, resample_finite (n := 1) one_ne_zero spline big ![D0, D1] ![x0, x1, x2] new, fun j => ?_⟩
  have hsum : ∑ j, (![D0, D1] : Fin 2 → K) j = D0 + D1 := by simp [Fin.sum_univ_two]
  simp only [hsum, if_neg htot]
  ring

include hs h01 h12 in
/-- **C122** (two bins) For a histogram of two bins with densities `d0`, `d1` (content / width) a new bin `[u, v]` inside the old range gets
`(v - u) (d0 + (d1 - d0) (u + v - x0 - x1) / (x2 - x0))`. -/
theorem C122_two_bins (htot : D0 + D1 ≠ 0) (u v : K) (hu : x0 ≤ u) (huv : u ≤ v) (hv : v ≤ x2) :
    ∃ out, resampleHistogram1d spline big ![D0, D1] (fun i => .fin (![x0, x1, x2] i)) (fun j => .fin (![u, v] j)) = .ok out ∧
      out (0 : Fin 1) = (v - u) * (D0 / (x1 - x0) + (D1 / (x2 - x1) - D0 / (x1 - x0)) * (u + v - x0 - x1) / (x2 - x0)) := by
  obtain ⟨out, h1, h2⟩ := resample_two spline hs big D0 D1 x0 x1 x2 h01 h12 htot ![u, v]
  refine ⟨out, h1, ?_⟩
  rw [h2]
  show interpFill spline _ _ v * _ - interpFill spline _ _ u * _ = _
  rw [cumulative_eq spline hs D0 D1 x0 x1 x2 h01 h12 htot, cumulative_eq spline hs D0 D1 x0 x1 x2 h01 h12 htot,
    if_neg (not_lt.mpr (hu.trans huv)), if_neg (not_lt.mpr hv), if_neg (not_lt.mpr hu), if_neg (not_lt.mpr (huv.trans hv))]
  have n3 : x2 - x0 ≠ 0 := (sub_pos.mpr (h01.trans h12)).ne'
  generalize D0 / (x1 - x0) = d0
  generalize D1 / (x2 - x1) = d1
  field_simp
  ring

include hs h01 h12 in
/-- **C122** (when contents stay non-negative) A two-bin histogram with non-negative contents, not both zero: every resampling to non-decreasing
new edges is non-negative exactly if the densities do not differ too much, `d1 w0 ≤ d0 (2 w0 + w1)` and `d0 w1 ≤ d1 (w0 + 2 w1)` (for equal widths: by a factor of
3 at most). -/
theorem C122_nonnegative_iff (hD0 : 0 ≤ D0) (hD1 : 0 ≤ D1) (htot : D0 + D1 ≠ 0) :
    (∀ (m : ℕ) (new : Fin (m + 1) → K), Monotone new → ∀ out : Fin m → K,
      resampleHistogram1d spline big ![D0, D1] (fun i => .fin (![x0, x1, x2] i)) (fun j => .fin (new j)) = .ok out → ∀ j, 0 ≤ out j) ↔
    D1 / (x2 - x1) * (x1 - x0) ≤ D0 / (x1 - x0) * (2 * (x1 - x0) + (x2 - x1)) ∧
    D0 / (x1 - x0) * (x2 - x1) ≤ D1 / (x2 - x1) * ((x1 - x0) + 2 * (x2 - x1)) := by
  have p1 : 0 < x1 - x0 := sub_pos.mpr h01
  have p2 : 0 < x2 - x1 := sub_pos.mpr h12
  have p3 : 0 < x2 - x0 := sub_pos.mpr (h01.trans h12)
  have hc := cumulative_eq spline hs D0 D1 x0 x1 x2 h01 h12 htot
  have hend : D0 / (x1 - x0) * (x2 - x0) + (D1 / (x2 - x1) - D0 / (x1 - x0)) / (x2 - x0) * ((x2 - x0) * (x2 - x1)) = D0 + D1 := by
    field_simp; ring
  constructor
  · intro h
    have hbin : ∀ u v, x0 ≤ u → u ≤ v → v ≤ x2 → 0 ≤ (v - u) * (D0 / (x1 - x0) + (D1 / (x2 - x1) - D0 / (x1 - x0)) * (u + v - x0 - x1) / (x2 - x0)) := by
      intro u v hu huv hv
      obtain ⟨out, h1, h2⟩ := C122_two_bins spline hs big D0 D1 x0 x1 x2 h01 h12 htot u v hu huv hv
      rw [← h2]
      refine h 1 ![u, v] ?_ out h1 0
      intro i j hij
      fin_cases i <;> fin_cases j <;> simp_all
    have aux : ∀ q k L : K, 0 < L → (∀ e, 0 < e → e ≤ L → 0 ≤ q + k * e) → 0 ≤ q := by
      intro q k L hL hq
      by_contra hneg
      have hq0 : q < 0 := not_le.mp hneg
      by_cases hk : k ≤ 0
      · have := hq L hL le_rfl
        have : k * L ≤ 0 := mul_nonpos_of_nonpos_of_nonneg hk hL.le
        linarith
      · have hk0 : 0 < k := not_le.mp hk
        have he : 0 < min L (-q / (2 * k)) := lt_min hL (by apply div_pos <;> linarith)
        have h1 := hq _ he (min_le_left _ _)
        have h2 : k * min L (-q / (2 * k)) ≤ -q / 2 := by
          have : k * min L (-q / (2 * k)) ≤ k * (-q / (2 * k)) := by gcongr; exact min_le_right _ _
          have e : k * (-q / (2 * k)) = -q / 2 := by field_simp
          linarith
        linarith
    generalize D0 / (x1 - x0) = d0 at hbin ⊢
    generalize D1 / (x2 - x1) = d1 at hbin ⊢
    constructor
    · have := aux (d0 + (d1 - d0) * (x0 - x1) / (x2 - x0)) ((d1 - d0) / (x2 - x0)) (x2 - x0) p3 (by
        intro e he hle
        have := hbin x0 (x0 + e) le_rfl (by linarith) (by linarith)
        have h2 : 0 ≤ d0 + (d1 - d0) * (x0 + (x0 + e) - x0 - x1) / (x2 - x0) := nonneg_of_mul_nonneg_right (by simpa using this) (by linarith)
        have e3 : d0 + (d1 - d0) * (x0 + (x0 + e) - x0 - x1) / (x2 - x0) = d0 + (d1 - d0) * (x0 - x1) / (x2 - x0) + (d1 - d0) / (x2 - x0) * e := by
          field_simp; ring
        rwa [e3] at h2)
      have h3 := mul_nonneg this p3.le
      have e4 : (d0 + (d1 - d0) * (x0 - x1) / (x2 - x0)) * (x2 - x0) = d0 * (2 * (x1 - x0) + (x2 - x1)) - d1 * (x1 - x0) := by
        field_simp; ring
      rw [e4] at h3
      linarith
    · have := aux (d0 + (d1 - d0) * (2 * x2 - x0 - x1) / (x2 - x0)) (-((d1 - d0) / (x2 - x0))) (x2 - x0) p3 (by
        intro e he hle
        have := hbin (x2 - e) x2 (by linarith) (by linarith) le_rfl
        have h2 : 0 ≤ d0 + (d1 - d0) * (x2 - e + x2 - x0 - x1) / (x2 - x0) := nonneg_of_mul_nonneg_right (by simpa using this) (by linarith)
        have e3 : d0 + (d1 - d0) * (x2 - e + x2 - x0 - x1) / (x2 - x0) = d0 + (d1 - d0) * (2 * x2 - x0 - x1) / (x2 - x0) + -((d1 - d0) / (x2 - x0)) * e := by
          field_simp; ring
        rwa [e3] at h2)
      have h3 := mul_nonneg this p3.le
      have e4 : (d0 + (d1 - d0) * (2 * x2 - x0 - x1) / (x2 - x0)) * (x2 - x0) = d1 * ((x1 - x0) + 2 * (x2 - x1)) - d0 * (x2 - x1) := by
        field_simp; ring
      rw [e4] at h3
      linarith
  · rintro ⟨g1, g2⟩ m new hnew out hout j
    obtain ⟨out', h1, h2⟩ := resample_two spline hs big D0 D1 x0 x1 x2 h01 h12 htot new
    rw [h1] at hout
    cases hout
    rw [h2, hc, hc]
    have huv : new j.castSucc ≤ new j.succ := hnew (Fin.castSucc_le_succ j)
    generalize new j.castSucc = u at huv ⊢
    generalize new j.succ = v at huv ⊢
    set d0 := D0 / (x1 - x0) with hd0
    set d1 := D1 / (x2 - x1) with hd1
    -- the parabola is non-decreasing on the old range
    have hslope : ∀ s, 2 * x0 ≤ s → s ≤ 2 * x2 → 0 ≤ d0 + (d1 - d0) / (x2 - x0) * (s - x0 - x1) := by
      intro s hs1 hs2
      have e5 : (d0 + (d1 - d0) / (x2 - x0) * (s - x0 - x1)) * (2 * (x2 - x0)) * (x2 - x0) =
          (2 * x2 - s) * (d0 * (2 * (x1 - x0) + (x2 - x1)) - d1 * (x1 - x0)) + (s - 2 * x0) * (d1 * ((x1 - x0) + 2 * (x2 - x1)) - d0 * (x2 - x1)) := by
        field_simp; ring
      have h6 : 0 ≤ (d0 + (d1 - d0) / (x2 - x0) * (s - x0 - x1)) * (2 * (x2 - x0)) * (x2 - x0) := by
        rw [e5]
        exact add_nonneg (mul_nonneg (by linarith) (by linarith)) (mul_nonneg (by linarith) (by linarith))
      have h7 := nonneg_of_mul_nonneg_left h6 p3
      exact nonneg_of_mul_nonneg_left h7 (by linarith)
    have hmono : ∀ a b, x0 ≤ a → a ≤ b → b ≤ x2 →
        d0 * (a - x0) + (d1 - d0) / (x2 - x0) * ((a - x0) * (a - x1)) ≤ d0 * (b - x0) + (d1 - d0) / (x2 - x0) * ((b - x0) * (b - x1)) := by
      intro a b ha hab hb
      have h8 := mul_nonneg (sub_nonneg.mpr hab) (hslope (a + b) (by linarith) (by linarith))
      have e9 : d0 * (b - x0) + (d1 - d0) / (x2 - x0) * ((b - x0) * (b - x1)) - (d0 * (a - x0) + (d1 - d0) / (x2 - x0) * ((a - x0) * (a - x1))) =
          (b - a) * (d0 + (d1 - d0) / (x2 - x0) * (a + b - x0 - x1)) := by ring
      linarith
    have hstart : d0 * (x0 - x0) + (d1 - d0) / (x2 - x0) * ((x0 - x0) * (x0 - x1)) = 0 := by ring
    have hDD : 0 ≤ D0 + D1 := add_nonneg hD0 hD1
    by_cases c1 : v < x0
    · rw [if_pos c1, if_pos (huv.trans_lt c1), sub_zero]
    · rw [if_neg c1]
      have c1' := not_lt.mp c1
      by_cases c2 : u < x0
      · rw [if_pos c2, sub_zero]
        by_cases c3 : x2 < v
        · rw [if_pos c3]; exact hDD
        · rw [if_neg c3, ← hstart]; exact hmono x0 v le_rfl c1' (not_lt.mp c3)
      · rw [if_neg c2]
        have c2' := not_lt.mp c2
        by_cases c3 : x2 < v
        · rw [if_pos c3]
          by_cases c4 : x2 < u
          · rw [if_pos c4, sub_self]
          · rw [if_neg c4, ← hend, sub_nonneg]; exact hmono u x2 c2' (not_lt.mp c4) le_rfl
        · rw [if_neg c3, if_neg (not_lt.mpr (huv.trans (not_lt.mp c3))), sub_nonneg]
          exact hmono u v c2' huv (not_lt.mp c3)
end

/-- **C122** (deviation) So contents can become negative: the histogram (1, 0) over edges 0, 1, 2 resampled to 0, 1.5, 2 gives (9/8, -1/8). -/
theorem C122_negative_content (spline : (Fin 3 → ℚ) → (Fin 3 → ℚ) → ℚ → ℚ) (hs : IsParabola spline) (big : ℚ) :
    resampleHistogram1d spline big ![1, 0] (fun i => .fin (![0, 1, 2] i)) (fun j => .fin (![0, 3 / 2, 2] j)) = .ok (![9 / 8, -1 / 8] : Fin 2 → ℚ) := by
  obtain ⟨out, h1, h2⟩ := resample_two spline hs big 1 0 0 1 2 (by norm_num) (by norm_num) (by norm_num) ![0, 3 / 2, 2]
  rw [h1]
  congr 1
  have hc := cumulative_eq spline hs 1 0 0 1 2 (by norm_num) (by norm_num) (by norm_num)
  funext j
  rw [h2, hc, hc]
  fin_cases j
  · simp
    norm_num
  · simp
    norm_num

/-- the parabola through three points exists (Lagrange's formula) -/
example : IsParabola (K := ℚ) (fun xs ys t => ys 0 + (ys 1 - ys 0) / (xs 1 - xs 0) * (t - xs 0) +
    ((ys 2 - ys 1) / (xs 2 - xs 1) - (ys 1 - ys 0) / (xs 1 - xs 0)) / (xs 2 - xs 0) * ((t - xs 0) * (t - xs 1))) := by
  intro xs ys hx
  have n1 : xs 1 - xs 0 ≠ 0 := (sub_pos.mpr (hx (by decide : (0 : Fin 3) < 1))).ne'
  have n2 : xs 2 - xs 1 ≠ 0 := (sub_pos.mpr (hx (by decide : (1 : Fin 3) < 2))).ne'
  have n3 : xs 2 - xs 0 ≠ 0 := (sub_pos.mpr (hx (by decide : (0 : Fin 3) < 2))).ne'
  refine ⟨fun i => ?_, ?_⟩
  · fin_cases i
    · simp
    · simp only [Fin.mk_one]; field_simp; ring
    · simp only [Fin.reduceFinMk]; field_simp; ring
  · beta_reduce
    generalize (ys 1 - ys 0) / (xs 1 - xs 0) = p
    generalize ((ys 2 - ys 1) / (xs 2 - xs 1) - p) / (xs 2 - xs 0) = q
    exact ⟨ys 0 - p * xs 0 + q * (xs 0 * xs 1), p - q * (xs 0 + xs 1), q, fun t => by ring⟩

end Pyirf.Binning
