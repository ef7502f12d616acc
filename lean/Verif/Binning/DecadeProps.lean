import Verif.Binning.Lemmas

/-!
# Property C04: logarithmic bins per decade
-/
namespace Pyirf.Binning
open Pyirf

theorem lt_length_iff (eMin eMax : ℝ) (n : ℕ) (h0 : 0 < eMin) (h1 : eMin ≤ eMax) (hn : 1 ≤ n) (k : ℕ) :
    k < (createBinsPerDecade eMin eMax n).length ↔
      eMin * (10:ℝ) ^ ((k:ℝ) / n) < eMax * (10:ℝ) ^ ((1:ℝ) / 10000 / n) := by
  have hn' : (0:ℝ) < n := by exact_mod_cast hn
  have hmax : 0 < eMax := lt_of_lt_of_le h0 h1
  unfold createBinsPerDecade arange
  simp only [List.length_map, List.length_range]
  rw [Int.lt_toNat, Int.lt_ceil, lt_div_iff₀ (by positivity)]
  have h10 : (1:ℝ) < 10 := by norm_num
  have hA : 0 < eMin * (10:ℝ) ^ ((k:ℝ) / n) := by positivity
  have hB : 0 < eMax * (10:ℝ) ^ ((1:ℝ) / 10000 / n) := by positivity
  rw [← Real.logb_lt_logb_iff h10 hA hB, Real.logb_mul h0.ne' (by positivity),
    Real.logb_mul hmax.ne' (by positivity), Real.logb_rpow (by norm_num) (by norm_num),
    Real.logb_rpow (by norm_num) (by norm_num)]
  have e1 : ((k:ℤ):ℝ) * (1 / (n:ℝ)) = (k:ℝ) / n := by push_cast; ring
  have e2 : (1:ℝ) / n / 10000 = 1 / 10000 / n := by ring
  rw [e1, e2]
  constructor <;> intro h <;> linarith

/-- **C04** For `0 < e_min <= e_max` and `n >= 1` bins per decade: edge `k` is `e_min * 10^(k/n)`; every
grid point `e_min * 10^(k/n) <= e_max` is an edge; every edge is below `e_max * 10^(1e-4/n)`; the first edge is
`e_min`, neighbouring edges have ratio `10^(1/n)`. -/
theorem C04_bins_per_decade (eMin eMax : ℝ) (n : ℕ) (h0 : 0 < eMin) (h1 : eMin ≤ eMax) (hn : 1 ≤ n) :
    let r := createBinsPerDecade eMin eMax n
    (∃ h : 0 < r.length, r[0] = eMin) ∧
    (∀ (k : ℕ) (hk : k < r.length), r[k] = eMin * (10:ℝ) ^ ((k:ℝ) / n)) ∧
    (∀ (k : ℕ) (hk : k + 1 < r.length), r[k + 1] = r[k] * (10:ℝ) ^ ((1:ℝ) / n)) ∧
    (∀ k : ℕ, eMin * (10:ℝ) ^ ((k:ℝ) / n) ≤ eMax → k < r.length) ∧
    (∀ (k : ℕ) (hk : k < r.length), r[k] < eMax * (10:ℝ) ^ ((1:ℝ) / 10000 / n)) := by
  intro r
  have hn' : (0:ℝ) < n := by exact_mod_cast hn
  have hmax : 0 < eMax := lt_of_lt_of_le h0 h1
  have hval : ∀ (k : ℕ) (hk : k < r.length), r[k] = eMin * (10:ℝ) ^ ((k:ℝ) / n) := by
    intro k hk
    simp only [r, createBinsPerDecade, arange, List.getElem_map, List.getElem_range]
    rw [Real.rpow_add (by norm_num), Real.rpow_logb (by norm_num) (by norm_num) h0]
    congr 2
    ring
  have hin : ∀ k : ℕ, eMin * (10:ℝ) ^ ((k:ℝ) / n) ≤ eMax → k < r.length := by
    intro k hk
    rw [lt_length_iff eMin eMax n h0 h1 hn]
    refine lt_of_le_of_lt hk ?_
    have : (1:ℝ) < (10:ℝ) ^ ((1:ℝ) / 10000 / n) := Real.one_lt_rpow (by norm_num) (by positivity)
    nlinarith
  have hpos : 0 < r.length := hin 0 (by simpa using h1)
  refine ⟨⟨hpos, by rw [hval 0 hpos]; simp⟩, hval, ?_, hin, ?_⟩
  · intro k hk
    rw [hval (k+1) hk, hval k (by omega), mul_assoc, ← Real.rpow_add (by norm_num)]
    congr 2
    push_cast; ring
  · intro k hk
    rw [hval k hk]
    exact (lt_length_iff eMin eMax n h0 h1 hn k).mp hk

/-- **C04** (endpoint) If `e_max = e_min * 10^(m/n)` exactly, there are exactly `m + 1` edges and the last one is
`e_max`. -/
theorem C04_endpoint (eMin eMax : ℝ) (n m : ℕ) (h0 : 0 < eMin) (hn : 1 ≤ n)
    (he : eMax = eMin * (10:ℝ) ^ ((m:ℝ) / n)) :
    ∃ h : (createBinsPerDecade eMin eMax n).length = m + 1,
      (createBinsPerDecade eMin eMax n)[m] = eMax := by
  have hn' : (0:ℝ) < n := by exact_mod_cast hn
  have h1 : eMin ≤ eMax := by
    rw [he]
    have : (1:ℝ) ≤ (10:ℝ) ^ ((m:ℝ) / n) := Real.one_le_rpow (by norm_num) (by positivity)
    nlinarith
  have hlen : (createBinsPerDecade eMin eMax n).length = m + 1 := by
    have hm : m < (createBinsPerDecade eMin eMax n).length :=
      (C04_bins_per_decade eMin eMax n h0 h1 hn).2.2.2.1 m he.ge
    have hm1 : ¬ (m + 1 < (createBinsPerDecade eMin eMax n).length) := by
      rw [lt_length_iff eMin eMax n h0 h1 hn, not_lt, he, mul_assoc, ← Real.rpow_add (by norm_num)]
      apply mul_le_mul_of_nonneg_left _ h0.le
      apply Real.rpow_le_rpow_of_exponent_le (by norm_num)
      rw [← add_div]
      apply div_le_div_of_nonneg_right _ hn'.le
      push_cast; linarith
    omega
  refine ⟨hlen, ?_⟩
  rw [(C04_bins_per_decade eMin eMax n h0 h1 hn).2.1 m (by omega), he]

/-- The endpoint case occurs: 0.01 to 100 with 5 bins per decade is 4 decades, 21 edges. -/
example : ((100:ℝ) = (1 / 100) * (10:ℝ) ^ (((20:ℕ):ℝ) / (5:ℕ))) ∧ (0:ℝ) < 1 / 100 := by
  constructor
  · rw [show (((20:ℕ):ℝ) / (5:ℕ)) = ((4:ℕ):ℝ) by norm_num, Real.rpow_natCast]; norm_num
  · norm_num

end Pyirf.Binning
