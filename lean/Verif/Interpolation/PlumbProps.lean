import Verif.Interpolation.FacetModel
import Mathlib.Tactic.Linarith
import Mathlib.Tactic.Positivity
import Mathlib.Tactic.FieldSimp
import Mathlib.Tactic.LinearCombination
import Mathlib.Tactic.NormNum
import Mathlib.Tactic.FinCases
import Mathlib.Order.Bounds.Basic

/-! # Properties C53, C92: plumb_point_dist -/
set_option linter.unusedSectionVars false
set_option linter.unusedSimpArgs false

namespace Pyirf.Interpolation
open Pyirf Pyirf.Np

/-! ## Specification -/

/-- The Euclidean distance of two points. -/
noncomputable def euclid {k : ℕ} (x y : Pt k) : ℝ := Real.sqrt (∑ i, (x i - y i) ^ 2)

/-- `d` is the distance of `P` to the closed segment from `A` to `B`: the smallest distance to one of its points. -/
def IsSegmentDist {k : ℕ} (A B P : Pt k) (d : ℝ) : Prop := IsLeast {x | ∃ s : ℝ, 0 ≤ s ∧ s ≤ 1 ∧ x = euclid (fun i => A i + s * (B i - A i)) P} d

/-- `d` is the distance of `P` to the line through `A` and `B`. -/
def IsLineDist {k : ℕ} (A B P : Pt k) (d : ℝ) : Prop := IsLeast {x | ∃ s : ℝ, x = euclid (fun i => A i + s * (B i - A i)) P} d

/-! ## Lemmas -/

/-- distance at parameter `s` on the line when the foot has parameter `r`, the line the distance `D` and the squared length is `q` -/
noncomputable def distAt (D q r s : ℝ) : ℝ := Real.sqrt (D ^ 2 + (s - r) ^ 2 * q)

theorem distAt_mono {D q r s t : ℝ} (hq : 0 ≤ q) (h : |s - r| ≤ |t - r|) : distAt D q r s ≤ distAt D q r t := by
  unfold distAt
  apply Real.sqrt_le_sqrt
  have := sq_le_sq.mpr h
  nlinarith

theorem le_distAt {D q r s : ℝ} (_hD : 0 ≤ D) (hq : 0 ≤ q) : D ≤ distAt D q r s := by
  unfold distAt
  apply Real.le_sqrt_of_sq_le
  nlinarith [mul_nonneg (sq_nonneg (s - r)) hq]

theorem distAt_le {D q r s : ℝ} (hD : 0 ≤ D) (hq : 0 ≤ q) : distAt D q r s ≤ D + |s - r| * Real.sqrt q := by
  unfold distAt
  rw [Real.sqrt_le_left (by positivity)]
  have h1 : Real.sqrt q ^ 2 = q := Real.sq_sqrt hq
  have h2 : |s - r| ^ 2 = (s - r) ^ 2 := sq_abs _
  have h3 : 0 ≤ D * (|s - r| * Real.sqrt q) := by positivity
  calc D ^ 2 + (s - r) ^ 2 * q = D ^ 2 + |s - r| ^ 2 * Real.sqrt q ^ 2 := by rw [h1, h2]
    _ ≤ _ := by nlinarith

/-- the segment parameter of the nearest point -/
theorem nearest_param (r : ℝ) : ∃ c : ℝ, 0 ≤ c ∧ c ≤ 1 ∧ (∀ s : ℝ, 0 ≤ s → s ≤ 1 → |c - r| ≤ |s - r|) ∧ (r < 0 → c = 0) ∧ (1 < r → c = 1) ∧
    (0 ≤ r → r ≤ 1 → c = r) := by
  rcases lt_or_ge r 0 with h | h
  · refine ⟨0, le_refl _, by norm_num, ?_, fun _ => rfl, ?_, ?_⟩
    · intro s h1 h2
      rw [abs_of_nonneg (by linarith), abs_of_nonneg (by linarith)]; linarith
    · intro; linarith
    · intro; linarith
  · rcases lt_or_ge 1 r with h' | h'
    · refine ⟨1, by norm_num, le_refl _, ?_, ?_, fun _ => rfl, ?_⟩
      · intro s h1 h2
        rw [abs_of_nonpos (by linarith), abs_of_nonpos (by linarith)]; linarith
      · intro; linarith
      · intro _ _; linarith
    · exact ⟨r, h, h', fun s _ _ => by simp, fun _ => by linarith, fun _ => by linarith, fun _ _ => rfl⟩

/-- the real number returned for a segment of positive length -/
noncomputable def plumbVal (D q r : ℝ) : ℝ :=
  if |(|r| + |1 - r|) - 1| ≤ 1e-8 + 1e-5 * |(1:ℝ)| ∧ ¬ (|r - 0| ≤ 1e-8 + 1e-5 * |(0:ℝ)| ∨ |(1 - r) - 0| ≤ 1e-8 + 1e-5 * |(0:ℝ)|)
  then D else min (distAt D q r 0) (distAt D q r 1)

theorem plumbVal_spec {D q r : ℝ} (hD : 0 ≤ D) (hq : 0 < q) {c : ℝ} (hc : ∀ s : ℝ, 0 ≤ s → s ≤ 1 → |c - r| ≤ |s - r|) (k0 : r < 0 → c = 0)
    (k1 : 1 < r → c = 1) (k2 : 0 ≤ r → r ≤ 1 → c = r) : |plumbVal D q r - distAt D q r c| ≤ 5.005e-6 * Real.sqrt q ∧ D ≤ plumbVal D q r ∧
      plumbVal D q r ≤ distAt D q r 0 ∧ plumbVal D q r ≤ distAt D q r 1 := by
  have hs : 0 < Real.sqrt q := Real.sqrt_pos.mpr hq
  have hDc := le_distAt (r := r) (s := c) hD hq.le
  have hcD := distAt_le (r := r) (s := c) hD hq.le
  have hc0 := distAt_mono (D := D) hq.le (hc 0 le_rfl (by norm_num))
  have hc1 := distAt_mono (D := D) hq.le (hc 1 (by norm_num) le_rfl)
  unfold plumbVal
  split
  · next h =>
    refine ⟨?_, le_rfl, le_distAt hD hq.le, le_distAt hD hq.le⟩
    rw [abs_of_nonpos (by linarith)]
    have h1 := h.1
    have hr : |c - r| ≤ 5.005e-6 := by
      rw [abs_one] at h1
      rcases lt_or_ge r 0 with hr | hr
      · rw [k0 hr, abs_of_nonneg (by linarith)]
        rw [abs_of_neg hr, abs_of_pos (by linarith : (0:ℝ) < 1 - r), abs_of_nonneg (by linarith)] at h1
        norm_num at h1 ⊢
        linarith
      · rcases lt_or_ge 1 r with hr' | hr'
        · rw [k1 hr', abs_of_nonpos (by linarith)]
          rw [abs_of_nonneg hr, abs_of_neg (by linarith : 1 - r < 0), abs_of_nonneg (by linarith)] at h1
          norm_num at h1 ⊢
          linarith
        · rw [k2 hr hr']; simp; norm_num
    nlinarith
  · next h =>
    refine ⟨?_, le_min (le_distAt hD hq.le) (le_distAt hD hq.le), min_le_left _ _, min_le_right _ _⟩
    rw [abs_of_nonneg (by rw [sub_nonneg]; exact le_min hc0 hc1)]
    rcases lt_or_ge r 0 with hr | hr
    · rw [k0 hr]
      have := min_le_left (distAt D q r 0) (distAt D q r 1)
      have h5 : 0 ≤ 5.005e-6 * Real.sqrt q := by positivity
      linarith
    · rcases lt_or_ge 1 r with hr' | hr'
      · rw [k1 hr']
        have := min_le_right (distAt D q r 0) (distAt D q r 1)
        have h5 : 0 ≤ 5.005e-6 * Real.sqrt q := by positivity
        linarith
      · rw [k2 hr hr']
        have hrr : D ≤ distAt D q r r := le_distAt hD hq.le
        have hor : |r| ≤ 1e-8 ∨ |1 - r| ≤ 1e-8 := by
          by_contra hcon
          apply h
          rw [abs_one, abs_of_nonneg hr, abs_of_nonneg (by linarith : (0:ℝ) ≤ 1 - r)]
          push Not at hcon
          rw [abs_of_nonneg hr, abs_of_nonneg (by linarith : (0:ℝ) ≤ 1 - r)] at hcon
          refine ⟨by rw [show r + (1 - r) - 1 = 0 by ring]; norm_num, ?_⟩
          rw [abs_zero, sub_zero, sub_zero, abs_of_nonneg hr, abs_of_nonneg (by linarith : (0:ℝ) ≤ 1 - r)]
          push Not
          constructor <;> linarith
        rcases hor with hx | hx
        · have h0 := distAt_le (r := r) (s := 0) hD hq.le
          rw [zero_sub, abs_neg] at h0
          have := min_le_left (distAt D q r 0) (distAt D q r 1)
          nlinarith
        · have h0 := distAt_le (r := r) (s := 1) hD hq.le
          have := min_le_right (distAt D q r 0) (distAt D q r 1)
          nlinarith

theorem fabs_fin (x : ℝ) : fabs (.fin x) = .fin |x| := rfl
theorem isclose5_fin (a b : ℝ) : isclose5 (.fin a) (.fin b) = decide (|a - b| ≤ 1e-8 + 1e-5 * |b|) := rfl

section geometry
variable {k : ℕ} (A B P : Pt k)

theorem dot_self_nonneg (x : Pt k) : 0 ≤ dot x x := Finset.sum_nonneg fun _ _ => mul_self_nonneg _

theorem norm2_eq (x : Pt k) : norm2 x = Real.sqrt (dot x x) := by
  unfold norm2 dot; congr 1; exact Finset.sum_congr rfl fun i _ => by ring

theorem dot_self_pos {x : Pt k} (h : x ≠ 0) : 0 < dot x x := by
  rcases (dot_self_nonneg x).lt_or_eq with h' | h'
  · exact h'
  · exfalso; apply h
    have := (Finset.sum_eq_zero_iff_of_nonneg (fun i _ => mul_self_nonneg (x i))).mp h'.symm
    ext i
    have := this i (Finset.mem_univ _)
    simpa using this

theorem footParam_eq (h : ¬ (A 0 = B 0 ∧ A 1 = B 1)) : footParam A B P = .fin (dot (P - A) (B - A) / dot (B - A) (B - A)) := by
  have hne : B - A ≠ 0 := by
    intro h0; apply h
    have h0' := fun i => congrFun h0 i
    constructor
    · have := h0' 0; simp only [Pi.sub_apply, Pi.zero_apply] at this; linarith
    · have := h0' 1; simp only [Pi.sub_apply, Pi.zero_apply] at this; linarith
  have hq := (dot_self_pos hne).ne'
  unfold footParam footPoint
  rw [FV.fin_div_fin _ _ hq]
  rw [FV.fin_div_fin _ _ hq, FV.fin_add_fin, FV.fin_sub_fin, FV.fin_add_fin, FV.fin_sub_fin]
  split
  · next h0 =>
    have h1 : B 1 - A 1 ≠ 0 := by
      intro h1; exact h ⟨by linarith, by linarith⟩
    rw [FV.fin_div_fin _ _ h1]; congr 1; field_simp; ring
  · next h0 => rw [FV.fin_div_fin _ _ h0]; congr 1; field_simp; ring

theorem dot_sub_left (x y z : Pt k) : dot (x - y) z = dot x z - dot y z := by
  unfold dot; rw [← Finset.sum_sub_distrib]; exact Finset.sum_congr rfl fun i _ => by simp; ring
theorem dot_neg_neg (x y : Pt k) : dot (-x) (-y) = dot x y := by
  unfold dot; exact Finset.sum_congr rfl fun i _ => by simp
theorem dot_comm (x y : Pt k) : dot x y = dot y x := Finset.sum_congr rfl fun _ _ => mul_comm _ _

theorem dot_other : dot (P - B) (A - B) = dot (B - A) (B - A) - dot (P - A) (B - A) := by
  have h1 : P - B = -((B - A) - (P - A)) := by abel
  have h2 : A - B = -(B - A) := by abel
  rw [h1, h2, dot_neg_neg, dot_sub_left]

/-- Euclidean distance along the line -/
theorem euclid_line {q r D : ℝ} (hq : q = dot (B - A) (B - A)) (hr : r * q = dot (P - A) (B - A)) (hD : D ^ 2 = dot (P - A) (P - A) - r ^ 2 * q) (s : ℝ) :
    euclid (fun i => A i + s * (B i - A i)) P = distAt D q r s := by
  unfold euclid distAt
  congr 1
  have : ∀ i, (A i + s * (B i - A i) - P i) ^ 2 = (P - A) i * (P - A) i - 2 * s * ((P - A) i * (B - A) i) + s ^ 2 * ((B - A) i * (B - A) i) := by
    intro i; simp; ring
  rw [Finset.sum_congr rfl fun i _ => this i, Finset.sum_add_distrib, Finset.sum_sub_distrib, ← Finset.mul_sum, ← Finset.mul_sum]
  change dot (P - A) (P - A) - 2 * s * dot (P - A) (B - A) + s ^ 2 * dot (B - A) (B - A) = _
  rw [← hq, ← hr, hD]; ring

theorem norm2_sub_eq (x y : Pt k) : norm2 (x - y) = euclid x y := rfl

/-- The value of `plumb_point_dist` unless the first two coordinates of the end points agree. -/
theorem plumb_eq (cross : Pt k → Pt k → ℝ) (h0 : ∀ x y, 0 ≤ cross x y) (hX : ∀ x y, cross x y ^ 2 = dot x x * dot y y - dot x y ^ 2)
    (h : ¬ (A 0 = B 0 ∧ A 1 = B 1)) : ∃ D r, 0 ≤ D ∧ 0 < dot (B - A) (B - A) ∧
      plumbPointDist cross A B P = .fin (plumbVal D (dot (B - A) (B - A)) r) ∧
      ∀ s, euclid (fun i => A i + s * (B i - A i)) P = distAt D (dot (B - A) (B - A)) r s := by
  have hne : B - A ≠ 0 := by
    intro h0; apply h
    have h0' := fun i => congrFun h0 i
    constructor
    · have := h0' 0; simp only [Pi.sub_apply, Pi.zero_apply] at this; linarith
    · have := h0' 1; simp only [Pi.sub_apply, Pi.zero_apply] at this; linarith
  have hq := dot_self_pos hne
  have hnorm : 0 < norm2 (B - A) := by rw [norm2_eq]; exact Real.sqrt_pos.mpr hq
  set q := dot (B - A) (B - A) with hqd
  set r := dot (P - A) (B - A) / q with hr
  have hrq : r * q = dot (P - A) (B - A) := div_mul_cancel₀ _ hq.ne'
  set D := cross (P - A) (B - A) / norm2 (B - A) with hDd
  have hD : D ^ 2 = dot (P - A) (P - A) - r ^ 2 * q := by
    rw [hDd, div_pow, hX, norm2_eq, Real.sq_sqrt hq.le, ← hqd, ← hrq]
    field_simp
  have hline := euclid_line A B P hqd hrq hD
  refine ⟨D, r, div_nonneg (h0 _ _) hnorm.le, hq, ?_, hline⟩
  have hr2 : footParam B A P = .fin (1 - r) := by
    have h' : ¬ (B 0 = A 0 ∧ B 1 = A 1) := fun hh => h ⟨hh.1.symm, hh.2.symm⟩
    rw [footParam_eq B A P h', dot_other]
    have : dot (A - B) (A - B) = q := by
      rw [show A - B = -(B - A) by abel, dot_neg_neg]
    rw [this, ← hqd, ← hrq]; congr 1; field_simp
  unfold plumbPointDist
  simp only []
  rw [footParam_eq A B P h, hr2, ← hqd, ← hr]
  unfold plumbVal
  rw [fabs_fin, fabs_fin, FV.fin_add_fin, isclose5_fin, isclose5_fin, isclose5_fin]
  have e0 : norm2 (A - P) = distAt D q r 0 := by
    rw [← hline]; rw [norm2_sub_eq]; congr 1; ext i; ring
  have e1 : norm2 (B - P) = distAt D q r 1 := by
    rw [← hline]; rw [norm2_sub_eq]; congr 1; ext i; ring
  rw [FV.fin_div_fin _ _ hnorm.ne', e0, e1]
  by_cases hc : |(|r| + |1 - r|) - 1| ≤ 1e-8 + 1e-5 * |(1:ℝ)| ∧ ¬ (|r - 0| ≤ 1e-8 + 1e-5 * |(0:ℝ)| ∨ |(1 - r) - 0| ≤ 1e-8 + 1e-5 * |(0:ℝ)|)
  · rw [if_pos hc, if_pos]
    simp only [Bool.and_eq_true, decide_eq_true_eq, Bool.not_eq_true', Bool.or_eq_false_iff, decide_eq_false_iff_not]
    exact ⟨hc.1, not_or.mp hc.2⟩
  · rw [if_neg hc, if_neg]
    simp only [Bool.and_eq_true, decide_eq_true_eq, Bool.not_eq_true', Bool.or_eq_false_iff, decide_eq_false_iff_not]
    intro hh; exact hc ⟨hh.1, not_or.mpr hh.2⟩

/-- the common statement -/
theorem plumb_spec (cross : Pt k → Pt k → ℝ) (h0 : ∀ x y, 0 ≤ cross x y) (hX : ∀ x y, cross x y ^ 2 = dot x x * dot y y - dot x y ^ 2)
    (h : ¬ (A 0 = B 0 ∧ A 1 = B 1)) {δ ε : ℝ} (hδ : IsSegmentDist A B P δ) (hε : IsLineDist A B P ε) :
    ∃ d, plumbPointDist cross A B P = .fin d ∧ |d - δ| ≤ 5.005e-6 * euclid B A ∧ ε ≤ d ∧ d ≤ euclid A P ∧ d ≤ euclid B P := by
  obtain ⟨D, r, hD, hq, hval, hline⟩ := plumb_eq A B P cross h0 hX h
  obtain ⟨c, c0, c1, c2, c3, c4, c5⟩ := nearest_param r
  obtain ⟨s1, s2, s3, s4⟩ := plumbVal_spec hD hq c2 c3 c4 c5
  have e : δ = distAt D (dot (B - A) (B - A)) r c := by
    apply hδ.unique
    refine ⟨⟨c, c0, c1, (hline c).symm⟩, ?_⟩
    rintro x ⟨s, hs0, hs1, rfl⟩
    rw [hline]; exact distAt_mono hq.le (c2 s hs0 hs1)
  have e' : ε ≤ D := by
    apply hε.2
    refine ⟨r, ?_⟩
    rw [hline]; unfold distAt; rw [sub_self]
    simp [Real.sqrt_sq hD]
  refine ⟨_, hval, ?_, e'.trans s2, ?_, ?_⟩
  · rw [e]
    have : euclid B A = Real.sqrt (dot (B - A) (B - A)) := by rw [← norm2_eq, norm2_sub_eq]
    rw [this]; exact s1
  · refine s3.trans (le_of_eq ?_); rw [← hline]; congr 1; ext i; ring
  · refine s4.trans (le_of_eq ?_); rw [← hline]; congr 1; ext i; ring

/-- A segment of length zero: the distance to the point. -/
theorem plumb_point (cross : Pt k → Pt k → ℝ) : plumbPointDist cross A A P = .fin (euclid A P) := by
  have hf : footParam A A P = .nan := by
    unfold footParam footPoint
    simp only [sub_self, dot, Pi.zero_apply, mul_zero, Finset.sum_const_zero, FV.fin_div_zero, FV.infSign_zero, FV.add_nan, FV.nan_sub, FV.nan_div, if_true]
  unfold plumbPointDist
  simp only [hf, fabs, FV.nan_add]
  rw [if_neg]
  · rw [min_self, norm2_sub_eq]
  · simp [isclose5, isclose, FV.beq]

end geometry

theorem crossNorm2_nonneg (x y : Pt 0) : 0 ≤ crossNorm2 x y := abs_nonneg _
theorem crossNorm2_sq (x y : Pt 0) : crossNorm2 x y ^ 2 = dot x x * dot y y - dot x y ^ 2 := by
  unfold crossNorm2 dot
  rw [sq_abs]; simp [Fin.sum_univ_two]; ring
theorem crossNorm3_nonneg (x y : Pt 1) : 0 ≤ crossNorm3 x y := Real.sqrt_nonneg _
theorem crossNorm3_sq (x y : Pt 1) : crossNorm3 x y ^ 2 = dot x x * dot y y - dot x y ^ 2 := by
  unfold crossNorm3 dot
  rw [Real.sq_sqrt (by positivity)]; simp [Fin.sum_univ_three]; ring

/-- Every segment has a distance to every point, and every line. -/
theorem exists_segmentDist {k : ℕ} (A B P : Pt k) : (∃ d, IsSegmentDist A B P d) ∧ ∃ d, IsLineDist A B P d := by
  by_cases h : B - A = 0
  · have hz : ∀ i, B i - A i = 0 := fun i => by have := congrFun h i; simpa using this
    have he : ∀ s : ℝ, (fun i => A i + s * (B i - A i)) = A := fun s => by ext i; rw [hz]; ring
    constructor
    · refine ⟨euclid A P, ⟨0, le_rfl, by norm_num, by rw [he]⟩, ?_⟩
      rintro x ⟨s, -, -, rfl⟩; rw [he]
    · refine ⟨euclid A P, ⟨0, by rw [he]⟩, ?_⟩
      rintro x ⟨s, rfl⟩; rw [he]
  · have hq := dot_self_pos h
    set q := dot (B - A) (B - A) with hqd
    set r := dot (P - A) (B - A) / q with hr
    have hrq : r * q = dot (P - A) (B - A) := div_mul_cancel₀ _ hq.ne'
    have hcs : 0 ≤ dot (P - A) (P - A) - r ^ 2 * q := by
      have h1 : (∑ i, (P - A) i * (B - A) i) ^ 2 ≤ (∑ i, (P - A) i ^ 2) * ∑ i, (B - A) i ^ 2 := Finset.sum_mul_sq_le_sq_mul_sq _ _ _
      have e1 : ∑ i, (P - A) i ^ 2 = dot (P - A) (P - A) := Finset.sum_congr rfl fun i _ => by ring
      have e2 : ∑ i, (B - A) i ^ 2 = q := Finset.sum_congr rfl fun i _ => by ring
      have e3 : ∑ i, (P - A) i * (B - A) i = r * q := hrq.symm
      rw [e1, e2, e3] at h1
      have : r ^ 2 * q * q ≤ dot (P - A) (P - A) * q := by nlinarith
      have := le_of_mul_le_mul_right this hq
      linarith
    have hD : (Real.sqrt (dot (P - A) (P - A) - r ^ 2 * q)) ^ 2 = dot (P - A) (P - A) - r ^ 2 * q := Real.sq_sqrt hcs
    have hline := euclid_line A B P hqd hrq hD
    obtain ⟨c, c0, c1, c2, c3, c4, c5⟩ := nearest_param r
    constructor
    · refine ⟨_, ⟨c, c0, c1, rfl⟩, ?_⟩
      rintro x ⟨s, hs0, hs1, rfl⟩
      rw [hline, hline]; exact distAt_mono hq.le (c2 s hs0 hs1)
    · refine ⟨_, ⟨r, rfl⟩, ?_⟩
      rintro x ⟨s, rfl⟩
      rw [hline, hline]; exact distAt_mono hq.le (by simp)

/-! ## C53 -/

/-- **C53** In the plane: the result is a finite number whose difference to the distance of the point to the closed segment is at most
5.005e-6 times the length of the segment; it is not below the distance to the line and not above the distance to either end point. This
includes segments of length zero. -/
theorem C53_plumb_point_dist (A B P : Pt 0) {δ ε : ℝ} (hδ : IsSegmentDist A B P δ) (hε : IsLineDist A B P ε) :
    ∃ d, plumbPointDist crossNorm2 A B P = .fin d ∧ |d - δ| ≤ 5.005e-6 * euclid B A ∧ ε ≤ d ∧ d ≤ euclid A P ∧ d ≤ euclid B P := by
  by_cases h : A 0 = B 0 ∧ A 1 = B 1
  · have hAB : A = B := by
      ext i; fin_cases i
      · exact h.1
      · exact h.2
    subst hAB
    refine ⟨_, plumb_point A P _, ?_, ?_, le_rfl, le_rfl⟩
    · obtain ⟨⟨s, -, -, e⟩, -⟩ := hδ
      have : (fun i => A i + s * (A i - A i)) = A := by ext i; ring
      rw [this] at e
      rw [e, sub_self, abs_zero]
      exact mul_nonneg (by norm_num) (Real.sqrt_nonneg _)
    · obtain ⟨⟨s, e⟩, -⟩ := hε
      have : (fun i => A i + s * (A i - A i)) = A := by ext i; ring
      rw [this] at e
      rw [e]
  · exact plumb_spec A B P _ crossNorm2_nonneg crossNorm2_sq h hδ hε

/-- **C53** The distance to a segment and to a line always exists, so the theorem applies to every segment and point. -/
theorem C53_distance_exists (A B P : Pt 0) : (∃ d, IsSegmentDist A B P d) ∧ ∃ d, IsLineDist A B P d := exists_segmentDist A B P

/-! ## C92 -/

/-- The claim of **C92**: the same for three dimensions ("Might be in two or three dims"). -/
def PlumbDist3D : Prop := ∀ (A B P : Pt 1) (δ : ℝ), IsSegmentDist A B P δ →
  ∃ d, plumbPointDist crossNorm3 A B P = .fin d ∧ |d - δ| ≤ 5.005e-6 * euclid B A

/-- **C92** Unless the end points agree in their first two coordinates, the result is the distance to the segment up to 5.005e-6 of its length. -/
theorem C92_three_dimensions (A B P : Pt 1) (h : ¬ (A 0 = B 0 ∧ A 1 = B 1)) {δ ε : ℝ} (hδ : IsSegmentDist A B P δ) (hε : IsLineDist A B P ε) :
    ∃ d, plumbPointDist crossNorm3 A B P = .fin d ∧ |d - δ| ≤ 5.005e-6 * euclid B A ∧ ε ≤ d ∧ d ≤ euclid A P ∧ d ≤ euclid B P :=
  plumb_spec A B P _ crossNorm3_nonneg crossNorm3_sq h hδ hε

/-- **C92** For a segment along the third axis the distance to the nearer end point is returned, whatever the target is. -/
theorem C92_vertical_segment (A B P : Pt 1) (h0 : A 0 = B 0) (h1 : A 1 = B 1) :
    plumbPointDist crossNorm3 A B P = .fin (min (euclid A P) (euclid B P)) := by
  have hf : ∀ A B : Pt 1, A 0 = B 0 → A 1 = B 1 → footParam A B P = .nan := by
    intro A B h0 h1
    unfold footParam
    rw [if_pos (by rw [h0, sub_self]), h1, sub_self]
    by_cases hq : dot (B - A) (B - A) = 0
    · have : footPoint A B P 1 = .nan := by
        unfold footPoint
        rw [hq, h1, sub_self, mul_zero, FV.fin_div_zero, FV.infSign_zero, FV.add_nan]
      rw [this]; simp
    · have : footPoint A B P 1 = .fin (A 1) := by
        unfold footPoint
        rw [FV.fin_div_fin _ _ hq, h1, sub_self, mul_zero, zero_div, FV.fin_add_fin, add_zero]
      rw [this, h1, FV.fin_sub_fin, sub_self, FV.fin_div_zero, FV.infSign_zero]
  unfold plumbPointDist
  simp only []
  rw [if_neg]
  · rw [norm2_sub_eq, norm2_sub_eq]
  · rw [hf A B h0 h1, hf B A h0.symm h1.symm]
    simp [isclose5, isclose, fabs, FV.beq]

/-- **C92** So for a segment along the third axis the result is the distance to the segment exactly if the target is not strictly between the end points along that axis. -/
theorem C92_vertical_segment_iff (A B P : Pt 1) (h0 : A 0 = B 0) (h1 : A 1 = B 1) {δ : ℝ} (hδ : IsSegmentDist A B P δ) :
    plumbPointDist crossNorm3 A B P = .fin δ ↔ P 2 ≤ min (A 2) (B 2) ∨ max (A 2) (B 2) ≤ P 2 := by
  rw [C92_vertical_segment A B P h0 h1, FV.fin.injEq]
  have he : ∀ s : ℝ, euclid (fun i => A i + s * (B i - A i)) P = Real.sqrt ((A 0 - P 0) ^ 2 + (A 1 - P 1) ^ 2 + (A 2 + s * (B 2 - A 2) - P 2) ^ 2) := by
    intro s
    unfold euclid
    rw [Fin.sum_univ_three]
    simp only [← h0, ← h1, sub_self, mul_zero, add_zero]
  have hA : euclid A P = euclid (fun i => A i + 0 * (B i - A i)) P := by congr 1; ext i; ring
  have hB : euclid B P = euclid (fun i => A i + 1 * (B i - A i)) P := by congr 1; ext i; ring
  obtain ⟨⟨s, hs0, hs1, hs⟩, hmin⟩ := hδ
  have hlA : δ ≤ euclid A P := hmin ⟨0, le_rfl, zero_le_one, hA⟩
  have hlB : δ ≤ euclid B P := hmin ⟨1, zero_le_one, le_rfl, hB⟩
  constructor
  · intro h
    by_contra hc
    rw [not_or, not_le, not_le, min_lt_iff, lt_max_iff] at hc
    have hstrict : (A 2 < P 2 ∧ P 2 < B 2) ∨ (B 2 < P 2 ∧ P 2 < A 2) := by
      rcases hc with ⟨a | a, b | b⟩
      · linarith
      · exact Or.inl ⟨a, b⟩
      · exact Or.inr ⟨a, b⟩
      · linarith
    have hne : B 2 - A 2 ≠ 0 := by rcases hstrict with ⟨a, b⟩ | ⟨a, b⟩ <;> intro h' <;> linarith
    have hpar : 0 ≤ (P 2 - A 2) / (B 2 - A 2) ∧ (P 2 - A 2) / (B 2 - A 2) ≤ 1 := by
      rcases hstrict with ⟨a, b⟩ | ⟨a, b⟩
      · exact ⟨div_nonneg (by linarith) (by linarith), by rw [div_le_one (by linarith)]; linarith⟩
      · exact ⟨div_nonneg_of_nonpos (by linarith) (by linarith), by rw [div_le_one_of_neg (by linarith)]; linarith⟩
    have hle : δ ≤ Real.sqrt ((A 0 - P 0) ^ 2 + (A 1 - P 1) ^ 2) := by
      have := hmin ⟨_, hpar.1, hpar.2, rfl⟩
      rw [he, div_mul_cancel₀ _ hne] at this
      simpa using this
    have l1 : Real.sqrt ((A 0 - P 0) ^ 2 + (A 1 - P 1) ^ 2) < euclid A P := by
      rw [hA, he]
      apply Real.sqrt_lt_sqrt (by positivity)
      have : A 2 + 0 * (B 2 - A 2) - P 2 ≠ 0 := by rcases hstrict with ⟨a, b⟩ | ⟨a, b⟩ <;> intro h' <;> linarith
      have := pow_pos (abs_pos.mpr this) 2
      rw [sq_abs] at this
      linarith
    have l2 : Real.sqrt ((A 0 - P 0) ^ 2 + (A 1 - P 1) ^ 2) < euclid B P := by
      rw [hB, he]
      apply Real.sqrt_lt_sqrt (by positivity)
      have : A 2 + 1 * (B 2 - A 2) - P 2 ≠ 0 := by rcases hstrict with ⟨a, b⟩ | ⟨a, b⟩ <;> intro h' <;> linarith
      have := pow_pos (abs_pos.mpr this) 2
      rw [sq_abs] at this
      linarith
    have := lt_min l1 l2
    linarith
  · intro h
    apply le_antisymm _ (le_min hlA hlB)
    have key : ∀ x : ℝ, |x| ≤ |A 2 + s * (B 2 - A 2) - P 2| → Real.sqrt ((A 0 - P 0) ^ 2 + (A 1 - P 1) ^ 2 + x ^ 2) ≤ δ := by
      intro x hx
      rw [hs, he]
      apply Real.sqrt_le_sqrt
      have := sq_le_sq.mpr hx
      linarith
    have e0 : euclid A P = Real.sqrt ((A 0 - P 0) ^ 2 + (A 1 - P 1) ^ 2 + (A 2 - P 2) ^ 2) := by rw [hA, he]; ring_nf
    have e1 : euclid B P = Real.sqrt ((A 0 - P 0) ^ 2 + (A 1 - P 1) ^ 2 + (B 2 - P 2) ^ 2) := by rw [hB, he]; ring_nf
    rcases le_total (A 2) (B 2) with hab | hab
    · rw [min_eq_left hab, max_eq_right hab] at h
      have q1 : A 2 ≤ A 2 + s * (B 2 - A 2) := by nlinarith
      have q2 : A 2 + s * (B 2 - A 2) ≤ B 2 := by nlinarith
      rcases h with h | h
      · refine (min_le_left _ _).trans ?_
        rw [e0]; apply key
        rw [abs_of_nonneg (by linarith), abs_of_nonneg (by linarith)]; linarith
      · refine (min_le_right _ _).trans ?_
        rw [e1]; apply key
        rw [abs_of_nonpos (by linarith), abs_of_nonpos (by linarith)]; linarith
    · rw [min_eq_right hab, max_eq_left hab] at h
      have q1 : B 2 ≤ A 2 + s * (B 2 - A 2) := by nlinarith
      have q2 : A 2 + s * (B 2 - A 2) ≤ A 2 := by nlinarith
      rcases h with h | h
      · refine (min_le_right _ _).trans ?_
        rw [e1]; apply key
        rw [abs_of_nonneg (by linarith), abs_of_nonneg (by linarith)]; linarith
      · refine (min_le_left _ _).trans ?_
        rw [e0]; apply key
        rw [abs_of_nonpos (by linarith), abs_of_nonpos (by linarith)]; linarith

/-- **C92** (deviation) for the segment from (0,0,-1) to (0,0,1) and the target (1,0,0) the result is sqrt 2 instead of 1. -/
theorem C92_not_always : ¬ PlumbDist3D := by
  intro H
  have hδ : IsSegmentDist (![0, 0, -1] : Pt 1) ![0, 0, 1] ![1, 0, 0] 1 := by
    constructor
    · refine ⟨1/2, by norm_num, by norm_num, ?_⟩
      unfold euclid
      simp [Fin.sum_univ_three]
      norm_num
    · rintro x ⟨s, -, -, rfl⟩
      unfold euclid
      apply Real.le_sqrt_of_sq_le
      simp [Fin.sum_univ_three]
      positivity
  obtain ⟨d, hd, he⟩ := H _ _ _ _ hδ
  rw [C92_vertical_segment _ _ _ (by simp) (by simp)] at hd
  have hd' := FV.fin.inj hd
  have e1 : euclid (![0, 0, -1] : Pt 1) ![1, 0, 0] = Real.sqrt 2 := by
    unfold euclid; congr 1; simp [Fin.sum_univ_three]; norm_num
  have e2 : euclid (![0, 0, 1] : Pt 1) ![1, 0, 0] = Real.sqrt 2 := by
    unfold euclid; congr 1; simp [Fin.sum_univ_three]; norm_num
  have e3 : euclid (![0, 0, 1] : Pt 1) ![0, 0, -1] = 2 := by
    unfold euclid; simp [Fin.sum_univ_three]; norm_num
  rw [e1, e2, min_self] at hd'
  rw [← hd', e3] at he
  have : (1.4:ℝ) ≤ Real.sqrt 2 := Real.le_sqrt_of_sq_le (by norm_num)
  rw [abs_of_nonneg (by linarith)] at he
  norm_num at he
  linarith

/-! ## The hypotheses are satisfiable -/

example : ∃ δ ε, IsSegmentDist (![0, 0] : Pt 0) ![1, 0] ![2, 3] δ ∧ IsLineDist (![0, 0] : Pt 0) ![1, 0] ![2, 3] ε := by
  obtain ⟨⟨d, h⟩, ⟨e, h'⟩⟩ := C53_distance_exists (![0, 0] : Pt 0) ![1, 0] ![2, 3]
  exact ⟨d, e, h, h'⟩
example : ¬ ((![0, 0, 0] : Pt 1) 0 = (![1, 0, 5] : Pt 1) 0 ∧ (![0, 0, 0] : Pt 1) 1 = (![1, 0, 5] : Pt 1) 1) := by simp

end Pyirf.Interpolation
