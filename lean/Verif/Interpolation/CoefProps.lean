import Verif.Interpolation.CoefModel
import Mathlib.Order.Interval.Set.UnorderedInterval
import Mathlib.LinearAlgebra.Matrix.Determinant.Basic
import Mathlib.Tactic.LinearCombination
import Mathlib.Tactic.FieldSimp
import Mathlib.Tactic.Positivity
import Mathlib.Tactic.FinCases

/-! # Properties C49, C50: interpolation coefficients -/
set_option linter.unusedSectionVars false
set_option linter.unusedSimpArgs false

namespace Pyirf.Interpolation
open Pyirf

/-! ## C49 -/

theorem linesegment_eq (g : Fin 2 → ℝ) (t : ℝ) (h : g 0 ≠ g 1) :
    linesegmentCoefficients g t = .ok ![1 - (t - g 0) / (g 1 - g 0), (t - g 0) / (g 1 - g 0)] := by
  have hd : g 1 - g 0 ≠ 0 := sub_ne_zero.mpr h.symm
  have hM : segmentMatrix g = !![1, 0; 1, g 1 - g 0] := by
    ext i j
    fin_cases i <;> fin_cases j <;> simp [segmentMatrix]
  have hdet : (segmentMatrix g).det = g 1 - g 0 := by rw [hM]; simp [Matrix.det_fin_two]
  unfold linesegmentCoefficients
  rw [if_neg (by rw [hdet]; exact hd)]
  congr 1
  have hinv : (segmentMatrix g)⁻¹ = !![1, 0; -1 / (g 1 - g 0), 1 / (g 1 - g 0)] := by
    apply Matrix.inv_eq_right_inv
    rw [hM]
    ext i j
    fin_cases i <;> fin_cases j <;> simp [Matrix.mul_apply, Fin.sum_univ_two, hd] <;> field_simp <;> ring
  rw [hinv]
  ext i
  fin_cases i <;> simp [Fin.sum_univ_two] <;> field_simp <;> ring

/-- **C49** For two distinct points the coefficients exist, sum to 1, reproduce the target as combination of the points (and are the only numbers
that do both), are one-hot on the points, and are both >= 0 iff the target lies between the points. Equal points raise
LinAlgError. -/
theorem C49_linesegment (g : Fin 2 → ℝ) (t : ℝ) :
    (g 0 = g 1 → linesegmentCoefficients g t = .error .linAlgError) ∧
    (g 0 ≠ g 1 → ∃ c : Fin 2 → ℝ, linesegmentCoefficients g t = .ok c ∧ c 0 + c 1 = 1 ∧ c 0 * g 0 + c 1 * g 1 = t ∧
      (∀ c' : Fin 2 → ℝ, c' 0 + c' 1 = 1 → c' 0 * g 0 + c' 1 * g 1 = t → c' = c) ∧
      (t = g 0 → c = ![1, 0]) ∧ (t = g 1 → c = ![0, 1]) ∧
      ((0 ≤ c 0 ∧ 0 ≤ c 1) ↔ t ∈ Set.uIcc (g 0) (g 1))) := by
  constructor
  · intro h
    unfold linesegmentCoefficients
    rw [if_pos]
    have hM : segmentMatrix g = !![1, 0; 1, g 1 - g 0] := by
      ext i j
      fin_cases i <;> fin_cases j <;> simp [segmentMatrix]
    rw [hM]; simp [Matrix.det_fin_two, h]
  · intro h
    have hd : g 1 - g 0 ≠ 0 := sub_ne_zero.mpr h.symm
    refine ⟨_, linesegment_eq g t h, by simp, ?_, ?_, ?_, ?_, ?_⟩
    · simp; field_simp; ring
    · intro c' h1 h2
      have e1 : c' 1 = (t - g 0) / (g 1 - g 0) := by
        rw [eq_div_iff hd]; linear_combination h2 - g 0 * h1
      have e0 : c' 0 = 1 - (t - g 0) / (g 1 - g 0) := by rw [← e1]; linarith
      ext i
      fin_cases i
      · exact e0
      · exact e1
    · rintro rfl; ext i; fin_cases i <;> simp
    · rintro rfl; ext i; fin_cases i <;> simp [hd]
    · simp only [Matrix.cons_val_zero, Matrix.cons_val_one]
      rcases lt_or_gt_of_ne h with hlt | hlt
      · have hp : 0 < g 1 - g 0 := by linarith
        rw [Set.uIcc_of_le hlt.le, Set.mem_Icc, sub_nonneg, div_le_one hp, le_div_iff₀ hp, zero_mul]
        constructor
        · rintro ⟨h1, h2⟩; constructor <;> linarith
        · rintro ⟨h1, h2⟩; constructor <;> linarith
      · have hp : 0 < g 0 - g 1 := by linarith
        have e : (t - g 0) / (g 1 - g 0) = (g 0 - t) / (g 0 - g 1) := by
          rw [div_eq_div_iff hd (by linarith)]; ring
        rw [e, Set.uIcc_of_ge hlt.le, Set.mem_Icc, sub_nonneg, div_le_one hp, le_div_iff₀ hp, zero_mul]
        constructor
        · rintro ⟨h1, h2⟩; constructor <;> linarith
        · rintro ⟨h1, h2⟩; constructor <;> linarith

/-! ## C50 -/

/-- Twice the signed area of the triangle; zero iff the three points lie on a line. -/
def signedArea2 (g : Fin 3 → ℝ × ℝ) : ℝ :=
  ((g 1).1 - (g 0).1) * ((g 2).2 - (g 0).2) - ((g 2).1 - (g 0).1) * ((g 1).2 - (g 0).2)

/-- The closed triangle spanned by three points: all their weighted means with nonnegative weights. -/
def InTriangle (g : Fin 3 → ℝ × ℝ) (t : ℝ × ℝ) : Prop :=
  ∃ l : Fin 3 → ℝ, (∀ i, 0 ≤ l i) ∧ ∑ i, l i = 1 ∧ ∑ i, l i • g i = t

theorem barycentric_eq (g : Fin 3 → ℝ × ℝ) (t : ℝ × ℝ) (h : signedArea2 g ≠ 0) :
    ∃ c : Fin 3 → ℝ, barycentricCoefficients g t = (fun i => .fin (c i)) ∧ ∑ i, c i = 1 ∧ ∑ i, c i • g i = t ∧
      ∀ c' : Fin 3 → ℝ, ∑ i, c' i = 1 → ∑ i, c' i • g i = t → c' = c := by
  have hden : ((g 1).2 - (g 2).2) * ((g 0).1 - (g 2).1) + -((g 1).1 - (g 2).1) * ((g 0).2 - (g 2).2) = signedArea2 g := by
    unfold signedArea2; ring
  set D := signedArea2 g with hD
  let w1 := (((g 1).2 - (g 2).2) * (t.1 - (g 2).1) + -((g 1).1 - (g 2).1) * (t.2 - (g 2).2)) / D
  let w2 := (-((g 0).2 - (g 2).2) * (t.1 - (g 2).1) + ((g 0).1 - (g 2).1) * (t.2 - (g 2).2)) / D
  have m1 : w1 * D = ((g 1).2 - (g 2).2) * (t.1 - (g 2).1) + -((g 1).1 - (g 2).1) * (t.2 - (g 2).2) := div_mul_cancel₀ _ h
  have m2 : w2 * D = -((g 0).2 - (g 2).2) * (t.1 - (g 2).1) + ((g 0).1 - (g 2).1) * (t.2 - (g 2).2) := div_mul_cancel₀ _ h
  refine ⟨![w1, w2, 1 - w1 - w2], ?_, ?_, ?_, ?_⟩
  · unfold barycentricCoefficients
    simp only [Prod.fst_sub, Prod.snd_sub, hden]
    rw [FV.fin_div_fin _ _ h, FV.fin_div_fin _ _ h, FV.fin_sub_fin, FV.fin_sub_fin]
    ext i
    fin_cases i <;> rfl
  · simp [Fin.sum_univ_three]
  · rw [Fin.sum_univ_three]
    apply Prod.ext
    · simp only [Prod.fst_add, Prod.smul_fst, smul_eq_mul, Matrix.cons_val_zero, Matrix.cons_val_one, Matrix.cons_val]
      apply mul_right_cancel₀ h
      rw [show (w1 * (g 0).1 + w2 * (g 1).1 + (1 - w1 - w2) * (g 2).1) * D =
        (w1 * D) * ((g 0).1 - (g 2).1) + (w2 * D) * ((g 1).1 - (g 2).1) + (g 2).1 * D by ring, m1, m2, ← hden]
      ring
    · simp only [Prod.snd_add, Prod.smul_snd, smul_eq_mul, Matrix.cons_val_zero, Matrix.cons_val_one, Matrix.cons_val]
      apply mul_right_cancel₀ h
      rw [show (w1 * (g 0).2 + w2 * (g 1).2 + (1 - w1 - w2) * (g 2).2) * D =
        (w1 * D) * ((g 0).2 - (g 2).2) + (w2 * D) * ((g 1).2 - (g 2).2) + (g 2).2 * D by ring, m1, m2, ← hden]
      ring
  · intro c' hs ht
    rw [Fin.sum_univ_three] at hs ht
    have t1 : c' 0 * (g 0).1 + c' 1 * (g 1).1 + c' 2 * (g 2).1 = t.1 := by
      have := congrArg Prod.fst ht; simpa using this
    have t2 : c' 0 * (g 0).2 + c' 1 * (g 1).2 + c' 2 * (g 2).2 = t.2 := by
      have := congrArg Prod.snd ht; simpa using this
    have hc2 : c' 2 = 1 - c' 0 - c' 1 := by linarith
    rw [hc2] at t1 t2
    have e0 : c' 0 = w1 := by
      rw [eq_div_iff h, ← hden, ← t1, ← t2]; ring
    have e1 : c' 1 = w2 := by
      rw [eq_div_iff h, ← hden, ← t1, ← t2]; ring
    ext i
    fin_cases i
    · exact e0
    · exact e1
    · show c' 2 = 1 - w1 - w2
      rw [hc2, e0, e1]

/-- **C50** For a triangle with nonzero area the coefficients are finite, sum to 1, reproduce the target as combination of the vertices (and are the only
numbers that do both), are one-hot on the vertices, and are all >= 0 iff the target lies in the closed triangle. -/
theorem C50_barycentric (g : Fin 3 → ℝ × ℝ) (t : ℝ × ℝ) (h : signedArea2 g ≠ 0) :
    ∃ c : Fin 3 → ℝ, barycentricCoefficients g t = (fun i => .fin (c i)) ∧ ∑ i, c i = 1 ∧ ∑ i, c i • g i = t ∧
      (∀ c' : Fin 3 → ℝ, ∑ i, c' i = 1 → ∑ i, c' i • g i = t → c' = c) ∧
      (∀ k, t = g k → c = Pi.single k 1) ∧
      ((∀ i, 0 ≤ c i) ↔ InTriangle g t) := by
  obtain ⟨c, h1, h2, h3, h4⟩ := barycentric_eq g t h
  refine ⟨c, h1, h2, h3, h4, ?_, ?_⟩
  · rintro k rfl
    refine (h4 (Pi.single k 1) (by simp) ?_).symm
    simp [Pi.single_apply, ite_smul]
  · constructor
    · intro hc; exact ⟨c, hc, h2, h3⟩
    · rintro ⟨l, l0, l1, l2⟩
      rw [← h4 l l1 l2]; exact l0

/-! ## The hypotheses are satisfiable -/

example : (![(1:ℝ), 3] : Fin 2 → ℝ) 0 ≠ (![(1:ℝ), 3] : Fin 2 → ℝ) 1 ∧ (2:ℝ) ∈ Set.uIcc (![(1:ℝ), 3] 0) (![(1:ℝ), 3] 1) := by
  simp [Set.mem_uIcc]; norm_num
example : signedArea2 ![((0:ℝ), (0:ℝ)), (1, 0), (0, 1)] ≠ 0 := by simp [signedArea2]
example : InTriangle ![((0:ℝ), (0:ℝ)), (1, 0), (0, 1)] (1/4, 1/4) :=
  ⟨![1/2, 1/4, 1/4], by intro i; fin_cases i <;> norm_num, by simp [Fin.sum_univ_three]; norm_num,
    by simp [Fin.sum_univ_three]⟩

end Pyirf.Interpolation
