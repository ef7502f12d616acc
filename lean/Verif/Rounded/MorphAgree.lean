import Verif.Rounded.MorphProps
import Verif.Interpolation.MorphProps

/-!
# Moment morphing without rounding (C163)
-/
set_option linter.unusedSectionVars false
set_option linter.unusedSimpArgs false

namespace Pyirf.Rounded
open Pyirf Pyirf.Np

theorem seqSum_exact (k : ℕ) (hk : 1 ≤ k) (l : List ℝ) : seqSum (Rounding.exact k hk) l = l.sum := by
  have : ∀ (l : List ℝ) (s : ℝ), l.foldl (Rounding.exact k hk).add s = s + l.sum := by
    intro l
    induction l with
    | nil => intro s; simp
    | cons a l ih =>
      intro s
      rw [List.foldl_cons, ih, List.sum_cons]
      show s + a + l.sum = _
      ring
  rw [seqSum, this, zero_add]

theorem pdfMean_exact (k : ℕ) (hk : 1 ≤ k) {n : ℕ} (edges : Fin (n + 2) → ℝ) (norm : Interpolation.Normalization) (p : Fin (n + 1) → ℝ) :
    pdfMean (Rounding.exact k hk) List.sum edges (Interpolation.binWidth norm edges) p = Interpolation.pdfMean norm edges p := by
  unfold pdfMean average Interpolation.pdfMean Interpolation.pdfScale
  rw [List.sum_ofFn, List.sum_ofFn]
  rfl

theorem pdfStd_exact (k : ℕ) (hk : 1 ≤ k) {n : ℕ} {edges : Fin (n + 2) → ℝ} {norm : Interpolation.Normalization} (h : Interpolation.GoodEdges norm edges) {p : Fin (n + 1) → ℝ} (hp : ∀ b, 0 ≤ p b) :
    Interpolation.pdfStd norm edges p = (pdfStd (Rounding.exact k hk) List.sum edges (Interpolation.binWidth norm edges) p).map .fin := by
  have hvar : pdfVar (Rounding.exact k hk) List.sum edges (Interpolation.binWidth norm edges) p =
      (∑ b, (Interpolation.binMid edges b - Interpolation.pdfMean norm edges p) ^ 2 * (p b * Interpolation.binWidth norm edges b)) / Interpolation.pdfScale norm edges p := by
    unfold pdfVar
    dsimp only
    rw [pdfMean_exact]
    unfold average Interpolation.pdfScale
    rw [List.sum_ofFn, List.sum_ofFn]
    show (∑ b, (Interpolation.binMid edges b - Interpolation.pdfMean norm edges p) * (Interpolation.binMid edges b - Interpolation.pdfMean norm edges p) * (p b * Interpolation.binWidth norm edges b)) / _ = _
    congr 1
    exact Finset.sum_congr rfl fun b _ => by ring
  have hw := fun b => Interpolation.binWidth_pos h b
  have hnn : 0 ≤ pdfVar (Rounding.exact k hk) List.sum edges (Interpolation.binWidth norm edges) p := by
    rw [hvar]
    exact div_nonneg (Finset.sum_nonneg fun b _ => mul_nonneg (sq_nonneg _) (mul_nonneg (hp b) (hw b).le)) (Finset.sum_nonneg fun b _ => mul_nonneg (hp b) (hw b).le)
  have hstd : Interpolation.pdfStd0 norm edges p = .fin (Real.sqrt (pdfVar (Rounding.exact k hk) List.sum edges (Interpolation.binWidth norm edges) p)) := by
    unfold Interpolation.pdfStd0 Interpolation.fsqrt
    rw [← hvar, if_neg (not_lt.mpr hnn)]
  unfold Interpolation.pdfStd pdfStd
  rw [hstd]
  dsimp only
  generalize pdfVar (Rounding.exact k hk) List.sum edges (Interpolation.binWidth norm edges) p = v
  have hrd : (Rounding.exact k hk).rd (Real.sqrt v) = Real.sqrt v := rfl
  rw [hrd]
  by_cases h0 : Real.sqrt v = 0
  · rw [if_pos (by rw [FV.beq_iff, h0]; exact ⟨rfl, by simp⟩), if_pos h0]
    generalize Interpolation.nonzeroBins p = l
    match l with
    | [] => rfl
    | [b] => rfl
    | _ :: _ :: _ => rfl
  · rw [if_neg (by rw [FV.beq_iff]; simp [h0]), if_neg h0]
    rfl

/-- **C163** (without rounding) In exact arithmetic these are the coefficients and the moment morphing of the other properties, for templates and coefficients that are not negative and templates whose sum is not close to 0. -/
theorem C163_agrees (k : ℕ) (hk : 1 ≤ k) {g0 g1 : ℝ} (hg : g0 < g1) (t : ℝ) {m n : ℕ} {edges : Fin (n + 2) → ℝ} {norm : Interpolation.Normalization} (h : Interpolation.GoodEdges norm edges)
    (p : Fin m → Fin (n + 1) → ℝ) (hp : ∀ j b, 0 ≤ p j b) (hz : ∀ j, 1 / 10 ^ 8 < ∑ b, p j b) (coef : Fin m → ℝ) (hc : ∀ j, 0 ≤ coef j) (hc1 : ∃ j, 0 < coef j) :
    Interpolation.linesegmentCoefficients ![g0, g1] t = .ok (segmentCoefficients (Rounding.exact k hk) g0 g1 t) ∧
    Interpolation.momentMorph norm edges (fun j (_ : Unit) => p j) (fun j => .fin (coef j)) =
      (momentMorph (Rounding.exact k hk) List.sum edges (Interpolation.binWidth norm edges) p coef).map fun r _ b => .fin (r b) := by
  refine ⟨?_, ?_⟩
  · rw [Interpolation.linesegment_eq _ _ (by show g0 ≠ g1; exact hg.ne)]
    congr 1
    funext j
    match j with
    | 0 => rw [(segment_eq g0 g1 t).2]; show 1 - (t - g0) / (g1 - g0) = 1 - (t - g0) * (1 / (g1 - g0)); ring
    | 1 => rw [(segment_eq g0 g1 t).1]; show (t - g0) / (g1 - g0) = (t - g0) * (1 / (g1 - g0)); ring
  have hne : ∀ j, ¬ Interpolation.NearlyEmpty (p j) := by
    intro j hj
    unfold Interpolation.NearlyEmpty at hj
    have h1 := hz j
    have h2 := le_abs_self (∑ b, p j b)
    norm_num at hj h1
    linarith
  have hstd : ∀ j, pdfStd (Rounding.exact k hk) List.sum edges (Interpolation.binWidth norm edges) (p j) = .ok (Interpolation.stdOf norm edges (p j)) := by
    intro j
    have h1 := (Interpolation.pdfStd_eq h (hp j) (Interpolation.exists_ne_zero (hne j))).1
    rw [pdfStd_exact k hk h (hp j)] at h1
    cases hj : pdfStd (Rounding.exact k hk) List.sum edges (Interpolation.binWidth norm edges) (p j) with
    | error e => rw [hj] at h1; cases h1
    | ok x => rw [hj] at h1; cases h1; rfl
  have hpos : ∀ j, 0 < Interpolation.stdOf norm edges (p j) := fun j => (Interpolation.pdfStd_eq h (hp j) (Interpolation.exists_ne_zero (hne j))).2
  have hs : ∑ j, coef j * Interpolation.stdOf norm edges (p j) ≠ 0 := by
    obtain ⟨j, hj⟩ := hc1
    exact (Finset.sum_pos' (fun j _ => mul_nonneg (hc j) (hpos j).le) ⟨j, Finset.mem_univ _, mul_pos hj (hpos j)⟩).ne'
  obtain ⟨r, hr, hspec⟩ := Interpolation.momentMorph_spec h (fun j (_ : Unit) => p j) (fun j _ => hp j) coef
  have hval := (hspec ()).2.1 hne hs
  rw [hr]
  unfold momentMorph
  rw [if_neg, if_neg]
  · have hmap : ∀ x : Fin (n + 1) → ℝ, (Except.ok x : Except Err (Fin (n + 1) → ℝ)).map (fun r (_ : Unit) b => FV.fin (r b)) = .ok fun _ b => .fin (x b) := fun _ => rfl
    rw [hmap]
    congr 1
    funext u b
    rw [show r u b = r () b from rfl, hval b]
    congr 1
    have hf : morphed (Rounding.exact k hk) edges p coef (fun j => pdfMean (Rounding.exact k hk) List.sum edges (Interpolation.binWidth norm edges) (p j))
        (fun j => Interpolation.okOr 0 (pdfStd (Rounding.exact k hk) List.sum edges (Interpolation.binWidth norm edges) (p j))) = Interpolation.morphDensity norm edges p coef := by
      funext b
      unfold morphed Interpolation.morphDensity
      simp only [hstd, seqSum_exact, List.sum_ofFn, pdfMean_exact, Interpolation.pdfMean_eq]
      refine Finset.sum_congr rfl fun j _ => ?_
      rw [Interpolation.lookup_eq h.strict]
      show coef j * Interpolation.heightAt edges (p j) (Interpolation.stdOf norm edges (p j) / (∑ j, coef j * Interpolation.stdOf norm edges (p j)) * Interpolation.binMid edges b +
        (Interpolation.meanOf norm edges (p j) - (∑ j, coef j * Interpolation.meanOf norm edges (p j)) * (Interpolation.stdOf norm edges (p j) / (∑ j, coef j * Interpolation.stdOf norm edges (p j))))) *
        (Interpolation.stdOf norm edges (p j) / (∑ j, coef j * Interpolation.stdOf norm edges (p j))) = _
      rw [Interpolation.binMid_eq, mul_right_comm]
      congr 2
      ring
    rw [hf]
    unfold renormalize
    rw [List.sum_ofFn]
    show _ = if ∑ b, Interpolation.morphDensity norm edges p coef b * Interpolation.binWidth norm edges b ≠ 0 then
      Interpolation.morphDensity norm edges p coef b / (∑ b, Interpolation.morphDensity norm edges p coef b * Interpolation.binWidth norm edges b) else 0
    have hI : ∑ b, Interpolation.morphDensity norm edges p coef b * Interpolation.binWidth norm edges b = Interpolation.pdfIntegral norm edges (Interpolation.morphDensity norm edges p coef) := by
      unfold Interpolation.pdfIntegral
      simp only [Interpolation.binWidth_eq]
    rw [hI]
    simp only [ite_not]
  · rintro ⟨j, hj⟩
    rw [hstd j] at hj
    cases hj
  · rintro ⟨j, hj⟩
    rw [List.sum_ofFn] at hj
    have := le_abs_self (∑ b, p j b)
    linarith [hz j]

/-! ## Satisfiability -/

example : Interpolation.GoodEdges .area (![0, 1, 2] : Fin 3 → ℝ) ∧ (∀ b, (0 : ℝ) ≤ (![0, 1] : Fin 2 → ℝ) b) ∧ (1 : ℝ) / 10 ^ 8 < ∑ b, (![0, 1] : Fin 2 → ℝ) b := by
  refine ⟨⟨?_, by intro h; cases h⟩, ?_, ?_⟩
  · intro i j hij
    fin_cases i <;> fin_cases j <;> simp_all
  · intro b
    fin_cases b <;> simp
  · rw [Fin.sum_univ_two]
    norm_num

end Pyirf.Rounded
