import Verif.Interpolation.MorphProps
import Verif.Interpolation.PsfUnitModel

/-!
# C55, C57, C129: the values of moment morphing, and when the extrapolation warns
-/
set_option linter.unusedSectionVars false
set_option linter.unusedSimpArgs false

namespace Pyirf.Interpolation
open Pyirf Pyirf.Np Pyirf.Io
open scoped Classical

/-! ## Specification -/

/-- `f` divided by its integral over the bins; 0 if the integral is 0 -/
noncomputable def normalized {n : ℕ} (norm : Normalization) (edges : Fin (n + 2) → ℝ) (f : Fin (n + 1) → ℝ) (b : Fin (n + 1)) : ℝ :=
  if pdfIntegral norm edges f = 0 then 0 else f b / pdfIntegral norm edges f

/-- The moment morph of the two templates at `x₀` and `x₁` for the target `t`: the weights are those of the straight line through the two grid points, also outside of the segment. -/
noncomputable def morphOnLine {n : ℕ} (norm : Normalization) (edges : Fin (n + 2) → ℝ) (p₀ p₁ : Fin (n + 1) → ℝ) (x₀ x₁ t : ℝ) : Fin (n + 1) → ℝ :=
  normalized norm edges (morphDensity norm edges ![p₀, p₁] ![(x₁ - t) / (x₁ - x₀), (t - x₀) / (x₁ - x₀)])

/-- the standard deviation on the line through the two grid points -/
noncomputable def stdOnLine {n : ℕ} (norm : Normalization) (edges : Fin (n + 2) → ℝ) (p₀ p₁ : Fin (n + 1) → ℝ) (x₀ x₁ t : ℝ) : ℝ :=
  (x₁ - t) / (x₁ - x₀) * stdOf norm edges p₀ + (t - x₀) / (x₁ - x₀) * stdOf norm edges p₁

/-! ## Lemmas -/

theorem line_weights {x₀ x₁ t : ℝ} (h : x₀ < x₁) : (![1 - (t - x₀) / (x₁ - x₀), (t - x₀) / (x₁ - x₀)] : Fin 2 → ℝ) = ![(x₁ - t) / (x₁ - x₀), (t - x₀) / (x₁ - x₀)] := by
  have : x₁ - x₀ ≠ 0 := by linarith
  funext j; fin_cases j
  · simp only [Fin.zero_eta, Matrix.cons_val_zero]; field_simp; ring
  · rfl

theorem normalized_integral {n : ℕ} (norm : Normalization) (edges : Fin (n + 2) → ℝ) (f : Fin (n + 1) → ℝ) :
    pdfIntegral norm edges (normalized norm edges f) = 1 ∨ ∀ b, normalized norm edges f b = 0 := by
  by_cases h : pdfIntegral norm edges f = 0
  · right; intro b; unfold normalized; rw [if_pos h]
  · left
    have : normalized norm edges f = fun b => f b / pdfIntegral norm edges f := by funext b; unfold normalized; rw [if_neg h]
    rw [this]; exact pdfIntegral_div _ _ _ h

/-- a normalized function without entries below zero is not changed by cutting off and normalizing again -/
theorem normalized_again {n : ℕ} (norm : Normalization) (edges : Fin (n + 2) → ℝ) (g : Fin (n + 1) → ℝ) (hg : pdfIntegral norm edges g = 1 ∨ ∀ b, g b = 0) (h : ∀ b, 0 ≤ g b) :
    normalized norm edges (fun b => max (g b) 0) = g := by
  have : (fun b => max (g b) 0) = g := by funext b; exact max_eq_left (h b)
  rw [this]
  funext b
  unfold normalized
  rcases hg with hg | hg
  · rw [hg, if_neg one_ne_zero, div_one]
  · rw [hg b]; simp

/-- What `cutOff` does with a cell of finite entries -/
theorem cutOff_value {n : ℕ} {C : Type*} (norm : Normalization) (edges : Fin (n + 2) → ℝ) (r : C → Fin (n + 1) → FV ℝ) (c : C) (g : Fin (n + 1) → ℝ) (h : ∀ b, r c b = .fin (g b))
    (hg : pdfIntegral norm edges g = 1 ∨ ∀ b, g b = 0) (b : Fin (n + 1)) :
    (cutOff norm edges r).1 c b = .fin (normalized norm edges (fun b => max (g b) 0) b) := by
  unfold cutOff
  split
  · rename_i hc
    have h0 : ∀ b, 0 ≤ g b := by
      intro b
      have := hc c b
      rw [h b] at this
      simpa [FV.ge] using this
    rw [normalized_again norm edges g hg h0]
    exact h b
  · show renormalize norm edges (fun b => if FV.lt (r c b) (.fin 0) = true then .fin 0 else r c b) b = _
    rw [renormalize_fin norm edges (fun b => max (g b) 0) _ (fun b => ?_) b]
    · rfl
    · rw [h b]
      by_cases h : g b < 0
      · rw [max_eq_right h.le]; simp [h]
      · rw [max_eq_left (not_lt.mp h)]; simp [h]

theorem cutOff_warns {n : ℕ} {C : Type*} (norm : Normalization) (edges : Fin (n + 2) → ℝ) (r : C → Fin (n + 1) → FV ℝ) :
    (cutOff norm edges r).2 = true ↔ ∃ c b, FV.ge (r c b) (.fin 0) = false := by
  unfold cutOff
  split
  · rename_i h
    simp only [Bool.false_eq_true, false_iff, not_exists]
    intro c b hc
    rw [h c b] at hc; cases hc
  · rename_i h
    push Not at h
    obtain ⟨c, b, h⟩ := h
    simp only [true_iff]
    exact ⟨c, b, by simpa using h⟩

theorem ge_zero_eq_false (x : ℝ) : FV.ge (.fin x) (.fin 0) = false ↔ x < 0 := by
  simp [FV.ge]

/-! ## C55 -/

/-- **C55** The value in one dimension: in a cell in which both templates of the segment have content the result is the moment morph of the two templates with the weights of the target on the segment. -/
theorem C55_value_1d {n : ℕ} {C : Type*} {norm : Normalization} {edges : Fin (n + 2) → ℝ} (he : GoodEdges norm edges) (grid : List ℝ) (hs : grid.Pairwise (· < ·))
    (pdf : Fin grid.length → C → Fin (n + 1) → ℝ) (hp : ∀ j c b, 0 ≤ pdf j c b) (t : ℝ) (i : ℕ) (hi : i + 1 < grid.length) (h1 : grid[i] ≤ t) (h2 : t < grid[i + 1]) :
    ∃ r, morphInterpolate1D norm edges grid pdf t = .ok r ∧ ∀ c, ¬ NearlyEmpty (pdf ⟨i, by omega⟩ c) → ¬ NearlyEmpty (pdf ⟨i + 1, hi⟩ c) →
      ∀ b, r c b = .fin (morphOnLine norm edges (pdf ⟨i, by omega⟩ c) (pdf ⟨i + 1, hi⟩ c) grid[i] grid[i + 1] t b) := by
  rw [morph1D_eq norm edges grid hs pdf t i hi h1 h2]
  have hlt : grid[i] < grid[i + 1] := by linarith
  have hpos : 0 < grid[i + 1] - grid[i] := by linarith
  rw [line_weights hlt]
  obtain ⟨r, hr, hc⟩ := C55_moment_morph he (fun j => pdf (![⟨i, by omega⟩, ⟨i + 1, hi⟩] j)) (fun j c b => hp _ c b)
    ![(grid[i + 1] - t) / (grid[i + 1] - grid[i]), (t - grid[i]) / (grid[i + 1] - grid[i])]
    (by intro j; fin_cases j
        · exact div_nonneg (by linarith) hpos.le
        · exact div_nonneg (by linarith) hpos.le)
    (by simp only [Fin.sum_univ_two, Matrix.cons_val_zero, Matrix.cons_val_one]; field_simp; ring)
  refine ⟨r, hr, fun c z1 z2 b => ?_⟩
  rw [(hc c).2.2 (by intro j; fin_cases j <;> assumption) b]
  have : (fun j => pdf (![⟨i, by omega⟩, ⟨i + 1, hi⟩] j) c) = ![pdf ⟨i, by omega⟩ c, pdf ⟨i + 1, hi⟩ c] := by
    funext j; fin_cases j <;> rfl
  rw [this]
  rfl

/-- **C55** The value in two dimensions: the moment morph of the three templates at the corners of the simplex, with the only weights that add up to one and reproduce the target. -/
theorem C55_value_2d {n : ℕ} {C : Type*} {norm : Normalization} {edges : Fin (n + 2) → ℝ} (he : GoodEdges norm edges) (T : Triangulation)
    (pdf : Fin T.points.length → C → Fin (n + 1) → ℝ) (hp : ∀ j c b, 0 ≤ pdf j c b) (found : ℕ) (hf : found < T.simplices.length) (hnd : NonDegenerate T T.simplices[found])
    (t : Pt 0) (hin : InTriangle (fun i => toPair T.points[T.simplices[found] i]) (toPair t)) (w : Fin 3 → ℝ) (hw1 : ∑ i, w i = 1)
    (hwt : ∑ i, w i • toPair T.points[T.simplices[found] i] = toPair t) :
    ∃ r, morphInterpolate2D norm edges T pdf found t = .ok r ∧ ∀ c, (∀ i, ¬ NearlyEmpty (pdf (T.simplices[found] i) c)) →
      ∀ b, r c b = .fin (normalized norm edges (morphDensity norm edges (fun i => pdf (T.simplices[found] i) c) w) b) := by
  obtain ⟨w', hw, hw1', hwt', hwu, -, hin'⟩ := C50_barycentric _ (toPair t) hnd
  obtain rfl : w = w' := hwu w hw1 hwt
  unfold morphInterpolate2D
  rw [if_neg (by omega), Int.toNat_natCast, List.getElem?_eq_getElem hf]
  simp only [morphSimplex]
  rw [hw]
  obtain ⟨r, hr, hc⟩ := C55_moment_morph he (fun j => pdf (T.simplices[found] j)) (fun j c b => hp _ c b) w (hin'.mpr hin) hw1
  exact ⟨r, hr, fun c z b => (hc c).2.2 z b⟩

/-! ## C57 -/

/-- **C57** The value in one dimension: the moment morph on the line through the first or last two grid points, negative entries set to zero, normalized again. (A cell without negative entries is just the moment morph.)
The warning is issued exactly if some cell in which both templates have content has a negative entry, or a standard deviation of zero (C95). -/
theorem C57_value_1d {n : ℕ} {C : Type*} {norm : Normalization} {edges : Fin (n + 2) → ℝ} (he : GoodEdges norm edges) (grid : List ℝ) (hs : grid.Pairwise (· < ·))
    (pdf : Fin grid.length → C → Fin (n + 1) → ℝ) (hp : ∀ j c b, 0 ≤ pdf j c b) (t : ℝ) (i : ℕ) (hi : i + 1 < grid.length)
    (hij : (t < grid[0] ∧ i = 0) ∨ (grid[0] ≤ t ∧ i + 2 = grid.length)) :
    ∃ r warned, morphExtrapolate1D norm edges grid pdf t = .ok (r, warned) ∧
      (∀ c, ¬ NearlyEmpty (pdf ⟨i, by omega⟩ c) → ¬ NearlyEmpty (pdf ⟨i + 1, hi⟩ c) →
        stdOnLine norm edges (pdf ⟨i, by omega⟩ c) (pdf ⟨i + 1, hi⟩ c) grid[i] grid[i + 1] t ≠ 0 →
        ∀ b, r c b = .fin (normalized norm edges (fun b => max (morphOnLine norm edges (pdf ⟨i, by omega⟩ c) (pdf ⟨i + 1, hi⟩ c) grid[i] grid[i + 1] t b) 0) b)) ∧
      (warned = true ↔ ∃ c, ¬ NearlyEmpty (pdf ⟨i, by omega⟩ c) ∧ ¬ NearlyEmpty (pdf ⟨i + 1, hi⟩ c) ∧
        (stdOnLine norm edges (pdf ⟨i, by omega⟩ c) (pdf ⟨i + 1, hi⟩ c) grid[i] grid[i + 1] t = 0 ∨
          ∃ b, morphOnLine norm edges (pdf ⟨i, by omega⟩ c) (pdf ⟨i + 1, hi⟩ c) grid[i] grid[i + 1] t b < 0)) := by
  have hlt : grid[i] < grid[i + 1] := List.pairwise_iff_getElem.mp hs i (i + 1) (by omega) hi (by omega)
  obtain ⟨r, hr, hc⟩ := momentMorph_spec he (fun j => pdf (![⟨i, by omega⟩, ⟨i + 1, hi⟩] j)) (fun j c b => hp _ c b)
    ![(grid[i + 1] - t) / (grid[i + 1] - grid[i]), (t - grid[i]) / (grid[i + 1] - grid[i])]
  have hpair : ∀ c, (fun j => pdf (![⟨i, by omega⟩, ⟨i + 1, hi⟩] j) c) = ![pdf ⟨i, by omega⟩ c, pdf ⟨i + 1, hi⟩ c] := by
    intro c; funext j; fin_cases j <;> rfl
  have hfin : ∀ c, ¬ NearlyEmpty (pdf ⟨i, by omega⟩ c) → ¬ NearlyEmpty (pdf ⟨i + 1, hi⟩ c) →
      stdOnLine norm edges (pdf ⟨i, by omega⟩ c) (pdf ⟨i + 1, hi⟩ c) grid[i] grid[i + 1] t ≠ 0 →
      ∀ b, r c b = .fin (morphOnLine norm edges (pdf ⟨i, by omega⟩ c) (pdf ⟨i + 1, hi⟩ c) grid[i] grid[i + 1] t b) := by
    intro c z1 z2 h0 b
    rw [(hc c).2.1 (by intro j; fin_cases j <;> assumption) (by
      simp only [Fin.sum_univ_two, Matrix.cons_val_zero, Matrix.cons_val_one]; exact h0) b, hpair c]
    rfl
  refine ⟨(cutOff norm edges r).1, (cutOff norm edges r).2, ?_, fun c z1 z2 h0 b => ?_, ?_⟩
  · refine extrapolate_eq grid hs pdf t i hi hij ?_
    rw [line_weights hlt]; exact hr
  · exact cutOff_value norm edges r c _ (hfin c z1 z2 h0) (normalized_integral _ _ _) b
  · rw [cutOff_warns]
    constructor
    · rintro ⟨c, b, hcb⟩
      by_cases z1 : NearlyEmpty (pdf ⟨i, by omega⟩ c)
      · rw [(hc c).1 ⟨0, z1⟩ b, ge_zero_eq_false] at hcb; exact absurd hcb (lt_irrefl _)
      by_cases z2 : NearlyEmpty (pdf ⟨i + 1, hi⟩ c)
      · rw [(hc c).1 ⟨1, z2⟩ b, ge_zero_eq_false] at hcb; exact absurd hcb (lt_irrefl _)
      refine ⟨c, z1, z2, ?_⟩
      by_cases h0 : stdOnLine norm edges (pdf ⟨i, by omega⟩ c) (pdf ⟨i + 1, hi⟩ c) grid[i] grid[i + 1] t = 0
      · exact Or.inl h0
      · rw [hfin c z1 z2 h0 b, ge_zero_eq_false] at hcb
        exact Or.inr ⟨b, hcb⟩
    · rintro ⟨c, z1, z2, h⟩
      by_cases h0 : stdOnLine norm edges (pdf ⟨i, by omega⟩ c) (pdf ⟨i + 1, hi⟩ c) grid[i] grid[i + 1] t = 0
      · refine ⟨c, 0, ?_⟩
        rw [(hc c).2.2 (by intro j; fin_cases j <;> assumption) (by norm_num) (by
          simp only [Fin.sum_univ_two, Matrix.cons_val_zero, Matrix.cons_val_one]; exact h0) 0]
        rfl
      · rcases h with h | ⟨b, hb⟩
        · exact absurd h h0
        · exact ⟨c, b, by rw [hfin c z1 z2 h0 b, ge_zero_eq_false]; exact hb⟩

/-- **C57** The value and the warning in two dimensions, for the simplex that was chosen. -/
theorem C57_value_2d {n : ℕ} {C : Type*} {norm : Normalization} {edges : Fin (n + 2) → ℝ} (he : GoodEdges norm edges) (argsort : List (FV ℝ × FV ℝ) → ℕ) (T : Triangulation)
    (pdf : Fin T.points.length → C → Fin (n + 1) → ℝ) (hp : ∀ j c b, 0 ≤ pdf j c b) (t : Pt 0) (ind : ℕ) (hind : ind < T.simplices.length)
    (hchosen : findNearestSimplex argsort T t = .ok ind) (hnd : NonDegenerate T T.simplices[ind]) (w : Fin 3 → ℝ) (hw1 : ∑ i, w i = 1)
    (hwt : ∑ i, w i • toPair T.points[T.simplices[ind] i] = toPair t) :
    ∃ r warned, morphExtrapolate2D norm edges argsort T pdf t = .ok (r, warned) ∧
      (∀ c, (∀ i, ¬ NearlyEmpty (pdf (T.simplices[ind] i) c)) → ∑ i, w i * stdOf norm edges (pdf (T.simplices[ind] i) c) ≠ 0 →
        ∀ b, r c b = .fin (normalized norm edges (fun b => max (normalized norm edges (morphDensity norm edges (fun i => pdf (T.simplices[ind] i) c) w) b) 0) b)) ∧
      (warned = true ↔ ∃ c, (∀ i, ¬ NearlyEmpty (pdf (T.simplices[ind] i) c)) ∧ (∑ i, w i * stdOf norm edges (pdf (T.simplices[ind] i) c) = 0 ∨
        ∃ b, normalized norm edges (morphDensity norm edges (fun i => pdf (T.simplices[ind] i) c) w) b < 0)) := by
  obtain ⟨w', hw, hw1', hwt', hwu, -⟩ := C50_barycentric _ (toPair t) hnd
  obtain rfl : w = w' := hwu w hw1 hwt
  obtain ⟨r, hr, hc⟩ := momentMorph_spec he (fun j => pdf (T.simplices[ind] j)) (fun j c b => hp _ c b) w
  refine ⟨(cutOff norm edges r).1, (cutOff norm edges r).2, ?_, fun c z h0 b => ?_, ?_⟩
  · unfold morphExtrapolate2D
    rw [hchosen]
    simp only
    rw [List.getElem?_eq_getElem hind]
    simp only [morphSimplex]
    rw [hw, hr]
  · exact cutOff_value norm edges r c _ ((hc c).2.1 z h0) (normalized_integral _ _ _) b
  · rw [cutOff_warns]
    constructor
    · rintro ⟨c, b, hcb⟩
      by_cases z : ∃ i, NearlyEmpty (pdf (T.simplices[ind] i) c)
      · rw [(hc c).1 z b, ge_zero_eq_false] at hcb; exact absurd hcb (lt_irrefl _)
      push Not at z
      refine ⟨c, z, ?_⟩
      by_cases h0 : ∑ i, w i * stdOf norm edges (pdf (T.simplices[ind] i) c) = 0
      · exact Or.inl h0
      · rw [(hc c).2.1 z h0 b, ge_zero_eq_false] at hcb
        exact Or.inr ⟨b, hcb⟩
    · rintro ⟨c, z, h⟩
      by_cases h0 : ∑ i, w i * stdOf norm edges (pdf (T.simplices[ind] i) c) = 0
      · refine ⟨c, 0, ?_⟩
        rw [(hc c).2.2 z (by norm_num) h0 0]
        rfl
      · rcases h with h | ⟨b, hb⟩
        · exact absurd h h0
        · exact ⟨c, b, by rw [(hc c).2.1 z h0 b, ge_zero_eq_false]; exact hb⟩

/-! ## C129 -/

/-- **C129** For dimensionless templates the interpolator and the extrapolator are those of the plain arrays, in one and two dimensions. -/
theorem C129_dimensionless_classes {n : ℕ} {C : Type*} {unit : PhysUnit ℝ} (hu : unit.dim = Dim.one) (norm : Normalization) (edges : Fin (n + 2) → ℝ) :
    (∀ (grid : List ℝ) (pdf : Fin grid.length → C → Fin (n + 1) → ℝ) (t : ℝ), morphInterpolate1DQ unit norm edges grid pdf t = morphInterpolate1D norm edges grid pdf t) ∧
    (∀ (grid : List ℝ) (pdf : Fin grid.length → C → Fin (n + 1) → ℝ) (t : ℝ), morphExtrapolate1DQ unit norm edges grid pdf t = (morphExtrapolate1D norm edges grid pdf t).map Prod.fst) ∧
    (∀ (T : Triangulation) (pdf : Fin T.points.length → C → Fin (n + 1) → ℝ) (found : ℤ) (t : Pt 0),
      morphInterpolate2DQ unit norm edges T pdf found t = morphInterpolate2D norm edges T pdf found t) ∧
    ∀ (argsort : List (FV ℝ × FV ℝ) → ℕ) (T : Triangulation) (pdf : Fin T.points.length → C → Fin (n + 1) → ℝ) (t : Pt 0),
      morphExtrapolate2DQ unit norm edges argsort T pdf t = (morphExtrapolate2D norm edges argsort T pdf t).map Prod.fst := by
  have key : ∀ {k : ℕ} (pdf : Fin k → C → Fin (n + 1) → ℝ) (coef : Fin k → FV ℝ), momentMorphQ unit norm edges pdf coef = momentMorph norm edges pdf coef := by
    intro k pdf coef
    unfold momentMorphQ setPlain
    rw [if_pos hu]
  refine ⟨fun grid pdf t => ?_, fun grid pdf t => ?_, fun T pdf found t => ?_, fun argsort T pdf t => ?_⟩
  · unfold morphInterpolate1DQ morphInterpolate1D
    simp only [key]
    by_cases h1 : grid.length = 1
    · rw [if_pos h1, if_pos h1]
    · rw [if_neg h1, if_neg h1]
      cases digitize (grid.map .fin) (.fin t) with
      | error e => rfl
      | ok k =>
        simp only
        by_cases h : k < grid.length
        · rw [dif_pos h, dif_pos h]
          generalize linesegmentCoefficients _ _ = x
          cases x <;> rfl
        · rw [dif_neg h, dif_neg h]
  · unfold morphExtrapolate1DQ morphExtrapolate1D
    simp only [key]
    cases grid.min? with
    | none => rfl
    | some lo =>
      simp only
      by_cases h : grid.length < 2
      · rw [dif_pos h, dif_pos h]; rfl
      · rw [dif_neg h, dif_neg h]
        generalize linesegmentCoefficients _ _ = x
        cases x with
        | error e => rfl
        | ok coef =>
          simp only
          generalize momentMorph (C := C) (n := n) _ _ _ _ = y
          cases y <;> rfl
  · unfold morphInterpolate2DQ morphInterpolate2D morphSimplexQ morphSimplex
    simp only [key]
    generalize (if found < 0 then T.simplices.getLast? else T.simplices[found.toNat]?) = x
    cases x <;> rfl
  · unfold morphExtrapolate2DQ morphExtrapolate2D morphSimplexQ morphSimplex
    simp only [key]
    cases findNearestSimplex argsort T t with
    | error e => rfl
    | ok ind =>
      simp only
      cases T.simplices[ind]? with
      | none => rfl
      | some s =>
        simp only
        cases momentMorph norm edges (fun j => pdf (s j)) (barycentricCoefficients (fun i => toPair T.points[s i]) (toPair t)) <;> rfl

/-! ## The hypotheses can be met -/

/-- two templates on the bins [0, 1, 3], a target beyond the second grid point -/
example : ∃ r warned, morphExtrapolate1D .area (![0, 1, 3] : Fin 3 → ℝ) [0, 1] badPdf 3 = .ok (r, warned) := by
  obtain ⟨r, w, h, -⟩ := C57_value_1d edges013 [0, 1] (by simp) badPdf (by
    intro j c b; unfold badPdf
    split <;> fin_cases b <;> norm_num) 3 0 (by simp) (Or.inr ⟨by simp, by simp⟩)
  exact ⟨r, w, h⟩

/-- a target inside -/
example : ∃ r, morphInterpolate1D .area (![0, 1, 3] : Fin 3 → ℝ) [0, 1] badPdf (1 / 2) = .ok r := by
  obtain ⟨r, h, -⟩ := C55_value_1d edges013 [0, 1] (by simp) badPdf (by
    intro j c b; unfold badPdf
    split <;> fin_cases b <;> norm_num) (1 / 2) 0 (by simp) (by simp) (by norm_num)
  exact ⟨r, h⟩

example : (unitOne : PhysUnit ℝ).dim = Dim.one := rfl

end Pyirf.Interpolation
