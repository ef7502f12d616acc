import Verif.Interpolation.PsfUnitModel
import Verif.Interpolation.CoefProps
import Verif.Interpolation.AxisProps

/-!
# C129: moment morphing never works for PSF tables
-/
set_option linter.unusedSectionVars false
set_option linter.unusedSimpArgs false

namespace Pyirf.Interpolation
open Pyirf Pyirf.Io Pyirf.Np

theorem setPlain_error {unit : PhysUnit ℝ} (hu : unit.dim ≠ Dim.one) (n : ℕ) : setPlain unit (List.replicate (n + 1) (.fin (1 / ((n : ℝ) + 1)))) = .error .unitsError := by
  unfold setPlain
  rw [if_neg hu, if_neg]
  intro h
  have := h (.fin (1 / ((n : ℝ) + 1))) (by simp [List.mem_replicate])
  have hpos : (0 : ℝ) < (n : ℝ) + 1 := by positivity
  rcases this with h | h
  · simp only [FV.fin.injEq] at h
    rw [div_eq_zero_iff] at h
    rcases h with h | h
    · norm_num at h
    · linarith
  · cases h

/-- **C129** `moment_morph_estimation` raises UnitConversionError for all templates whose unit is not dimensionless, even if no template is empty. -/
theorem C129_moment_morph_estimation {k n : ℕ} {C : Type*} {unit : PhysUnit ℝ} (hu : unit.dim ≠ Dim.one) (norm : Normalization) (edges : Fin (n + 2) → ℝ)
    (pdf : Fin k → C → Fin (n + 1) → ℝ) (coef : Fin k → FV ℝ) : momentMorphQ unit norm edges pdf coef = .error .unitsError := by
  unfold momentMorphQ
  rw [setPlain_error hu]

/-- **C129** For dimensionless templates (energy dispersions) nothing is lost: the same as for plain arrays. -/
theorem C129_dimensionless {k n : ℕ} {C : Type*} {unit : PhysUnit ℝ} (hu : unit.dim = Dim.one) (norm : Normalization) (edges : Fin (n + 2) → ℝ)
    (pdf : Fin k → C → Fin (n + 1) → ℝ) (coef : Fin k → FV ℝ) : momentMorphQ unit norm edges pdf coef = momentMorph norm edges pdf coef := by
  unfold momentMorphQ setPlain
  rw [if_pos hu]

/-- **C129** MomentMorphInterpolator in two dimensions never returns a result for templates with a unit. -/
theorem C129_interpolate_2d {n : ℕ} {C : Type*} {unit : PhysUnit ℝ} (hu : unit.dim ≠ Dim.one) (norm : Normalization) (edges : Fin (n + 2) → ℝ) (T : Triangulation)
    (pdf : Fin T.points.length → C → Fin (n + 1) → ℝ) (found : ℤ) (t : Pt 0) (hf : found < T.simplices.length) (hs : T.simplices ≠ []) :
    morphInterpolate2DQ unit norm edges T pdf found t = .error .unitsError := by
  unfold morphInterpolate2DQ morphSimplexQ
  have hsome : ∃ s, (if found < 0 then T.simplices.getLast? else T.simplices[found.toNat]?) = some s := by
    split
    · exact ⟨_, List.getLast?_eq_some_getLast hs⟩
    · exact ⟨_, List.getElem?_eq_getElem (by omega)⟩
  obtain ⟨s, h⟩ := hsome
  rw [h]
  exact C129_moment_morph_estimation hu _ _ _ _

/-- **C129** Nor does MomentMorphNearestSimplexExtrapolator, in two dimensions -/
theorem C129_extrapolate_2d {n : ℕ} {C : Type*} {unit : PhysUnit ℝ} (hu : unit.dim ≠ Dim.one) (norm : Normalization) (edges : Fin (n + 2) → ℝ) (argsort : List (FV ℝ × FV ℝ) → ℕ) (T : Triangulation)
    (pdf : Fin T.points.length → C → Fin (n + 1) → ℝ) (t : Pt 0) (r : C → Fin (n + 1) → FV ℝ) : morphExtrapolate2DQ unit norm edges argsort T pdf t ≠ .ok r := by
  unfold morphExtrapolate2DQ morphSimplexQ
  cases findNearestSimplex argsort T t with
  | error e => simp
  | ok i =>
    simp only
    cases T.simplices[i]? with
    | none => simp
    | some s =>
      simp only
      rw [C129_moment_morph_estimation hu]
      simp

/-- **C129** and in one dimension. -/
theorem C129_extrapolate_1d {n : ℕ} {C : Type*} {unit : PhysUnit ℝ} (hu : unit.dim ≠ Dim.one) (norm : Normalization) (edges : Fin (n + 2) → ℝ) (grid : List ℝ) (hs : grid.Pairwise (· < ·)) (hl : 2 ≤ grid.length)
    (pdf : Fin grid.length → C → Fin (n + 1) → ℝ) (t : ℝ) : morphExtrapolate1DQ unit norm edges grid pdf t = .error .unitsError := by
  unfold morphExtrapolate1DQ
  have hmono : ∀ i j (hi : i < grid.length) (hj : j < grid.length), i < j → grid[i] < grid[j] := fun i j hi hj hij => List.pairwise_iff_getElem.mp hs i j hi hj hij
  cases hm : grid.min? with
  | none => rw [List.min?_eq_none_iff] at hm; rw [hm] at hl; simp at hl
  | some lo =>
    simp only
    rw [dif_neg (by omega)]
    have hseg : ∀ inds : Fin 2 → Fin grid.length, (inds 0).val < (inds 1).val → ∃ coef, linesegmentCoefficients (fun j => grid[inds j]) t = .ok coef := by
      intro inds hlt
      refine ⟨_, linesegment_eq _ t ?_⟩
      exact ne_of_lt (hmono _ _ (inds 0).isLt (inds 1).isLt hlt)
    by_cases hlt : t < lo
    · simp only [if_pos hlt]
      obtain ⟨coef, hc⟩ := hseg ![⟨0, by omega⟩, ⟨1, by omega⟩] (by simp)
      rw [hc]
      simp only
      rw [C129_moment_morph_estimation hu]
    · simp only [if_neg hlt]
      obtain ⟨coef, hc⟩ := hseg ![⟨grid.length - 2, by omega⟩, ⟨grid.length - 1, by omega⟩] (by simp; omega)
      rw [hc]
      simp only
      rw [C129_moment_morph_estimation hu]

/-- **C129** MomentMorphInterpolator in one dimension never returns a result for templates with a unit, whatever the grid and the target are. -/
theorem C129_interpolate_1d {n : ℕ} {C : Type*} {unit : PhysUnit ℝ} (hu : unit.dim ≠ Dim.one) (norm : Normalization) (edges : Fin (n + 2) → ℝ) (grid : List ℝ)
    (pdf : Fin grid.length → C → Fin (n + 1) → ℝ) (t : ℝ) (r : C → Fin (n + 1) → FV ℝ) : morphInterpolate1DQ unit norm edges grid pdf t ≠ .ok r := by
  unfold morphInterpolate1DQ
  split
  · simp
  · split
    · simp
    · split
      · simp only
        split
        · simp
        · rw [C129_moment_morph_estimation hu]; simp
      · simp

/-- **C129** So a PSFTableEstimator (on a sorted one-dimensional grid) gives an estimate only with QuantileInterpolator and inside the grid: with any other class, and outside the grid with whatever
extrapolator, the construction or the call raises. -/
theorem C129_psf_estimator {n : ℕ} {C : Type*} (unit : Option (PhysUnit ℝ)) (edges : Fin (n + 2) → ℝ) (grid : List ℝ) (hs : grid.Pairwise (· < ·)) (hl : 2 ≤ grid.length)
    (pdf : Fin grid.length → C → Fin (n + 1) → ℝ) (quantile : ℝ → Except Err (C → Fin (n + 1) → FV ℝ)) (interp : PdfClass) (ikwargs : Option (List Kwarg)) (extrap : Option PdfClass)
    (xkwargs : Option (List Kwarg)) (t : ℝ) (r : C → Fin (n + 1) → FV ℝ) (h : psfTable1D unit edges grid pdf quantile interp ikwargs extrap xkwargs t = .ok r) :
    interp = .quantile ∧ (∃ x ∈ grid, x ≤ t) ∧ (∃ x ∈ grid, t ≤ x) ∧ quantile t = .ok r ∧ ∃ u, unit = some u ∧ u.dim = (perSr : PhysUnit ℝ).dim := by
  unfold psfTable1D quantityInput at h
  cases unit with
  | none => cases h
  | some u =>
    simp only at h
    by_cases hd : u.dim = (perSr : PhysUnit ℝ).dim
    · rw [if_pos hd] at h
      have hone : u.dim ≠ Dim.one := by rw [hd]; unfold perSr Dim.one; decide
      cases hp : psfConstruct interp ikwargs extrap xkwargs with
      | error e => rw [hp] at h; cases h
      | ok _ =>
        rw [hp] at h
        simp only at h
        split at h
        · cases h
        · cases hmin : grid.min? with
          | none => rw [hmin] at h; cases h
          | some lo =>
            cases hmax : grid.max? with
            | none => rw [hmin, hmax] at h; cases h
            | some hi =>
              rw [hmin, hmax] at h
              simp only [Option.getD_some] at h
              split at h
              · rename_i hin
                have m1 : lo ∈ grid := List.min?_mem hmin
                have m2 : hi ∈ grid := List.max?_mem hmax
                cases interp with
                | quantile => exact ⟨rfl, ⟨lo, m1, hin.1⟩, ⟨hi, m2, hin.2⟩, h, u, rfl, hd⟩
                | momentMorph => exact absurd h (C129_interpolate_1d hone _ _ _ _ _ _)
                | nearestNeighbor => exact absurd h (C129_interpolate_1d hone _ _ _ _ _ _)
                | momentMorphNearestSimplex => exact absurd h (C129_interpolate_1d hone _ _ _ _ _ _)
              · cases extrap with
                | none => cases h
                | some x =>
                  simp only at h
                  rw [C129_extrapolate_1d hone _ _ grid hs hl] at h
                  cases h
    · rw [if_neg hd] at h
      cases h

/-- **C129** Conversely, inside the grid with QuantileInterpolator and a PSF in units of sr^-1 the estimator gives what that interpolator gives. -/
theorem C129_psf_quantile {n : ℕ} {C : Type*} (u : PhysUnit ℝ) (hu : u.dim = (perSr : PhysUnit ℝ).dim) (edges : Fin (n + 2) → ℝ) (grid : List ℝ) (hs : grid.Pairwise (· < ·)) (hl : 2 ≤ grid.length)
    (pdf : Fin grid.length → C → Fin (n + 1) → ℝ) (quantile : ℝ → Except Err (C → Fin (n + 1) → FV ℝ)) (t : ℝ) (h1 : grid[0] ≤ t) (h2 : t ≤ grid[grid.length - 1]) :
    psfTable1D (some u) edges grid pdf quantile .quantile none none none t = quantile t := by
  unfold psfTable1D quantityInput
  simp only
  rw [if_pos hu]
  have hc : psfConstruct .quantile none none none = .ok () := by decide
  rw [hc]
  have hmono : ∀ i j (hi : i < grid.length) (hj : j < grid.length), i ≤ j → grid[i] ≤ grid[j] := by
    intro i j hi hj hij
    rcases Nat.lt_or_eq_of_le hij with h | h
    · exact le_of_lt (List.pairwise_iff_getElem.mp hs i j hi hj h)
    · subst h; exact le_refl _
  have hmin : grid.min? = some grid[0] := by
    rw [List.min?_eq_some_iff]
    refine ⟨List.getElem_mem _, ?_⟩
    intro b hb
    obtain ⟨i, hi, rfl⟩ := List.getElem_of_mem hb
    exact hmono 0 i (by omega) hi (by omega)
  have hmax : grid.max? = some grid[grid.length - 1] := by
    rw [List.max?_eq_some_iff]
    refine ⟨List.getElem_mem _, ?_⟩
    intro b hb
    obtain ⟨i, hi, rfl⟩ := List.getElem_of_mem hb
    exact hmono i _ hi (by omega) (by omega)
  simp only [hmin, hmax]
  rw [if_neg (by simp), if_pos ⟨h1, h2⟩]

/-! ## The hypotheses can be met -/

example : (perSr : PhysUnit ℝ).dim ≠ Dim.one := by unfold perSr Dim.one; decide
example : [(0 : ℝ), 1, 2].Pairwise (· < ·) := by simp

end Pyirf.Interpolation
