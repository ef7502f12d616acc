import Verif.Units.EstModel
import Verif.Units.UtilProps
import Verif.Interpolation.PsfUnitProps

/-!
# C159: the estimators do not depend on units
-/
set_option linter.unusedSectionVars false
set_option linter.unusedSimpArgs false

namespace Pyirf.Units
open Pyirf Pyirf.Np Pyirf.Io Pyirf.Interpolation

/-! ## Specification -/

/-- The areas in m2. -/
noncomputable def areasSI {C : Type} (x : Q (List (C → ℝ))) : List (C → ℝ) := x.val.map fun a c => x.unit.scale * a c
/-- The edges in radian. -/
noncomputable def edgesSI {n : ℕ} (x : Q (Fin n → ℝ)) : Fin n → ℝ := fun i => x.unit.scale * x.val i
/-- The templates in sr-1. -/
noncomputable def templatesSI {N n : ℕ} {C : Type} (x : Q (Fin N → C → Fin n → ℝ)) : Fin N → C → Fin n → ℝ := fun k c b => x.unit.scale * x.val k c b

/-! ## Effective areas -/

theorem num_m2 (x : Q ℝ) : x.num m2 = siR x := by
  unfold Q.num siR
  show x.unit.scale / 1 * x.val = _
  rw [div_one]

/-- **C159** EffectiveAreaEstimator with areas and a minimum in any units of area is the estimator for the numbers in m2, with the minimum in m2. -/
theorem C159_effective_area {C : Type} (argsort : List ℝ → List ℕ) (delaunay : Grid → Except Err (List (FV ℝ) → Bool)) (g : GridArg) (areas : Q (List (C → ℝ))) (amin : Q ℝ)
    (interp : ClsArg (C → FV ℝ) (C → FV ℝ)) (extrap : Option (ClsArg (C → FV ℝ) (C → FV ℝ))) :
    (areas.unit.dim = (m2 : PhysUnit ℝ).dim ∧ amin.unit.dim = (m2 : PhysUnit ℝ).dim →
      effectiveAreaEstimatorQ argsort delaunay g areas amin interp extrap = (effectiveAreaInit argsort delaunay g (areasSI areas) (siR amin) interp extrap).map fun e => (e, siR amin)) ∧
    (¬ (areas.unit.dim = (m2 : PhysUnit ℝ).dim ∧ amin.unit.dim = (m2 : PhysUnit ℝ).dim) → effectiveAreaEstimatorQ argsort delaunay g areas amin interp extrap = .error .unitsError) := by
  unfold effectiveAreaEstimatorQ
  rw [checkDim_bind, checkDim_bind]
  constructor
  · rintro ⟨h1, h2⟩
    rw [if_pos h1, if_pos h2]
    simp only [num_m2]
    unfold areasSI
    simp only [siR]
    cases effectiveAreaInit argsort delaunay g (areas.val.map fun a c => areas.unit.scale * a c) (amin.unit.scale * amin.val) interp extrap <;> rfl
  · intro h
    by_cases h1 : areas.unit.dim = (m2 : PhysUnit ℝ).dim
    · rw [if_pos h1, if_neg fun h2 => h ⟨h1, h2⟩]
    · rw [if_neg h1]

/-- **C159** So the same areas and the same minimum in other units give the same estimator, hence the same estimates. -/
theorem C159_effective_area_units {C : Type} (argsort : List ℝ → List ℕ) (delaunay : Grid → Except Err (List (FV ℝ) → Bool)) (g : GridArg) (areas areas' : Q (List (C → ℝ))) (amin amin' : Q ℝ)
    (interp : ClsArg (C → FV ℝ) (C → FV ℝ)) (extrap : Option (ClsArg (C → FV ℝ) (C → FV ℝ))) (h1 : areas.unit.dim = areas'.unit.dim) (h2 : amin.unit.dim = amin'.unit.dim)
    (h3 : areasSI areas = areasSI areas') (h4 : siR amin = siR amin') :
    effectiveAreaEstimatorQ argsort delaunay g areas amin interp extrap = effectiveAreaEstimatorQ argsort delaunay g areas' amin' interp extrap := by
  obtain ⟨a1, a2⟩ := C159_effective_area argsort delaunay g areas amin interp extrap
  obtain ⟨b1, b2⟩ := C159_effective_area argsort delaunay g areas' amin' interp extrap
  by_cases h : areas.unit.dim = (m2 : PhysUnit ℝ).dim ∧ amin.unit.dim = (m2 : PhysUnit ℝ).dim
  · rw [a1 h, b1 ⟨h1 ▸ h.1, h2 ▸ h.2⟩, h3, h4]
  · rw [a2 h, b2 fun h' => h ⟨h1.trans h'.1, h2.trans h'.2⟩]

/-- **C159** The estimate is given in m2. -/
theorem C159_estimate_in_m2 {C : Type} (e : Estimator (C → FV ℝ) × ℝ) (target : TargetArg) :
    effectiveAreaEstimateQ e target = ((effectiveAreaCall e.1 e.2 target).result.map fun r => (⟨m2, r⟩ : Q (C → FV ℝ)), (effectiveAreaCall e.1 e.2 target).warned) := by
  unfold effectiveAreaEstimateQ
  cases h : (effectiveAreaCall e.1 e.2 target).result <;> simp [h, Except.map]

/-! ## The quantile interpolation does not depend on the normalization of the templates -/

theorem cumProb_scale {m : ℕ} (w p : Fin (m + 1) → ℝ) (k : ℝ) (b : Fin (m + 1)) : cumProb w (fun i => k * p i) b = k * cumProb w p b := by
  unfold cumProb
  rw [Finset.mul_sum]
  exact Finset.sum_congr rfl fun i _ => by ring

theorem fin_div_scale {k : ℝ} (hk : 0 < k) (a b : ℝ) : (FV.fin (k * a) / FV.fin (k * b) : FV ℝ) = .fin a / .fin b := by
  by_cases hb : b = 0
  · subst hb
    rw [mul_zero, FV.fin_div_zero, FV.fin_div_zero]
    unfold FV.infSign
    by_cases ha : a = 0
    · simp [ha]
    · simp [ha, hk.ne', mul_pos_iff_of_pos_left hk]
  · rw [FV.fin_div_fin _ _ (mul_ne_zero hk.ne' hb), FV.fin_div_fin _ _ hb, mul_div_mul_left _ _ hk.ne']

theorem cdfValues_scale {m : ℕ} (norm : Normalization) (edges : Fin (m + 2) → ℝ) (p : Fin (m + 1) → ℝ) {k : ℝ} (hk : 0 < k) :
    cdfValues norm edges (fun i => k * p i) = cdfValues norm edges p := by
  funext b
  unfold cdfValues
  dsimp only
  have e : cumProb (binWidth norm edges) (fun i => k * p i) = fun b => k * cumProb (binWidth norm edges) p b := funext fun b => cumProb_scale _ _ _ _
  rw [e]
  have s : (Finset.univ.sup' Finset.univ_nonempty fun b => k * cumProb (binWidth norm edges) p b) = k * Finset.univ.sup' Finset.univ_nonempty (cumProb (binWidth norm edges) p) := by
    refine (Finset.comp_sup'_eq_sup'_comp Finset.univ_nonempty (fun x => k * x) ?_).symm
    intro x y
    exact mul_max_of_nonneg _ _ hk.le
  rw [s, fin_div_scale hk]

theorem extPdf_scale {n : ℕ} (p : Fin (n + 1) → ℝ) (k : ℝ) : extPdf (fun i => k * p i) = fun i => k * extPdf p i := by
  funext i
  unfold extPdf
  refine Fin.cases ?_ (fun j => ?_) i
  · simp
  · simp

open Classical in
/-- `quantileInterpolate` after the calculation of the cumulative distributions -/
noncomputable def quantileFromCdf {N n : ℕ} {C : Type*} (edges : Fin (n + 2) → ℝ) (norm : Normalization) (cdfs : Fin N → C → Fin (n + 2) → FV ℝ) (resolution : ℝ)
    (g : GridWeights N) : Except Err (C → Fin (n + 1) → FV ℝ) :=
  if resolution = 0 then .error .zeroDivisionError
  else if npRound (1 / resolution) < 2 then .error .valueError
  else
    let M : ℕ := (npRound (1 / resolution) - 2).toNat
    let q := quantileGrid M
    let ppfs : Fin N → C → Fin (M + 2) → Except Err (FV ℝ) := fun k c i => ppfValue (binMid (extEdges edges)) (cdfs k c) (q i)
    if ∃ k c i e, ppfs k c i = .error e then .error .indexError
    else .ok fun c =>
      let ppf : Fin (M + 2) → FV ℝ := fun i => griddataAt g fun k => okOr .nan (ppfs k c i)
      let f : Fin (n + 1) → FV ℝ := fun b => pdfFromPpf ppf q (edges b.castSucc)
      fun b => FV.nanToNum0 (normPdf norm edges f b)

/-- **C159** QuantileInterpolator normalizes: every single template may be multiplied by its own positive factor (a unit, a number of events) without any effect on the estimate or the error. -/
theorem C159_quantile_normalization {N n : ℕ} {C : Type*} (norm : Normalization) (edges : Fin (n + 2) → ℝ) (pdf : Fin N → C → Fin (n + 1) → ℝ) (k : Fin N → C → ℝ) (hk : ∀ i c, 0 < k i c)
    (resolution : ℝ) (g : GridWeights N) : quantileInterpolate norm edges (fun i c b => k i c * pdf i c b) resolution g = quantileInterpolate norm edges pdf resolution g := by
  have e : (fun i c => cdfValues norm (extEdges edges) (extPdf fun b => k i c * pdf i c b)) = fun i c => cdfValues norm (extEdges edges) (extPdf (pdf i c)) := by
    funext i c
    rw [extPdf_scale, cdfValues_scale norm _ _ (hk i c)]
  have key : ∀ p : Fin N → C → Fin (n + 1) → ℝ, quantileInterpolate norm edges p resolution g =
      quantileFromCdf edges norm (fun i c => cdfValues norm (extEdges edges) (extPdf (p i c))) resolution g := fun p => rfl
  rw [key, key, e]

/-! ## PSF tables -/

theorem morphInterpolate1DQ_units {n : ℕ} {C : Type*} {u u' : PhysUnit ℝ} (hu : u.dim ≠ Dim.one) (hu' : u'.dim ≠ Dim.one) (norm : Normalization) (edges : Fin (n + 2) → ℝ) (grid : List ℝ)
    (pdf pdf' : Fin grid.length → C → Fin (n + 1) → ℝ) (t : ℝ) : morphInterpolate1DQ u norm edges grid pdf t = morphInterpolate1DQ u' norm edges grid pdf' t := by
  unfold morphInterpolate1DQ
  simp only [C129_moment_morph_estimation hu, C129_moment_morph_estimation hu']

theorem morphExtrapolate1DQ_units {n : ℕ} {C : Type*} {u u' : PhysUnit ℝ} (hu : u.dim ≠ Dim.one) (hu' : u'.dim ≠ Dim.one) (norm : Normalization) (edges : Fin (n + 2) → ℝ) (grid : List ℝ)
    (pdf pdf' : Fin grid.length → C → Fin (n + 1) → ℝ) (t : ℝ) : morphExtrapolate1DQ u norm edges grid pdf t = morphExtrapolate1DQ u' norm edges grid pdf' t := by
  unfold morphExtrapolate1DQ
  simp only [C129_moment_morph_estimation hu, C129_moment_morph_estimation hu']

/-- **C159** PSFTableEstimator gives the same estimate in sr-1, or the same error, for the same PSF tables and source offset bins in other units. -/
theorem C159_psf_table (c : Consts ℝ) {n : ℕ} {C : Type} (grid : List ℝ) (bins bins' : Q (Fin (n + 2) → ℝ)) (psf psf' : Q (Fin grid.length → C → Fin (n + 1) → ℝ)) (resolution : ℝ)
    (weights : ℝ → GridWeights grid.length) (interp : PdfClass) (ikwargs : Option (List Kwarg)) (extrap : Option PdfClass) (xkwargs : Option (List Kwarg)) (t : ℝ)
    (h1 : bins.unit.dim = bins'.unit.dim) (h2 : psf.unit.dim = psf'.unit.dim) (s1 : 0 < psf.unit.scale) (s2 : 0 < psf'.unit.scale)
    (h3 : edgesSI bins = edgesSI bins') (h4 : templatesSI psf = templatesSI psf') :
    psfTableEstimateQ c grid bins psf resolution weights interp ikwargs extrap xkwargs t = psfTableEstimateQ c grid bins' psf' resolution weights interp ikwargs extrap xkwargs t := by
  unfold psfTableEstimateQ
  rw [checkDim_bind, checkDim_bind, checkDim_bind, checkDim_bind, h1, h2]
  by_cases d1 : bins'.unit.dim = (degree c).dim
  swap
  · rw [if_neg d1, if_neg d1]
  by_cases d2 : psf'.unit.dim = (perSr : PhysUnit ℝ).dim
  swap
  · simp only [if_pos d1, if_neg d2]
  simp only [if_pos d1, if_pos d2]
  have e1 : bins.reals radian = .ok (edgesSI bins) := by
    unfold Q.reals
    rw [if_pos (show bins.unit.dim = (radian : PhysUnit ℝ).dim from h1.trans d1)]
    unfold edgesSI
    simp [radian]
  have e2 : bins'.reals radian = .ok (edgesSI bins') := by
    unfold Q.reals
    rw [if_pos (show bins'.unit.dim = (radian : PhysUnit ℝ).dim from d1)]
    unfold edgesSI
    simp [radian]
  rw [e1, e2, h3]
  show (psfTable1D _ _ _ _ _ _ _ _ _ _ >>= _) = (psfTable1D _ _ _ _ _ _ _ _ _ _ >>= _)
  congr 1
  have one : ∀ u : PhysUnit ℝ, u.dim = (perSr : PhysUnit ℝ).dim → u.dim ≠ Dim.one := fun u h => by rw [h]; unfold perSr Dim.one; decide
  have q : ∀ t, quantileInterpolate .coneSolidAngle (edgesSI bins') psf.val resolution (weights t) = quantileInterpolate .coneSolidAngle (edgesSI bins') psf'.val resolution (weights t) := by
    intro t
    have k1 := C159_quantile_normalization .coneSolidAngle (edgesSI bins') psf.val (fun _ _ => psf.unit.scale) (fun _ _ => s1) resolution (weights t)
    have k2 := C159_quantile_normalization .coneSolidAngle (edgesSI bins') psf'.val (fun _ _ => psf'.unit.scale) (fun _ _ => s2) resolution (weights t)
    exact k1.symm.trans ((congrArg (fun p => quantileInterpolate .coneSolidAngle (edgesSI bins') p resolution (weights t)) h4).trans k2)
  unfold psfTable1D quantityInput
  simp only [if_pos (h2.trans d2), if_pos d2, Option.getD_some, q, morphInterpolate1DQ_units (one _ (h2.trans d2)) (one _ d2) _ _ _ psf.val psf'.val,
    morphExtrapolate1DQ_units (one _ (h2.trans d2)) (one _ d2) _ _ _ psf.val psf'.val]

/-- **C159** Anything but angles and inverse solid angles raises UnitsError. -/
theorem C159_psf_table_units_error (c : Consts ℝ) {n : ℕ} {C : Type} (grid : List ℝ) (bins : Q (Fin (n + 2) → ℝ)) (psf : Q (Fin grid.length → C → Fin (n + 1) → ℝ)) (resolution : ℝ)
    (weights : ℝ → GridWeights grid.length) (interp : PdfClass) (ikwargs : Option (List Kwarg)) (extrap : Option PdfClass) (xkwargs : Option (List Kwarg)) (t : ℝ)
    (h : ¬ (bins.unit.dim = ⟨0, 0, 0, 1⟩ ∧ psf.unit.dim = ⟨0, 0, 0, -2⟩)) :
    psfTableEstimateQ c grid bins psf resolution weights interp ikwargs extrap xkwargs t = .error .unitsError := by
  unfold psfTableEstimateQ
  rw [checkDim_bind, checkDim_bind]
  by_cases d1 : bins.unit.dim = (degree c).dim
  · rw [if_pos d1, if_neg fun d2 : psf.unit.dim = (perSr : PhysUnit ℝ).dim => h ⟨d1, d2⟩]
  · rw [if_neg d1]

/-! ## The hypotheses can be met -/

/-- 5 m2 and 50000 cm2 -/
example : areasSI (⟨m2, [fun _ : Unit => 5]⟩ : Q (List (Unit → ℝ))) = areasSI ⟨⟨(m2 : PhysUnit ℝ).dim, 1 / 10 ^ 4⟩, [fun _ => 50000]⟩ := by
  simp [areasSI, m2]
  norm_num

/-- a template in other units -/
example : templatesSI (⟨perSr, fun _ _ => ![2, 6]⟩ : Q (Fin 2 → Unit → Fin 2 → ℝ)) = templatesSI ⟨⟨⟨0, 0, 0, -2⟩, 4⟩, fun _ _ => ![1 / 2, 3 / 2]⟩ := by
  funext k c b
  simp only [templatesSI, perSr]
  fin_cases b <;> norm_num

end Pyirf.Units
