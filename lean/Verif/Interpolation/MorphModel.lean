import Verif.Interpolation.ExtrapModel
import Verif.Binning.Model
import Verif.Utils.Model
import Mathlib.Analysis.Real.Sqrt

/-!
# Model of the moment morphing of /repo/pyirf/interpolation/moment_morph_interpolator.py and of MomentMorphNearestSimplexExtrapolator
(/repo/pyirf/interpolation/nearest_simplex_extrapolator.py)

`n + 1` bins with finite edges, finite template entries. The axes between the first (the grid points) and the last (the bins) are indexed
by a type `C` of cells.
-/
set_option linter.unusedSectionVars false

namespace Pyirf.Interpolation
open Pyirf Pyirf.Np

/-- `PDFNormalization`, /repo/pyirf/interpolation/base_interpolators.py:17-24. -/
inductive Normalization
  | area | coneSolidAngle
  deriving DecidableEq

/-- `get_bin_width(bin_edges, normalization)`, /repo/pyirf/interpolation/utils.py:8-15 (edges in radian for cones). -/
noncomputable def binWidth {n : ℕ} : Normalization → (Fin (n + 2) → ℝ) → Fin (n + 1) → ℝ
  | .area, edges, b => edges b.succ - edges b.castSucc
  | .coneSolidAngle, edges, b => Utils.coneSolidAngle (edges b.succ) - Utils.coneSolidAngle (edges b.castSucc)

/-- `bin_center(bin_edges)`, /repo/pyirf/binning.py:19-20. -/
noncomputable def binMid {n : ℕ} (edges : Fin (n + 2) → ℝ) (b : Fin (n + 1)) : ℝ := (1 / 2) * (edges b.castSucc + edges b.succ)

/-- `np.sqrt`: NaN for a negative number. -/
noncomputable def fsqrt (x : ℝ) : FV ℝ := if x < 0 then .nan else .fin (Real.sqrt x)

/-- The sum of the weights in `np.average`, /repo/pyirf/interpolation/moment_morph_interpolator.py:37-42. -/
noncomputable def pdfScale {n : ℕ} (norm : Normalization) (edges : Fin (n + 2) → ℝ) (p : Fin (n + 1) → ℝ) : ℝ := ∑ b, p b * binWidth norm edges b

/-- `mean` of `_estimate_mean_std` for one template, /repo/pyirf/interpolation/moment_morph_interpolator.py:34-42. -/
noncomputable def pdfMean {n : ℕ} (norm : Normalization) (edges : Fin (n + 2) → ℝ) (p : Fin (n + 1) → ℝ) : ℝ :=
  (∑ b, binMid edges b * (p b * binWidth norm edges b)) / pdfScale norm edges p

/-- `std` of `_estimate_mean_std` before the single-bin correction, /repo/pyirf/interpolation/moment_morph_interpolator.py:43-45. -/
noncomputable def pdfStd0 {n : ℕ} (norm : Normalization) (edges : Fin (n + 2) → ℝ) (p : Fin (n + 1) → ℝ) : FV ℝ :=
  fsqrt ((∑ b, (binMid edges b - pdfMean norm edges p) ^ 2 * (p b * binWidth norm edges b)) / pdfScale norm edges p)

/-- The bins with `binned_pdf != 0`. -/
noncomputable def nonzeroBins {n : ℕ} (p : Fin (n + 1) → ℝ) : List (Fin (n + 1)) := (List.finRange (n + 1)).filter fun b => decide (p b ≠ 0)

/-- `std` of `_estimate_mean_std` for one template, /repo/pyirf/interpolation/moment_morph_interpolator.py:47-57: if it is 0, the standard deviation of a
uniform distribution in the bin that is not 0. Simplification: the assignment `std[mask] = uniform_std[binned_pdf[mask, :] != 0]` is modelled for every
template by itself and raises ValueError unless exactly one bin is not 0 (numpy only compares the total numbers). -/
noncomputable def pdfStd {n : ℕ} (norm : Normalization) (edges : Fin (n + 2) → ℝ) (p : Fin (n + 1) → ℝ) : Except Err (FV ℝ) :=
  if FV.beq (pdfStd0 norm edges p) (.fin 0) then
    match nonzeroBins p with
    | [b] => .ok (.fin (Real.sqrt (1 / 12) * (edges b.succ - edges b.castSucc)))
    | _ => .error .valueError
  else .ok (pdfStd0 norm edges p)

/-- The edges as list -/
def edgeList {n : ℕ} (edges : Fin (n + 2) → ℝ) : List (FV ℝ) := List.ofFn fun i => .fin (edges i)

/-- `_lookup(bin_edges, binned_pdf, x)` for one template and one point, /repo/pyirf/interpolation/moment_morph_interpolator.py:60-100: the bin height, 0
outside the histogram. (Edges that are not monotone raise ValueError, see `momentMorph`.) -/
noncomputable def lookup {n : ℕ} (edges : Fin (n + 2) → ℝ) (p : Fin (n + 1) → ℝ) (x : FV ℝ) : ℝ :=
  match Binning.calculateBinIndices false false [x] (edgeList edges) with
  | .ok [(i, true)] => (List.ofFn p).getD i.toNat 0
  | _ => 0

/-- the value of `Except`, with a default -/
def okOr {α : Type*} (d : α) : Except Err α → α
  | .ok a => a
  | .error _ => d

/-- The cell has a template whose entries add up to (nearly) zero, /repo/pyirf/interpolation/moment_morph_interpolator.py:211-212. -/
def ZeroCell {k n : ℕ} {C : Type*} (pdf : Fin k → C → Fin (n + 1) → ℝ) (c : C) : Prop := ∃ j, isclose5 (.fin (∑ b, pdf j c b)) (.fin 0) = true

/-- The morphed histogram of one cell before the re-normalization, /repo/pyirf/interpolation/moment_morph_interpolator.py:217-248, from the means and
standard deviations of the templates. -/
noncomputable def morphed {k n : ℕ} (edges : Fin (n + 2) → ℝ) (p : Fin k → Fin (n + 1) → ℝ) (coef : Fin k → FV ℝ) (mu : Fin k → ℝ) (sig : Fin k → FV ℝ) (b : Fin (n + 1)) : FV ℝ :=
  let muPrime := fsum (List.ofFn fun j => coef j * .fin (mu j))
  let sigPrime := fsum (List.ofFn fun j => coef j * sig j)
  fsum (List.ofFn fun j =>
    let a := sig j / sigPrime
    let off := .fin (mu j) - muPrime * a
    coef j * .fin (lookup edges (p j) (a * .fin (binMid edges b) + off)) * a)

/-- `np.divide(f, norm, out=zeros, where=norm != 0)` with `norm = sum(f * width)`, /repo/pyirf/interpolation/moment_morph_interpolator.py:253-260 and
/repo/pyirf/interpolation/nearest_simplex_extrapolator.py:245-249. -/
noncomputable def renormalize {n : ℕ} (norm : Normalization) (edges : Fin (n + 2) → ℝ) (f : Fin (n + 1) → FV ℝ) (b : Fin (n + 1)) : FV ℝ :=
  let s := fsum (List.ofFn fun b => f b * .fin (binWidth norm edges b))
  if FV.bne s (.fin 0) then f b / s else .fin 0

open Classical in
/-- `moment_morph_estimation(bin_edges, binned_pdf, coefficients, normalization)`, /repo/pyirf/interpolation/moment_morph_interpolator.py:183-260.
`np.average` raises ZeroDivisionError if the weights of some template add up to zero, `np.digitize` ValueError if the edges are not monotone. -/
noncomputable def momentMorph {k n : ℕ} {C : Type*} (norm : Normalization) (edges : Fin (n + 2) → ℝ) (pdf : Fin k → C → Fin (n + 1) → ℝ) (coef : Fin k → FV ℝ) :
    Except Err (C → Fin (n + 1) → FV ℝ) :=
  let pdf' : Fin k → C → Fin (n + 1) → ℝ := fun j c b => if ZeroCell pdf c then 1 / ((n : ℝ) + 1) else pdf j c b
  if ∃ j c, pdfScale norm edges (pdf' j c) = 0 then .error .zeroDivisionError
  else if ∃ j c, pdfStd norm edges (pdf' j c) = .error .valueError then .error .valueError
  else if Np.monotonicity (edgeList edges) = 0 then .error .valueError
  else .ok fun c =>
    let f : Fin (n + 1) → FV ℝ := fun b =>
      if ZeroCell pdf c then .fin 0
      else morphed edges (fun j => pdf' j c) coef (fun j => pdfMean norm edges (pdf' j c)) (fun j => okOr .nan (pdfStd norm edges (pdf' j c))) b
    renormalize norm edges f

/-- `MomentMorphInterpolator.interpolate` in one dimension, /repo/pyirf/interpolation/moment_morph_interpolator.py:301-318 and 363-364: the segment
`[np.digitize(target, grid) - 1, np.digitize(target, grid)]`; the index -1 is the last grid point, an index that is too large raises IndexError. (With a
single grid point `squeeze` leaves no axis and `digitize` raises ValueError.) -/
noncomputable def morphInterpolate1D {n : ℕ} {C : Type*} (norm : Normalization) (edges : Fin (n + 2) → ℝ) (grid : List ℝ) (pdf : Fin grid.length → C → Fin (n + 1) → ℝ)
    (t : ℝ) : Except Err (C → Fin (n + 1) → FV ℝ) :=
  if grid.length = 1 then .error .valueError
  else match Np.digitize (grid.map .fin) (.fin t) with
    | .error e => .error e
    | .ok k =>
      if h : k < grid.length then
        let i : Fin grid.length := ⟨if k = 0 then grid.length - 1 else k - 1, by split <;> omega⟩
        let inds : Fin 2 → Fin grid.length := ![i, ⟨k, h⟩]
        match linesegmentCoefficients (fun j => grid[inds j]) t with
        | .error e => .error e
        | .ok coef => momentMorph norm edges (fun j => pdf (inds j)) (fun j => .fin (coef j))
      else .error .indexError

/-- The moment morph estimate from one simplex, /repo/pyirf/interpolation/moment_morph_interpolator.py:328-338 and
/repo/pyirf/interpolation/nearest_simplex_extrapolator.py:189-204. -/
noncomputable def morphSimplex {n : ℕ} {C : Type*} (norm : Normalization) (edges : Fin (n + 2) → ℝ) (T : Triangulation) (pdf : Fin T.points.length → C → Fin (n + 1) → ℝ)
    (s : Fin 3 → Fin T.points.length) (t : Pt 0) : Except Err (C → Fin (n + 1) → FV ℝ) :=
  momentMorph norm edges (fun j => pdf (s j)) (barycentricCoefficients (fun i => toPair T.points[s i]) (toPair t))

/-- `MomentMorphInterpolator.interpolate` in two dimensions, /repo/pyirf/interpolation/moment_morph_interpolator.py:320-338 and 365-368. `found` is the result of
scipy's `find_simplex(target_point)`; -1 (target outside) selects the last simplex. -/
noncomputable def morphInterpolate2D {n : ℕ} {C : Type*} (norm : Normalization) (edges : Fin (n + 2) → ℝ) (T : Triangulation) (pdf : Fin T.points.length → C → Fin (n + 1) → ℝ)
    (found : ℤ) (t : Pt 0) : Except Err (C → Fin (n + 1) → FV ℝ) :=
  match (if found < 0 then T.simplices.getLast? else T.simplices[found.toNat]?) with
  | none => .error .indexError
  | some s => morphSimplex norm edges T pdf s t

open Classical in
/-- The second half of `MomentMorphNearestSimplexExtrapolator.extrapolate`, /repo/pyirf/interpolation/nearest_simplex_extrapolator.py:237-251; the flag
tells whether a warning is issued. -/
noncomputable def cutOff {n : ℕ} {C : Type*} (norm : Normalization) (edges : Fin (n + 2) → ℝ) (r : C → Fin (n + 1) → FV ℝ) : (C → Fin (n + 1) → FV ℝ) × Bool :=
  if ∀ c b, FV.ge (r c b) (.fin 0) = true then (r, false)
  else (fun c => renormalize norm edges (fun b => if FV.lt (r c b) (.fin 0) then .fin 0 else r c b), true)

/-- `MomentMorphNearestSimplexExtrapolator.extrapolate` in one dimension, /repo/pyirf/interpolation/nearest_simplex_extrapolator.py:172-187 and 222-251. -/
noncomputable def morphExtrapolate1D {n : ℕ} {C : Type*} (norm : Normalization) (edges : Fin (n + 2) → ℝ) (grid : List ℝ) (pdf : Fin grid.length → C → Fin (n + 1) → ℝ)
    (t : ℝ) : Except Err ((C → Fin (n + 1) → FV ℝ) × Bool) :=
  match grid.min? with
  | none => .error .valueError
  | some lo =>
    if h : grid.length < 2 then .error .indexError
    else
      let inds : Fin 2 → Fin grid.length :=
        if t < lo then ![⟨0, by omega⟩, ⟨1, by omega⟩] else ![⟨grid.length - 2, by omega⟩, ⟨grid.length - 1, by omega⟩]
      match linesegmentCoefficients (fun j => grid[inds j]) t with
      | .error e => .error e
      | .ok coef => match momentMorph norm edges (fun j => pdf (inds j)) (fun j => .fin (coef j)) with
        | .error e => .error e
        | .ok r => .ok (cutOff norm edges r)

/-- `MomentMorphNearestSimplexExtrapolator.extrapolate` in two dimensions, /repo/pyirf/interpolation/nearest_simplex_extrapolator.py:189-204 and 229-251. -/
noncomputable def morphExtrapolate2D {n : ℕ} {C : Type*} (norm : Normalization) (edges : Fin (n + 2) → ℝ) (argsort : List (FV ℝ × FV ℝ) → ℕ) (T : Triangulation)
    (pdf : Fin T.points.length → C → Fin (n + 1) → ℝ) (t : Pt 0) : Except Err ((C → Fin (n + 1) → FV ℝ) × Bool) :=
  match findNearestSimplex argsort T t with
  | .error e => .error e
  | .ok ind => match T.simplices[ind]? with
    | none => .error .indexError
    | some s => match morphSimplex norm edges T pdf s t with
      | .error e => .error e
      | .ok r => .ok (cutOff norm edges r)

end Pyirf.Interpolation
