import Verif.Rounded.Model
import Verif.Interpolation.MorphModel

/-!
# Model: moment morphing in rounded arithmetic

One cell (index of the axes between grid points and bins), finite numbers. numpy adds along the last axis in an order of its own (pairwise), so that sum is a parameter `S`; sums over the templates (first axis)
go one after the other. `width b` are the bin widths of `get_bin_width` as computed.
-/
set_option linter.unusedSectionVars false

namespace Pyirf.Rounded
open Pyirf Pyirf.Np

/-- `linesegment_1D_interpolation_coefficients`, /repo/pyirf/interpolation/moment_morph_interpolator.py:103-137, for the grid points `g0`, `g1`: `m_ij = [[1, 0], [1, d]]` with `d = g1 - g0`. `np.linalg.inv` (LAPACK `gesv`) takes the
first row as pivot and finds the inverse `[[1, 0], [-1/d, 1/d]]`; the result is `[1, target - g0]` times that matrix. -/
noncomputable def segmentCoefficients (R : Rounding) (g0 g1 t : ℝ) : Fin 2 → ℝ :=
  let d := R.sub g1 g0
  let δ := R.sub t g0
  ![R.add (R.mul 1 1) (R.mul δ (R.div (-1) d)), R.add (R.mul 1 0) (R.mul δ (R.div 1 d))]

/-- `probability`, /repo/pyirf/interpolation/moment_morph_interpolator.py:38-39. -/
noncomputable def probability {n : ℕ} (R : Rounding) (width p : Fin (n + 1) → ℝ) (b : Fin (n + 1)) : ℝ := R.mul (p b) (width b)

/-- `np.average(x, weights=w)`: `multiply(x, w).sum() / w.sum()`. -/
noncomputable def average {n : ℕ} (R : Rounding) (S : List ℝ → ℝ) (x w : Fin (n + 1) → ℝ) : ℝ := R.div (S (List.ofFn fun b => R.mul (x b) (w b))) (S (List.ofFn w))

/-- `mids`: /repo/pyirf/interpolation/moment_morph_interpolator.py:34. -/
noncomputable def mid {n : ℕ} (R : Rounding) (edges : Fin (n + 2) → ℝ) (b : Fin (n + 1)) : ℝ := binCenter R (edges b.castSucc) (edges b.succ)

/-- `mean` of `_estimate_mean_std`, /repo/pyirf/interpolation/moment_morph_interpolator.py:34-42. -/
noncomputable def pdfMean {n : ℕ} (R : Rounding) (S : List ℝ → ℝ) (edges : Fin (n + 2) → ℝ) (width p : Fin (n + 1) → ℝ) : ℝ :=
  average R S (mid R edges) (probability R width p)

/-- The argument of the root in `_estimate_mean_std`, /repo/pyirf/interpolation/moment_morph_interpolator.py:43-45. -/
noncomputable def pdfVar {n : ℕ} (R : Rounding) (S : List ℝ → ℝ) (edges : Fin (n + 2) → ℝ) (width p : Fin (n + 1) → ℝ) : ℝ :=
  let mean := pdfMean R S edges width p
  average R S (fun b => R.mul (R.sub (mid R edges b) mean) (R.sub (mid R edges b) mean)) (probability R width p)

/-- `std` of `_estimate_mean_std`, /repo/pyirf/interpolation/moment_morph_interpolator.py:43-57; the same simplification as in `Interpolation.pdfStd`. -/
noncomputable def pdfStd {n : ℕ} (R : Rounding) (S : List ℝ → ℝ) (edges : Fin (n + 2) → ℝ) (width p : Fin (n + 1) → ℝ) : Except Err ℝ :=
  let std := R.rd (Real.sqrt (pdfVar R S edges width p))
  if std = 0 then
    match Interpolation.nonzeroBins p with
    | [b] => .ok (R.mul (R.rd (Real.sqrt (R.div 1 12))) (R.sub (edges b.succ) (edges b.castSucc)))
    | _ => .error .valueError
  else .ok std

/-- The morphed histogram before the re-normalization, /repo/pyirf/interpolation/moment_morph_interpolator.py:217-248, from the means and standard deviations of the templates. -/
noncomputable def morphed {k n : ℕ} (R : Rounding) (edges : Fin (n + 2) → ℝ) (p : Fin k → Fin (n + 1) → ℝ) (coef mu sig : Fin k → ℝ) (b : Fin (n + 1)) : ℝ :=
  let muPrime := seqSum R (List.ofFn fun j => R.mul (coef j) (mu j))
  let sigPrime := seqSum R (List.ofFn fun j => R.mul (coef j) (sig j))
  seqSum R (List.ofFn fun j =>
    let a := R.div (sig j) sigPrime
    let off := R.sub (mu j) (R.mul muPrime a)
    R.mul (R.mul (coef j) (Interpolation.lookup edges (p j) (.fin (R.add (R.mul a (mid R edges b)) off)))) a)

/-- The re-normalization, /repo/pyirf/interpolation/moment_morph_interpolator.py:253-260. -/
noncomputable def renormalize {n : ℕ} (R : Rounding) (S : List ℝ → ℝ) (width f : Fin (n + 1) → ℝ) (b : Fin (n + 1)) : ℝ :=
  let norm := S (List.ofFn fun b => R.mul (f b) (width b))
  if norm ≠ 0 then R.div (f b) norm else 0

open Classical in
/-- `moment_morph_estimation` for a cell, /repo/pyirf/interpolation/moment_morph_interpolator.py:208-260; a cell with a template whose sum is close to 0 gives 0. Simplification: the error of `_estimate_mean_std` for a
standard deviation of 0 with several bins that are not 0 is raised for this cell. -/
noncomputable def momentMorph {k n : ℕ} (R : Rounding) (S : List ℝ → ℝ) (edges : Fin (n + 2) → ℝ) (width : Fin (n + 1) → ℝ) (p : Fin k → Fin (n + 1) → ℝ) (coef : Fin k → ℝ) : Except Err (Fin (n + 1) → ℝ) :=
  if ∃ j, |S (List.ofFn (p j))| ≤ 1 / 10 ^ 8 then .ok (renormalize R S width fun _ => 0)
  else if ∃ j, pdfStd R S edges width (p j) = .error .valueError then .error .valueError
  else .ok (renormalize R S width (morphed R edges p coef (fun j => pdfMean R S edges width (p j)) fun j => Interpolation.okOr 0 (pdfStd R S edges width (p j))))

end Pyirf.Rounded
