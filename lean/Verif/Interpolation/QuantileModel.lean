import Verif.Interpolation.MorphModel
import Verif.Np.Interp
import Mathlib.Algebra.Order.Round
import Mathlib.Data.Fin.Tuple.Basic

/-!
# Model of /repo/pyirf/interpolation/quantile_interpolator.py

`n + 1` bins with finite edges, finite template entries; the axes between the first and the last are indexed by a type `C` of cells.
-/
set_option linter.unusedSectionVars false

namespace Pyirf.Interpolation
open Pyirf Pyirf.Np

/-- `np.cumsum(binned_pdf * bin_widths, axis=-1)`, /repo/pyirf/interpolation/quantile_interpolator.py:14-15. -/
noncomputable def cumProb {m : ℕ} (w p : Fin (m + 1) → ℝ) (b : Fin (m + 1)) : ℝ := ∑ i ∈ Finset.univ.filter (fun i => i ≤ b), p i * w i

/-- `cdf_values(binned_pdf, bin_edges, normalization)`, /repo/pyirf/interpolation/quantile_interpolator.py:10-21. -/
noncomputable def cdfValues {m : ℕ} (norm : Normalization) (edges : Fin (m + 2) → ℝ) (p : Fin (m + 1) → ℝ) (b : Fin (m + 1)) : FV ℝ :=
  let c := cumProb (binWidth norm edges) p
  FV.nanToNum0 (.fin (c b) / .fin (Finset.univ.sup' Finset.univ_nonempty c))

/-- `last_0`, /repo/pyirf/interpolation/quantile_interpolator.py:54. -/
noncomputable def last0 {m : ℕ} (cdf : Fin (m + 1) → FV ℝ) : Fin (m + 1) :=
  if FV.beq (cdf 0) (.fin 0) then (((List.finRange (m + 1)).filter fun i => FV.beq (cdf i) (.fin 0)).getLast?).getD 0 else 0

/-- `first_1`, /repo/pyirf/interpolation/quantile_interpolator.py:55; `none` if no value is 1 (IndexError). -/
noncomputable def first1 {m : ℕ} (cdf : Fin (m + 1) → FV ℝ) : Option (Fin (m + 1)) :=
  ((List.finRange (m + 1)).filter fun i => FV.beq (cdf i) (.fin 1)).head?

/-- The predecessor of a bin (itself for the first one). -/
def predBin {m : ℕ} (i : Fin (m + 1)) : Fin (m + 1) := ⟨i.val - 1, by omega⟩

/-- The mask `selection`, /repo/pyirf/interpolation/quantile_interpolator.py:57-67. -/
noncomputable def selected {m : ℕ} (cdf : Fin (m + 1) → FV ℝ) (f1 : Fin (m + 1)) (i : Fin (m + 1)) : Bool :=
  let s1 := i.val = 0 ∨ FV.bne (cdf i) (cdf (predBin i)) = true
  let s2 := if i < last0 cdf then False else if i = last0 cdf then True else s1
  decide (if f1 < i then False else if i = f1 then True else s2)

/-- The table of the inverse interpolation, /repo/pyirf/interpolation/quantile_interpolator.py:69-75. -/
noncomputable def ppfNodes {m : ℕ} (mids : Fin (m + 1) → ℝ) (cdf : Fin (m + 1) → FV ℝ) (f1 : Fin (m + 1)) : List (FV ℝ × FV ℝ) :=
  ((List.finRange (m + 1)).filter fun i => selected cdf f1 i).map fun i => (cdf i, .fin (mids i))

/-- `ppf_values(bin_mids, cdfs, quantiles)` for one template, /repo/pyirf/interpolation/quantile_interpolator.py:24-87. Simplification: the linear `interp1d` is
`np.interp`; the quantiles are in [0, 1], the range of the table, so that `fill_value="extrapolate"` does not matter, and the cdf is assumed not to decrease
(scipy sorts the table otherwise; templates are not negative in the theorems). NaN for an empty PDF. -/
noncomputable def ppfValue {m : ℕ} (mids : Fin (m + 1) → ℝ) (cdf : Fin (m + 1) → FV ℝ) (q : ℝ) : Except Err (FV ℝ) :=
  if FV.gt (fsum (List.ofFn cdf)) (.fin 0) then
    match first1 cdf with
    | none => .error .indexError
    | some f1 => .ok (interp (ppfNodes mids cdf f1) (.fin q))
  else .ok .nan

/-- The result of `griddata(points, values, target)` (linear): none outside the convex hull (filled with NaN), otherwise a combination of the values at some
points. -/
abbrev GridWeights (N : ℕ) := Option (List (Fin N × ℝ))

/-- `griddata` applied to one column of values. -/
noncomputable def griddataAt {N : ℕ} (g : GridWeights N) (values : Fin N → FV ℝ) : FV ℝ :=
  match g with
  | none => .nan
  | some l => fsum (l.map fun e => .fin e.2 * values e.1)

/-- `pdf_from_ppf(bin_edges, interp_ppfs, quantiles)` for one cell at one point, /repo/pyirf/interpolation/quantile_interpolator.py:90-133: the derivative of the
inverse of the ppf, at the middle between two quantiles, interpolated linearly and 0 outside. `M + 2` quantiles. (scipy sorts the table by the middle of the
quantiles; here it is taken as it is, increasing or all NaN.) -/
noncomputable def pdfFromPpf {M : ℕ} (ppf : Fin (M + 2) → FV ℝ) (quantiles : Fin (M + 2) → ℝ) (x : ℝ) : FV ℝ :=
  let dppf : Fin (M + 1) → FV ℝ := fun i => ppf i.succ - ppf i.castSucc
  let pdf : Fin (M + 1) → FV ℝ := fun i => FV.nanToNum0 (.fin (quantiles i.succ - quantiles i.castSucc) / dppf i)
  let mid : Fin (M + 1) → FV ℝ := fun i => ppf i.castSucc + dppf i / .fin 2
  FV.nanToNum0 (if FV.lt (.fin x) (mid 0) then .fin 0 else if FV.gt (.fin x) (mid (Fin.last M)) then .fin 0
    else interp (List.ofFn fun i => (mid i, pdf i)) (.fin x))

/-- `norm_pdf(pdf_values, bin_edges, normalization)` for one cell, /repo/pyirf/interpolation/quantile_interpolator.py:136-151. -/
noncomputable def normPdf {n : ℕ} (norm : Normalization) (edges : Fin (n + 2) → ℝ) (f : Fin (n + 1) → FV ℝ) (b : Fin (n + 1)) : FV ℝ :=
  let s := fsum (List.ofFn f)
  if FV.bne s (.fin 0) then f b / (s * .fin (binWidth norm edges b)) else .fin 0

/-- `np.round(x, decimals=0)`: half to even -/
noncomputable def npRound (x : ℝ) : ℤ := if Int.fract x = 1 / 2 then (if Even ⌊x⌋ then ⌊x⌋ else ⌊x⌋ + 1) else round x

/-- `np.linspace(0, 1, M + 2)`, /repo/pyirf/interpolation/quantile_interpolator.py:207-210. -/
noncomputable def quantileGrid (M : ℕ) (i : Fin (M + 2)) : ℝ := i.val / ((M : ℝ) + 1)

/-- the edges with one more bin on the left, /repo/pyirf/interpolation/quantile_interpolator.py:205 -/
def extEdges {n : ℕ} (edges : Fin (n + 2) → ℝ) : Fin (n + 3) → ℝ := Fin.cons (edges 0 - (edges 1 - edges 0)) edges

/-- the PDF with an empty bin on the left, /repo/pyirf/interpolation/quantile_interpolator.py:203-204 -/
def extPdf {n : ℕ} (p : Fin (n + 1) → ℝ) : Fin (n + 2) → ℝ := Fin.cons 0 p

open Classical in
/-- `QuantileInterpolator(grid_points, bin_edges, binned_pdf, quantile_resolution, normalization).interpolate(target_point)`,
/repo/pyirf/interpolation/quantile_interpolator.py:154-266. `g` is what scipy's `griddata` computes for the grid points and the target. A resolution of 0 raises
ZeroDivisionError; fewer than two quantiles leave nothing to interpolate (ValueError of `interp1d` or `linspace`). -/
noncomputable def quantileInterpolate {N n : ℕ} {C : Type*} (norm : Normalization) (edges : Fin (n + 2) → ℝ) (pdf : Fin N → C → Fin (n + 1) → ℝ) (resolution : ℝ)
    (g : GridWeights N) : Except Err (C → Fin (n + 1) → FV ℝ) :=
  if resolution = 0 then .error .zeroDivisionError
  else if npRound (1 / resolution) < 2 then .error .valueError
  else
    let M : ℕ := (npRound (1 / resolution) - 2).toNat
    let q := quantileGrid M
    let cdfs : Fin N → C → Fin (n + 2) → FV ℝ := fun k c => cdfValues norm (extEdges edges) (extPdf (pdf k c))
    let ppfs : Fin N → C → Fin (M + 2) → Except Err (FV ℝ) := fun k c i => ppfValue (binMid (extEdges edges)) (cdfs k c) (q i)
    if ∃ k c i e, ppfs k c i = .error e then .error .indexError
    else .ok fun c =>
      let ppf : Fin (M + 2) → FV ℝ := fun i => griddataAt g fun k => okOr .nan (ppfs k c i)
      let f : Fin (n + 1) → FV ℝ := fun b => pdfFromPpf ppf q (edges b.castSucc)
      fun b => FV.nanToNum0 (normPdf norm edges f b)

/-- `griddata` in one dimension for a sorted grid, scipy/interpolate/_ndgriddata.py and `interp1d._call_linear`: the line through the two grid points around the
target (`searchsorted(x, t)` clipped to `[1, len(x) - 1]` is the upper one), none outside the range. -/
noncomputable def griddata1D {N : ℕ} (grid : Fin (N + 2) → ℝ) (t : ℝ) : GridWeights (N + 2) :=
  if t < grid 0 ∨ grid (Fin.last _) < t then none
  else
    let hi : ℕ := min (max ((Finset.univ.filter fun i => grid i < t).card) 1) (N + 1)
    let up : Fin (N + 2) := ⟨hi, by omega⟩
    let lo : Fin (N + 2) := ⟨hi - 1, by omega⟩
    some [(lo, 1 - (t - grid lo) / (grid up - grid lo)), (up, (t - grid lo) / (grid up - grid lo))]

end Pyirf.Interpolation
