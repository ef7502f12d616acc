import Verif.Np.Rounding
import Verif.Np.Bins
import Mathlib.Analysis.Real.Sqrt
import Mathlib.Data.Finset.Lattice.Fold

/-!
# Model: some functions in rounded arithmetic

The same functions as in the models with exact arithmetic, now with every operation rounded (`Np/Rounding`). Finite numbers only.
-/
set_option linter.unusedSectionVars false

namespace Pyirf.Rounded
open Pyirf Pyirf.Np

/-- Adding numbers one after the other, starting with 0: the last entry of `np.cumsum`, and a cell of `np.bincount`. -/
def seqSum (R : Rounding) (ws : List ℝ) : ℝ := ws.foldl R.add 0

/-! ## Weighted histograms -/

/-- An entry of `np.histogram`: value and weight. -/
abbrev Entry := FV ℝ × ℝ

/-- The cumulative weight of a sorted block before position `searchsorted(block, e, "left")`. -/
noncomputable def cumLeft (R : Rounding) (block : List Entry) (e : FV ℝ) : ℝ := seqSum R ((block.takeWhile fun v => FV.sortLt v.1 e).map Prod.snd)

/-- The cumulative weight of a sorted block before position `searchsorted(block, e, "right")`. -/
noncomputable def cumRight (R : Rounding) (block : List Entry) (e : FV ℝ) : ℝ := seqSum R ((block.takeWhile fun v => !FV.sortLt e v.1).map Prod.snd)

/-- The cumulative weights at the edges: `cum_n += cw[bin_index]` for each block. -/
noncomputable def histCum (R : Rounding) (edges : List (FV ℝ)) (blocks : List (List Entry)) : List ℝ :=
  edges.dropLast.map (fun e => seqSum R (blocks.map fun b => cumLeft R b e)) ++ (edges.getLast?.toList).map (fun e => seqSum R (blocks.map fun b => cumRight R b e))

/-- `np.histogram(x, bins, weights=w)` for increasing edges in rounded arithmetic, as used by `create_histogram_table` (/repo/pyirf/binning.py:208-212, 226-230). numpy takes the entries in blocks of 65536, sorts each block by
value, sums its weights cumulatively, adds the cumulative sums at the edges over the blocks and takes differences. `blocks` are the sorted blocks. -/
noncomputable def histogram (R : Rounding) (edges : List (FV ℝ)) (blocks : List (List Entry)) : List ℝ :=
  List.zipWith (fun b a => R.sub b a) (histCum R edges blocks).tail (histCum R edges blocks)

/-- A cell of `np.histogramdd(x, bins, weights=w)` (`np.bincount`), as used by `background_2d` (/repo/pyirf/irf/background.py:39-47): the weights of the events in the cell one after the other. -/
def bincountCell (R : Rounding) {α : Type*} (inCell : α → Bool) (weight : α → ℝ) (events : List α) : ℝ := seqSum R ((events.filter inCell).map weight)

/-- The two scalings of `estimate_background`, /repo/pyirf/sensitivity.py:345. -/
noncomputable def scaleBackground (R : Rounding) (n sizeRatio alpha : ℝ) : ℝ := R.div (R.mul n sizeRatio) alpha

/-! ## Effective areas -/

/-- `effective_area`, /repo/pyirf/irf/effective_area.py:15-29. -/
noncomputable def effectiveArea (R : Rounding) (nSelected nSimulated area : ℝ) : ℝ := R.mul (R.div nSelected nSimulated) area

/-! ## Normalised densities -/

/-- One energy and offset bin of `_normalize_hist`, /repo/pyirf/irf/energy_dispersion.py:14-29: `counts` and `edges` along the migration axis; a bin without events gives NaN, which `np.nan_to_num` replaces by 0. -/
noncomputable def normalizeHist {n : ℕ} (R : Rounding) (edges : Fin (n + 1) → ℝ) (counts : Fin n → ℕ) (b : Fin n) : ℝ :=
  let norm := seqSum R ((List.finRange n).map fun b => (counts b : ℝ))
  if norm = 0 then 0 else R.div (R.div (counts b) norm) (R.sub (edges b.succ) (edges b.castSucc))

/-- One bin of `energy_migration_matrix`, /repo/pyirf/irf/energy_dispersion.py:127-132. -/
noncomputable def normalizeRow {n : ℕ} (R : Rounding) (counts : Fin n → ℕ) (b : Fin n) : ℝ :=
  let norm := seqSum R ((List.finRange n).map fun b => (counts b : ℝ))
  if norm = 0 then 0 else R.div (counts b) norm

/-! ## Solid angles and point spread functions -/

/-- `cone_solid_angle(angle)`, /repo/pyirf/utils.py:186, in sr; `pi` and `cos` are numpy's. -/
noncomputable def coneSolidAngle (R : Rounding) (pi : ℝ) (cos : ℝ → ℝ) (angle : ℝ) : ℝ := R.mul (R.mul 2 pi) (R.sub 1 (cos angle))

/-- `np.diff(cone_solid_angle(edges))`, /repo/pyirf/irf/psf.py:35, /repo/pyirf/irf/background.py:55. -/
noncomputable def annulus {n : ℕ} (R : Rounding) (pi : ℝ) (cos : ℝ → ℝ) (edges : Fin (n + 1) → ℝ) (b : Fin n) : ℝ :=
  R.sub (coneSolidAngle R pi cos (edges b.succ)) (coneSolidAngle R pi cos (edges b.castSucc))

/-- One energy and offset bin of `_normalize_psf`, /repo/pyirf/irf/psf.py:33-45: `counts` and `edges` along the axis of the source offset; the solid angles are not 0. -/
noncomputable def normalizePsf {n : ℕ} (R : Rounding) (pi : ℝ) (cos : ℝ → ℝ) (edges : Fin (n + 1) → ℝ) (counts : Fin n → ℕ) (b : Fin n) : ℝ :=
  R.div (normalizeRow R counts b) (annulus R pi cos edges b)

/-- One bin of `background_2d`, /repo/pyirf/irf/background.py:49-58, from the content of the bin: divided by energy width, time and solid angle (before the conversion of the unit). -/
noncomputable def backgroundRate (R : Rounding) (content energyWidth time solidAngle : ℝ) : ℝ := R.div (R.div (R.div content energyWidth) time) solidAngle

/-! ## Percentiles -/

/-- numpy's `_lerp`, the interpolation between neighbouring values of `np.nanpercentile`. -/
noncomputable def lerp (R : Rounding) (a b t : ℝ) : ℝ :=
  let d := R.sub b a
  if 1 / 2 ≤ t then R.sub b (R.mul d (R.sub 1 t)) else R.add a (R.mul d t)

/-- The linear percentile of a sorted array without NaN, as in `calculate_percentile_cut` (/repo/pyirf/cuts.py:103) and the quantiles of `angular_resolution` and `energy_bias_resolution`: the fractional index is
`(n - 1) * (percentile / 100)`, the result lies between the neighbours of that index. -/
noncomputable def percentile (R : Rounding) (s : List ℝ) (p : ℝ) : ℝ :=
  let v := R.mul ((s.length : ℝ) - 1) (R.div p 100)
  let i := ⌊v⌋.toNat
  lerp R (s.getD (min i (s.length - 1)) 0) (s.getD (min (i + 1) (s.length - 1)) 0) (R.sub v i)

/-! ## Bins per decade -/

/-- `np.arange(start, stop, step)`: the length is the ceiling of `(stop - start) / step`; the first two values are `start` and `start + step`, the others continue with their difference. -/
noncomputable def arange (R : Rounding) (start stop step : ℝ) : List ℝ :=
  let second := R.add start step
  let delta := R.sub second start
  (List.range ⌈R.div (R.sub stop start) step⌉.toNat).map fun (k : ℕ) =>
    if k = 0 then start else if k = 1 then second else R.add start (R.mul k delta)

/-- `create_bins_per_decade`, /repo/pyirf/binning.py:121-130, energies in the unit of `e_min`; `log10` and `pow10` are numpy's functions. -/
noncomputable def createBinsPerDecade (R : Rounding) (log10 pow10 : ℝ → ℝ) (eMin eMax : ℝ) (binsPerDecade : ℕ) : List ℝ :=
  let logLower := log10 eMin
  let logUpper := log10 eMax
  let step := R.div 1 binsPerDecade
  let eps := R.div step 10000
  (arange R logLower (R.add logUpper eps) step).map pow10

/-! ## Bin centers -/

/-- `bin_center(edges)` for one bin, /repo/pyirf/binning.py:19-20. -/
noncomputable def binCenter (R : Rounding) (lo hi : ℝ) : ℝ := R.mul (1 / 2) (R.add lo hi)

/-! ## Significance -/

/-- `li_ma_significance(n_on, n_off, alpha)`, /repo/pyirf/statistics.py:34-57, for finite counts, with `log` numpy's logarithm and the square root rounded; a negative number below the root gives NaN. -/
noncomputable def liMa (R : Rounding) (log : ℝ → ℝ) (nOn nOff alpha : ℝ) : FV ℝ :=
  let pOn := R.div nOn (R.add nOn nOff)
  let pOff := R.div nOff (R.add nOn nOff)
  let t1 := R.mul nOn (log (R.mul (R.div (R.add 1 alpha) alpha) pOn))
  let t2 := R.mul nOff (log (R.mul (R.add 1 alpha) pOff))
  let t1 := if nOn = 0 then 0 else t1
  let t2 := if nOff = 0 then 0 else t2
  let ts := R.add t1 t2
  let significance := if R.mul ts 2 < 0 then FV.nan else FV.fin (R.rd (Real.sqrt (R.mul ts 2)))
  if nOn < R.mul alpha nOff then FV.fin 0 else significance

/-! ## Interpolation -/

/-- `np.cumsum(binned_pdf * bin_widths)`, /repo/pyirf/interpolation/quantile_interpolator.py:14-15, for one template with computed widths. -/
noncomputable def cumProb {m : ℕ} (R : Rounding) (w p : Fin (m + 1) → ℝ) (b : Fin (m + 1)) : ℝ :=
  seqSum R ((List.ofFn fun i => R.mul (p i) (w i)).take (b.val + 1))

/-- `cdf_values`, /repo/pyirf/interpolation/quantile_interpolator.py:10-21: divided by the largest value; `0 / 0` is replaced by 0. -/
noncomputable def cdfValues {m : ℕ} (R : Rounding) (w p : Fin (m + 1) → ℝ) (b : Fin (m + 1)) : ℝ :=
  let c := cumProb R w p
  let top := Finset.univ.sup' Finset.univ_nonempty c
  if top = 0 then 0 else R.div (c b) top

/-- `norm_pdf`, /repo/pyirf/interpolation/quantile_interpolator.py:136-151, for one cell with computed widths. -/
noncomputable def normPdf {m : ℕ} (R : Rounding) (w f : Fin (m + 1) → ℝ) (b : Fin (m + 1)) : ℝ :=
  let norm := seqSum R (List.ofFn f)
  if norm = 0 then 0 else R.div (f b) (R.mul norm (w b))

/-- `EffectiveAreaEstimator` at a grid point where the interpolator returns the parameter of that point, /repo/pyirf/interpolation/component_estimators.py:437-440, 472-476, for one cell: `log` and `exp` are numpy's. -/
noncomputable def areaAtNode (log exp : ℝ → ℝ) (area minArea : ℝ) : ℝ :=
  let a := if area < minArea then minArea else area
  let r := exp (log a)
  if r < minArea then 0 else r

end Pyirf.Rounded
