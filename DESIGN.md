# Formal model of pyirf in Lean 4

Properties: `properties.jsonl` (C01...). Status per property: `MANIFEST.json`.
Model and theorems: `lean/Verif/`. Seeded-bug experiments: `seeded/LOG.jsonl`.

## 1. Approach

* Shallow functional models, branch by branch, of the Python functions; every definition cites
  `/repo` file and lines. Exceptions are values (`Except Err α`); in-place mutation returns the new
  value. numpy/scipy/astropy calls are modelled by small functions implementing their documented
  contract (`Verif/Np/*.lean`), or – when the algorithm is irrelevant (root finder, spline, Delaunay) –
  by a parameter with an explicit contract hypothesis.
* Numbers. Finite floats are elements of a linearly ordered field `K` (ℝ where transcendental functions
  occur). The special values that code branches on are modelled explicitly: `FV K = nan | -inf | fin x
  | +inf` with IEEE-754 comparison and arithmetic rules (nan propagates, 0/0 = nan, x/0 = ±inf,
  inf-inf = nan, comparisons with nan false). Not modelled: rounding, overflow/underflow of finite
  arithmetic, signed zeros.
* Arrays of length n are functions `Fin n → α` (slices `[:-1]`, `[1:]` are `castSucc`, `succ`); event
  tables are lists of records; masks are filters.
* Units. A `Quantity` is its value in the unit used internally by the code (TeV, m, rad/deg, sr, s).
  Unit *conversion* factors are trusted to astropy. Unit *compatibility checks* that are code logic are
  modelled (check_table, integrate_cone).
* Layout per area: `X/Model.lean` (code), `X/Lemmas.lean` (helpers), `X/Props.lean` (specification +
  property theorems + satisfiability examples). The property theorems live only in `Props` files.

## 2. Trusted base

* Lean 4.33 kernel; axioms `propext`, `Classical.choice`, `Quot.sound` (checked with `#print axioms`
  by vcheck). No own axioms, no native code.
* Fidelity of the model to the code (read by hand, the code is never run).
* The numpy/scipy/astropy contracts in `Verif/Np` (listed in section 4).
* Exact arithmetic instead of IEEE rounding.

## 3. Plan per property

| id | model | proof |
|----|-------|-------|
| C01 | `digitize` = number of edges ≤ x (nan last), `calculate_bin_indices` incl. int64 sentinels | counting lemma on monotone edges |
| C02 | `add_overflow_bins` on lists of `FV` | case analysis + C01 |
| C03 | split/join on lists, `allclose` | list lemmas |
| C04 | `np.arange` length rule `ceil`, powers of 10 over ℝ | floor/ceil arithmetic, rpow lemmas |
| C05 | `np.histogram`/group_by over event lists | induction on events, partition lemma |
| C06 | both binning rules | from the membership characterisations |
| C07 | cumsum/normalise/interpolate/diff with interpolant as parameter through the nodes | telescoping sums |
| C08–C10 | group events by bin, linear-interpolated nanpercentile on sorted list, clip | filter lemmas |
| C09 | as C08 | counting on sorted lists |
| C11–C12 | evaluate_binned_cut(_by_index), op an arbitrary Bool function on FV | C01 |
| C13 | gaussian_filter1d as normalised non-negative kernel, index clamping | convexity |
| C14 | table (in)equality with FV cells | list induction |
| C15–C16 | Li&Ma formula with numpy masking over FV ℝ | Gibbs inequality, derivative/convexity |
| C17–C20 | `_relative_sensitivity` with brentq as parameter | monotonicity of C16 |
| C21–C22 | calculate_sensitivity / estimate_background on tables | C05, C18 |
| C23–C25 | loops over the cut grid, nanargmin | argmin lemma, per-bin locality |
| C26–C28 | masks in source order; power law integral | rpow integrals |
| C29–C32 | viewcone integral, products, overlap | cos monotone, telescoping |
| C33–C37 | spectra as functions on ℝ | interval integrals, log/rpow algebra |
| C38–C43 | histogramdd + normalisation over FV | finite sums |
| C44 | two resamplings | C07 |
| C45–C47 | group by bin, quantiles, np.interp | C09 |
| C48–C54 | grid geometry in ℝ / ℝ² | field algebra, convexity |
| C55–C59 | moment morph and quantile interpolation | finite sums |
| C60–C66 | estimator classes as constructors/dispatch with exceptions | case analysis |
| C67–C68, C71–C72 | tables as association lists | list lemmas |
| C69–C70 | solid angle, Vincenty formula, rotation | trigonometry |
| C73, C87 | resampling of an all-zero histogram (0/0) | NaN arithmetic of `FV` |
| C74 | smoothing of a (bins × percentiles) cut array | kernel acts along the last axis |
| C75 | brentq bracket of `_relative_sensitivity` | sign of the Li-Ma function at the bracket ends |
| C76 | `check_table` on columns without unit | case analysis |
| C77–C79 | full model of `optimize_gh_cut` / `optimize_cuts` with the scanned tables | induction over the scan, argmin lemma |
| C80–C85 | masks and shares of `SimulatedEventsInfo` | rpow algebra, spherical rectangles |
| C86 | `PowerLawWithExponentialGaussian.integrate_cone` (constructor call with missing arguments) | case analysis |
| C88 | effective area in lon/lat bins: axes of the shower numbers | C83 |
| C89–C90 | `angular_resolution` column names, `energy_bias_resolution_from_energy_dispersion` | list lemmas, np.interp |
| C91–C104 | interpolation classes, shapes, kwargs, grid ends | case analysis, witnesses |
| C67, C105–C107 | GADF writers: `Arg` (unit, array), `ND` arrays, C order + reversed TDIM, header cards | index arithmetic (C order of the transpose = FITS order), list lemmas |
| C71 | EventDisplay reader: renaming, theta cut columns, group counts | list lemmas |
| C108–C109 | gammapy export, contract of `MapAxis` and `IRF.__init__` | case analysis, C67 |
| C110 | the same model as C23–C25, C77–C79; percentile and extremum specified separately | C08 per scanned column, lookup of the chosen column |
| C111 | `100 * list` in `optimize_cuts` | list repetition, C110 |
| C112–C113 | data type and unit conversion in `calculate_percentile_cut` (`Cuts/UnitModel`) | floor/ceil, scaling of percentiles |
| C114–C117 | constructors of the interpolation classes and whole 1D estimators (`Interpolation/ClassModel`) | C49, C55, C56, C58, C60, C61, C94 composed; sorting by any argsort |
| C118–C121 | whole pipeline (`Pipeline/*`): order of events, forward folding, joining lists, merging bins | nothing new is modelled; permutation invariance of sums, percentiles and scans by `List.Perm`; C38–C42, C26–C30 composed; coarse edges as a strictly increasing selection of the fine ones |
| C122 | `resample_histogram1d` with the spline through three nodes (contract: the parabola) | three points determine a parabola; slope of the interpolated cumulative content |
| C123 | the module-level spectra, constants and data file literally, decimal literals as real numbers | C35, C37 instances; derivative of the log of the electron flux; numerals |
| C124–C128 | arrays as views (buffer + position of every index) of a memory of buffers (`Np/Memory`); constructors and calls of the estimators as functions on that memory, a caller that writes and calls (`Memory/Model`) | frame lemmas (no call writes to an old buffer, estimators own copies of their inputs on 1D grids), induction over the caller's steps |
| C129 | `Quantity.__setitem__` in `moment_morph_estimation` (`Interpolation/PsfUnitModel`) | dimension of sr^-1 is not 1; case analysis of the classes |
| C130 | `relative_sensitivity`, `li_ma_significance` on the reals | log-sum inequality and the variational form of the Li & Ma statistic; then the characterisation of the root (C18) |
| C131 | the energy columns of all binned tables | invariant of the loops that fill the tables (the three columns are never touched; a row assigned by position copies the same bin) |
| C132–C138 | `examples/calculate_eventdisplay_irfs.py` as a function of the simulation infos and event lists (`Examples/EventdisplayModel`): it composes the modelled functions with the script's settings; the resulting tables, arrays and GADF HDUs | inversion of each step (`Steps`), then the properties of the single functions (C08–C11, C24, C38–C42, C45, C46, C77–C79, C105–C107) for the script's bins; totality by C79 |
| C139 | the same rotation model as C70 (`Coords/RotationProps`) | scalar products of unit vectors are kept; the angle is determined by cosine and range |
| C140 | the caller's keyword dictionaries as objects (`Memory/KwargsModel`), constructors as steps on them | induction over the history |
| C141 | header objects with references (`Io/HeaderModel`): `DEFAULT_HEADER`, copies, the HDUs' own headers; the single call is tied to the value model of C67 by `C141_alone` | induction over the history: references made by a call are new, so nothing else changes |
| C142 | `np.histogram` as differences of cumulative sums of `FV` weights (`Binning/WeightModel`) | the cumulative sums at the two edges of a bin differ by the sum over the bin, or the first is not finite |
| C143 | the histograms in rounded arithmetic (`Rounded/Model`), for every rounding that meets the contract `Np/Rounding` | induction over the sums: monotone, `n` roundings are a factor between `(1-u)^n` and `(1+u)^n` |
| C144 | effective area, normalisations, solid angles in rounded arithmetic (`Rounded/Model`) | monotonicity of rounding; sums of counts are exact |
| C145 | numpy's percentile with its `_lerp` in rounded arithmetic | (1+u)^3/2 ≤ 1, so the increment never exceeds the distance of the neighbours |
| C146 | `np.arange` and `create_bins_per_decade` in rounded arithmetic, `log10`/`10**x` as parameters with an accuracy | error analysis: the index of the end point is m + 1e-4 up to an error below 1e-4 |
| C147 | the edge test of `np.histogramdd` in the IRF functions | case analysis |
| C148 | `resample_histogram1d` on arrays with any number of axes (`Np/Axis`: cumsum, insert, sum, diff, broadcasting), units, data types and errors | reduction of each line to the one-dimensional model of C07 |
| C149 | `li_ma_significance`, `bin_center` in rounded arithmetic (`Rounded/Model`), logarithm as a parameter with a relative accuracy | error analysis of the two terms; the NaN case by evaluating the rounded operations of the binary format |
| C150 | `cdf_values`, `norm_pdf`, `EffectiveAreaEstimator` at a grid point in rounded arithmetic | prefix sums grow, `n` roundings are a factor, `log`/`exp` with a relative accuracy |
| C151 | the response functions with Quantities as arguments (`Units/Model`: every `to_value`, comparison, difference and final conversion) | histograms do not change when column and edges are multiplied by a positive number; refinement to the models without units |
| C152 | `SimulatedEventsInfo`, effective areas and `create_histogram_table` with Quantities (`Units/Model`) | the same, comparisons of Quantities convert to one unit; refinement to the models without units |
| C153 | `calculate_bin_indices`, the benchmarks and `estimate_background` with Quantities (`Units/BenchModel`) | every step commutes with a positive factor (monotonicity, bin search, quantiles, `np.interp`); refinement to the models without units |
| C154 | `spectral.py` with Quantities (`Units/SpectralModel`): constructors, calls, `from_simulation`, `integrate_cone`, `calculate_event_weights`, tables, the predefined spectra | refinement to `Spectral/Model`; powers of unit factors by `Real.mul_rpow`, the interpolation is affine in the flux |
| C155 | `check_histograms`, `calculate_sensitivity` with Quantities (`Units/SensModel`) | refinement to `Utils/Model`, `Sensitivity/Model`: scaling the columns of the bins commutes with reading and setting the other columns |
| C156 | `optimize_cuts`, `optimize_gh_cut` and the functions of cuts.py they call, with Quantities (`Units/CutOptModel`) | refinement to `CutOpt/Model`: percentiles, comparisons, bin indices, background and sensitivity commute with the conversion; induction over the scan and over the loop that copies the best rows |
| C157 | binning helpers with Quantities (`Units/UtilModel`) | refinement to `Binning/Model`: multiples commute with sums, slices and comparisons with 0 and infinities; `Np.allclose` with the tolerance in the unit of `bin_lo` as a relation between quantities |
| C158 | angle functions of utils.py and coordinates.py with Quantities (`Units/UtilModel`) | refinement to `Utils/Model` and `Coords/Model`; case analysis over the dimensions |
| C159 | `EffectiveAreaEstimator`, `PSFTableEstimator` with Quantities (`Units/EstModel`) | refinement to `Interpolation/EstimatorModel`; `cdf_values` of a multiple of a template is that of the template, hence all later steps of the quantile interpolation |
| C160 | the bins are independent of each other (`Pipeline/LocalProps`) | from the closed forms: each cell is a sum over the events of the cell; `SameWhere` compares the filtered lists |
| C161 | expected numbers of simulated showers in rounded arithmetic (`Rounded/SimModel`, `Rounded/SimProps`; finite numbers) | the assignments become one formula with clipped edges; monotone rounding, then relative errors of quotient and product |
| C162 | spectra and event weights in rounded arithmetic (`Rounded/SpecModel`, `Rounded/SpecProps`; finite numbers, numpy functions as parameters) | monotone rounding; relative errors of products and quotients |
| C163 | moment morphing in rounded arithmetic (`Rounded/MorphModel`, `Rounded/MorphProps`, `Rounded/MorphAgree`; one cell, finite numbers, the order of summation along the bins is a parameter with a contract that every order meets) | sums with one term that is not 0 are exact; relative errors; in exact arithmetic the closed form of C55 |
| C164 | barycentric coefficients, linear extrapolation of one entry (`Rounded/CoefModel`, `Rounded/CoefProps`; finite inputs; LAPACK's inverse of the 2x2 matrix written out) | relative errors of products and sums; symmetry of rounding makes the corners exact; concrete double precision numbers for the deviations |
| C165 | one bin of `relative_sensitivity` and the number of events of `calculate_sensitivity` (`Rounded/SensModel`, `Rounded/SensProps`; finite counts; logarithm and `brentq` are parameters) | relative errors; `SignChange` (sign change within the tolerance, no continuity) for `brentq`, met by a root finder that picks such a point, with an example that it succeeds by a supremum argument; `C149_double` and monotonicity of the exact significance carry the sign change over to the exact significance; concrete double precision numbers for the deviation |
| C166 | `np.interp` and one cell of `estimate_background` (`Rounded/BgModel`, `Rounded/BgProps`; finite nodes, angles in radians, pi and cosine of numpy are parameters within one unit, no fused multiply-add) | case distinction by neighbouring nodes, induction over the nodes; relative errors of slope, product and sum; quotient of two perturbed solid angles (C144) and the Lipschitz bound of the cosine; concrete double precision numbers for the overshoot |
| C167 | `calculate_bin_indices` and `evaluate_binned_cut` for quantities (`Rounded/UnitModel`, `Rounded/UnitProps`; conversion = one rounded multiplication with a positive factor; values are floating point numbers, NaN and infinities included) | comparisons of a number unchanged by rounding with a rounded number (monotony and idempotence), then C01 and C11 for the converted edges and tables; concrete double precision numbers for the edge at 0.1 TeV |

Properties whose text has a part "Deviation: …" describe places where the code does not do what its
documentation or a reader would expect. The property states exactly what the code does (an "exactly if" or a
formula), the theorems prove that for all inputs, and a further theorem proves, usually with a concrete
witness, that the expected behaviour does not hold.

## 4. Contracts of external code

Everything below is trusted. "Parameter" = the theorem quantifies over every function that meets the stated contract, and an
instance of the contract is constructed next to it.

| external function | model | where |
|---|---|---|
| IEEE special values | `FV`: NaN propagates, 0/0 = inf-inf = 0·inf = NaN, x/0 = ±inf, comparisons with NaN are false | `Np/FV` |
| `np.digitize`, `np.searchsorted` | number of edges ≤ x, NaN last; ValueError for non-monotone edges | `Np/Bins` |
| `np.histogram`, `np.histogramdd`, `np.histogram2d` | half-open bins, last bin closed; weights summed; NaN/outside dropped | `Np/Bins`, `Np/Histdd` |
| `np.nanpercentile`, `np.nanquantile`, `np.percentile` | linear interpolation on the sorted non-NaN values (infinite values take part in the sorting), NaN if there are none; the result next to an infinite neighbour differs between numpy versions and is left open (`opaque lerpInf`: a definition without known equations, not an axiom) | `Np/Percentile` |
| `np.interp` | piecewise linear, constant outside, on increasing nodes | `Np/Interp` |
| `scipy.interpolate.interp1d` (linear) | nodes sorted (stable), then the line through the two nodes next to the value, extrapolated outside; at least two nodes | `Np/Interp1d` |
| `np.allclose`, `np.isclose`, `u.allclose` | |a-b| ≤ atol + rtol·|b|, equal infinities close, NaN never | `Np/Close` |
| `np.power`, `np.exp`, `np.log`, `np.sqrt` on special values | `Np/Pow`, `Np/Real`: real functions plus the IEEE table for ±inf, NaN, 0 | |
| `np.argmin`, `np.nanargmin`, `np.argmax` | first index of the extremum; NaN counts as smallest for argmin | model files |
| `np.argsort` | parameter (any sorting permutation, ties in any order) | `Interpolation/NearestModel` |
| broadcasting, `swapaxes`, `squeeze`, `newaxis`, `stack`, `.T` | arrays as shape + entries | `Np/ND` |
| `np.vectorize`, `np.average`, `np.nan_to_num`, `np.clip`, `np.cumsum`, `np.diff` | their documentation | model files |
| `scipy.ndimage.gaussian_filter1d(mode="nearest")` | normalized Gaussian kernel of radius int(4σ+0.5), indices clamped | `Cuts/Model` |
| `scipy.optimize.brentq` | parameter: returns a root in the bracket, RuntimeError/ValueError if there is no sign change | `Sensitivity/Model` |
| quadratic / PCHIP interpolants of `resample_histogram1d` | parameter: passes through the nodes | `Binning/Model` |
| `scipy.stats.norm.cdf` | parameter: increasing, limits 0 and 1 as needed | `Irf/Model`, `Interpolation/MorphModel` |
| `scipy.spatial.Delaunay`, `find_simplex` | parameter: simplices and the simplex found; non-degenerate simplices are hypotheses | `Interpolation/*Model` |
| `scipy.interpolate.griddata(method="linear")` | parameter `IsGriddata`: convex combination of grid values with weights that reproduce the target, NaN outside, NaN propagates; instance `griddataLine`/`griddata1D` proved | `Interpolation/EstimatorModel` |
| `astropy.table` (columns, masks, `QTable.__eq__`, `group_by`, `unique`, `rename_column`) | association lists / lists of records; `unique` and `group_by` = sort and group a non-empty table (`group_by` of a table without rows raises IndexError, `Cuts.groupedBy`) | `Np/Table`, model files |
| `astropy.units` | dimension check where it is code logic; conversion factors trusted. `Io`: dimension exponents and SI scale | `Io/GadfModel` |
| `angular_separation`, `SkyOffsetFrame`, `position_angle` | Vincenty formula / rotation matrices over ℝ; longitudes of the offset frame wrapped to (-180°, 180°] | `Np/Angle`, `Np/AngleDist` |
| `astropy.io.fits.BinTableHDU`, `Header` | one row, C order with reversed TDIM; case-insensitive keywords, commentary keywords appended, `name=` sets EXTNAME. The HDU keeps a copy of the header it is given (C141). Structural keywords, keys over 8 characters and multi-dimensional edges are not modelled | `Io/GadfModel` |
| numpy views and copies | basic indexing, `swapaxes`, `[...]` give views; `a[sorted]`, arithmetic, `.copy()` give new buffers; `np.clip(out=a)`, `a[mask] = v` write in place | `Np/Memory`, `Memory/Model` |
| `Quantity.to` / `to_value` | a view if the unit is the same, a new array otherwise | `Memory/Model` |
| `Quantity.__setitem__` with plain numbers | UnitConversionError if the unit is not dimensionless (the value is not 0, inf, nan), whatever the index | `Interpolation/PsfUnitModel` |
| `Delaunay` in the history theorems | in more than one dimension the triangulation does not follow later writes into the grid points; hypothesis: the caller does not write them | `Memory/Model` |
| rounded arithmetic (C143 ff.) | `Rounding`: every operation gives the rounded exact result; rounding is increasing, odd, idempotent, has relative error ≤ u and keeps the natural numbers up to `limit`. Instance `Rounding.binary p` (nearest, p bits, unbounded exponent) proved, so no overflow or underflow. `np.histogram` sums weights one after the other in sorted blocks | `Np/Rounding`, `Rounded/Model` |
| `gammapy` | `MapAxis.from_edges`, `IRF.__init__` as described in the file | `Io/GammapyModel` |

## 5. Limits of the model

* Rounding. E.g. `li_ma_significance` of a zero excess may be NaN (proved, C149), `arccos` of a number rounded above 1 is NaN,
  `exp(log(min))` need not be `min` (C150). Apart from C143 ff. (namespace `Rounded`) all theorems are about exact arithmetic.
* Angles are radian numbers in the model where the code converts from degrees, unless the property is about units. For histograms, simulations and responses `Units/Model`, `Units/BenchModel`, `Units/SpectralModel`, `Units/SensModel`, `Units/CutOptModel`, `Units/UtilModel` and `Units/EstModel` have the conversions, and C151–C159 prove that the models without units give the same results.
* Quantile column names of `angular_resolution` are represented by integers (per cent rounded as in the code).
* Infinite data are outside the contract of the quantile functions.
* PSF templates: values without unit (but see C129); the normalisation uses the solid angle of the bins as modelled in `Utils`.
* Grids: arrays with more than two axes are represented by an arbitrary index type for trailing axes (`C`), or by `ND` where the
  shape matters (`AxisProps`, `RadMaxProps`). `RadMaxEstimator` with `rad_max` of shape `(n_points,)` is not modelled.
  Aliasing is modelled in `Memory/*` only; the other models are about values.
* EventDisplay: histogram contents are finite; units declared in the file are not modelled.
* Not modelled at all: plotting and documentation code, `pyirf/io/__init__`, `pyirf/version`, the other example scripts and notebooks, logging output,
  the deprecation warnings, `compat.py` (numpy version switch).

Files of /repo/pyirf and the module that models them:

| file | modules |
|---|---|
| `binning.py` | `Binning/*` |
| `cuts.py` | `Cuts/*` |
| `cut_optimization.py` | `CutOpt/*` |
| `sensitivity.py` | `Sensitivity/*` |
| `statistics.py` | `Stats/*` |
| `spectral.py` | `Spectral/*` |
| `simulations.py` | `Simulations/*` |
| `utils.py`, `coordinates.py`, `exceptions.py` | `Utils/*`, `Coords/*`, `Np/FV` (`Err`) |
| `irf/*.py` | `Irf/*` |
| `benchmarks/*.py` | `Bench/*` |
| `interpolation/*.py` | `Interpolation/*` |
| `io/gadf.py`, `io/eventdisplay.py`, `gammapy.py` | `Io/*` |
| `examples/calculate_eventdisplay_irfs.py` (outside /repo/pyirf) | `Examples/*` |
