#!/usr/bin/env python3
"""Source of /verif/properties.jsonl (one call per property). Run: python3 tools/props.py"""
import json, os
P = []
def p(id, title, statement, quantifier, why, *anchors):
    P.append(dict(id=id, title=title, statement=statement, quantifier=quantifier,
                  why_tests_cant=why, anchors=list(anchors)))
B="pyirf/binning.py:"; C="pyirf/cuts.py:"; S="pyirf/sensitivity.py:"; ST="pyirf/statistics.py:"; O="pyirf/cut_optimization.py:"
SI="pyirf/simulations.py:"; SP="pyirf/spectral.py:"; U="pyirf/utils.py:"; I="pyirf/irf/"; IN="pyirf/interpolation/"; G="pyirf/io/gadf.py:"; BE="pyirf/benchmarks/"; GP="pyirf/gammapy.py:"

p("C01","Bin index is the half-open bin containing the value",
  "For increasing bin edges, calculate_bin_indices reports index i with valid=True exactly when edges[i] <= x < edges[i+1]; it reports (UNDERFLOW_INDEX, False) exactly when x < edges[0], and (OVERFLOW_INDEX, False) exactly when x >= edges[-1] or x is NaN. The sentinels never collide with a real bin index. For decreasing edges the bin i is edges[i+1] <= x < edges[i], and the sentinels change their meaning: UNDERFLOW_INDEX exactly when x >= edges[0] or x is NaN, OVERFLOW_INDEX exactly when x < edges[-1]. Edges that are not monotone are rejected.",
  "every number of bins, every increasing edge array (finite or infinite edges), every value including NaN and +-inf",
  "edge values, infinities, NaN and every bin count must be covered at once; tests sample a few arrays",
  B+"calculate_bin_indices", B+"UNDERFLOW_INDEX", B+"OVERFLOW_INDEX")
p("C02","Overflow bins catch every value",
  "After add_overflow_bins(bins, positive=False) every finite value gets a valid bin index; with positive=True every finite value >= 0 does and every negative one underflows when the original edges were non-negative. The operation is idempotent, keeps the original edges in order, and adds an edge only on a side where one is missing. +inf and NaN never get a valid bin, so the docstring's 'always a valid index' holds for finite values only.",
  "every increasing edge array, every value",
  "universally quantified over edge arrays and values; boundary at 0 and inf",
  B+"add_overflow_bins", B+"calculate_bin_indices")
p("C03","split_bin_lo_hi / join_bin_lo_hi are inverse",
  "join_bin_lo_hi(*split_bin_lo_hi(edges)) returns edges for any NaN-free edge array with at least two edges; split(join(lo, hi)) returns (lo, hi) when lo[1:] == hi[:-1]; join raises exactly when some lo[i+1], hi[i] differ by more than the allclose tolerance, and otherwise its result keeps every lo edge and the last hi edge.",
  "every edge array of every length",
  "round trip must hold for all arrays and the tolerance boundary",
  B+"join_bin_lo_hi", B+"split_bin_lo_hi")
p("C04","Logarithmic bins per decade",
  "create_bins_per_decade(e_min, e_max, n) returns edges e_min*10^(k/n), k = 0,1,2,...: the first is e_min, neighbouring edges have ratio 10^(1/n), every edge k with e_min*10^(k/n) <= e_max is present, and no edge exceeds e_max by a factor 10^(1e-4/n) or more. When e_max/e_min = 10^(m/n) exactly, there are exactly m+1 edges and the last one is e_max.",
  "every 0 < e_min <= e_max and every n >= 1",
  "off-by-one in the endpoint rule shows only for special ratios",
  B+"create_bins_per_decade")
p("C05","Histogram tables conserve events and weights",
  "create_histogram_table puts each event with edges[0] <= key <= edges[-1] in exactly one bin: sum(n) is the number of such events, sum(n_weighted) the sum of their weights, each row's n_<particle> (and _weighted) columns sum to n (n_weighted). n_weighted equals n when there is no weight column. The result does not depend on event order, and concatenating event lists adds the tables. (A particle type called 'weighted' is the one exception: its column overwrites n_weighted.)",
  "every event list, every weight and particle label, every increasing edge array",
  "conservation and permutation invariance range over all event lists",
  B+"create_histogram_table")
p("C06","Cut binning and histogram binning agree except at the last edge",
  "An event for which calculate_bin_indices gives valid bin i is counted by create_histogram_table in bin i; an event counted by the histogram but not valid for the cut sits exactly on the last edge.",
  "every value and increasing edge array",
  "the two binning rules differ only at one point which random tests never hit",
  B+"calculate_bin_indices", B+"create_histogram_table")
p("C07","Resampling a histogram conserves its content",
  "resample_histogram1d: if the new edges extend over the old range and the histogram is not empty, the new contents sum to the old sum; if every new edge is an old edge, each new bin holds exactly the sum of the old bins it merges (identity for equal edges); outside the old range bins are 0.",
  "every histogram, old and new edges, and every interpolant through the cumulative sums",
  "needs all histograms, edges, and independence of spline details",
  B+"resample_histogram1d")
p("C08","Percentile cut table contents",
  "calculate_percentile_cut: row i has n_events = number of events whose bin value lies in [low_i, high_i); when n_events < min_events (also with no events) cut = fill_value; otherwise cut is the requested percentile (linear interpolation) of exactly those events' non-NaN values (NaN if there is none), then clipped to [min_value, max_value]. Infinite values take part in the sorting; the result is stated where the two neighbouring values are finite (numpy's result next to an infinite value is left open). If no event lies in any bin (in particular without events) the call raises IndexError instead of giving a table of fill values. With several percentiles each column is the single-percentile result.",
  "every event list (NaN values included), edges, percentile list, min_events, clip bounds and fill value",
  "all combinations of sparse/filled bins and events outside the range",
  C+"calculate_percentile_cut")
p("C09","Percentile cuts keep at least the requested efficiency",
  "Applying the cut of percentile p with operator.le to the events it was computed from keeps at least floor((n-1)p/100)+1 of the n non-NaN events of the bin (if it has at least min_events events), i.e. a fraction above p/100*(n-1)/n, and with operator.ge at percentile 100*(1-eff) at least n - ceil((n-1)(1-eff)) events; at percentile 100 (resp. 0) all events are kept. Percentiles are monotone in p, lie between the bin's minimum and maximum, and do not depend on event order. Values are finite or NaN.",
  "every non-empty bin content, every p in [0,100]",
  "a counting bound for all samples and all p",
  C+"calculate_percentile_cut", C+"evaluate_binned_cut")
p("C10","Clipping bounds hold for every cut that was computed",
  "If min_value (max_value) is given, every cut from a bin with at least min_events events and a non-NaN value is >= min_value (<= max_value) when min_value <= max_value; fill values are not clipped. Values in the bin are finite or NaN.",
  "every input", "quantifies over all event lists", C+"calculate_percentile_cut")
p("C11","Binned cut evaluation",
  "evaluate_binned_cut marks an event True exactly when its bin value lies in some [low_i, high_i) and op(value, cut_i) holds; events outside all bins (or NaN bin value) are False for every op. It equals evaluate_binned_cut_by_index with indices from calculate_bin_indices. A cut_table that is no QTable raises ValueError. With any integer indices, evaluate_binned_cut_by_index raises IndexError exactly if some valid event has an index outside of -n <= i < n (n rows); otherwise events that are not valid are False and the others are compared with the row of their index, negative indices counting from the end.",
  "every event list, contiguous cut table and comparison operator",
  "op is an arbitrary callable, events arbitrary", C+"evaluate_binned_cut", C+"evaluate_binned_cut_by_index")
p("C12","Looser cuts select supersets",
  "With op=le, raising cut values never removes an event from the selection (with op=ge, lowering them), and the selection in bin i depends only on cut_i.",
  "every pair of cut tables with equal edges, every event list", "relational property over pairs of runs",
  C+"evaluate_binned_cut")
p("C13","Smoothing is an average over neighbouring bins",
  "With smoothing given, each smoothed cut lies between the smallest and the largest unsmoothed cut, and a constant table is unchanged (all cuts finite, one percentile): it is the weighted average over neighbouring energy bins with the weights of a Gaussian of that standard deviation, cut off at four standard deviations (rounded), positive, symmetric, summing to 1; beyond the ends the outermost cut is repeated.",
  "every cut table and sigma > 0", "bounds for all tables and widths", C+"calculate_percentile_cut")
p("C14","compare_irf_cuts decides equality of all tables",
  "compare_irf_cuts(cuts) is True iff all tables are equal to each other (NaN-free tables); it is True for zero or one table; any NaN entry makes it False as soon as there are two tables. If every column has the same unit in all tables, this is equality of the physical cuts. Deviation: units are not compared; tables with the same numbers in different units (1 deg, 1 rad) count as equal, and the same cuts written in another unit as different.",
  "every list of tables of every length", "only adjacent pairs are compared; equality of all follows by induction on the list",
  C+"compare_irf_cuts")

p("C15","Li&Ma significance is a real number >= 0",
  "For n_on, n_off >= 0 and alpha > 0 li_ma_significance never takes the square root of a negative number or returns NaN; it equals formula (17) of Li&Ma with 0*log 0 = 0 for n_on >= alpha*n_off and 0 for n_on < alpha*n_off; it is 0 iff n_on <= alpha*n_off.",
  "all real n_on, n_off >= 0, alpha > 0", "needs a log inequality valid on the whole domain, incl. zeros",
  ST+"li_ma_significance")
p("C16","Li&Ma significance is monotone",
  "At fixed n_off and alpha, significance is strictly increasing in n_on for n_on >= alpha*n_off; at fixed n_on, alpha it is non-increasing in n_off; it is continuous in n_on. It scales with sqrt(k) when both counts are scaled by k.",
  "all real n_on, n_off >= 0, alpha, k > 0", "relational over pairs of inputs", ST+"li_ma_significance")
p("C17","relative_sensitivity input handling",
  "relative_sensitivity returns NaN if n_on or n_off is NaN, raises ValueError if one is negative, returns inf if n_on <= alpha*n_off, and NaN when the root finder reports no root in its bracket.",
  "all n_on, n_off, alpha incl. NaN/inf", "decision logic over all special values", S+"_relative_sensitivity", S+"relative_sensitivity")
p("C18","relative_sensitivity is the least detectable flux",
  "When it returns a finite value r, scaling the excess by r gives significance >= min_significance, at least min_signal_events signal events, and at least min_excess_over_background * background; no smaller flux scale does all three.",
  "all n_on, n_off >= 0, alpha > 0, all thresholds > 0, every root finder that returns a true root",
  "minimality quantifies over all other fluxes", S+"_relative_sensitivity", ST+"li_ma_significance")
p("C19","relative_sensitivity does not depend on the root finder",
  "Any two root finders that return a root inside the bracket give the same result; multiplying the excess by k > 0 at equal background divides a finite result by k.",
  "all inputs, all correct root finders", "needs uniqueness of the root", S+"_relative_sensitivity")
p("C20","When relative_sensitivity finds a solution",
  "For n_on > alpha*n_off and min_significance > 0, relative_sensitivity is finite exactly when the significance at the lower end of its documented search interval is <= min_significance and at the upper end >= min_significance (NaN otherwise). For n_off > 1 the lower end is always below the solution, and with enough background ((1+alpha)^2 (sqrt(B)+10 min_significance) <= 50 sqrt(B), B = alpha*n_off) the result is finite for every excess > 0.",
  "all inputs, every correct root finder", "depends on the size of an analytic function on an unbounded domain", S+"_relative_sensitivity")
p("C21","calculate_sensitivity table",
  "calculate_sensitivity raises ValueError if the binnings of the two histograms differ (in some bin, or in the number of bins); otherwise in each bin relative_sensitivity is that of (n_sig_w + alpha*n_bg_w, n_bg_w), n_signal(_weighted) are the signal columns times it, background columns are copied, and where it is finite the reported significance is >= min_significance and n_signal_weighted >= min_signal_events and >= min_excess*alpha*n_bg_w. (No background particle type may be called 'signal' or 'background': such a column would be overwritten, or overwrite the total.)",
  "every pair of histograms, alpha and thresholds", "for all histograms", S+"calculate_sensitivity", U+"check_histograms")
p("C22","estimate_background scaling",
  "estimate_background counts exactly the events with fov_offset_min <= offset < fov_offset_max and scales every count column in bin i by (solid angle of the theta cut at the bin centre)/(solid angle of the ring)/alpha; it is additive over event lists, proportional to 1/alpha and non-decreasing in the theta cut. Overflow bins (last edge +inf) are included, also in the theta cut table.",
  "every event list, cuts, ring and alpha", "for all event lists", S+"estimate_background", U+"cone_solid_angle")
p("C23","optimize_gh_cut returns the best cut of the grid in each bin",
  "In each energy bin in which some scanned cut has a finite relative sensitivity, the returned one is finite and <= that of every scanned cut that is not NaN, ties resolve to the first; otherwise the first scanned cut is taken. The returned cut, efficiency and sensitivity row all belong to the same scanned cut. Bins are chosen independently.",
  "every event list, grid and bin, also overflow bins", "argmin with NaNs over arbitrary grids", O+"optimize_gh_cut")
p("C24","optimize_cuts returns the best combination in each bin",
  "In each bin in which some (multiplicity, theta, gh) combination has a finite relative sensitivity the returned one is minimal among all combinations that are not NaN, and in every bin the multiplicity, theta and gh cut and efficiencies and the sensitivity row returned are those of one such combination.",
  "every event list and grids of every size, also overflow bins", "index bookkeeping over three nested loops", O+"optimize_cuts")
p("C25","Applying the optimized cuts reproduces the reported sensitivity",
  "Evaluating the returned per-bin multiplicity, theta and gh cut tables on the same events and recomputing histogram, background and sensitivity yields in every bin the relative sensitivity that optimize_cuts reported, although the tables mix cuts of different grid points.",
  "every event list, grid, bins", "needs per-bin independence of the whole pipeline", O+"optimize_cuts", C+"evaluate_binned_cut", S+"estimate_background", S+"calculate_sensitivity")

p("C26","Simulated showers per energy bin",
  "calculate_n_showers_per_energy returns n_showers times the probability of the power law truncated to [energy_min, energy_max] in each bin, i.e. the integral of the pdf over the overlap. This holds for every bin that does not reach beyond both ends of the range (for those see C80), also for the edges 0 and infinity of overflow bins. Bins outside the range get 0.",
  "every spectral index < -1, every energy range, every edge array with 0 <= edges <= inf", "analytic identity for all real inputs", SI+"SimulatedEventsInfo.calculate_n_showers_per_energy", SI+"_powerlaw_pdf_integral")
p("C27","Showers per energy add up",
  "For bins that cover the simulated range, none reaching beyond both of its ends, the numbers sum to n_showers; merging neighbouring bins (no merged bin containing the whole range strictly) adds their numbers; all numbers are between 0 and n_showers.",
  "every edge array", "sums over arbitrary many bins", SI+"SimulatedEventsInfo.calculate_n_showers_per_energy")
p("C28","Spectral index validity",
  "SimulatedEventsInfo rejects spectral_index > -1 with ValueError and only then; every index below -1 yields finite shower numbers in every energy bin (index -1: C81).",
  "every index", "boundary value", SI+"SimulatedEventsInfo.__init__", SI+"_powerlaw_pdf_integral")
p("C29","Simulated showers per field-of-view bin",
  "calculate_n_showers_per_fov returns n_showers times the fraction of the viewcone's solid angle inside each bin: numbers are >= 0, zero outside the viewcone, add over neighbouring bins, and sum to n_showers when the bins cover the viewcone. A viewcone of zero opening raises ValueError.",
  "every viewcone 0 <= min < max <= 180 deg and every increasing edge array", "all viewcones/edges", SI+"SimulatedEventsInfo.calculate_n_showers_per_fov", SI+"_viewcone_pdf_integral")
p("C30","Energy x field-of-view shower numbers factorize",
  "calculate_n_showers_per_energy_and_fov[i, j] * n_showers = per_energy[i] * per_fov[j]; summing over fov bins that cover the viewcone gives per_energy, and over both gives n_showers.",
  "all bins", "sums over arbitrary shapes", SI+"SimulatedEventsInfo.calculate_n_showers_per_energy_and_fov")
p("C31","3D polar shower numbers",
  "calculate_n_showers_3d_polar divides the 2D number of each energy and offset bin equally over the position-angle bins; summing over the position angle gives back the 2D numbers. (Shares in proportion to the width: C82.)",
  "all edges", "non-uniform edges", SI+"SimulatedEventsInfo.calculate_n_showers_3d_polar")
p("C32","3D lon/lat shower numbers",
  "calculate_n_showers_3d_lonlat: the viewcone overlap fraction of each lon/lat bin lies in [0,1] and numbers are finite and >= 0 whenever the call returns; on a grid of equal bins in degrees with a corner in the viewcone the call returns and each number is the number in the energy bin times the bin's share of the viewcone solid angle times the fraction of the bin's subpixel centres that lie in the viewcone (1 for bins inside, 0 for bins outside), also for the bins the code does not sample. (Axis order: C83, other grids: C84, C85.)",
  "all lon/lat grids, viewcones, subpixel numbers", "shape and geometry for all grids", SI+"SimulatedEventsInfo.calculate_n_showers_3d_lonlat", SI+"_fov_lonlat_grid_overlap")

p("C33","Spectrum of the simulation integrates to the simulated number",
  "PowerLaw.from_simulation(info, obstime): integrating the flux over energy range, area pi*max_impact^2, obstime and viewcone solid angle gives n_showers (solid angle 1 for point-like); the result does not depend on e_ref as a function of energy.",
  "every index < -1, range, area, time, viewcone, e_ref", "integral identity over reals", SP+"PowerLaw.from_simulation")
p("C34","Event weights",
  "calculate_event_weights is target/simulated flux at the event energy: 1 when both spectra agree, multiplicative along a chain of reweightings, > 0 for positive spectra; summing weights of expectation-distributed events reproduces the integral of the target.",
  "all spectra and energies", "functional equations", SP+"calculate_event_weights")
p("C35","Spectral models reduce to power laws",
  "LogParabola with b=0 and PowerLawWithExponentialGaussian with f=0 equal PowerLaw; all give the normalization at e_ref (Gaussian: times 1+f(exp(gauss)-1)); PowerLaw rejects index > 0; flux of a PowerLaw is positive and non-increasing in energy. A Gaussian of width 0 is no Gaussian, except at its centre, where the flux is NaN.",
  "all parameters and energies", "identities over reals", SP+"PowerLaw", SP+"LogParabola", SP+"PowerLawWithExponentialGaussian")
p("C36","integrate_cone",
  "PowerLaw.integrate_cone multiplies the flux by the solid angle between the cones, is additive over adjacent cones, keeps index and e_ref, and raises ValueError for a point-source flux.",
  "all cones", "additivity for all angles", SP+"PowerLaw.integrate_cone", U+"cone_solid_angle")
p("C37","TableInterpolationSpectrum",
  "The spectrum reproduces every table point, lies between the two table values next to the energy in between, is positive with log_flux, strictly decreases at all energies if the table does, and reproduces an exact power law (log-log) or an affine function (linear) at all energies, also outside the table. The order of the rows does not matter. from_table and from_file: KeyError without column energy or flux, UnitConversionError if the energies are no energies, otherwise the fluxes of the rows at their energies, in any energy unit.",
  "every table with >= 2 points of different positive energies, in any order", "all tables and energies", SP+"TableInterpolationSpectrum")

p("C38","Effective area",
  "effective_area_per_energy(…)[i] * n_simulated[i] = n_selected[i] * pi*max_impact^2 wherever n_simulated[i] != 0; it is between 0 and the simulated area when n_selected <= n_simulated; additive over disjoint event samples; NaN (inf) where no shower was simulated and none (some) selected.",
  "all event lists and binnings", "for all inputs incl. zero division", I+"effective_area.py:effective_area", I+"effective_area.py:effective_area_per_energy", I+"effective_area.py:effective_area_per_energy_and_fov")
p("C39","Energy dispersion is normalized",
  "For every true-energy and fov bin, sum over migration bins of energy_dispersion * bin width is 1 if the cell column has events in the migration range and the entries are 0 otherwise; entries are >= 0 and never NaN.",
  "all event lists, increasing edges, finite migration edges", "normalization for all data, 0/0 handling", I+"energy_dispersion.py:energy_dispersion", I+"energy_dispersion.py:_normalize_hist")
p("C40","Energy migration matrix is normalized",
  "For each true-energy and fov bin, entries of energy_migration_matrix along reco energy sum to 1 if there are events and are 0 otherwise; all entries lie in [0,1].",
  "all event lists, increasing edges", "as above", I+"energy_dispersion.py:energy_migration_matrix")
p("C41","PSF table is normalized over solid angle",
  "For each energy and fov bin, sum over source-offset bins of psf_table * bin solid angle is 1 if the cell has events and 0 otherwise; entries >= 0, finite.",
  "all event lists, source offset edges increasing in [0,180] deg", "as above", I+"psf.py:psf_table", I+"psf.py:_normalize_psf")
p("C42","background_2d integrates back to the event weights",
  "Each entry times energy width, solid angle of the ring and t_obs equals the summed weights of the events in the cell; summed over all cells it gives the total weight inside the binning. In a bin that reaches to infinity (add_overflow_bins) the rate is 0, so its events are lost.",
  "all event lists, edges, t_obs > 0", "for all", I+"background.py:background_2d")
p("C43","Entries of background_3d_lonlat",
  "background_3d_lonlat raises ValueError exactly if the numbers of longitude and latitude bins differ and neither is 1. Otherwise entry (i,j,l) is the summed weight of the events of energy bin i, longitude bin j and latitude bin l, divided by the energy width, t_obs and the solid angle of longitude bin l and latitude bin l (a single bin serves for every l). Deviation: the documented density uses the solid angle of longitude bin j, so with equal numbers of bins the entries integrate back to the weights, for all events, exactly if all longitude bins are equally wide.",
  "all event lists, edges", "non-uniform, non-square binnings", I+"background.py:background_3d_lonlat", U+"rectangle_solid_angle")
p("C44","energy_dispersion_to_migration",
  "If the new reco edges over the true-energy centre cover the migration range (infinite edges included), the entries of each new true energy bin with content sum to 1; with matching edges each entry is the dispersion content of the merged true-energy and migration bins as a fraction of the content of the true energy bin (with unchanged edges: the old probability); reco bins outside the migration range are 0.",
  "all dispersion matrices, edges and interpolants through the nodes", "all matrices", I+"energy_dispersion.py:energy_dispersion_to_migration", B+"resample_histogram1d")
p("C45","Energy bias and resolution per bin",
  "energy_bias_resolution: row i uses exactly the events with energy in bin i (NaN in empty bins; n_events their number); resolution (inter-quantile) is >= 0 and 0 if all relative errors agree; rescaling reco energies by c maps bias to c*(bias+1)-1 and resolution to c*resolution (true-energy binning); an empty table gives NaN rows, but events of which none lies in the bins raise IndexError. Bins hold no infinite relative error (numpy's quantile next to infinities is left open).",
  "all event lists", "equivariance over all samples", BE+"energy_bias_resolution.py:energy_bias_resolution", BE+"energy_bias_resolution.py:inter_quantile_distance")
p("C46","Angular resolution contains the requested fraction",
  "angular_resolution: in each bin with n >= 1 events at least floor((n-1)q)+1 events have theta <= the reported value; larger quantiles give larger values; empty bins are NaN (but events of which none lies in the bins raise IndexError); bins hold no infinite theta (columns of the same rounded percentage: see C89). The default quantile is the one-sigma probability, 0.680 ... 0.684, with the column angular_resolution_68.",
  "all event lists, quantile lists", "counting bound for all samples", BE+"angular_resolution.py:angular_resolution")
p("C47","Bias and resolution from an energy dispersion",
  "energy_bias_resolution_from_energy_dispersion gives resolution >= 0 and bias+1 within the migration range for every dispersion with entries >= 0, and NaN for an empty column.",
  "all dispersion matrices >= 0", "for all", BE+"energy_bias_resolution.py:energy_bias_resolution_from_energy_dispersion")

p("C48","Nearest neighbour search",
  "The nearest-neighbour searchers return the template of a grid point with minimal p-norm distance to the target, the first such point on ties; at a grid point they return that point's template; a norm order that is no positive finite integer raises ValueError.",
  "all grids, targets, dimensions, orders", "argmin over arbitrary grids", IN+"nearest_neighbor_searcher.py:BaseNearestNeighborSearcher")
p("C49","1D interpolation coefficients",
  "linesegment_1D_interpolation_coefficients on two distinct points sum to 1, reproduce the target as combination of the points, are one-hot on the points, and are both >= 0 iff the target lies between the points.",
  "all real points", "algebra for all reals", IN+"moment_morph_interpolator.py:linesegment_1D_interpolation_coefficients")
p("C50","Barycentric coefficients",
  "barycentric_2D_interpolation_coefficients on a non-degenerate triangle sum to 1, reproduce the target, are one-hot on the vertices, and are all >= 0 iff the target is in the closed triangle.",
  "all real triangles/targets", "algebra for all reals", IN+"moment_morph_interpolator.py:barycentric_2D_interpolation_coefficients")
p("C51","Nearest-simplex extrapolation is exact for linear parameters",
  "ParametrizedNearestSimplexExtrapolator returns a*x+b exactly when all params come from the affine function a*x+b, in 1D (both sides) and 2D (whatever simplex is chosen), and equals the stored params at the vertices of the chosen simplex.",
  "all grids, params, targets", "for all", IN+"nearest_simplex_extrapolator.py:ParametrizedNearestSimplexExtrapolator")
p("C52","Visible-edges blending",
  "compute_extrapolation_weights are >= 0 and sum to 1 when some facet subtends a non-zero angle; for params without trailing axes of length one (the others are C93) the blended extrapolation is their mean with these weights, so it is exact for affine params and lies between the smallest and largest single-simplex extrapolation; one visible facet gives the nearest simplex extrapolation; m must be a positive integer (TypeError for no number, else ValueError).",
  "all facets, targets, m >= 1", "for all", IN+"visible_edges_extrapolator.py:compute_extrapolation_weights", IN+"visible_edges_extrapolator.py:ParametrizedVisibleEdgesExtrapolator")
p("C53","Plumb point distance is the distance to the segment",
  "plumb_point_dist(segment, p) is the Euclidean distance from p to the closed segment, up to the isclose tolerance (relative 1e-5 of the segment length); it is never below the distance to the infinite line nor above the distance to the nearer end point.",
  "all segments and points in the plane", "tolerance boundary for all reals", IN+"utils.py:plumb_point_dist")
p("C54","Nearest facet and its simplex",
  "find_nearest_facet returns a facet whose (plumb distance, cos angle) is lexicographically minimal; find_simplex_to_facet returns a simplex containing both facet points whenever some simplex does.",
  "all facet lists / triangulations", "for all", IN+"utils.py:find_nearest_facet", IN+"utils.py:find_simplex_to_facet")
p("C55","Moment morphing output is a normalized PDF",
  "For templates >= 0 on strictly increasing edges and a target inside the grid (1D: below the largest grid point, 2D: in the simplex found), MomentMorphInterpolator's result has entries >= 0 that integrate to 1 (length or cone solid angle) or is all zero; it is all zero if one of the used templates is nearly empty (entries add up to at most 1e-8), otherwise it is the normalized moment morph formula (templates shifted and stretched to the interpolated mean and standard deviation).",
  "all templates, edges, targets", "for all", IN+"moment_morph_interpolator.py:moment_morph_estimation")
p("C56","Moment morphing reproduces templates at grid points",
  "At a grid point (in 1D any but the largest, C94) with a normalized template, and with no nearly empty template in the segment or simplex, the interpolated PDF is that template.",
  "all templates and grids", "for all", IN+"moment_morph_interpolator.py:MomentMorphInterpolator")
p("C57","Moment-morph extrapolation is a non-negative normalized PDF",
  "MomentMorphNearestSimplexExtrapolator returns entries >= 0 that integrate to 1, or all zeros (always if a used template is nearly empty), whenever the extrapolated standard deviation is not exactly 0 (otherwise C95). Each cell is the normalized moment morph on the line (plane) through the templates used, entries below zero set to zero, normalized again. The warning is issued exactly if an entry of some cell was below zero or a standard deviation was 0.",
  "all templates and targets outside the grid", "for all", IN+"nearest_simplex_extrapolator.py:MomentMorphNearestSimplexExtrapolator")
p("C58","CDF values",
  "For PDFs >= 0 cdf_values are the fraction of the content up to each bin: non-decreasing in [0,1], ending at 1, or all 0 for an empty PDF, for all increasing edges and both normalizations.",
  "all PDFs", "for all", IN+"quantile_interpolator.py:cdf_values")
p("C59","Quantile interpolation output is a normalized PDF",
  "QuantileInterpolator returns, for every quantile resolution giving at least two quantiles, entries >= 0 that integrate to 1 over the original bins, or all zeros (always when a template that griddata uses is empty or the target is outside the hull); the number of bins is that of the input.",
  "all PDFs >= 0, edges, grids, targets", "for all", IN+"quantile_interpolator.py:QuantileInterpolator")
p("C60","Estimator dispatch",
  "Calling a component estimator interpolates exactly when the target lies in the closed grid range (1D), extrapolates with a warning when outside and an extrapolator exists, raises ValueError otherwise; malformed targets raise the documented exception; construction rejects exactly the documented malformed inputs, the first failing check deciding the exception.",
  "all targets, grids, configurations", "decision logic", IN+"component_estimators.py:BaseComponentEstimator", IN+"component_estimators.py:ParametrizedComponentEstimator", IN+"component_estimators.py:DiscretePDFComponentEstimator")
p("C61","1D estimators do not depend on the order of grid points",
  "Permuting distinct 1D grid points together with their templates does not change the estimator: the same construction result and the same estimate, exception and warning at every target for every interpolator and extrapolator class, which always get increasing grid points with each template at its point.",
  "all permutations, targets, classes", "permutation invariance", IN+"component_estimators.py:ParametrizedComponentEstimator", IN+"component_estimators.py:DiscretePDFComponentEstimator")
p("C62","EffectiveAreaEstimator",
  "Estimated areas are 0 or >= min_effective_area for every inter- and extrapolator; inside the grid the default interpolator gives the weighted geometric mean of the templates raised to the minimum, which lies between the smallest and the largest of them; at a grid point the template raised to the minimum is returned; exceptions and warnings are those of the general estimator.",
  "all templates and interpolation weights", "log/exp round trip for all", IN+"component_estimators.py:EffectiveAreaEstimator")
p("C63","What EffectiveAreaEstimator writes into the caller's array",
  "Constructing an EffectiveAreaEstimator leaves the caller's effective_area array unchanged exactly if it is given in a unit other than m2 or contains no value below the minimum; otherwise (deviation from what a caller expects) every value in the caller's own array becomes the larger of itself and the minimum.",
  "all arrays and units", "aliasing", IN+"component_estimators.py:EffectiveAreaEstimator.__init__")
p("C64","RadMaxEstimator fill value handling",
  "With fill handling (grid points in increasing order in 1D): a cell is the fill value if one of the two neighbouring templates (1D) or two or three of the simplex vertices (2D) are, the smallest not filled vertex value if exactly one of three is, and otherwise the estimate clipped to [0, fill]. The fill value is the given one or the largest entry of all tables; None and 0 switch the handling off, and nearest neighbour estimates are exempt: then the estimate is only clipped at 0. Three or more dimensions are refused.",
  "all templates, targets, fill values", "all combinations", IN+"component_estimators.py:RadMaxEstimator.__call__")
p("C65","Axis handling of EDisp/PSF estimators",
  "For any valid axis argument and any estimator working cell by cell along the last axis, the estimate has the shape of the input with a leading axis of length one and the PDF along the same axis as the input, computed from the templates of the same cell; invalid axes raise.",
  "all axes, shapes, arrays and cell-wise estimators", "all shapes", IN+"component_estimators.py:EnergyDispersionEstimator", IN+"component_estimators.py:PSFTableEstimator")
p("C66","Which PDF classes PSFTableEstimator accepts",
  "Constructing a PSFTableEstimator succeeds exactly if neither the interpolator nor the extrapolator class is the nearest neighbor searcher and every keyword argument is one the class accepts, and raises TypeError otherwise. (Deviation: the nearest neighbor searcher is registered as PDF interpolator and extrapolator, yet is always rejected because PSFTableEstimator always passes a normalization argument.)",
  "all registered classes", "API matrix", IN+"component_estimators.py:PSFTableEstimator.__init__", IN+"nearest_neighbor_searcher.py:DiscretePDFNearestNeighborSearcher")

p("C67","GADF HDUs preserve the IRF",
  "For each create_*_hdu the LO/HI columns hold the given edges (the same physical quantities in TeV / deg) and recombine with join_bin_lo_hi; read in FITS axis order, the data column has the dimensions of the numpy array and at every index the same physical quantity; CREFn names the data column's 1-based position and lists the axes in the order of its dimensions; for effective area and energy dispersion HDUCLAS3 is POINT-LIKE iff point_like; the call fails exactly for the first argument of wrong unit, and create_background_3d_hdu rejects every alignment other than ALTAZ/RADEC with ValueError; the last extra header card for a keyword (case-insensitive) overrides the default, except EXTNAME, which is extname; COMMENT and HISTORY cards of the user are all kept in their order.",
  "all arrays of any number of axes, edges, units, header cards", "for all shapes and units", G+"create_aeff2d_hdu", G+"create_psf_table_hdu", G+"create_energy_dispersion_hdu", G+"create_background_2d_hdu", G+"create_background_3d_hdu", G+"create_rad_max_hdu")
p("C68","check_table",
  "check_table returns iff all required columns and all keys of required_units exist and every unit is convertible to the required one. If an entry of required_columns is missing it raises MissingColumns, otherwise the error belongs to the first entry of required_units that fails (MissingColumns if absent, WrongColumnUnit if it has another unit). Column order is irrelevant.",
  "all tables and requirements", "decision logic", U+"check_table")
p("C69","Solid angles",
  "cone_solid_angle is 0 at 0, 4*pi at 180 deg, strictly increasing between, and rings add up; rectangle_solid_angle is additive in lon and lat, and 4*pi for the full sphere; both agree with the surface integral of cos(lat).",
  "all angles", "analytic", U+"cone_solid_angle", U+"rectangle_solid_angle")
p("C70","Field-of-view coordinates",
  "theta is symmetric, in [0,180] deg, 0 iff the directions coincide, and is the angle between the unit vectors; phi is in [0,360), the longitude of gadf_fov_coords_lon_lat in (-180,180]; (theta, phi) and gadf_fov_coords_lon_lat describe the same direction with mirrored longitude, and calculate_theta / calculate_source_fov_offset agree with them.",
  "all coordinates", "trigonometric identities", "pyirf/coordinates.py:gadf_fov_coords_theta_phi", "pyirf/coordinates.py:gadf_fov_coords_lon_lat", U+"calculate_theta", U+"calculate_source_fov_offset")
p("C71","EventDisplay reader",
  "read_eventdisplay_fits succeeds iff all twelve EventDisplay columns exist, none of the new names does, the run header has complete ranges and its spectral index is at most -1; each mapped column is then found under its new name only, all others are unchanged; n_showers is the truncated histogram sum with use_histogram, else the number of different (obs_id, pointing_az, pointing_alt) triples * num_use * num_showers, which does not depend on event order or duplicates; the other fields are the run header's ranges.",
  "all nonempty event tables, histograms and run headers", "set semantics", "pyirf/io/eventdisplay.py:read_eventdisplay_fits")
p("C72","check_histograms",
  "check_histograms raises ValueError iff low, center or high edges differ in some bin (or contain NaN) or the numbers of bins differ.",
  "all tables", "decision logic", U+"check_histograms")
p("C73","Resampling an empty histogram",
  "resample_histogram1d of an all-zero histogram to non-decreasing new edges gives 1 in the new bin that crosses the upper end of the old range and 0 in all others; so it stays empty exactly if the new edges do not cross that end. (Deviation: content appears out of nothing; whenever the new edges enclose the old range from below to above, the new contents add up to 1.)",
  "every binning", "the special norm handling shows only for empty rows with a wider target range", B+"resample_histogram1d")
p("C74","Which axis smoothing averages over with several percentiles",
  "calculate_percentile_cut with a list of percentiles and smoothing replaces the row of each energy bin by a function of that row only: for finite cuts the weighted average (positive symmetric weights adding up to 1, end values repeated) over the neighbouring percentiles; binning, event counts and errors are those of the unsmoothed call. Deviation: the documented smoothing runs along the energy bins; with a single percentile in the list there is no smoothing at all.",
  "every event list, percentile list and smoothing", "tests only smooth a single percentile", C+"calculate_percentile_cut")
p("C75","When a detectable source gets a finite sensitivity",
  "For n_on > alpha*n_off there is exactly one flux scale at which the significance equals the threshold, so some flux scale meets all detection criteria; relative_sensitivity returns the least detectable scale exactly if that flux scale lies within the search bracket, and NaN otherwise (deviation from the documentation: NaN although a flux is detectable). For n_off > 1 only the upper end of the bracket can be missed, and with enough background it never is.",
  "all inputs", "the bracket misses the root only in corners of the input space", S+"_relative_sensitivity")
p("C76","Which exceptions check_table raises",
  "check_table raises only MissingColumns, WrongColumnUnit or TypeError, and TypeError exactly if all required columns exist and the first required unit that is not fulfilled belongs to a column without unit (deviation: TypeError is undocumented).",
  "all tables and requirements", "decision logic with an escaping exception of a callee", U+"check_table")
p("C77","Rows of the optimized sensitivity table",
  "Whenever optimize_gh_cut / optimize_cuts return, the columns of the sensitivity table are named as those of the first scanned cut, and the row of a bin is copied by position from the table of the cut chosen for the bin, which has equally many columns. So the row is that of the chosen cut if all scanned tables have the same columns, which is the case if there is no particle_type column or all scanned cuts leave the same background particle types in the offset ring. Deviation: when scanned cuts leave different sets of particle types, the call fails or values end up under another particle's name.",
  "every event list and grid", "needs cuts that remove a particle type completely for some grid points only", O+"optimize_gh_cut", O+"optimize_cuts")
p("C78","When an optimized sensitivity is NaN",
  "optimize_gh_cut / optimize_cuts return a NaN relative sensitivity in a bin exactly if every scanned value of that bin is NaN or +inf and the first scanned one is NaN; if some scanned value is neither, so is the chosen one. Deviation: a NaN is preferred to an inf when it comes first.",
  "every scan result", "needs both NaN and inf in one bin", O+"optimize_gh_cut", O+"optimize_cuts")
p("C79","Cut optimization succeeds on well-formed input",
  "On well-formed input (increasing energy bins of which the last may be an overflow bin, at least one signal event, no particle type called \"weighted\", non-negative weights, positive alpha, a proper offset range, efficiencies in [0,1], non-empty scan lists, a root finder that fails only with ValueError or RuntimeError, theta cuts for any increasing energy bins) optimize_gh_cut and optimize_cuts return a result and do not raise, whatever bins are empty or unusable, provided that some signal event lies in the energy bins (for optimize_cuts one passing each scanned multiplicity) and - if the background has a particle_type column - all scanned cuts leave the same background particle types in the offset ring. Without signal events both raise ValueError; with signal events of which none lies in the bins both raise IndexError.",
  "all well-formed event lists, bins and scan grids", "empty bins, NaN scores and every combination of cuts have to be covered", O+"optimize_gh_cut", O+"optimize_cuts")
p("C80","A bin around the whole simulated range",
  "The number calculate_n_showers_per_energy gives for a bin that contains the whole simulated energy range is n_showers exactly if one of the bin's edges is an end of the range; otherwise it is n_showers times the normalized power law integrated from the lower end of the range to the bin's upper edge, which exceeds n_showers. Deviation: every such bin should get n_showers; the second masked assignment overwrites the first.",
  "every bin that contains the range", "needs a bin on both sides of the range; the excess depends on the bin", SI+"SimulatedEventsInfo.calculate_n_showers_per_energy")
p("C81","Accepted spectral indices and finite numbers",
  "For every spectral index the constructor accepts, the number of showers in a bin is finite exactly if the index is below -1 or the bin does not meet the simulated range, and NaN otherwise. Deviation: index -1 is accepted although every bin that meets the range gets NaN.",
  "every index <= -1, all bins", "boundary value", SI+"SimulatedEventsInfo.__init__", SI+"_powerlaw_pdf_integral")
p("C82","How position-angle bins share the showers",
  "calculate_n_showers_3d_polar gives every position-angle bin the same share of the showers of its energy and offset bin, whatever the edges; for bins that make up the full circle this is the share by width exactly if all bins are equally wide. Deviation: bins of different width get equal numbers.",
  "all position-angle edges", "non-uniform edges", SI+"SimulatedEventsInfo.calculate_n_showers_3d_polar")
p("C83","Axis order of the lon/lat shower numbers",
  "Whenever calculate_n_showers_3d_lonlat returns, entry [energy bin, a, b] belongs to latitude bin a and longitude bin b: the number of the energy bin times the overlap of that rectangle with the viewcone times its share of the solid angle. Deviation: the documented order is (energy, longitude, latitude); for a square grid inside the viewcone that reading is right exactly if the products of longitude and latitude widths are symmetric.",
  "all grids", "needs unequal longitude and latitude bins", SI+"SimulatedEventsInfo.calculate_n_showers_3d_lonlat")
p("C84","Lon/lat bins when no corner tells",
  "On a uniform grid in degrees the overlap of lon/lat bins with the viewcone is 0 everywhere if all corners are at or inside the inner circle or all at or outside the outer one, otherwise 1 everywhere if all corners are in the viewcone, otherwise the fraction of subpixel centres in the viewcone. It is that fraction in every bin exactly if in the first case no subpixel centre is in the viewcone and in the second every one is. Deviation: a bin around the whole viewcone gets 0.",
  "all uniform grids in degrees", "needs a grid without corner in the viewcone", SI+"_fov_lonlat_grid_overlap")
p("C85","Unequal lon/lat bins and other units",
  "When neither all corners of the lon/lat grid are on one side of the viewcone nor all in it: a bin whose centre is nearer to the rim than half the diagonal of the first bin gets the fraction of subpixel centres of the rectangle at its lower edges with the widths of the first bins and edge values read as degrees; any other bin gets 1 or 0 by its centre; IndexError if no bin is near the rim. Deviation: the overlap of a bin should depend neither on the other bins nor on the unit of the edges.",
  "all grids and angle units", "needs unequal bins or radian", SI+"_fov_lonlat_grid_overlap")
p("C86","Cone integral of a power law with Gaussian",
  "integrate_cone of a diffuse PowerLawWithExponentialGaussian returns a point-like plain power law whose flux is the solid angle times the power law without the Gaussian; for non-zero normalization and solid angle this is flux times solid angle at any given energy exactly if f = 0. Deviation: the inherited method loses the bump.",
  "all diffuse spectra with a Gaussian and all cones", "inherited method never exercised for the subclass", SP+"PowerLaw.integrate_cone", SP+"PowerLawWithExponentialGaussian")
p("C87","Migration matrix of an empty true energy bin",
  "energy_dispersion_to_migration gives, for a true energy bin without content and non-decreasing reco edges, 1 in the reco bin that crosses the upper end of the migration range (bin centre times the last migration edge) and 0 in all others; so the bin stays empty exactly if the reco energies do not cross that end. (Deviation: an empty bin gains content.)",
  "all dispersion matrices and edges", "empty columns with a wide reco range", I+"energy_dispersion.py:energy_dispersion_to_migration", B+"resample_histogram1d")
p("C88","Effective area in longitude and latitude bins",
  "effective_area_3d_lonlat with equal numbers of longitude and latitude bins returns shape (energy, longitude, latitude), and the entry of longitude bin i and latitude bin j is the number selected in that cell over the number simulated in longitude bin j and latitude bin i, times the simulated area; on a grid inside the viewcone it is right for all event lists exactly if the products of longitude and latitude widths are symmetric. With different numbers it raises ValueError unless one of them is 1, when it broadcasts. Deviation: the simulated numbers come with transposed axes.",
  "all event lists and grids", "needs unequal bins in longitude and latitude", I+"effective_area.py:effective_area_3d_lonlat", SI+"SimulatedEventsInfo.calculate_n_showers_3d_lonlat")
p("C89","Columns of several angular resolution quantiles",
  "angular_resolution with several quantiles: the column named after a percentage holds, in each bin, the last requested quantile that rounds to this percentage. Every requested quantile can be read from its column, for all events and bins, exactly if requested quantiles with the same rounded percentage are equal (bins hold no infinite theta). Deviation: quantiles such as 0.501 and 0.502 share a column and only the last one survives.",
  "all quantile lists, event lists", "needs two nearby quantiles", BE+"angular_resolution.py:angular_resolution")
p("C90","Bias and resolution from a dispersion",
  "energy_bias_resolution_from_energy_dispersion: for a normalized column, with e the upper edge of the first migration bin, the bias is max(e, median) - 1 and the resolution half the distance of max(e, 16% point) and max(e, 84% point). Half the probability lies below bias + 1 exactly if the first bin holds at most half. Deviation: if the first bin holds more than the asked probability, its upper edge is returned.",
  "all dispersion columns", "needs a column with its content in the first bin", BE+"energy_bias_resolution.py:energy_bias_resolution_from_energy_dispersion")
p("C91","Shape of the nearest-neighbour result",
  "The nearest-neighbour searchers return, for values of shape (n_points, ...), an array of the trailing shape without leading axis, and raise IndexError for values with a single axis. Deviation: the documentation and all other inter-/extrapolators have shape (1, ...).",
  "all grids, values, targets", "every shape", IN+"nearest_neighbor_searcher.py:BaseNearestNeighborSearcher.interpolate")
p("C92","plumb_point_dist in three dimensions",
  "For points with three coordinates plumb_point_dist gives the distance to the closed segment (up to 5.005e-6 of its length) unless the segment is parallel to the third axis; then it gives the distance to the nearer end point, which is right exactly if the plumb point is an end point or outside. Deviation: segments along the third axis.",
  "all segments and points in space", "degenerate direction", IN+"utils.py:plumb_point_dist")
p("C93","Shape of the visible-edges extrapolation",
  "ParametrizedVisibleEdgesExtrapolator returns shape (1, ...) for params of shape (n_points, ...) if one facet or no trailing axis of length one is involved; with two or more visible facets and a trailing axis of length one, squeeze() drops that axis and the number of facets appears as an axis instead. Deviation: the latter case, in particular params with one axis.",
  "all shapes, grids, targets", "every shape", IN+"visible_edges_extrapolator.py:ParametrizedVisibleEdgesExtrapolator.extrapolate")

p("C94","Where moment morphing works",
  "For targets from the smallest to the largest point of a 1D grid, both included, MomentMorphInterpolator raises an exception (IndexError) exactly at the largest grid point and returns a result everywhere else. Deviation: the largest grid point should work.",
  "all sorted grids, templates", "upper end of the grid", IN+"moment_morph_interpolator.py:MomentMorphInterpolator._interpolate1D")
p("C95","Where moment-morph extrapolation gives NaN",
  "MomentMorphNearestSimplexExtrapolator in 1D: a cell in which one of the two templates used is nearly empty is filled with zeros; any other cell has finite entries if the extrapolated standard deviation is not 0, and only NaN entries if it is 0. Deviation: the NaN case occurs for normalized templates.",
  "all templates and targets outside the grid", "a zero of the extrapolated width", IN+"nearest_simplex_extrapolator.py:MomentMorphNearestSimplexExtrapolator")

p("C96","What quantile interpolation computes",
  "The quantile function of each template is strictly increasing and linear between (cumulative probability, bin center); the quantiles at the target are the griddata-weighted means; the result is the difference quotient of these, interpolated to the lower bin edges (0 outside), divided by its sum and the bin sizes. With identical templates the result is the same at every target inside the hull.",
  "all templates, edges, convex weights, resolutions", "for all", IN+"quantile_interpolator.py:ppf_values", IN+"quantile_interpolator.py:pdf_from_ppf", IN+"quantile_interpolator.py:norm_pdf")
p("C97","Normalization of quantile interpolation",
  "The returned PDF is, in each bin, the interpolated density divided by the sum of the interpolated densities and by the size of the bin (0 if that sum is 0); it is proportional to the interpolated density exactly if all bins with non-zero density have the same size. Deviation: norm_pdf distorts the shape for bins of different size.",
  "all templates and edges", "unequal bins", IN+"quantile_interpolator.py:norm_pdf")
p("C98","Quantile interpolation at a grid point",
  "At a grid point of a sorted 1D grid, the result in a cell depends only on the template of that point as long as neither it nor the template of the partner point (next lower one, for the lowest the next higher one) is empty in that cell; if one of them is empty, the result there is 0. Deviation: the empty partner has weight 0 and should not matter.",
  "all sorted 1D grids and templates", "NaN times weight 0", IN+"quantile_interpolator.py:QuantileInterpolator.interpolate")

p("C99","Areas at the minimum effective area",
  "EffectiveAreaEstimator: estimates strictly below min_effective_area become 0 and all others are kept; so a cell at or below the minimum in all templates is estimated, inside the grid, as min_effective_area. Deviation: values lower or equal to the minimum should become zero (documented).",
  "all templates and targets inside the grid", "boundary case of log/exp", IN+"component_estimators.py:EffectiveAreaEstimator.__call__")
p("C100","RadMaxEstimator and the order of grid points",
  "1D, distinct grid points in any order: without fill-value handling the order does not change any estimate. With it, let i and i+1 be the positions of the target's neighbours in the sorted grid: cells where one of the templates at positions i, i+1 of the user's order is at least the fill value get the fill value, all others the clipped estimate; so two orders agree at a target if these positions have fill values in the same cells. Deviation: the templates of the neighbours themselves should decide.",
  "all permutations, targets", "permutation invariance", IN+"component_estimators.py:RadMaxEstimator")
p("C101","Where RadMaxEstimator works in one dimension",
  "A 1D RadMaxEstimator with sorted grid fails, where its inter- or extrapolator gives an estimate, exactly at the largest grid point if fill values are handled and the interpolator is no nearest-neighbour searcher; the exception is IndexError. Deviation: the largest grid point should work.",
  "all grids and targets", "boundary case", IN+"component_estimators.py:RadMaxEstimator.__call__")
p("C102","RadMaxEstimator and targets of the documented shape",
  "A 2D target of the documented shape (1, n_dims) gives the same as the one of shape (n_dims,), except outside the grid with fill-value handling and no nearest-neighbour searcher: there it always raises ValueError, while the other shape gives an estimate. Deviation: that exception.",
  "all targets", "shape plumbing", IN+"component_estimators.py:RadMaxEstimator.__call__", IN+"utils.py:point_facet_angle")
p("C103","Axis handling with nearest neighbours",
  "EDisp/PSF estimators with the nearest neighbour searcher: with a negative axis number the template of the nearest point is returned as given. With the non-negative number of the last axis ValueError is raised, and with any other positive number p the template comes with the axes p-1, p and last rotated (exchanged if only two). Deviation: positive numbers should do the same as negative ones.",
  "all axes and shapes", "all shapes", IN+"component_estimators.py:EnergyDispersionEstimator.__call__", IN+"nearest_neighbor_searcher.py:BaseNearestNeighborSearcher")
p("C104","What PSFTableEstimator writes into the caller's keyword arguments",
  "Constructing a PSFTableEstimator leaves a caller's interpolator_kwargs and extrapolator_kwargs unchanged exactly if none was passed or it contains a normalization; otherwise (deviation from what a caller expects) a normalization entry is added to the caller's own dictionary, after the entries that were there, which stay.",
  "all dictionaries", "aliasing", IN+"component_estimators.py:PSFTableEstimator.__init__")
p("C105","HDUCLAS3 and point_like",
  "Without a user card HDUCLAS3, create_aeff2d_hdu and create_energy_dispersion_hdu write POINT-LIKE or FULL-ENCLOSURE as point_like says, and create_rad_max_hdu always writes POINT-LIKE, which is right exactly if point_like=True; with a user card the last one counts. Deviation: create_rad_max_hdu ignores the argument.",
  "all inputs", "tests only use the default", G+"create_rad_max_hdu")
p("C106","GADF writers and arrays without unit",
  "For an IRF array without unit, the writers of effective area, PSF and RAD_MAX raise TypeError, that of the energy dispersion takes it as dimensionless, and the background writers report the first bad edges and otherwise raise AttributeError; a background of another dimension raises UnitsError. Deviation: AttributeError instead of TypeError, because their decorators name a parameter that does not exist.",
  "all inputs", "decorator argument names are not checked", G+"create_background_2d_hdu", G+"create_background_3d_hdu")
p("C107","GADF writers and arrays of the wrong shape",
  "Whether any of the six create_*_hdu writers accepts its arguments does not depend on the array's shape; in the HDU the array's dimensions agree with the axis columns exactly if the array has the documented shape. Deviation: arrays of another shape are written instead of rejected.",
  "all shapes", "tests use matching shapes", G+"create_aeff2d_hdu")

p("C108","gammapy export keeps axes and data, rejects everything else",
  "create_effective_area_table_2d, create_psf_3d and create_energy_dispersion_2d raise TypeError/UnitsError for the first unit-checked argument without unit / of the wrong dimension. Otherwise they succeed exactly if every edge array has at least two strictly monotone edges and the data array has the documented shape (or is a scalar); the object then has the documented axes in the documented order with exactly the given edges and units, and at every index exactly the given number in the given unit. In every other case they raise ValueError.",
  "all arrays, shapes, units and edges", "tests only call str() on one object per class", GP+"create_effective_area_table_2d", GP+"create_psf_3d", GP+"create_energy_dispersion_2d", GP+"_create_offset_axis", GP+"_create_energy_axis_true")
p("C109","gammapy export and GADF files describe the same IRF",
  "If the GADF writer and the gammapy export both accept the same effective area, PSF or energy dispersion (not a scalar), then every bin edge and every entry of the HDU, read back by FITS rules, is the same physical quantity as the corresponding edge or entry of the gammapy object.",
  "all arrays, shapes, units and edges accepted by both", "no test compares the two exports", GP+"create_psf_3d", G+"create_psf_table_hdu", G+"create_aeff2d_hdu", G+"create_energy_dispersion_hdu")
p("C110","The reported efficiency belongs to the returned cut",
  "Whenever optimize_gh_cut returns, in every energy bin the reported efficiency e is one of the given ones and the returned cut is the 100*e percentile (operators like <=) or the 100*(1-e) percentile (operators like >=) of the gh scores of the bin's signal events; with fewer than ten events it is the smallest / largest score of all signal events. For optimize_cuts the gh cut is the 100*(1-e) percentile and the theta cut the 100*e' percentile of theta clipped to [theta_min_value, theta_max_value], both over the signal events with at least the returned multiplicity, with fallbacks largest score / theta_max_value. Scores and theta values are finite or NaN.",
  "all event lists, increasing bins, efficiencies in [0,1], theta ranges, multiplicity cuts and operators", "tests run the optimization with one operator on one event list and do not recompute the cuts", O+"optimize_gh_cut", O+"optimize_cuts", C+"calculate_percentile_cut")

p("C111","theta_cut_efficiencies given as a Python list",
  "optimize_cuts with theta_cut_efficiencies given as a Python list (of numbers in [0,1]) returns like for an array and reports the listed efficiencies, but the returned theta cut of every bin is the e'-th percentile (of 100) of theta, clipped, for the reported efficiency e'; in a bin with at most 101 theta values at most one value lies below that percentile. Deviation: for an array the theta cut is the 100*e'-th percentile (C110); lists, accepted for the gh efficiencies, are silently misread.",
  "all event lists, bins, efficiency lists, theta ranges", "the tests pass numpy arrays", O+"optimize_cuts")
p("C112","Percentile cuts of integer quantities are rounded towards zero",
  "calculate_percentile_cut for an integer array (e.g. multiplicities) a finite fill_value and at least one event in the bins succeeds, and every cut is the one for the values converted to floats, rounded towards zero (percentiles, bounds and fill value alike); all other columns are equal. For a non-negative exact cut, an integer passes operator.le with the stored cut exactly if it passes with the exact one, and operator.ge keeps in addition the values equal to the stored cut; for non-positive cuts the roles of le and ge are exchanged.",
  "all integer arrays, bin values, increasing bins, percentiles in [0,100], fill values, bounds, min_events", "tests use float arrays only", C+"calculate_percentile_cut")
p("C113","Cuts do not depend on the units of the arguments",
  "calculate_percentile_cut for values with a unit: if fill_value and the given bounds have the dimension of the values the call succeeds (if some event lies in the bins) and the column cut is in the unit of the values, otherwise UnitConversionError (a plain number counts as dimensionless), whatever the other arguments. Giving fill_value, min_value, max_value in other units changes nothing; expressing the values in another unit gives the same bins, counts and the same physical cuts (values finite or NaN). evaluate_binned_cut with le, lt, ge, gt selects the same events in whatever units events and cuts are expressed. Deviation: if the values have no unit but fill_value is a Quantity, nothing is refused: the cuts are plain numbers labelled with the unit of fill_value.",
  "all values, units, bounds, percentiles, tables, operators invariant under positive scaling", "tests use one pair of units", C+"calculate_percentile_cut", C+"evaluate_binned_cut")

p("C114","Dimension limits of the interpolation classes",
  "MomentMorphInterpolator, ParametrizedNearestSimplexExtrapolator, MomentMorphNearestSimplexExtrapolator and ParametrizedVisibleEdgesExtrapolator can be constructed for 1D grids, for 2D grids that can be triangulated (the error of the triangulation is passed on), and never for more dimensions (NotImplementedError); the visible-edges extrapolator in addition needs a positive integer m (checked after the dimension), nearest neighbour searchers need a positive integer norm_ord and work in every dimension. So an estimator on a grid with three or more dimensions that can be built without extrapolator raises NotImplementedError if a simplex extrapolator is passed, even if no target is ever extrapolated.",
  "all grid shapes, options, interpolators", "tests construct one object per class", IN+"nearest_simplex_extrapolator.py", IN+"visible_edges_extrapolator.py", IN+"moment_morph_interpolator.py:MomentMorphInterpolator", IN+"nearest_neighbor_searcher.py", IN+"base_interpolators.py", IN+"base_extrapolators.py")
p("C115","One-dimensional parametrized estimators give one continuous polyline",
  "A parametrized component estimator on a 1D grid (two or more different points in any order, finite parameters of any shape) with GridDataInterpolator and ParametrizedNearestSimplexExtrapolator can be constructed and gives, for every finite target and every entry, the straight line through the two grid points of the target's segment (inside) or through the two outermost ones (outside), with a warning exactly outside. So it returns a grid point's parameters at that point, is exact everywhere for parameters affine in the grid point, and is continuous in the target. Targets that are NaN or infinite warn and never give a number.",
  "all 1D grids, orders, parameter shapes, targets", "tests use a few grids and targets", IN+"component_estimators.py:ParametrizedComponentEstimator", IN+"griddata_interpolator.py:GridDataInterpolator", IN+"nearest_simplex_extrapolator.py:ParametrizedNearestSimplexExtrapolator")
p("C116","Estimators with nearest neighbour searchers",
  "A parametrized estimator whose interpolator and extrapolator are nearest neighbour searchers returns for every finite target the unchanged parameters of a nearest grid point: on 1D grids of any order the smaller one of two equally near ones, in more dimensions the one given first; the extrapolation warning is emitted exactly outside the range of the grid (1D) or of the triangulation. On 1D grids a NaN or infinite target gives the parameters of the smallest grid point, with the warning.",
  "all grids, orders, norm orders, targets", "ties and NaN targets are not tested", IN+"nearest_neighbor_searcher.py", IN+"component_estimators.py:ParametrizedComponentEstimator")
p("C117","One-dimensional moment morph estimators, target by target",
  "A discrete-PDF estimator on a 1D grid of different points in any order with MomentMorphInterpolator and without extrapolator raises ValueError outside the range of the grid and IndexError at the largest grid point. At every other target it returns without warning, per cell, a PDF (or zeros) from the two neighbouring templates: zeros if one of them is (nearly) empty, otherwise the moment morph formula with the linear weights divided by its integral, which at a grid point is that point's normalized template. Deviation: the largest grid point should work.",
  "all 1D grids, orders, edges, non-negative templates, targets", "tests use a few targets inside the grid", IN+"moment_morph_interpolator.py:MomentMorphInterpolator", IN+"component_estimators.py:DiscretePDFComponentEstimator")

p("C118","The order of the events does not matter",
  "Reordering the rows of the event tables changes nothing in the results of calculate_percentile_cut (also with smoothing and several percentiles), the four effective areas, energy_dispersion, energy_migration_matrix, psf_table, background_2d, background_3d_lonlat, energy_bias_resolution (with the package's bias and resolution functions, or any that ignore the order), angular_resolution, estimate_background, optimize_cuts and optimize_gh_cut: the same tables, or the same exception. evaluate_binned_cut reorders its flags like the events. (In exact arithmetic: floating point sums depend on the order in the last digits.)",
  "all event lists, permutations, edges and options", "no test permutes its events", C+"calculate_percentile_cut", C+"evaluate_binned_cut", I+"effective_area.py", I+"energy_dispersion.py", I+"psf.py", I+"background.py", BE+"energy_bias_resolution.py", BE+"angular_resolution.py", S+"estimate_background", O+"optimize_cuts", O+"optimize_gh_cut")
p("C119","Forward folding gives back the selected events",
  "Made from one list of selected events, the response functions fit together: effective area x simulated showers / simulated area x energy migration matrix (or dispersion x migration bin width, or PSF x solid angle of the ring) is the number of selected events in the cell of true energy, field of view offset and reconstructed quantity, if no selected event of the true energy and offset range lies outside the reconstructed range; in general it is that number times the ratio of all selected events in the true bin to those inside the reconstructed range. Summed over true energies and offsets, the folded migration matrix is the histogram of reconstructed energies. For a point-like analysis (one offset bin with all events) the same holds with the effective area per energy.",
  "all event lists, simulations, edges with showers in every bin", "no test combines two response functions", I+"effective_area.py:effective_area_per_energy_and_fov", I+"energy_dispersion.py:energy_dispersion", I+"energy_dispersion.py:energy_migration_matrix", I+"psf.py:psf_table")
p("C120","Joining event lists, repeating events, scaling weights",
  "For a joined event list: histogram counts and weights, the effective areas per energy, energy and offset, in polar bins and (equally many longitude and latitude) lon/lat bins (where showers were simulated) and background rates are the sums of those of the two lists; energy dispersion, migration matrix and PSF are the means of the two, weighted with the numbers of events of the bin. Writing the whole list several times leaves dispersion, migration matrix and PSF unchanged. Multiplying all weights multiplies the background rate; it is inversely proportional to the observation time.",
  "all event lists, weights, edges", "no test joins or repeats event lists", B+"create_histogram_table", I+"effective_area.py:effective_area_per_energy_and_fov", I+"energy_dispersion.py", I+"psf.py:psf_table", I+"background.py")
p("C121","Merging bins",
  "If edges are dropped from an axis (the last one is kept), the result for a coarse bin is determined by the fine bins that make it up: histogram counts and weights, simulated showers, background rate x width x solid angle, and effective area x simulated showers are the sums over the fine bins; so are dispersion x width x number of events, migration matrix x number of events and PSF x solid angle x number of events, and, if only migration (reconstructed energy, source offset) bins are merged and the first edge is kept, dispersion x width, migration matrix and PSF x solid angle alone.",
  "all event lists, edges, ways of merging one or all axes", "no test compares two binnings", B+"create_histogram_table", SI+"SimulatedEventsInfo.calculate_n_showers_per_energy_and_fov", I+"effective_area.py:effective_area_per_energy_and_fov", I+"energy_dispersion.py:energy_dispersion", I+"psf.py:psf_table", I+"background.py:background_2d")

p("C122","Resampling can make contents negative",
  "For a histogram of two bins resample_histogram1d integrates a straight line through the density: a new bin [u, v] inside the old range gets (v-u)(d0 + (d1-d0)(u+v-x0-x1)/(x2-x0)) with the densities d0, d1. So for non-negative contents all resamplings to non-decreasing edges are non-negative exactly if d1 w0 <= d0 (2 w0 + w1) and d0 w1 <= d1 (w0 + 2 w1), for equal widths if the contents differ by at most a factor 3. Deviation: otherwise negative counts appear, e.g. (1, 0) over 0, 1, 2 resampled to 0, 1.5, 2 gives (9/8, -1/8).",
  "all two-bin histograms, edges, new edges", "tests resample smooth histograms only", B+"resample_histogram1d")

p("C123","The shipped spectra",
  "All spectra defined by pyirf (CRAB_HEGRA, CRAB_MAGIC_JHEAP2015, PDG_ALL_PARTICLE, IRFDOC_PROTON_SPECTRUM, IRFDOC_ELECTRON_SPECTRUM, DAMPE_P_He_SPECTRUM) can be built, are positive at all energies and strictly decrease with energy (the MAGIC log parabola from 10 MeV on; the electron spectrum despite its bump; DAMPE also outside its table); DAMPE gives the fluxes of the data file at its energies. The Crab spectra are point-source fluxes, the others diffuse: calculate_event_weights gives positive weights for simulations of the same kind and UnitConversionError for the other kind.",
  "all energies > 0, all valid simulations", "tests evaluate the spectra at single energies", "pyirf/spectral.py:CRAB_HEGRA","pyirf/spectral.py:CRAB_MAGIC_JHEAP2015","pyirf/spectral.py:PDG_ALL_PARTICLE","pyirf/spectral.py:IRFDOC_PROTON_SPECTRUM","pyirf/spectral.py:IRFDOC_ELECTRON_SPECTRUM","pyirf/spectral.py:DAMPE_P_He_SPECTRUM","pyirf/spectral.py:calculate_event_weights")

p("C124","Estimators do not depend on the history of calls and writes",
  "Parametrized estimators on 1D grids with classes that compute their result (all but nearest neighbor searchers): after the construction the caller may write anything into grid points, parameters, other arrays and received estimates and make any calls; every call gives the estimate for the (sorted) grid points and parameters as they were at the construction. EffectiveAreaEstimator has this independence with every class, in more dimensions as long as the grid points are not changed. Calls write into no array of the caller. Deviation: in more than one dimension the other parametrized estimators keep the caller's parameter array itself, so each call uses the values it has at the time of the call.",
  "all memory states, aliased inputs, sequences of writes and calls, targets", "tests construct, call once and compare", IN+"component_estimators.py:ParametrizedComponentEstimator", IN+"component_estimators.py:EffectiveAreaEstimator", IN+"base_interpolators.py", IN+"griddata_interpolator.py", IN+"nearest_simplex_extrapolator.py")
p("C125","History of discrete PDF estimators",
  "Discrete PDF and energy dispersion estimators on 1D grids (no nearest neighbor searcher), after any writes of the caller into any arrays (estimates included) and any calls: a call gives the estimate for the (sorted) grid points and PDFs as they were at the construction; with QuantileInterpolator the estimates depend on nothing the caller does later, with the other classes on nothing but the bin edges. Deviation: moment morphing uses the caller's bin edges as they are at the time of the call.",
  "all memory states, aliased inputs, sequences of writes and calls, targets, axes", "tests construct, call once and compare", IN+"component_estimators.py:DiscretePDFComponentEstimator", IN+"component_estimators.py:EnergyDispersionEstimator", IN+"moment_morph_interpolator.py", IN+"quantile_interpolator.py", IN+"base_interpolators.py")
p("C126","Estimates of nearest neighbor searchers are views",
  "Deviation: where a nearest neighbor searcher makes the estimate of a parametrized, discrete PDF or energy dispersion estimator, writing v into an element of the received estimate makes v that element of the next estimate for the same target (the other elements stay), in every state of the memory; so the estimator depends on what the caller does with its results. On 1D grids the caller's own arrays are not touched; in more dimensions the element of the nearest grid point in the caller's own array becomes v.",
  "all estimators, memory states, targets, elements", "tests do not write into estimates", IN+"nearest_neighbor_searcher.py", IN+"component_estimators.py")
p("C127","History of RAD_MAX estimators",
  "RadMaxEstimator on 1D grids with classes that compute: after any writes and calls, a call gives the estimate for the (sorted) grid points and RAD_MAX values as they were at the construction, without fill value handling independent of everything the caller does. Deviation: fill values are looked for in the caller's array, in the caller's order, as it is at the time of the call: writing the fill value there later puts it into the estimates. In more dimensions, with a nearest neighbor searcher, a call sets the negative entries of the nearest grid point in the caller's own array to 0.",
  "all memory states, aliased inputs, sequences of writes and calls, targets", "tests construct, call once and compare", IN+"component_estimators.py:RadMaxEstimator", IN+"nearest_neighbor_searcher.py")
p("C128","Two estimators made from one effective area array",
  "Constructing an EffectiveAreaEstimator from areas in m2 replaces areas below min_effective_area by it in the caller's array; in other units no array of the caller changes and the estimator is that of the areas converted to m2. A second estimator from the same array (with any grid, classes and minimal area) estimates what it would for the array the first one left: the same as alone if its minimal area is at least that of the first or if no area was below that of the first. Deviation: otherwise it can differ, e.g. with a nearest neighbor searcher where the area is below both minimal areas it gives the first one's minimal area.",
  "all grids, areas, units, minimal areas, classes, targets", "every test makes its own array", IN+"component_estimators.py:EffectiveAreaEstimator")
p("C129","PSF tables cannot be morphed or extrapolated",
  "Moment morphing (interpolation in 1D and 2D, nearest simplex extrapolation) raises UnitConversionError for templates with a unit that is not dimensionless and gives the same as for plain arrays for dimensionless ones. PSFTableEstimator requires a unit of dimension 1/sr. Deviation: so on a sorted 1D grid of at least two points it gives an estimate only with QuantileInterpolator and inside the range of the grid, although MomentMorphInterpolator and MomentMorphNearestSimplexExtrapolator are accepted by the constructor; there the estimate is that of the QuantileInterpolator.",
  "all grids, templates, units, options, targets", "the tests use QuantileInterpolator inside the grid only", IN+"component_estimators.py:PSFTableEstimator", IN+"moment_morph_interpolator.py:moment_morph_estimation", IN+"nearest_simplex_extrapolator.py:MomentMorphNearestSimplexExtrapolator")

p("C130","What makes a sensitivity better or worse",
  "With a correct root finder, where the results are finite: at the same number of signal events more background never increases the Li & Ma significance and never improves the relative sensitivity; at the same expected background in the signal region a smaller alpha (a larger off region) never makes either worse; more signal at the same background never worsens the relative sensitivity and stricter criteria (significance, number of events, excess over background) never improve it; observing T >= 1 times as long gives a relative sensitivity between 1/T of the one before and the one before.",
  "all counts, alphas, criteria, factors T", "tests compare single numbers", "pyirf/sensitivity.py:relative_sensitivity", "pyirf/statistics.py:li_ma_significance")

p("C131","The rows of every binned table are the bins",
  "Whenever create_histogram_table, calculate_percentile_cut, estimate_background, calculate_sensitivity (of such a histogram), optimize_cuts, optimize_gh_cut, energy_bias_resolution or angular_resolution return for bins E, the returned tables (sensitivity, cuts, ...) have one row per bin, row i with lower edge E_i, upper edge E_i+1 and centre (E_i+E_i+1)/2 (+inf for an overflow bin), also if the rows come from different scanned tables. So for increasing edges every value in [E_0, E_n) belongs to exactly one row and all other values to none.",
  "all events, edges, weights, cuts, grids, options", "tests check single tables", "pyirf/binning.py:bin_center","pyirf/binning.py:create_histogram_table","pyirf/cuts.py:calculate_percentile_cut","pyirf/sensitivity.py","pyirf/cut_optimization.py","pyirf/benchmarks")

EX="examples/calculate_eventdisplay_irfs.py"
p("C132","Theta cuts of the EventDisplay example script",
  "Whenever the script gets to the end (point-like gammas, diffuse protons and electrons), its theta cuts have a row for each of the 212 fine energy bins, with its edges and centre, and a cut between 0.05 and 0.32 deg. They are linear in the logarithm of the energy between the centres of the sensitivity bins and constant outside; at those centres they are the 68 percent containment of theta, clamped to 0.05 ... 0.32 deg, of the gammas of that bin with a gh score at least the initial gh cut (which 40 percent of all gammas pass), or 0.32 deg if there are less than 10. Without gammas the script fails with an IndexError.",
  "all simulations, event lists, root finders", "the script is never run in the tests", EX+":main")
p("C133","Selections and sensitivity of the EventDisplay example script",
  "Whenever the script gets to the end, selected_theta marks exactly the gammas with theta not above the theta cut of their fine energy bin, selected_gh the gammas and background events with a score not below the gh cut of their sensitivity bin, selected the gammas with both; the stored relative sensitivity is the one of the gammas that pass both stored cuts with the background events that pass the gh cut, and the stored flux sensitivity is the relative one times the flux of the Crab nebula at the bin centre (0 in the overflow bin).",
  "all simulations, event lists, root finders", "the script is never run in the tests", EX+":main", "pyirf/cut_optimization.py:optimize_gh_cut")
p("C134","Effective areas, energy dispersions and PSF of the EventDisplay example script",
  "Whenever the script gets to the end, it makes effective area and energy dispersion for the selected gammas, for all gammas, and for those that pass only the gh or only the theta cut: each effective area is the number of those gammas over the number of simulated ones times the simulated area; that of the selected gammas is at most those with one cut, these at most the one without cuts, and the sum of those with one cut is at most the sum of the other two. The energy dispersions are normalised densities of the migrations of those gammas (zero in bins without them), the PSF is the density of theta per solid angle of the gammas that pass the gh cut, without theta cut.",
  "all simulations, event lists, root finders; an edge of the true energy bins within the simulated energies (effective areas)", "the script is never run in the tests", EX+":main")
p("C135","When the EventDisplay example script gets to the end",
  "With a point-like gamma and diffuse proton and electron simulations, finite gamma scores, a gamma of highest score with a finite non-negative reconstructed energy, and for each kind of background with events within 1 deg of the pointing one of finite energy with a score not below that of any gamma, the script gets to the end, whatever the other events are (empty energy bins, other events with NaN energies, missing background). If no gamma has a finite non-negative reconstructed energy it fails with an IndexError. (Without the last condition a background type can vanish in the gh scan, which changes the columns of the sensitivity table.)",
  "all such event lists, root finders that fail with RuntimeError or ValueError", "the script is never run in the tests", EX+":main", "pyirf/cut_optimization.py:optimize_gh_cut")
p("C136","Event lists and settings of the EventDisplay example script",
  "With a point-like gamma simulation and diffuse proton and electron simulations the event lists are the events of the input in the same order (background: protons, then electrons), each with its particle type, the weight to the flux of the Crab nebula or of cosmic rays in 50 h, and its angles; theta is the same as the reconstructed offset from the pointing. A diffuse gamma or a point-like proton or electron simulation makes it fail with a UnitConversionError. The bins are those with the documented number per decade (with underflow and overflow bins), 1000 source offset bins up to 1 deg, 199 migration bins from 0.2 to 5 with a constant ratio, 10 background rings up to 10 deg, gh efficiencies 0.01, ..., 0.8.",
  "all simulations, event lists", "the script is never run in the tests", EX+":main")
p("C137","HDUs of the EventDisplay example script",
  "Whenever the script gets to the end, the eleven GADF HDUs can be made; their names are, in this order, those of effective area and energy dispersion for the four selections, BACKGROUND, PSF and RAD_MAX, and each holds the array computed for it, in the units of the format, with the axes it was computed with. Deviation: effective areas and energy dispersions are marked as point-like even where no theta cut was made (NO_CUTS and ONLY_GH).",
  "all simulations, event lists, root finders", "the script is never run in the tests", EX+":main", "pyirf/io/gadf.py")
p("C138","Background rate and benchmarks of the EventDisplay example script",
  "Whenever the script gets to the end: the background rate of each cell of reconstructed energy and offset times energy width, solid angle of the ring and 50 h is the summed weight of the background events in the cell that pass the gh cut, except in the overflow bin, where the rate is 0. The energy bias table gives, for the selected gammas of each reconstructed energy bin, their number, the median of their relative errors and half the distance of the quantiles Phi(-1) and Phi(1) (NaN without events). The angular resolution table gives the number of gammas that pass the gh cut (not the theta cut) and the Phi(1)-Phi(-1) quantile of their thetas, in the column angular_resolution_68.",
  "all simulations, event lists, root finders", "the script is never run in the tests", EX+":main", "pyirf/irf/background.py:background_2d")
p("C139","Field-of-view coordinates keep distances",
  "Two directions seen with the same pointing are as far from each other in the longitudes and latitudes of gadf_fov_coords_lon_lat as on the sky. The pointing is at (0, 0), and the distance of a direction's coordinates to (0, 0) is its theta and its calculate_source_fov_offset. Moving the assumed source changes the theta of an event by at most the distance moved.",
  "all directions with latitudes in [-90, 90] deg, all pointings", "trigonometric identities", "pyirf/coordinates.py:gadf_fov_coords_lon_lat", U+"calculate_theta", U+"calculate_source_fov_offset")

p("C140","Keyword dictionaries shared between estimators",
  "For every history of writes to keyword dictionaries and constructions of PSFTableEstimator and EnergyDispersionEstimator objects with them (successful or not): a PSFTableEstimator uses the normalization of the dictionary, or CONE_SOLID_ANGLE if it has none, whatever was constructed before; other entries of a dictionary are never changed. Deviation: an EnergyDispersionEstimator uses AREA if the dictionary has no normalization only as long as the dictionary was not passed to a PSFTableEstimator; after that it uses CONE_SOLID_ANGLE, which changes the estimates (at grid points, unless the template has solid angle integral 1), and with DiscretePDFNearestNeighborSearcher its construction raises TypeError. Keywords that are not given are AREA, a quantile resolution of 0.001 and norm order 2. Without dictionaries and with proper data the construction succeeds exactly for the interpolators QuantileInterpolator, MomentMorphInterpolator, DiscretePDFNearestNeighborSearcher with no extrapolator, DiscretePDFNearestNeighborSearcher or MomentMorphNearestSimplexExtrapolator, and raises TypeError for other classes.",
  "all histories, dictionaries, classes, templates", "histories; aliasing", IN+"component_estimators.py:PSFTableEstimator.__init__", IN+"component_estimators.py:EnergyDispersionEstimator.__init__", IN+"component_estimators.py:DiscretePDFComponentEstimator.__init__")

p("C141","HDUs made in one session do not influence each other",
  "For every history of calls of the create_*_hdu functions, successful or failing at any point, with any header cards and extension names, mixed with writes of the caller into the headers of the HDUs made so far: at the end the header of each HDU is what its call gives as the first one of the session, changed by the writes into that header only, and DEFAULT_HEADER is what it was after the import.",
  "all histories of calls and writes", "histories; aliasing", "pyirf/io/gadf.py:DEFAULT_HEADER", "pyirf/io/gadf.py:_add_header_cards", "pyirf/io/gadf.py:create_aeff2d_hdu", "pyirf/io/gadf.py:create_background_3d_hdu")

p("C142","Histogram tables of events with NaN or infinite weights",
  "create_histogram_table on increasing edges, for events whose weights are any floating point numbers: the counts n (and n_<type>) are the numbers of events in the bins; n_weighted of a bin is the sum of the weights of its events if no event below the bin (in an earlier bin or below the first edge) has a NaN or infinite weight, and NaN otherwise. The columns of a particle type only depend on the events of that type. Events above the last edge or with NaN energy never matter. With finite weights the table is that of C05. Deviation: so one event with NaN weight makes all higher energy bins NaN, also those it is not in.",
  "all event tables, weights and edges", "all inputs incl. special values", "pyirf/binning.py:create_histogram_table")

p("C143","Weighted histograms in rounded arithmetic",
  "For every rounding to floating point numbers (relative error at most u) and events with weights >= 0: n_weighted of create_histogram_table is never negative, is exactly 0 in a bin without events, and differs from the exact sum of the weights by at most ((1+u)^N - 1) times twice the total weight of the events up to the upper edge of the bin (N = number of events + number of blocks + 1). A cell of the histograms of background_2d has a relative error of one rounding per event of the cell only and is 0 exactly if all weights in it are. The scaling in estimate_background keeps 0, sign and order. Deviation: no bound relative to the content of the bin holds for create_histogram_table: a bin whose events have small weights compared to the bins below may get 0.",
  "all roundings, events, weights, edges, and splittings into blocks", "all inputs; floating point error accumulation", "pyirf/binning.py:create_histogram_table", "pyirf/irf/background.py:background_2d", "pyirf/sensitivity.py:estimate_background")

p("C144","Effective areas and densities in rounded arithmetic",
  "For every rounding: effective_area is between 0 and the simulated area, 0 for no selected event, exactly the simulated area if all events are selected, increasing with the number of events, and exact up to two roundings. A row of energy_migration_matrix has entries between 0 and 1, 0 exactly where there is no event, and sums (exactly) to 1 up to u; it is exactly 1 if all events are in one bin. The energy dispersion is not negative, 0 exactly where there is no event, and its integral is between (1-u)^2/(1+u) and (1+u)^2/(1-u). The PSF likewise with respect to the computed solid angles, which are not negative, grow with the angle, and (if numpy's cosine and pi are within u of the exact values) differ from the exact solid angles by at most 20πu for a cone and 46πu for an annulus. The background rate keeps 0, sign and order and is exact up to three roundings. Deviation: the computed solid angle of a cone with an opening angle below 2^(-p/2) rad (p bits) is 0, so a first PSF bin that narrow is a division by 0.",
  "all roundings, counts (total up to 2^53), edges", "all inputs; floating point", "pyirf/irf/effective_area.py:effective_area", "pyirf/irf/energy_dispersion.py:_normalize_hist", "pyirf/irf/energy_dispersion.py:energy_migration_matrix", "pyirf/irf/psf.py:_normalize_psf", "pyirf/utils.py:cone_solid_angle", "pyirf/irf/background.py:background_2d")

p("C145","Percentile cuts in rounded arithmetic",
  "For every rounding with u <= 1/4, a percentile between 0 and 100 and a non-empty set of values without NaN: the percentile lies between two neighbouring values whose index is the exact fractional index (n-1)p/100 up to two roundings, rounded down (k); at least k+1 values are <= the percentile and at least n-1-k values are >= it. So it is never outside of the range of the values; percentile 0 is exactly the smallest, 100 exactly the largest value, and the percentile of equal values is exactly that value. Without rounding it is the percentile of the other properties.",
  "all roundings, values and percentiles", "all inputs; floating point", "pyirf/cuts.py:calculate_percentile_cut", "pyirf/benchmarks/angular_resolution.py:angular_resolution")

p("C146","Bins per decade do not depend on rounding",
  "For every rounding, log10 with an absolute error of at most d and 10**x with a relative error of at most r, such that (5u(|log10 e_min| + |log10 e_max| + 1) + 2d) bins_per_decade <= 9e-5: if e_max is m steps above e_min, up to 9e-6 steps less or almost a step (2e-4) more, create_bins_per_decade returns exactly m+1 edges, so the end point is included although rounding may place it too high or too low. Edge k is e_min 10^(k/bins_per_decade) up to an error of the exponent of d + 7u(k+1)(|log10 e_min| + 2) and a relative error r, and the edges increase strictly. In double precision this holds for energies between 1e-100 and 1e100 and up to 10^7 bins per decade.",
  "all roundings, log10 and power functions within the accuracy, energies and numbers of bins", "all inputs; floating point", "pyirf/binning.py:create_bins_per_decade")

p("C147","Bin edges that do not increase are refused",
  "energy_dispersion, energy_migration_matrix, psf_table and background_2d raise ValueError exactly if on one of their axes some edge is larger than the next one, and return an array otherwise, for every event list; background_3d_lonlat raises ValueError in this case, and effective_area_per_energy_and_fov, effective_area_3d_polar and effective_area_3d_lonlat return no array. create_histogram_table raises ValueError if some edge is larger than the next one, for all events and weights.",
  "all event lists and edges", "all inputs", "pyirf/irf/energy_dispersion.py:energy_dispersion", "pyirf/irf/energy_dispersion.py:energy_migration_matrix", "pyirf/irf/psf.py:psf_table", "pyirf/irf/background.py:background_2d", "pyirf/irf/background.py:background_3d_lonlat", "pyirf/irf/effective_area.py:effective_area_per_energy_and_fov", "pyirf/binning.py:create_histogram_table")

p("C148","Resampling along an axis, with units",
  "resample_histogram1d of an array with any number of axes resamples every line along the chosen axis (any axis number Python accepts, also negative) for itself: the result has the shape of the data with the number of new bins on that axis and the unit of the data, every line is the one-dimensional resampling of that line, and does not depend on the other lines (an empty line changes no other one); lines that do not add up to zero keep their sum if the new edges extend over the old range; the same edges return the data. The old edges are converted to the unit of the new ones; the result does not depend on the units in which the edges are given. Fewer than two old edges: IndexError; edges of different physical types: UnitConversionError; an axis that does not exist: ValueError; integer data: TypeError; one old bin only or another length along the axis: ValueError.",
  "all arrays, shapes, axes, edges, units, and every interpolant through the nodes (units: one that does not depend on the unit of the abscissa)", "all shapes and axes", B+"resample_histogram1d")

p("C149","Significances and bin centers in rounded arithmetic",
  "For every rounding with relative error u and a logarithm with relative error v, counts that are not negative and alpha > 0: li_ma_significance is 0 if n_on is below the computed alpha n_off; otherwise its square differs from the exact one by at most an explicit error E(u, v, n_on, n_off, alpha) times two, besides the rounding of the root. It is NaN only if the exact value of half the square is at most E, i.e. compatible with 0. In double precision, counts that add up to at most 10^6 and alpha between 0.001 and 1000, every significance of at least 1 is computed with an absolute error of at most 1e-7. Deviation: in double precision li_ma_significance(n, 5n, 0.2) with the default alpha is NaN, not 0, for every n from 1 to 5e14, i.e. if the measured excess is exactly zero. bin_center of edges that are floating point numbers lies between the edges in every binary format, is monotone in both edges, and is exact for an empty bin.",
  "all roundings (contract Np/Rounding; bin centers: those that keep doubled numbers), logarithms within the accuracy, counts and alpha", "all inputs; floating point", "pyirf/statistics.py:li_ma_significance", B+"bin_center")

p("C150","Interpolated distributions and areas in rounded arithmetic",
  "For every rounding and templates and bin widths that are not negative: cdf_values does not decrease along the bins, lies in [0, 1], is 0 exactly up to the last bin before the first content, and exactly 1 in the last bin if the template is not empty; for a template without content in the first bin the computed quantile function is therefore finite and strictly increasing on [0, 1] (between rounded nodes). norm_pdf returns densities that are not negative, 0 exactly where the input is 0, and whose integral is 1 up to m+3 roundings. EffectiveAreaEstimator at a grid point with log and exp of relative error v: the result is 0 or the area (at least the minimum) up to a relative error exp(v |log area|)(1+v) - 1, and 0 only for areas up to this error above the minimum; with the default minimum of 1 m2 all areas up to it give exactly 1 m2, not 0.",
  "all roundings, log and exp within the accuracy, templates, widths, areas", "all inputs; floating point", "pyirf/interpolation/quantile_interpolator.py:cdf_values", "pyirf/interpolation/quantile_interpolator.py:norm_pdf", "pyirf/interpolation/component_estimators.py:EffectiveAreaEstimator")

p("C151","Instrument responses do not depend on units",
  "energy_dispersion, energy_migration_matrix, psf_table, background_2d and background_3d_lonlat with columns, bin edges and observation time in any units of the right physical dimension return what they return for the same quantities in TeV, radian and seconds (densities per sr, rates in s-1 TeV-1 sr-1); so two calls with the same quantities in different units give equal results, also for infinite or NaN entries, and equal errors. A column or an array of edges of another dimension raises a UnitsError whatever the events (for edges that are not monotonic too); an observation time of another dimension raises it after the checks of the edges and shapes.",
  "all tables, edges, units, observation times", "all inputs and units", "pyirf/irf/energy_dispersion.py:energy_dispersion", "pyirf/irf/energy_dispersion.py:energy_migration_matrix", "pyirf/irf/psf.py:psf_table", "pyirf/irf/background.py:background_2d", "pyirf/irf/background.py:background_3d_lonlat")

p("C152","Simulated showers and effective areas do not depend on units",
  "SimulatedEventsInfo raises UnitsError for wrong dimensions (before the ValueError for the spectral index) and keeps the quantities otherwise. The numbers of showers per energy, per offset, per energy and offset, in polar bins and the effective areas from them are those of the same quantities in TeV, m and radian, whatever units the object, the columns and the edges have; the effective area comes in the square of the unit of max_impact. Edges of another dimension raise UnitsError (per offset: after the ValueError for a viewcone without opening, which comes first), columns of another dimension raise it after the errors of the simulated numbers. In longitude-latitude bins the units of the object and of the energies do not matter (those of the longitudes and latitudes do, C85). create_histogram_table gives the content of the same events with the column in the unit of the bins and the bins as they were given.",
  "all infos, tables, edges and units", "all inputs and units", "pyirf/simulations.py:SimulatedEventsInfo", "pyirf/irf/effective_area.py:effective_area_per_energy", "pyirf/irf/effective_area.py:effective_area_per_energy_and_fov", "pyirf/irf/effective_area.py:effective_area_3d_polar", "pyirf/irf/effective_area.py:effective_area_3d_lonlat", "pyirf/binning.py:create_histogram_table")

p("C153","Bin indices, benchmarks and the background estimate do not depend on units",
  "calculate_bin_indices of Quantities gives the indices of the numbers in any common unit and raises UnitsError for another dimension. energy_bias_resolution gives the table of the same events with both energies in the unit of the bins, angular_resolution too, with resolutions in the unit of the column theta; the numbers of events, biases, resolutions and bins are the same quantities for the same data in other units (for angular_resolution if no theta is infinite). energy_bias_resolution raises UnitsError if the two energies have different dimensions, and for bins of another dimension if there are events. estimate_background gives the same counts and the same bins for the same events, bins, cuts and ring in other units, namely those of the angles in radian; any other dimension raises UnitsError if the bin edges increase.",
  "all tables, bins, cuts and units", "all inputs and units", "pyirf/binning.py:calculate_bin_indices", "pyirf/benchmarks/energy_bias_resolution.py:energy_bias_resolution", "pyirf/benchmarks/angular_resolution.py:angular_resolution", "pyirf/sensitivity.py:estimate_background")

p("C154","Spectra and event weights do not depend on units",
  "PowerLaw, LogParabola and PowerLawWithExponentialGaussian with normalization and reference energy in any units give, at energies in any unit, the flux of the same quantities in 1/(TeV s m2) or 1/(TeV s m2 sr), in the unit of the normalization; a normalization that is no flux, a reference energy or an energy that is no energy raises UnitsError (before the ValueError for a positive index). PowerLaw.from_simulation gives the power law of the same simulation in TeV, m, s, radian, with the normalization in 1/(TeV s m2 sr) if the viewcone is open and in 1/(TeV s m2) otherwise, whatever units e_min, e_max, max_impact, the viewcone, the observation time and e_ref have; integrate_cone that of the angles in radian. calculate_event_weights gives numbers without unit that do not depend on the units of the fluxes and energies and raises UnitsError for a diffuse and a point source flux, also without events. TableInterpolationSpectrum gives the same fluxes for the same table in other units (positive fluxes if their logarithm is interpolated) and raises UnitsError for energies of another dimension. The spectra defined in the module, with their units as written in the source, are those of C123.",
  "all spectra, energies, simulations, tables and units of positive size; energies of a simulation not negative", "all inputs and units", "pyirf/spectral.py:PowerLaw", "pyirf/spectral.py:LogParabola", "pyirf/spectral.py:PowerLawWithExponentialGaussian", "pyirf/spectral.py:TableInterpolationSpectrum", "pyirf/spectral.py:calculate_event_weights")

p("C155","check_histograms and calculate_sensitivity do not depend on units",
  "check_histograms compares the bins of two histograms as quantities: bins that are the same in SI units are the same whatever units the two tables use, different ones raise ValueError, and bins of another dimension (reco_energy in TeV and in m) count as different too: ValueError, not UnitsError. calculate_sensitivity of a signal and a background histogram with bins in any units gives the table of the same histograms in SI units, i.e. the same counts, significances and relative sensitivities or the same error, with the bins in the unit of the signal. The same holds from events to sensitivities, with the background of estimate_background from events, bins, cuts and a ring in any units. (In exact arithmetic: a conversion that rounds can make equal bins different.)",
  "all histograms, alphas, thresholds, root finders, significance functions and units of positive size", "all inputs and units", "pyirf/utils.py:check_histograms", "pyirf/sensitivity.py:calculate_sensitivity", "pyirf/sensitivity.py:estimate_background")

p("C156","optimize_cuts and optimize_gh_cut do not depend on units",
  "optimize_cuts and optimize_gh_cut with energies, angles, bins, offset ring, bounds of the theta cut and given theta cuts in any units find the cuts, efficiencies and sensitivities of the same quantities in SI units (radian for angles), or the same error; two calls with the same quantities in other units therefore choose the same cuts. The sensitivity has its bins in the unit of the bins given, the theta cuts are in the unit of the column theta. For increasing bins a result is returned only if the energies of signal and background and all bins have one dimension and theta, offsets, ring, bounds and theta cuts are angles. (optimize_cuts: no infinite theta among the signal.)",
  "all events, bins, grids, operators, thresholds, root finders, significance functions and units of positive size", "all inputs and units", "pyirf/cut_optimization.py:optimize_cuts", "pyirf/cut_optimization.py:optimize_gh_cut", "pyirf/cuts.py:calculate_percentile_cut", "pyirf/cuts.py:evaluate_binned_cut", "pyirf/cuts.py:evaluate_binned_cut_by_index")

p("C157","Units in the binning helpers",
  "bin_center, split_bin_lo_hi and add_overflow_bins give the same quantities for the same edges in any unit, in that unit (the added edges are 0, -inf and inf in it). create_bins_per_decade gives the same energies whatever units e_min and e_max have, in the unit of e_min, and raises UnitsError for something that is no energy. join_bin_lo_hi compares bin_hi with bin_lo as quantities, returns the edges in the unit of bin_lo, and raises UnitsError for different dimensions; its absolute tolerance is 1e-8 in the unit of bin_lo. Deviation: edges with gaps or overlaps that are rejected in GeV are accepted in J (bins from 10 and 20 GeV up to 15 and 30 GeV), and any finite edges are accepted in a unit that is large enough, so that the check does not depend on the quantities alone.",
  "all edges, units of positive size", "all inputs and units", B+"bin_center", B+"join_bin_lo_hi", B+"split_bin_lo_hi", B+"add_overflow_bins", B+"create_bins_per_decade")

p("C158","Units in the angle functions",
  "cone_solid_angle, rectangle_solid_angle, calculate_theta, calculate_source_fov_offset, calculate_source_fov_position_angle, calculate_source_fov_lonlat and gadf_fov_coords_theta_phi give the results of the angles in radian, whatever units the single arguments have (degrees, arcminutes, hour angles, mixed), and return angles in degrees and solid angles in sr; an argument that is no angle raises UnitsError.",
  "all angles and units of positive size", "all inputs and units", "pyirf/utils.py:cone_solid_angle", "pyirf/utils.py:rectangle_solid_angle", "pyirf/utils.py:calculate_theta", "pyirf/utils.py:calculate_source_fov_offset", "pyirf/utils.py:calculate_source_fov_position_angle", "pyirf/utils.py:calculate_source_fov_lonlat", "pyirf/coordinates.py:gadf_fov_coords_theta_phi")

p("C159","The estimators do not depend on units",
  "EffectiveAreaEstimator with areas and a minimum in any units of area gives the estimates of the same areas in m2 (in m2), so the same quantities in other units give the same estimator, estimates and errors; a UnitsError otherwise, before anything else. QuantileInterpolator gives the same estimate or error if every single template is multiplied by its own positive factor; so PSFTableEstimator gives the same estimate in sr-1, or the same error, for the same PSF tables and offset bins in other units, and raises UnitsError if they are no inverse solid angles and angles.",
  "all grids, templates, classes, targets and units of positive size", "all inputs and units", "pyirf/interpolation/component_estimators.py:EffectiveAreaEstimator", "pyirf/interpolation/component_estimators.py:PSFTableEstimator", "pyirf/interpolation/quantile_interpolator.py:QuantileInterpolator")

p("C160","Bins are independent",
  "Two event lists with the same events (in the same order) in one bin give the same result in this bin, whatever the other events are, also with NaN energies outside: create_histogram_table (all columns), the percentile cuts (without smoothing), energy bias and resolution, angular resolution, the four binned effective areas, energy_dispersion, energy_migration_matrix, psf_table (by true energy and field of view bin), both background rates (lonlat arrays with as many longitude as latitude bins) and estimate_background (ring events). calculate_sensitivity: two calls that return agree in relative sensitivity, scaled signal and significance in every bin with the same counts.",
  "all event lists, bins and settings for which the functions return", "all event lists", "pyirf/binning.py:create_histogram_table", "pyirf/cuts.py:calculate_percentile_cut", "pyirf/benchmarks/energy_bias_resolution.py:energy_bias_resolution", "pyirf/benchmarks/angular_resolution.py:angular_resolution", "pyirf/irf/effective_area.py:effective_area_per_energy", "pyirf/irf/energy_dispersion.py:energy_dispersion", "pyirf/irf/energy_dispersion.py:energy_migration_matrix", "pyirf/irf/psf.py:psf_table", "pyirf/irf/background.py:background_2d", "pyirf/sensitivity.py:estimate_background", "pyirf/sensitivity.py:calculate_sensitivity")

p("C161","Expected numbers of simulated showers in floating point",
  "In floating point arithmetic with any monotone, relatively accurate rounding, and a power function and a cosine that are nowhere increasing: calculate_n_showers_per_energy (bins that do not reach beyond both ends of the range) and calculate_n_showers_per_fov (diffuse simulation) are never negative, at most n_showers (1+u)^3, exactly 0 in bins without simulated energies or angles, and not smaller in a bin that contains the other. For bins inside the range the numbers are those of the exact formula up to a few roundings and the relative errors delta, delta0 that the errors of power function and cosine cause in the differences (cancellation in narrow bins). The products per energy and field of view and 3d polar are never negative, monotone, exactly 0 if a factor is 0 (energy and field of view), and exact up to 2 or 3 roundings. Without rounding the number per energy is the one of C26.",
  "all roundings, power functions, cosines, ranges and bins", "all inputs and roundings", SI+"SimulatedEventsInfo.calculate_n_showers_per_energy", SI+"SimulatedEventsInfo.calculate_n_showers_per_fov", SI+"SimulatedEventsInfo.calculate_n_showers_per_energy_and_fov", SI+"SimulatedEventsInfo.calculate_n_showers_3d_polar")

p("C162","Spectra and event weights in floating point",
  "In floating point arithmetic with any monotone, relatively accurate rounding: PowerLaw is positive, does not increase with the energy, gives exactly the normalization at the reference energy and is accurate up to (1+u)(1+r)(1-u)^index; LogParabola is positive and exact at the reference energy; PowerLawWithExponentialGaussian (f >= 0) lies between its power law and the power law times the largest bump. calculate_event_weights gives weights that are not negative, 0 for no target flux, exactly 1 where both spectra give the same flux in the same unit, monotone in both fluxes, and accurate up to two roundings and the errors of the fluxes; events reweighted to the spectrum they were simulated with therefore count exactly as the number of events. integrate_cone keeps sign, zero and order and is exact up to one rounding of the computed solid angle. from_simulation (index below -1) gives a positive normalization, exact up to eleven roundings (for the powers and solid angles as computed). Without rounding these are the spectra and weights of the other properties. (numpy's power positive, not increasing and 1 at 1, its exp monotone and 1 at 0.)",
  "all roundings, energies, spectra and events", "all inputs and roundings", SP+"PowerLaw.__call__", SP+"PowerLaw.from_simulation", SP+"PowerLaw.integrate_cone", SP+"LogParabola.__call__", SP+"PowerLawWithExponentialGaussian.__call__", SP+"calculate_event_weights")

p("C163","Moment morphing in floating point",
  "In floating point arithmetic with any monotone, relatively accurate rounding, and any order of the additions along the bins: the coefficients between two grid points are exactly 1 and 0 at the lower one, the second is never negative, does not decrease with the target, and is exact up to four roundings; their sum is 1 up to one rounding. If the coefficients are 1 for one template and 0 for the others, the estimate is this template divided by its integral as computed: exactly the template if that is 1. So the interpolation at the lower point of a segment gives back the template. For templates and coefficients that are not negative, estimates are not negative, and their integral is 1 up to roundings or they are 0; with an empty template (sum at most 1e-8) they are 0. A template with a single filled bin gets the center of the bin as mean and the width/sqrt(12) as standard deviation if its probability is 1 as computed. Deviation: with another probability (0.2 in double precision) the mean is off by one unit in the last place and the standard deviation is 2^-52 instead. Without rounding this is the moment morphing of C55.",
  "all roundings, orders of summation, edges, templates and coefficients", "all inputs and roundings", IN+"moment_morph_interpolator.py:moment_morph_estimation", IN+"moment_morph_interpolator.py:linesegment_1D_interpolation_coefficients", IN+"moment_morph_interpolator.py:_estimate_mean_std")

p("C164","Interpolation coefficients and linear extrapolation in floating point",
  "In floating point arithmetic with any monotone, relatively accurate rounding: barycentric coefficients at a corner of a triangle are exactly 1 for the corner and 0 for the others, as long as the triangle is not too thin, so that moment morphing gives back the template of a corner exactly if its integral is 1 as computed; for any target they are finite, sum up to 1 up to two roundings, and differ from the barycentric coordinates by a bound given by the sizes of the products. On a segment the coefficients at the upper end are 1 and 0 up to two roundings, exactly if the length is a power of two. A value extrapolated (or interpolated) in one dimension differs from the straight line through the two points by about seven roundings of the sizes of its terms; at a grid point the row of the parameters is returned exactly. Deviations: between 0 and 49 the coefficients at 49 are 2^-53 and 1 - 2^-53; for a triangle with nonzero area of about 2^-104 all coefficients are NaN. Without rounding these are the coefficients of C49 and C50.",
  "all roundings, triangles, segments, targets and parameters", "all inputs and roundings", IN+"moment_morph_interpolator.py:barycentric_2D_interpolation_coefficients", IN+"moment_morph_interpolator.py:linesegment_1D_interpolation_coefficients", IN+"nearest_simplex_extrapolator.py:ParametrizedNearestSimplexExtrapolator")
p("C165","Relative sensitivities in floating point",
  "In floating point arithmetic with any monotone, relatively accurate rounding, for finite counts: the excess found in signal plus scaled background is exactly 0 without signal, never negative, does not decrease with the signal, differs from the signal by a few roundings of the total and equals it without background. The relative sensitivity is infinite exactly if the computed excess is not positive. A finite relative sensitivity is positive, its number of signal events is at least the minimum number of events and the minimum fraction of the background up to roundings, it is at least the flux found by the root search, equal to it if that has enough events, and otherwise reaches the larger of the minima up to roundings, not more. In double precision with a logarithm accurate to one unit in the last place, fewer than 10^6 events, alpha between 0.001 and 1000 and a threshold of at least 2, the flux found is right: for every number of events below that at the flux by more than the tolerance of the search and a few roundings the exact Li and Ma significance is at most the threshold up to 10^-7, for every number of events above it at least that. Of the root search only a change of the sign within its tolerance is relied on; the computed function is neither continuous nor monotone. Deviation: 2^-30 signal events are lost in 2^24 background events and give an infinite sensitivity. Without rounding this is the relative sensitivity of C17 to C22.",
  "all finite counts, alpha, thresholds, logarithms, root finders and roundings", "all inputs, roundings and root finders", "pyirf/sensitivity.py:relative_sensitivity", "pyirf/sensitivity.py:calculate_sensitivity", "pyirf/statistics.py:li_ma_significance")
p("C166","Interpolated cuts and background estimates in floating point",
  "In floating point arithmetic with any monotone, relatively accurate rounding, linear interpolation between nodes (of the theta cuts at the centers of the background bins) gives the value of a node exactly, the first and last value outside, and if all values are the same number this number everywhere; between neighbouring nodes it is monotone and does not pass the value of the lower node; its error is at most about six roundings of the sizes of the values. The estimate of the background of a bin is, if the solid angle of the ring exceeds its rounding errors, a number that is not negative, 0 for an empty bin, and differs from content times ratio of the solid angles over alpha by an explicit bound; in double precision, for cuts between 0.001 and 1 radians and a ring of at least 10^-5 sr, by at most 10^-7 relative. Deviations: just below a node the interpolated value can be larger than the values of both neighbours (7 + 2^-50 between 0 and 7); a ring whose offsets are below about 10^-8 has the solid angle 0, so that empty bins get NaN and others NaN or infinity; cuts that small give the background 0. Without rounding these are the interpolation and the estimate of C22.",
  "all roundings, nodes, positions, cuts, rings, contents and alpha", "all inputs and roundings", "pyirf/sensitivity.py:estimate_background", "pyirf/utils.py:cone_solid_angle")
p("C167","Unit conversions of bin edges and cuts in floating point",
  "If bin edges or cuts have another unit than the events, they are multiplied by the factor of the units and rounded. For values that are floating point numbers and any monotone, relatively accurate rounding: increasing edges stay increasing (possibly with equal neighbours), so that the indices are always computed. An event is in a bin exactly if its value is not below the exactly converted lower edge, or equals the rounded one, and is below the exactly converted upper edge and not equal to the rounded one; accordingly for underflow and overflow. So only events that equal a rounded edge below the exact one change the bin, always upwards, and to the next bin if the rounded edges are distinct; NaN and infinite values and edges keep their meaning. Events farther from an edge than one rounding, and the relative error of the factor, of the edge are on the right side of it. Binned cuts with <= and >= accept in addition the events that equal the rounded cut, with < and > they reject those; otherwise they decide as with the exactly converted cut. Deviation: in double precision an event of 100 GeV is put into the bin above the edge 0.1 TeV although that floating point number is larger.",
  "all roundings, factors, edges, tables of cuts and values", "all inputs and roundings", "pyirf/binning.py:calculate_bin_indices", "pyirf/cuts.py:evaluate_binned_cut", "pyirf/cuts.py:evaluate_binned_cut_by_index")

if __name__ == "__main__":
    out = os.path.join(os.path.dirname(os.path.abspath(__file__)), "..", "properties.jsonl")
    with open(out, "w") as f:
        for q in P: f.write(json.dumps(q) + "\n")
    print(len(P))
