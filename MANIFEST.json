{
 "claims": [
  {
   "property": "C01",
   "status": "proved",
   "theorems": [
    "Pyirf.Binning.C01_decreasing",
    "Pyirf.Binning.C01_bin_index",
    "Pyirf.Binning.C01_sentinels",
    "Pyirf.Binning.C01_rejects"
   ],
   "note": ""
  },
  {
   "property": "C02",
   "status": "proved",
   "theorems": [
    "Pyirf.Binning.C02_shape",
    "Pyirf.Binning.C02_all_finite_valid",
    "Pyirf.Binning.C02_nonneg_valid",
    "Pyirf.Binning.C02_inf_and_nan_stay_invalid"
   ],
   "note": ""
  },
  {
   "property": "C03",
   "status": "proved",
   "theorems": [
    "Pyirf.Binning.C03_join_split",
    "Pyirf.Binning.C03_join_spec",
    "Pyirf.Binning.C03_split_join"
   ],
   "note": ""
  },
  {
   "property": "C04",
   "status": "proved",
   "theorems": [
    "Pyirf.Binning.C04_bins_per_decade",
    "Pyirf.Binning.C04_endpoint"
   ],
   "note": ""
  },
  {
   "property": "C05",
   "status": "proved",
   "theorems": [
    "Pyirf.Binning.C05_histogram_table",
    "Pyirf.Binning.C05_exactly_one_bin",
    "Pyirf.Binning.C05_order_independent",
    "Pyirf.Binning.C05_additive",
    "Pyirf.Binning.C05_name_clash_breaks_weights"
   ],
   "note": ""
  },
  {
   "property": "C06",
   "status": "proved",
   "theorems": [
    "Pyirf.Binning.C06_cut_vs_histogram"
   ],
   "note": ""
  },
  {
   "property": "C07",
   "status": "proved",
   "theorems": [
    "Pyirf.Binning.C07_conserves_total",
    "Pyirf.Binning.C07_merges_bins",
    "Pyirf.Binning.C07_identity",
    "Pyirf.Binning.C07_outside_zero",
    "Pyirf.Binning.C07_infinite_edges"
   ],
   "note": ""
  },
  {
   "property": "C08",
   "status": "proved",
   "theorems": [
    "Pyirf.Cuts.C08_table",
    "Pyirf.Cuts.C08_infinite_values",
    "Pyirf.Cuts.C08_several_percentiles",
    "Pyirf.Cuts.C08_no_event_in_bins"
   ],
   "note": ""
  },
  {
   "property": "C09",
   "status": "proved",
   "theorems": [
    "Pyirf.Cuts.C09_le_keeps",
    "Pyirf.Cuts.C09_ge_keeps",
    "Pyirf.Cuts.C09_extremes_keep_all",
    "Pyirf.Cuts.C09_order_independent",
    "Pyirf.Cuts.C09_monotone_in_percentile",
    "Pyirf.Cuts.C09_between_data"
   ],
   "note": ""
  },
  {
   "property": "C10",
   "status": "proved",
   "theorems": [
    "Pyirf.Cuts.C10_clipped",
    "Pyirf.Cuts.C10_fill_not_clipped"
   ],
   "note": ""
  },
  {
   "property": "C11",
   "status": "proved",
   "theorems": [
    "Pyirf.Cuts.C11_evaluate_binned_cut",
    "Pyirf.Cuts.C11_outside_false",
    "Pyirf.Cuts.C11_by_index",
    "Pyirf.Cuts.C11_any_index"
   ],
   "note": ""
  },
  {
   "property": "C12",
   "status": "proved",
   "theorems": [
    "Pyirf.Cuts.C12_looser_superset",
    "Pyirf.Cuts.C12_local"
   ],
   "note": ""
  },
  {
   "property": "C13",
   "status": "proved",
   "theorems": [
    "Pyirf.Cuts.C13_weighted_average",
    "Pyirf.Cuts.C13_between",
    "Pyirf.Cuts.C13_constant_unchanged"
   ],
   "note": ""
  },
  {
   "property": "C14",
   "status": "proved",
   "theorems": [
    "Pyirf.Cuts.C14_compare_irf_cuts",
    "Pyirf.Cuts.C14_same_units",
    "Pyirf.Cuts.C14_units_ignored"
   ],
   "note": ""
  },
  {
   "property": "C15",
   "status": "proved",
   "theorems": [
    "Pyirf.Stats.C15_li_ma"
   ],
   "note": ""
  },
  {
   "property": "C16",
   "status": "proved",
   "theorems": [
    "Pyirf.Stats.C16_strict_mono_on",
    "Pyirf.Stats.C16_anti_off",
    "Pyirf.Stats.C16_continuous",
    "Pyirf.Stats.C16_sqrt_scaling"
   ],
   "note": ""
  },
  {
   "property": "C17",
   "status": "proved",
   "theorems": [
    "Pyirf.Sensitivity.C17_input_handling",
    "Pyirf.Sensitivity.C17_no_root_is_nan"
   ],
   "note": ""
  },
  {
   "property": "C18",
   "status": "proved",
   "theorems": [
    "Pyirf.Sensitivity.C18_least_detectable"
   ],
   "note": ""
  },
  {
   "property": "C19",
   "status": "proved",
   "theorems": [
    "Pyirf.Sensitivity.C19_root_finder_irrelevant",
    "Pyirf.Sensitivity.C19_excess_scaling"
   ],
   "note": ""
  },
  {
   "property": "C20",
   "status": "proved",
   "theorems": [
    "Pyirf.Sensitivity.C20_finite_iff_in_bracket",
    "Pyirf.Sensitivity.C20_total",
    "Pyirf.Sensitivity.C20_lower_end_below",
    "Pyirf.Sensitivity.C20_enough_background"
   ],
   "note": ""
  },
  {
   "property": "C21",
   "status": "proved",
   "theorems": [
    "Pyirf.Sensitivity.C21_table",
    "Pyirf.Sensitivity.C21_binning_mismatch",
    "Pyirf.Sensitivity.C21_different_length",
    "Pyirf.Sensitivity.C21_thresholds_met",
    "Pyirf.Sensitivity.C21_name_clash"
   ],
   "note": ""
  },
  {
   "property": "C22",
   "status": "proved",
   "theorems": [
    "Pyirf.Sensitivity.C22_scaled_counts",
    "Pyirf.Sensitivity.C22_additive",
    "Pyirf.Sensitivity.C22_alpha",
    "Pyirf.Sensitivity.C22_monotone_in_cut"
   ],
   "note": ""
  },
  {
   "property": "C23",
   "status": "proved",
   "theorems": [
    "Pyirf.CutOpt.C23_optimize_gh_cut"
   ],
   "note": ""
  },
  {
   "property": "C24",
   "status": "proved",
   "theorems": [
    "Pyirf.CutOpt.C24_optimize_cuts"
   ],
   "note": ""
  },
  {
   "property": "C25",
   "status": "proved",
   "theorems": [
    "Pyirf.CutOpt.C25_optimize_cuts_reapply",
    "Pyirf.CutOpt.C25_optimize_gh_cut_reapply"
   ],
   "note": ""
  },
  {
   "property": "C26",
   "status": "proved",
   "theorems": [
    "Pyirf.Simulations.C26_expected_number",
    "Pyirf.Simulations.C26_outside"
   ],
   "note": ""
  },
  {
   "property": "C27",
   "status": "proved",
   "theorems": [
    "Pyirf.Simulations.C27_sum",
    "Pyirf.Simulations.C27_merge",
    "Pyirf.Simulations.C27_nonneg"
   ],
   "note": ""
  },
  {
   "property": "C28",
   "status": "proved",
   "theorems": [
    "Pyirf.Simulations.C28_constructor",
    "Pyirf.Simulations.C28_finite"
   ],
   "note": ""
  },
  {
   "property": "C29",
   "status": "proved",
   "theorems": [
    "Pyirf.Simulations.C29_fraction",
    "Pyirf.Simulations.C29_additive",
    "Pyirf.Simulations.C29_error"
   ],
   "note": ""
  },
  {
   "property": "C30",
   "status": "proved",
   "theorems": [
    "Pyirf.Simulations.C30_factorize",
    "Pyirf.Simulations.C30_sums"
   ],
   "note": ""
  },
  {
   "property": "C31",
   "status": "proved",
   "theorems": [
    "Pyirf.Simulations.C31_polar_sum"
   ],
   "note": ""
  },
  {
   "property": "C32",
   "status": "proved",
   "theorems": [
    "Pyirf.Simulations.C32_numbers",
    "Pyirf.Simulations.C32_fraction",
    "Pyirf.Simulations.C32_range",
    "Pyirf.Simulations.C32_nonneg"
   ],
   "note": ""
  },
  {
   "property": "C33",
   "status": "proved",
   "theorems": [
    "Pyirf.Spectral.C33_simulated_number",
    "Pyirf.Spectral.C33_reference_energy"
   ],
   "note": ""
  },
  {
   "property": "C34",
   "status": "proved",
   "theorems": [
    "Pyirf.Spectral.C34_ratio",
    "Pyirf.Spectral.C34_same_spectrum",
    "Pyirf.Spectral.C34_chain",
    "Pyirf.Spectral.C34_positive",
    "Pyirf.Spectral.C34_expected_sum"
   ],
   "note": ""
  },
  {
   "property": "C35",
   "status": "proved",
   "theorems": [
    "Pyirf.Spectral.C35_constructor",
    "Pyirf.Spectral.C35_formulas",
    "Pyirf.Spectral.C35_zero_width",
    "Pyirf.Spectral.C35_reduces_to_power_law",
    "Pyirf.Spectral.C35_at_reference",
    "Pyirf.Spectral.C35_positive_antitone"
   ],
   "note": ""
  },
  {
   "property": "C36",
   "status": "proved",
   "theorems": [
    "Pyirf.Spectral.C36_integrate_cone",
    "Pyirf.Spectral.C36_additive"
   ],
   "note": ""
  },
  {
   "property": "C37",
   "status": "proved",
   "theorems": [
    "Pyirf.Spectral.C37_table_points",
    "Pyirf.Spectral.C37_between",
    "Pyirf.Spectral.C37_positive",
    "Pyirf.Spectral.C37_power_law",
    "Pyirf.Spectral.C37_linear",
    "Pyirf.Spectral.C37_decreasing",
    "Pyirf.Spectral.C37_row_order",
    "Pyirf.Spectral.C37_from_table"
   ],
   "note": ""
  },
  {
   "property": "C38",
   "status": "proved",
   "theorems": [
    "Pyirf.Irf.C38_per_energy",
    "Pyirf.Irf.C38_per_energy_and_fov",
    "Pyirf.Irf.C38_polar",
    "Pyirf.Irf.C38_range",
    "Pyirf.Irf.C38_additive"
   ],
   "note": ""
  },
  {
   "property": "C39",
   "status": "proved",
   "theorems": [
    "Pyirf.Irf.C39_energy_dispersion"
   ],
   "note": ""
  },
  {
   "property": "C40",
   "status": "proved",
   "theorems": [
    "Pyirf.Irf.C40_migration_matrix"
   ],
   "note": ""
  },
  {
   "property": "C41",
   "status": "proved",
   "theorems": [
    "Pyirf.Irf.C41_psf_table"
   ],
   "note": ""
  },
  {
   "property": "C42",
   "status": "proved",
   "theorems": [
    "Pyirf.Irf.C42_background_2d",
    "Pyirf.Irf.C42_overflow_bins"
   ],
   "note": ""
  },
  {
   "property": "C43",
   "status": "proved",
   "theorems": [
    "Pyirf.Irf.C43_error_iff",
    "Pyirf.Irf.C43_entries",
    "Pyirf.Irf.C43_integrates_iff",
    "Pyirf.Irf.C43_shape_deviates",
    "Pyirf.Irf.C43_values_deviate",
    "Pyirf.Irf.C43_uniform_longitude",
    "Pyirf.Irf.C43_single_longitude"
   ],
   "note": ""
  },
  {
   "property": "C44",
   "status": "proved",
   "theorems": [
    "Pyirf.Irf.C44_normalized",
    "Pyirf.Irf.C44_matching_edges",
    "Pyirf.Irf.C44_identity",
    "Pyirf.Irf.C44_outside_zero"
   ],
   "note": ""
  },
  {
   "property": "C45",
   "status": "proved",
   "theorems": [
    "Pyirf.Bench.C45_rows",
    "Pyirf.Bench.C45_none_in_bins",
    "Pyirf.Bench.C45_default_functions",
    "Pyirf.Bench.C45_all_agree",
    "Pyirf.Bench.C45_rescale",
    "Pyirf.Bench.C45_empty_table",
    "Pyirf.Bench.C45_absolute_68"
   ],
   "note": ""
  },
  {
   "property": "C46",
   "status": "proved",
   "theorems": [
    "Pyirf.Bench.C46_table",
    "Pyirf.Bench.C46_contains",
    "Pyirf.Bench.C46_monotone",
    "Pyirf.Bench.C46_empty_table",
    "Pyirf.Bench.C46_none_in_bins",
    "Pyirf.Bench.C46_default_column"
   ],
   "note": ""
  },
  {
   "property": "C47",
   "status": "proved",
   "theorems": [
    "Pyirf.Bench.C47_dispersion"
   ],
   "note": ""
  },
  {
   "property": "C48",
   "status": "proved",
   "theorems": [
    "Pyirf.Interpolation.C48_nearest",
    "Pyirf.Interpolation.C48_at_grid_point",
    "Pyirf.Interpolation.C48_order"
   ],
   "note": ""
  },
  {
   "property": "C49",
   "status": "proved",
   "theorems": [
    "Pyirf.Interpolation.C49_linesegment"
   ],
   "note": ""
  },
  {
   "property": "C50",
   "status": "proved",
   "theorems": [
    "Pyirf.Interpolation.C50_barycentric"
   ],
   "note": ""
  },
  {
   "property": "C51",
   "status": "proved",
   "theorems": [
    "Pyirf.Interpolation.C51_line",
    "Pyirf.Interpolation.C51_affine_1d",
    "Pyirf.Interpolation.C51_one_axis",
    "Pyirf.Interpolation.C51_affine_2d",
    "Pyirf.Interpolation.C51_vertex"
   ],
   "note": ""
  },
  {
   "property": "C52",
   "status": "proved",
   "theorems": [
    "Pyirf.Interpolation.C52_visible_facets",
    "Pyirf.Interpolation.C52_weights",
    "Pyirf.Interpolation.C52_order",
    "Pyirf.Interpolation.C52_blend",
    "Pyirf.Interpolation.C52_between",
    "Pyirf.Interpolation.C52_affine",
    "Pyirf.Interpolation.C52_single_facet"
   ],
   "note": ""
  },
  {
   "property": "C53",
   "status": "proved",
   "theorems": [
    "Pyirf.Interpolation.C53_plumb_point_dist",
    "Pyirf.Interpolation.C53_distance_exists"
   ],
   "note": ""
  },
  {
   "property": "C54",
   "status": "proved",
   "theorems": [
    "Pyirf.Interpolation.C54_nearest_facet",
    "Pyirf.Interpolation.C54_nearest_facet_distance",
    "Pyirf.Interpolation.C54_simplex_to_facet",
    "Pyirf.Interpolation.C54_nearest_simplex"
   ],
   "note": ""
  },
  {
   "property": "C55",
   "status": "proved",
   "theorems": [
    "Pyirf.Interpolation.C55_moment_morph",
    "Pyirf.Interpolation.C55_interpolate_1d",
    "Pyirf.Interpolation.C55_interpolate_2d",
    "Pyirf.Interpolation.C55_value_1d",
    "Pyirf.Interpolation.C55_value_2d"
   ],
   "note": ""
  },
  {
   "property": "C56",
   "status": "proved",
   "theorems": [
    "Pyirf.Interpolation.C56_grid_point_1d",
    "Pyirf.Interpolation.C56_grid_point_2d"
   ],
   "note": ""
  },
  {
   "property": "C57",
   "status": "proved",
   "theorems": [
    "Pyirf.Interpolation.C57_extrapolate_1d",
    "Pyirf.Interpolation.C57_extrapolate_2d",
    "Pyirf.Interpolation.C57_value_1d",
    "Pyirf.Interpolation.C57_value_2d"
   ],
   "note": ""
  },
  {
   "property": "C58",
   "status": "proved",
   "theorems": [
    "Pyirf.Interpolation.C58_cdf_values"
   ],
   "note": ""
  },
  {
   "property": "C59",
   "status": "proved",
   "theorems": [
    "Pyirf.Interpolation.C59_quantile_interpolation"
   ],
   "note": ""
  },
  {
   "property": "C60",
   "status": "proved",
   "theorems": [
    "Pyirf.Interpolation.C60_parametrized",
    "Pyirf.Interpolation.C60_parametrized_errors",
    "Pyirf.Interpolation.C60_discrete",
    "Pyirf.Interpolation.C60_discrete_errors",
    "Pyirf.Interpolation.C60_target",
    "Pyirf.Interpolation.C60_dispatch_1d",
    "Pyirf.Interpolation.C60_dispatch_nd",
    "Pyirf.Interpolation.C60_bad_target"
   ],
   "note": ""
  },
  {
   "property": "C61",
   "status": "proved",
   "theorems": [
    "Pyirf.Interpolation.C61_order_parametrized",
    "Pyirf.Interpolation.C61_order_discrete",
    "Pyirf.Interpolation.C61_sorted"
   ],
   "note": ""
  },
  {
   "property": "C62",
   "status": "proved",
   "theorems": [
    "Pyirf.Interpolation.C62_range",
    "Pyirf.Interpolation.C62_errors",
    "Pyirf.Interpolation.C62_convex",
    "Pyirf.Interpolation.C62_grid_point"
   ],
   "note": ""
  },
  {
   "property": "C63",
   "status": "proved",
   "theorems": [
    "Pyirf.Interpolation.C63_input_can_change",
    "Pyirf.Interpolation.C63_input_unchanged_iff",
    "Pyirf.Interpolation.C63_input_values"
   ],
   "note": ""
  },
  {
   "property": "C64",
   "status": "proved",
   "theorems": [
    "Pyirf.Interpolation.C64_fill_value",
    "Pyirf.Interpolation.C64_dimensions",
    "Pyirf.Interpolation.C64_no_fill",
    "Pyirf.Interpolation.C64_errors",
    "Pyirf.Interpolation.C64_one_dimension",
    "Pyirf.Interpolation.C64_nearest_neighbor",
    "Pyirf.Interpolation.C64_two_dimensions",
    "Pyirf.Interpolation.C64_clipped_range"
   ],
   "note": ""
  },
  {
   "property": "C65",
   "status": "proved",
   "theorems": [
    "Pyirf.Interpolation.C65_axis",
    "Pyirf.Interpolation.C65_bad_axis",
    "Pyirf.Interpolation.C65_errors"
   ],
   "note": ""
  },
  {
   "property": "C66",
   "status": "proved",
   "theorems": [
    "Pyirf.Interpolation.C66_psf_classes",
    "Pyirf.Interpolation.C66_nearest_neighbor"
   ],
   "note": ""
  },
  {
   "property": "C67",
   "status": "proved",
   "theorems": [
    "Pyirf.Io.C67_units",
    "Pyirf.Io.C67_aeff",
    "Pyirf.Io.C67_psf",
    "Pyirf.Io.C67_edisp",
    "Pyirf.Io.C67_bkg2d",
    "Pyirf.Io.C67_bkg3d",
    "Pyirf.Io.C67_radmax",
    "Pyirf.Io.C67_recombine",
    "Pyirf.Io.C67_aeff_errors",
    "Pyirf.Io.C67_psf_errors",
    "Pyirf.Io.C67_edisp_errors",
    "Pyirf.Io.C67_bkg2d_errors",
    "Pyirf.Io.C67_bkg3d_errors",
    "Pyirf.Io.C67_radmax_errors",
    "Pyirf.Io.C67_commentary"
   ],
   "note": ""
  },
  {
   "property": "C68",
   "status": "proved",
   "theorems": [
    "Pyirf.Utils.C68_accepts_iff",
    "Pyirf.Utils.C68_which_error",
    "Pyirf.Utils.C68_column_order"
   ],
   "note": ""
  },
  {
   "property": "C69",
   "status": "proved",
   "theorems": [
    "Pyirf.Utils.C69_cone_is_surface_integral",
    "Pyirf.Utils.C69_cone_values",
    "Pyirf.Utils.C69_rectangle_is_surface_integral",
    "Pyirf.Utils.C69_rectangle_values"
   ],
   "note": ""
  },
  {
   "property": "C70",
   "status": "proved",
   "theorems": [
    "Pyirf.Coords.C70_theta",
    "Pyirf.Coords.C70_same_theta",
    "Pyirf.Coords.C70_phi_range",
    "Pyirf.Coords.C70_same_direction",
    "Pyirf.Coords.C70_latitude_error"
   ],
   "note": ""
  },
  {
   "property": "C71",
   "status": "proved",
   "theorems": [
    "Pyirf.Io.C71_accepts",
    "Pyirf.Io.C71_columns",
    "Pyirf.Io.C71_info",
    "Pyirf.Io.C71_order"
   ],
   "note": ""
  },
  {
   "property": "C72",
   "status": "proved",
   "theorems": [
    "Pyirf.Utils.C72_check_histograms",
    "Pyirf.Utils.C72_different_length"
   ],
   "note": ""
  },
  {
   "property": "C73",
   "status": "proved",
   "theorems": [
    "Pyirf.Binning.C73_empty_formula",
    "Pyirf.Binning.C73_empty_stays_empty_iff",
    "Pyirf.Binning.C73_empty_gains_content"
   ],
   "note": ""
  },
  {
   "property": "C74",
   "status": "proved",
   "theorems": [
    "Pyirf.Cuts.C74_row_average",
    "Pyirf.Cuts.C74_same_errors",
    "Pyirf.Cuts.C74_single_percentile_unchanged",
    "Pyirf.Cuts.C74_row_between",
    "Pyirf.Cuts.C74_smooths_over_percentiles"
   ],
   "note": ""
  },
  {
   "property": "C75",
   "status": "proved",
   "theorems": [
    "Pyirf.Sensitivity.C75_nan_although_detectable",
    "Pyirf.Sensitivity.C75_exact",
    "Pyirf.Sensitivity.C75_nan_iff_above",
    "Pyirf.Sensitivity.C75_finite_when_enough_background"
   ],
   "note": ""
  },
  {
   "property": "C76",
   "status": "proved",
   "theorems": [
    "Pyirf.Utils.C76_unitless_column_raises_typeError",
    "Pyirf.Utils.C76_typeError_iff",
    "Pyirf.Utils.C76_errors",
    "Pyirf.Utils.C76_documented_errors"
   ],
   "note": ""
  },
  {
   "property": "C77",
   "status": "proved",
   "theorems": [
    "Pyirf.CutOpt.C77_gh_positions",
    "Pyirf.CutOpt.C77_gh_rows",
    "Pyirf.CutOpt.C77_cuts_rows",
    "Pyirf.CutOpt.C77_cuts_positions",
    "Pyirf.CutOpt.C77_row_assignment_by_position",
    "Pyirf.CutOpt.C77_gh_rows_same_types",
    "Pyirf.CutOpt.C77_cuts_rows_same_types"
   ],
   "note": ""
  },
  {
   "property": "C78",
   "status": "proved",
   "theorems": [
    "Pyirf.CutOpt.C78_gh_nan_iff",
    "Pyirf.CutOpt.C78_cuts_nan_iff",
    "Pyirf.CutOpt.C78_nan_chosen",
    "Pyirf.CutOpt.C78_usable_chosen"
   ],
   "note": ""
  },
  {
   "property": "C79",
   "status": "proved",
   "theorems": [
    "Pyirf.CutOpt.C79_optimize_gh_cut_succeeds",
    "Pyirf.CutOpt.C79_optimize_cuts_succeeds",
    "Pyirf.CutOpt.C79_optimize_cuts_none_in_bins",
    "Pyirf.CutOpt.C79_optimize_gh_cut_none_in_bins",
    "Pyirf.CutOpt.C79_optimize_cuts_no_signal",
    "Pyirf.CutOpt.C79_optimize_gh_cut_no_signal"
   ],
   "note": ""
  },
  {
   "property": "C80",
   "status": "proved",
   "theorems": [
    "Pyirf.Simulations.C80_whole_range_too_many",
    "Pyirf.Simulations.C80_whole_range_edge",
    "Pyirf.Simulations.C80_whole_range"
   ],
   "note": ""
  },
  {
   "property": "C81",
   "status": "proved",
   "theorems": [
    "Pyirf.Simulations.C81_finite_iff",
    "Pyirf.Simulations.C81_index_minus_one_not_finite"
   ],
   "note": ""
  },
  {
   "property": "C82",
   "status": "proved",
   "theorems": [
    "Pyirf.Simulations.C82_not_by_width",
    "Pyirf.Simulations.C82_equal_shares"
   ],
   "note": ""
  },
  {
   "property": "C83",
   "status": "proved",
   "theorems": [
    "Pyirf.Simulations.C83_not_documented_order",
    "Pyirf.Simulations.C83_axes",
    "Pyirf.Simulations.C83_documented_order_iff",
    "Pyirf.Simulations.C83_axes_inside"
   ],
   "note": ""
  },
  {
   "property": "C84",
   "status": "proved",
   "theorems": [
    "Pyirf.Simulations.C84_not_sampled_fraction",
    "Pyirf.Simulations.C84_overlap",
    "Pyirf.Simulations.C84_sampled_fraction_iff"
   ],
   "note": ""
  },
  {
   "property": "C85",
   "status": "proved",
   "theorems": [
    "Pyirf.Simulations.C85_unequal_bins_deviate",
    "Pyirf.Simulations.C85_units_deviate",
    "Pyirf.Simulations.C85_overlap"
   ],
   "note": ""
  },
  {
   "property": "C86",
   "status": "proved",
   "theorems": [
    "Pyirf.Spectral.C86_gaussian_integrate_cone"
   ],
   "note": ""
  },
  {
   "property": "C87",
   "status": "proved",
   "theorems": [
    "Pyirf.Irf.C87_empty_gains_content",
    "Pyirf.Irf.C87_empty_formula",
    "Pyirf.Irf.C87_empty_stays_empty_iff"
   ],
   "note": ""
  },
  {
   "property": "C88",
   "status": "proved",
   "theorems": [
    "Pyirf.Irf.C88_never_documented_shape",
    "Pyirf.Irf.C88_wrong_cell",
    "Pyirf.Irf.C88_values",
    "Pyirf.Irf.C88_unequal",
    "Pyirf.Irf.C88_correct_iff"
   ],
   "note": ""
  },
  {
   "property": "C89",
   "status": "proved",
   "theorems": [
    "Pyirf.Bench.C89_column",
    "Pyirf.Bench.C89_each_quantile_iff",
    "Pyirf.Bench.C89_column_name",
    "Pyirf.Bench.C89_not_each_quantile"
   ],
   "note": ""
  },
  {
   "property": "C90",
   "status": "proved",
   "theorems": [
    "Pyirf.Bench.C90_values",
    "Pyirf.Bench.C90_median_iff",
    "Pyirf.Bench.C90_quantiles",
    "Pyirf.Bench.C90_bias_not_median"
   ],
   "note": ""
  },
  {
   "property": "C91",
   "status": "proved",
   "theorems": [
    "Pyirf.Interpolation.C91_shape",
    "Pyirf.Interpolation.C91_no_leading_axis"
   ],
   "note": ""
  },
  {
   "property": "C92",
   "status": "proved",
   "theorems": [
    "Pyirf.Interpolation.C92_three_dimensions",
    "Pyirf.Interpolation.C92_vertical_segment",
    "Pyirf.Interpolation.C92_vertical_segment_iff",
    "Pyirf.Interpolation.C92_not_always"
   ],
   "note": ""
  },
  {
   "property": "C93",
   "status": "proved",
   "theorems": [
    "Pyirf.Interpolation.C93_wrong_shape",
    "Pyirf.Interpolation.C93_not_always_documented",
    "Pyirf.Interpolation.C93_documented_shape",
    "Pyirf.Interpolation.C93_one_facet"
   ],
   "note": ""
  },
  {
   "property": "C94",
   "status": "proved",
   "theorems": [
    "Pyirf.Interpolation.C94_largest_grid_point",
    "Pyirf.Interpolation.C94_other_points",
    "Pyirf.Interpolation.C94_fails_iff"
   ],
   "note": ""
  },
  {
   "property": "C95",
   "status": "proved",
   "theorems": [
    "Pyirf.Interpolation.C95_nan_iff",
    "Pyirf.Interpolation.C95_nan_occurs"
   ],
   "note": ""
  },
  {
   "property": "C96",
   "status": "proved",
   "theorems": [
    "Pyirf.Interpolation.C96_quantile_formula",
    "Pyirf.Interpolation.C96_identical_templates"
   ],
   "note": ""
  },
  {
   "property": "C97",
   "status": "proved",
   "theorems": [
    "Pyirf.Interpolation.C97_not_proportional",
    "Pyirf.Interpolation.C97_proportional_iff"
   ],
   "note": ""
  },
  {
   "property": "C98",
   "status": "proved",
   "theorems": [
    "Pyirf.Interpolation.C98_depends_on_neighbour",
    "Pyirf.Interpolation.C98_at_grid_point"
   ],
   "note": ""
  },
  {
   "property": "C99",
   "status": "proved",
   "theorems": [
    "Pyirf.Interpolation.C99_minimum_kept",
    "Pyirf.Interpolation.C99_minimum"
   ],
   "note": ""
  },
  {
   "property": "C100",
   "status": "proved",
   "theorems": [
    "Pyirf.Interpolation.C100_order_matters",
    "Pyirf.Interpolation.C100_order_without_fill",
    "Pyirf.Interpolation.C100_positions",
    "Pyirf.Interpolation.C100_same_estimate"
   ],
   "note": ""
  },
  {
   "property": "C101",
   "status": "proved",
   "theorems": [
    "Pyirf.Interpolation.C101_upper_end",
    "Pyirf.Interpolation.C101_other_targets",
    "Pyirf.Interpolation.C101_fails_iff"
   ],
   "note": ""
  },
  {
   "property": "C102",
   "status": "proved",
   "theorems": [
    "Pyirf.Interpolation.C102_row_outside",
    "Pyirf.Interpolation.C102_same_estimate"
   ],
   "note": ""
  },
  {
   "property": "C103",
   "status": "proved",
   "theorems": [
    "Pyirf.Interpolation.C103_three_axes",
    "Pyirf.Interpolation.C103_negative_axis",
    "Pyirf.Interpolation.C103_nonnegative_axis"
   ],
   "note": ""
  },
  {
   "property": "C104",
   "status": "proved",
   "theorems": [
    "Pyirf.Interpolation.C104_kwargs_can_change",
    "Pyirf.Interpolation.C104_kwargs_unchanged_iff",
    "Pyirf.Interpolation.C104_kwargs_values"
   ],
   "note": ""
  },
  {
   "property": "C105",
   "status": "proved",
   "theorems": [
    "Pyirf.Io.C105_clas3",
    "Pyirf.Io.C105_user_card"
   ],
   "note": ""
  },
  {
   "property": "C106",
   "status": "proved",
   "theorems": [
    "Pyirf.Io.C106_no_unit",
    "Pyirf.Io.C106_background_attribute_error",
    "Pyirf.Io.C106_background_units"
   ],
   "note": ""
  },
  {
   "property": "C107",
   "status": "proved",
   "theorems": [
    "Pyirf.Io.C107_shape_not_checked",
    "Pyirf.Io.C107_shape_iff",
    "Pyirf.Io.C107_wrong_shape_written"
   ],
   "note": ""
  },
  {
   "property": "C108",
   "status": "proved",
   "theorems": [
    "Pyirf.Io.C108_aeff",
    "Pyirf.Io.C108_psf",
    "Pyirf.Io.C108_edisp"
   ],
   "note": ""
  },
  {
   "property": "C109",
   "status": "proved",
   "theorems": [
    "Pyirf.Io.C109_aeff",
    "Pyirf.Io.C109_psf",
    "Pyirf.Io.C109_edisp"
   ],
   "note": ""
  },
  {
   "property": "C110",
   "status": "proved",
   "theorems": [
    "Pyirf.CutOpt.C110_gh_like_le",
    "Pyirf.CutOpt.C110_gh_like_ge",
    "Pyirf.CutOpt.C110_cuts"
   ],
   "note": ""
  },
  {
   "property": "C111",
   "status": "proved",
   "theorems": [
    "Pyirf.CutOpt.C111_theta_list",
    "Pyirf.CutOpt.C111_few_pass"
   ],
   "note": ""
  },
  {
   "property": "C112",
   "status": "proved",
   "theorems": [
    "Pyirf.Cuts.C112_integer_values",
    "Pyirf.Cuts.C112_selection"
   ],
   "note": ""
  },
  {
   "property": "C113",
   "status": "proved",
   "theorems": [
    "Pyirf.Cuts.C113_accepted",
    "Pyirf.Cuts.C113_argument_units",
    "Pyirf.Cuts.C113_value_unit",
    "Pyirf.Cuts.C113_selection",
    "Pyirf.Cuts.C113_operators",
    "Pyirf.Cuts.C113_plain_values"
   ],
   "note": ""
  },
  {
   "property": "C114",
   "status": "proved",
   "theorems": [
    "Pyirf.Interpolation.C114_dimension",
    "Pyirf.Interpolation.C114_simplex_classes",
    "Pyirf.Interpolation.C114_options",
    "Pyirf.Interpolation.C114_estimator_3d"
   ],
   "note": ""
  },
  {
   "property": "C115",
   "status": "proved",
   "theorems": [
    "Pyirf.Interpolation.C115_polyline",
    "Pyirf.Interpolation.C115_exact",
    "Pyirf.Interpolation.C115_continuous",
    "Pyirf.Interpolation.C115_not_finite"
   ],
   "note": ""
  },
  {
   "property": "C116",
   "status": "proved",
   "theorems": [
    "Pyirf.Interpolation.C116_nearest_1d",
    "Pyirf.Interpolation.C116_nearest_nd"
   ],
   "note": ""
  },
  {
   "property": "C117",
   "status": "proved",
   "theorems": [
    "Pyirf.Interpolation.C117_moment_morph_1d"
   ],
   "note": ""
  },
  {
   "property": "C118",
   "status": "proved",
   "theorems": [
    "Pyirf.Pipeline.C118_percentile_cut",
    "Pyirf.Pipeline.C118_percentile_cuts",
    "Pyirf.Pipeline.C118_smoothed",
    "Pyirf.Pipeline.C118_effective_area",
    "Pyirf.Pipeline.C118_dispersion_psf",
    "Pyirf.Pipeline.C118_background",
    "Pyirf.Pipeline.C118_bias_functions",
    "Pyirf.Pipeline.C118_energy_bias_resolution",
    "Pyirf.Pipeline.C118_angular_resolution",
    "Pyirf.Pipeline.C118_evaluate_binned_cut",
    "Pyirf.Pipeline.C118_estimate_background",
    "Pyirf.Pipeline.C118_optimize_cuts",
    "Pyirf.Pipeline.C118_optimize_gh_cut"
   ],
   "note": ""
  },
  {
   "property": "C119",
   "status": "proved",
   "theorems": [
    "Pyirf.Pipeline.C119_fold_migration",
    "Pyirf.Pipeline.C119_fold_dispersion",
    "Pyirf.Pipeline.C119_fold_psf",
    "Pyirf.Pipeline.C119_fold_energy"
   ],
   "note": ""
  },
  {
   "property": "C120",
   "status": "proved",
   "theorems": [
    "Pyirf.Pipeline.C120_histogram_table",
    "Pyirf.Pipeline.C120_effective_area_fov",
    "Pyirf.Pipeline.C120_dispersion_mixture",
    "Pyirf.Pipeline.C120_psf_mixture",
    "Pyirf.Pipeline.C120_repeated",
    "Pyirf.Pipeline.C120_background_2d",
    "Pyirf.Pipeline.C120_background_3d",
    "Pyirf.Pipeline.C120_effective_area",
    "Pyirf.Pipeline.C120_effective_area_polar",
    "Pyirf.Pipeline.C120_effective_area_lonlat",
    "Pyirf.Pipeline.C120_migration_mixture"
   ],
   "note": ""
  },
  {
   "property": "C121",
   "status": "proved",
   "theorems": [
    "Pyirf.Pipeline.C121_migration",
    "Pyirf.Pipeline.C121_effective_area",
    "Pyirf.Pipeline.C121_histogram_table",
    "Pyirf.Pipeline.C121_background_2d",
    "Pyirf.Pipeline.C121_effective_area_fov",
    "Pyirf.Pipeline.C121_dispersion",
    "Pyirf.Pipeline.C121_psf"
   ],
   "note": ""
  },
  {
   "property": "C122",
   "status": "proved",
   "theorems": [
    "Pyirf.Binning.C122_two_bins",
    "Pyirf.Binning.C122_nonnegative_iff",
    "Pyirf.Binning.C122_negative_content"
   ],
   "note": ""
  },
  {
   "property": "C123",
   "status": "proved",
   "theorems": [
    "Pyirf.Spectral.C123_values",
    "Pyirf.Spectral.C123_power_laws",
    "Pyirf.Spectral.C123_log_parabola",
    "Pyirf.Spectral.C123_electron",
    "Pyirf.Spectral.C123_weights",
    "Pyirf.Spectral.C123_dampe"
   ],
   "note": ""
  },
  {
   "property": "C124",
   "status": "proved",
   "theorems": [
    "Pyirf.Memory.C124_parametrized_1d",
    "Pyirf.Memory.C124_parametrized_more_dims",
    "Pyirf.Memory.C124_calls_write_nothing",
    "Pyirf.Memory.C124_effective_area"
   ],
   "note": ""
  },
  {
   "property": "C125",
   "status": "proved",
   "theorems": [
    "Pyirf.Memory.C125_pdf_1d",
    "Pyirf.Memory.C125_quantile_1d",
    "Pyirf.Memory.C125_edges_kept_1d",
    "Pyirf.Memory.C125_edisp_1d"
   ],
   "note": ""
  },
  {
   "property": "C126",
   "status": "proved",
   "theorems": [
    "Pyirf.Memory.C126_parametrized",
    "Pyirf.Memory.C126_not_independent",
    "Pyirf.Memory.C126_own_arrays_1d",
    "Pyirf.Memory.C126_own_array_more_dims",
    "Pyirf.Memory.C126_pdf",
    "Pyirf.Memory.C126_edisp"
   ],
   "note": ""
  },
  {
   "property": "C127",
   "status": "proved",
   "theorems": [
    "Pyirf.Memory.C127_1d",
    "Pyirf.Memory.C127_no_fill",
    "Pyirf.Memory.C127_fill_written_later",
    "Pyirf.Memory.C127_nearest_writes"
   ],
   "note": ""
  },
  {
   "property": "C128",
   "status": "proved",
   "theorems": [
    "Pyirf.Memory.C128_new",
    "Pyirf.Memory.C128_new_other_units",
    "Pyirf.Memory.C128_caller_array",
    "Pyirf.Memory.C128_other_units",
    "Pyirf.Memory.C128_second",
    "Pyirf.Memory.C128_second_same",
    "Pyirf.Memory.C128_second_differs"
   ],
   "note": ""
  },
  {
   "property": "C129",
   "status": "proved",
   "theorems": [
    "Pyirf.Interpolation.C129_dimensionless_classes",
    "Pyirf.Interpolation.C129_moment_morph_estimation",
    "Pyirf.Interpolation.C129_dimensionless",
    "Pyirf.Interpolation.C129_interpolate_2d",
    "Pyirf.Interpolation.C129_extrapolate_2d",
    "Pyirf.Interpolation.C129_extrapolate_1d",
    "Pyirf.Interpolation.C129_interpolate_1d",
    "Pyirf.Interpolation.C129_psf_estimator",
    "Pyirf.Interpolation.C129_psf_quantile"
   ],
   "note": ""
  },
  {
   "property": "C130",
   "status": "proved",
   "theorems": [
    "Pyirf.Sensitivity.C130_significance_background",
    "Pyirf.Sensitivity.C130_significance_alpha",
    "Pyirf.Sensitivity.C130_background",
    "Pyirf.Sensitivity.C130_alpha",
    "Pyirf.Sensitivity.C130_signal_and_criteria",
    "Pyirf.Sensitivity.C130_observation_time"
   ],
   "note": ""
  },
  {
   "property": "C131",
   "status": "proved",
   "theorems": [
    "Pyirf.Pipeline.C131_histogram",
    "Pyirf.Pipeline.C131_cut",
    "Pyirf.Pipeline.C131_cuts",
    "Pyirf.Pipeline.C131_background",
    "Pyirf.Pipeline.C131_sensitivity",
    "Pyirf.Pipeline.C131_optimised",
    "Pyirf.Pipeline.C131_optimised_cut_tables",
    "Pyirf.Pipeline.C131_bias",
    "Pyirf.Pipeline.C131_angular",
    "Pyirf.Pipeline.C131_tiling"
   ],
   "note": ""
  },
  {
   "property": "C132",
   "status": "proved",
   "theorems": [
    "Pyirf.Examples.C132_theta_cuts",
    "Pyirf.Examples.C132_no_gammas"
   ],
   "note": ""
  },
  {
   "property": "C133",
   "status": "proved",
   "theorems": [
    "Pyirf.Examples.C133_selections",
    "Pyirf.Examples.C133_sensitivity"
   ],
   "note": ""
  },
  {
   "property": "C134",
   "status": "proved",
   "theorems": [
    "Pyirf.Examples.C134_effective_areas",
    "Pyirf.Examples.C134_order",
    "Pyirf.Examples.C134_densities"
   ],
   "note": ""
  },
  {
   "property": "C135",
   "status": "proved",
   "theorems": [
    "Pyirf.Examples.C135_runs",
    "Pyirf.Examples.C135_no_energies"
   ],
   "note": ""
  },
  {
   "property": "C136",
   "status": "proved",
   "theorems": [
    "Pyirf.Examples.C136_events",
    "Pyirf.Examples.C136_wrong_simulation",
    "Pyirf.Examples.C136_settings"
   ],
   "note": ""
  },
  {
   "property": "C137",
   "status": "proved",
   "theorems": [
    "Pyirf.Examples.C137_hdus"
   ],
   "note": ""
  },
  {
   "property": "C138",
   "status": "proved",
   "theorems": [
    "Pyirf.Examples.C138_background",
    "Pyirf.Examples.C138_bias",
    "Pyirf.Examples.C138_angular_resolution"
   ],
   "note": ""
  },
  {
   "property": "C139",
   "status": "proved",
   "theorems": [
    "Pyirf.Coords.C139_isometry",
    "Pyirf.Coords.C139_centre",
    "Pyirf.Coords.C139_lipschitz"
   ],
   "note": ""
  },
  {
   "property": "C140",
   "status": "proved",
   "theorems": [
    "Pyirf.Kwargs.C140_dictionary",
    "Pyirf.Kwargs.C140_other_entries",
    "Pyirf.Kwargs.C140_energy_dispersion",
    "Pyirf.Kwargs.C140_psf",
    "Pyirf.Kwargs.C140_nearest_neighbor",
    "Pyirf.Kwargs.C140_estimates_differ",
    "Pyirf.Kwargs.C140_defaults",
    "Pyirf.Kwargs.C140_classes"
   ],
   "note": ""
  },
  {
   "property": "C141",
   "status": "proved",
   "theorems": [
    "Pyirf.Io.C141_history",
    "Pyirf.Io.C141_succeeds",
    "Pyirf.Io.C141_alone"
   ],
   "note": ""
  },
  {
   "property": "C142",
   "status": "proved",
   "theorems": [
    "Pyirf.Binning.C142_weights",
    "Pyirf.Binning.C142_nan_spreads",
    "Pyirf.Binning.C142_finite"
   ],
   "note": ""
  },
  {
   "property": "C143",
   "status": "proved",
   "theorems": [
    "Pyirf.Rounded.C143_histogram",
    "Pyirf.Rounded.C143_bincount",
    "Pyirf.Rounded.C143_estimate_background",
    "Pyirf.Rounded.C143_cancellation"
   ],
   "note": ""
  },
  {
   "property": "C144",
   "status": "proved",
   "theorems": [
    "Pyirf.Rounded.C144_effective_area",
    "Pyirf.Rounded.C144_migration",
    "Pyirf.Rounded.C144_energy_dispersion",
    "Pyirf.Rounded.C144_solid_angle",
    "Pyirf.Rounded.C144_solid_angle_error",
    "Pyirf.Rounded.C144_psf",
    "Pyirf.Rounded.C144_solid_angle_zero",
    "Pyirf.Rounded.C144_background"
   ],
   "note": ""
  },
  {
   "property": "C145",
   "status": "proved",
   "theorems": [
    "Pyirf.Rounded.C145_percentile",
    "Pyirf.Rounded.C145_exact"
   ],
   "note": ""
  },
  {
   "property": "C146",
   "status": "proved",
   "theorems": [
    "Pyirf.Rounded.C146_edges",
    "Pyirf.Rounded.C146_increasing",
    "Pyirf.Rounded.C146_binary64"
   ],
   "note": ""
  },
  {
   "property": "C147",
   "status": "proved",
   "theorems": [
    "Pyirf.Binning.C147_histogram_table",
    "Pyirf.Binning.C147_histogram_table_finite",
    "Pyirf.Irf.C147_energy_dispersion",
    "Pyirf.Irf.C147_migration_matrix",
    "Pyirf.Irf.C147_psf_table",
    "Pyirf.Irf.C147_background_2d",
    "Pyirf.Irf.C147_background_3d",
    "Pyirf.Irf.C147_effective_area"
   ],
   "note": ""
  },
  {
   "property": "C148",
   "status": "proved",
   "theorems": [
    "Pyirf.Binning.C148_lines",
    "Pyirf.Binning.C148_errors",
    "Pyirf.Binning.C148_conserves_lines",
    "Pyirf.Binning.C148_identity",
    "Pyirf.Binning.C148_independent",
    "Pyirf.Binning.C148_edge_units"
   ],
   "note": ""
  },
  {
   "property": "C149",
   "status": "proved",
   "theorems": [
    "Pyirf.Rounded.C149_li_ma",
    "Pyirf.Rounded.C149_li_ma_nan",
    "Pyirf.Rounded.C149_exact",
    "Pyirf.Rounded.C149_double",
    "Pyirf.Rounded.C149_agrees",
    "Pyirf.Rounded.C149_bin_center"
   ],
   "note": ""
  },
  {
   "property": "C150",
   "status": "proved",
   "theorems": [
    "Pyirf.Rounded.C150_cdf",
    "Pyirf.Rounded.C150_ppf",
    "Pyirf.Rounded.C150_norm_pdf",
    "Pyirf.Rounded.C150_area_at_node"
   ],
   "note": ""
  },
  {
   "property": "C151",
   "status": "proved",
   "theorems": [
    "Pyirf.Units.C151_energy_dispersion_si",
    "Pyirf.Units.C151_energy_dispersion",
    "Pyirf.Units.C151_energy_migration_si",
    "Pyirf.Units.C151_energy_migration",
    "Pyirf.Units.C151_psf_si",
    "Pyirf.Units.C151_psf",
    "Pyirf.Units.C151_background2d_si",
    "Pyirf.Units.C151_background2d",
    "Pyirf.Units.C151_background3d_si",
    "Pyirf.Units.C151_background3d"
   ],
   "note": ""
  },
  {
   "property": "C152",
   "status": "proved",
   "theorems": [
    "Pyirf.Units.C152_lonlat_si",
    "Pyirf.Units.C152_lonlat",
    "Pyirf.Units.C152_histogram_table",
    "Pyirf.Units.C152_area_per_energy_si",
    "Pyirf.Units.C152_area_per_energy_fov_si",
    "Pyirf.Units.C152_area_polar_si",
    "Pyirf.Units.C152_area_lonlat_si",
    "Pyirf.Units.C152_area_per_energy",
    "Pyirf.Units.C152_area_per_energy_fov",
    "Pyirf.Units.C152_area_polar",
    "Pyirf.Units.C152_constructor",
    "Pyirf.Units.C152_per_energy_si",
    "Pyirf.Units.C152_per_energy",
    "Pyirf.Units.C152_per_fov_si",
    "Pyirf.Units.C152_per_fov",
    "Pyirf.Units.C152_per_energy_fov_si",
    "Pyirf.Units.C152_per_energy_fov",
    "Pyirf.Units.C152_polar_si",
    "Pyirf.Units.C152_polar"
   ],
   "note": ""
  },
  {
   "property": "C153",
   "status": "proved",
   "theorems": [
    "Pyirf.Units.C153_bin_indices",
    "Pyirf.Units.C153_bin_indices_same",
    "Pyirf.Units.C153_bias_si",
    "Pyirf.Units.C153_bias",
    "Pyirf.Units.C153_angular_si",
    "Pyirf.Units.C153_angular",
    "Pyirf.Units.C153_background_si",
    "Pyirf.Units.C153_background_dims",
    "Pyirf.Units.C153_background"
   ],
   "note": ""
  },
  {
   "property": "C154",
   "status": "proved",
   "theorems": [
    "Pyirf.Units.C154_constructor",
    "Pyirf.Units.C154_power_law",
    "Pyirf.Units.C154_log_parabola",
    "Pyirf.Units.C154_gaussian",
    "Pyirf.Units.C154_same",
    "Pyirf.Units.C154_from_simulation",
    "Pyirf.Units.C154_integrate_cone",
    "Pyirf.Units.C154_weights",
    "Pyirf.Units.C154_table",
    "Pyirf.Units.C154_table_same",
    "Pyirf.Units.C154_constants"
   ],
   "note": ""
  },
  {
   "property": "C155",
   "status": "proved",
   "theorems": [
    "Pyirf.Units.C155_check_histograms",
    "Pyirf.Units.C155_sensitivity_si",
    "Pyirf.Units.C155_sensitivity_dims",
    "Pyirf.Units.C155_sensitivity",
    "Pyirf.Units.C155_pipeline"
   ],
   "note": ""
  },
  {
   "property": "C156",
   "status": "proved",
   "theorems": [
    "Pyirf.Units.C156_optimize_cuts_si",
    "Pyirf.Units.C156_optimize_gh_cut_si",
    "Pyirf.Units.C156_optimize_cuts",
    "Pyirf.Units.C156_optimize_gh_cut",
    "Pyirf.Units.C156_optimize_cuts_dims",
    "Pyirf.Units.C156_optimize_gh_cut_dims"
   ],
   "note": ""
  },
  {
   "property": "C157",
   "status": "proved",
   "theorems": [
    "Pyirf.Units.C157_bin_center",
    "Pyirf.Units.C157_split",
    "Pyirf.Units.C157_add_overflow",
    "Pyirf.Units.C157_bins_per_decade",
    "Pyirf.Units.C157_join",
    "Pyirf.Units.C157_join_large_unit",
    "Pyirf.Units.C157_join_joule"
   ],
   "note": ""
  },
  {
   "property": "C158",
   "status": "proved",
   "theorems": [
    "Pyirf.Units.C158_cone",
    "Pyirf.Units.C158_rectangle",
    "Pyirf.Units.C158_theta",
    "Pyirf.Units.C158_fov_offset",
    "Pyirf.Units.C158_theta_phi",
    "Pyirf.Units.C158_position_angle",
    "Pyirf.Units.C158_lonlat"
   ],
   "note": ""
  },
  {
   "property": "C159",
   "status": "proved",
   "theorems": [
    "Pyirf.Units.C159_effective_area",
    "Pyirf.Units.C159_effective_area_units",
    "Pyirf.Units.C159_estimate_in_m2",
    "Pyirf.Units.C159_quantile_normalization",
    "Pyirf.Units.C159_psf_table",
    "Pyirf.Units.C159_psf_table_units_error"
   ],
   "note": ""
  },
  {
   "property": "C160",
   "status": "proved",
   "theorems": [
    "Pyirf.Pipeline.C160_energy_dispersion",
    "Pyirf.Pipeline.C160_migration_matrix",
    "Pyirf.Pipeline.C160_psf_table",
    "Pyirf.Pipeline.C160_background_2d",
    "Pyirf.Pipeline.C160_effective_area_fov",
    "Pyirf.Pipeline.C160_effective_area_polar",
    "Pyirf.Pipeline.C160_effective_area",
    "Pyirf.Pipeline.C160_effective_area_lonlat",
    "Pyirf.Pipeline.C160_background_3d",
    "Pyirf.Pipeline.C160_histogram_table",
    "Pyirf.Pipeline.C160_percentile_cut",
    "Pyirf.Pipeline.C160_energy_bias_resolution",
    "Pyirf.Pipeline.C160_angular_resolution",
    "Pyirf.Pipeline.C160_estimate_background",
    "Pyirf.Pipeline.C160_sensitivity"
   ],
   "note": ""
  },
  {
   "property": "C161",
   "status": "proved",
   "theorems": [
    "Pyirf.Rounded.C161_energy",
    "Pyirf.Rounded.C161_energy_accuracy",
    "Pyirf.Rounded.C161_fov",
    "Pyirf.Rounded.C161_fov_accuracy",
    "Pyirf.Rounded.C161_products",
    "Pyirf.Rounded.C161_agrees"
   ],
   "note": ""
  },
  {
   "property": "C162",
   "status": "proved",
   "theorems": [
    "Pyirf.Rounded.C162_power_law",
    "Pyirf.Rounded.C162_power_law_accuracy",
    "Pyirf.Rounded.C162_log_parabola",
    "Pyirf.Rounded.C162_gaussian",
    "Pyirf.Rounded.C162_weights",
    "Pyirf.Rounded.C162_weights_accuracy",
    "Pyirf.Rounded.C162_same_spectrum",
    "Pyirf.Rounded.C162_integrate_cone",
    "Pyirf.Rounded.C162_from_simulation",
    "Pyirf.Rounded.C162_agrees"
   ],
   "note": ""
  },
  {
   "property": "C163",
   "status": "proved",
   "theorems": [
    "Pyirf.Rounded.C163_agrees",
    "Pyirf.Rounded.C163_coefficients",
    "Pyirf.Rounded.C163_node",
    "Pyirf.Rounded.C163_node_1d",
    "Pyirf.Rounded.C163_normalised",
    "Pyirf.Rounded.C163_empty",
    "Pyirf.Rounded.C163_single_bin",
    "Pyirf.Rounded.C163_single_bin_deviation"
   ],
   "note": ""
  },
  {
   "property": "C164",
   "status": "proved",
   "theorems": [
    "Pyirf.Rounded.C164_corner",
    "Pyirf.Rounded.C164_barycentric",
    "Pyirf.Rounded.C164_upper",
    "Pyirf.Rounded.C164_upper_deviation",
    "Pyirf.Rounded.C164_row",
    "Pyirf.Rounded.C164_line",
    "Pyirf.Rounded.C164_thin_deviation",
    "Pyirf.Rounded.C164_morph_corner",
    "Pyirf.Rounded.C164_agrees"
   ],
   "note": ""
  },
  {
   "property": "C165",
   "status": "proved",
   "theorems": [
    "Pyirf.Rounded.C165_excess",
    "Pyirf.Rounded.C165_infinite",
    "Pyirf.Rounded.C165_lost_deviation",
    "Pyirf.Rounded.C165_minimum",
    "Pyirf.Rounded.C165_flux",
    "Pyirf.Rounded.C165_agrees"
   ],
   "note": ""
  },
  {
   "property": "C166",
   "status": "proved",
   "theorems": [
    "Pyirf.Rounded.C166_interp_agrees",
    "Pyirf.Rounded.C166_interp_exact",
    "Pyirf.Rounded.C166_interp_monotone",
    "Pyirf.Rounded.C166_overshoot_deviation",
    "Pyirf.Rounded.C166_interp_error",
    "Pyirf.Rounded.C166_background",
    "Pyirf.Rounded.C166_double",
    "Pyirf.Rounded.C166_ring_deviation",
    "Pyirf.Rounded.C166_cut_deviation",
    "Pyirf.Rounded.C166_agrees"
   ],
   "note": ""
  },
  {
   "property": "C167",
   "status": "proved",
   "theorems": [
    "Pyirf.Rounded.C167_bin_indices",
    "Pyirf.Rounded.C167_bin_indices_shift",
    "Pyirf.Rounded.C167_far_from_edge",
    "Pyirf.Rounded.C167_far_indices",
    "Pyirf.Rounded.C167_cuts",
    "Pyirf.Rounded.C167_edge_deviation"
   ],
   "note": ""
  }
 ]
}