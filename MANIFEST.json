{
 "claims": [
  {
   "property": "C01",
   "status": "proved",
   "theorems": [
    "Verif.Data.C01_rectangular",
    "Verif.Data.C01_update_restores"
   ],
   "note": "invariant over all sequences of operations"
  },
  {
   "property": "C02",
   "status": "proved",
   "theorems": [
    "Verif.Data.C02_update_measured",
    "Verif.Data.C02_stream_measured"
   ],
   "note": ""
  },
  {
   "property": "C03",
   "status": "proved",
   "theorems": [
    "Verif.Data.C03_update_appends"
   ],
   "note": ""
  },
  {
   "property": "C04",
   "status": "proved",
   "theorems": [
    "Verif.Data.C04_concatenate",
    "Verif.Data.C04_all"
   ],
   "note": "C04_all covers every list of reachable tables, including tables without columns."
  },
  {
   "property": "C05",
   "status": "partial",
   "theorems": [
    "Verif.Data.C05_mask",
    "Verif.Data.C05_keys_partial",
    "Verif.Data.C05_empty_keys_false",
    "Verif.Data.C05_exactly",
    "Verif.Data.C05_no_columns_false",
    "Verif.Data.C05_types"
   ],
   "note": "Refuted for an empty list of keys and for tables that have rows but no columns; proved otherwise. C05_exactly: right exactly for nonempty lists of keys."
  },
  {
   "property": "C06",
   "status": "partial",
   "theorems": [
    "Verif.Data.C06_delete_partial",
    "Verif.Data.C06_delete_false",
    "Verif.Data.C06_delete_missing_index_false",
    "Verif.Data.C06_exactly"
   ],
   "note": "False for repeated or missing row indices; C06_exactly: the number of rows is right exactly if the indices are distinct and exist."
  },
  {
   "property": "C07",
   "status": "partial",
   "theorems": [
    "Verif.Data.C07_strip_diverges",
    "Verif.Data.C07_n_rows_false",
    "Verif.Data.C07_strip_partial",
    "Verif.Data.C07_exactly",
    "Verif.Data.C07_n_rows_kept",
    "Verif.Data.C07_again_false"
   ],
   "note": "refuted (non-termination, stale row count); proved for the remaining cases C07_exactly: strip returns exactly if some value was measured; C07_n_rows_kept: n_rows never changes."
  },
  {
   "property": "C08",
   "status": "proved",
   "theorems": [
    "Verif.Data.C08_rename_no_overwrite",
    "Verif.Data.C08_rename",
    "Verif.Data.C08_standardise_keys",
    "Verif.Data.C08_contents",
    "Verif.Data.C08_idempotent",
    "Verif.Data.C08_succeeds_iff",
    "Verif.Data.C08_names",
    "Verif.Data.C08_blank_key_raises"
   ],
   "note": "renaming and standard format; blank keys are shown to raise"
  },
  {
   "property": "C09",
   "status": "proved",
   "theorems": [
    "Verif.Data.C09_homogeneous",
    "Verif.Data.C09_extend_wrong_type",
    "Verif.Data.C09_update_succeeds"
   ],
   "note": ""
  },
  {
   "property": "C10",
   "status": "partial",
   "theorems": [
    "Verif.WPoints.C10_scalar_exactly",
    "Verif.WPoints.C10_mask_array",
    "Verif.WPoints.C10_mask_dict",
    "Verif.WPoints.C10_mask_data",
    "Verif.WPoints.C10_mask_wrong_length",
    "Verif.WPoints.C10_extend_array",
    "Verif.WPoints.C10_extend_dimensions",
    "Verif.WPoints.C10_extend_dict",
    "Verif.WPoints.C10_extend_data",
    "Verif.WPoints.C10_scalar_data_false",
    "Verif.WPoints.C10_scalar_partial"
   ],
   "note": "proved for array, dict and Data points; refuted for a scalar weight with Data points C10_scalar_exactly gives the exact condition for scalar weights."
  },
  {
   "property": "C11",
   "status": "partial",
   "theorems": [
    "Verif.Filter.C11_exactly",
    "Verif.Filter.C11_upward_closed",
    "Verif.Filter.C11_keeps_maximum",
    "Verif.Filter.C11_number_partial",
    "Verif.Filter.C11_zero_percent",
    "Verif.Filter.C11_percentage_false",
    "Verif.Filter.C11_init"
   ],
   "note": "the documented percentage bound is refuted; the exact bound is proved C11_exactly: for different weights the documented bound holds exactly if the fractional part of percent*n/100 is at most percent/100."
  },
  {
   "property": "C12",
   "status": "proved",
   "theorems": [
    "Verif.Filter.C12_bounds",
    "Verif.Filter.C12_init",
    "Verif.Filter.C12_statistics",
    "Verif.Filter.C12_recorded"
   ],
   "note": ""
  },
  {
   "property": "C13",
   "status": "proved",
   "theorems": [
    "Verif.Weigher.C13_member",
    "Verif.Weigher.C13_mean",
    "Verif.Weigher.C13_all_one"
   ],
   "note": ""
  },
  {
   "property": "C14",
   "status": "partial",
   "theorems": [
    "Verif.Weigher.C14_exactly",
    "Verif.Weigher.C14_weights_false",
    "Verif.Weigher.C14_unary_false",
    "Verif.Weigher.C14_binary_false",
    "Verif.Weigher.C14_nested_false",
    "Verif.Weigher.C14_nested_error_false",
    "Verif.Weigher.C14_two_points_partial",
    "Verif.Weigher.C14_operators_partial",
    "Verif.Weigher.C14_number_false"
   ],
   "note": "refuted: the operators only accept weighers returning exactly two values; proved for that case C14_exactly: the operators return exactly if there are two weights; C14_weights_false: one weight per point is never returned."
  },
  {
   "property": "C15",
   "status": "partial",
   "theorems": [
    "Verif.Weigher.C15_second_exactly",
    "Verif.Weigher.C15_second_call_false",
    "Verif.Weigher.C15_norm_false",
    "Verif.Weigher.C15_history_partial",
    "Verif.Weigher.C15_twice_partial"
   ],
   "note": "refuted: a second call uses mutated configuration; proved for configurations that are not mutated C15_second_exactly gives the exact condition for a second call with dimensions to fail."
  },
  {
   "property": "C16",
   "status": "proved",
   "theorems": [
    "Verif.Weigher.C16_range",
    "Verif.Weigher.C16_lattice",
    "Verif.Weigher.C16_de_morgan",
    "Verif.Weigher.C16_not_lt",
    "Verif.Weigher.C16_item",
    "Verif.Weigher.C16_monotone"
   ],
   "note": ""
  },
  {
   "property": "C17",
   "status": "partial",
   "theorems": [
    "Verif.Weigher.C17_exactly",
    "Verif.Weigher.C17_one_shot_partial",
    "Verif.Weigher.C17_eq_actual",
    "Verif.Weigher.C17_eq_false"
   ],
   "note": "== on variables is refuted; the one-shot sharpness part is proved for the other operators C17_exactly: x(s) == a is right exactly if s is the default sharpness."
  },
  {
   "property": "C18",
   "status": "proved",
   "theorems": [
    "Verif.Nbh.C18_scaling_ball",
    "Verif.Nbh.C18_too_few",
    "Verif.Nbh.C18_init"
   ],
   "note": ""
  },
  {
   "property": "C19",
   "status": "proved",
   "theorems": [
    "Verif.Nbh.C19_ball",
    "Verif.Nbh.C19_ellipsoid",
    "Verif.Nbh.C19_init",
    "Verif.Nbh.C19_identity_ellipsoid",
    "Verif.Nbh.C19_cuboid",
    "Verif.Nbh.C19_polytope",
    "Verif.Nbh.C19_default_polytope",
    "Verif.Nbh.C19_symmetric"
   ],
   "note": ""
  },
  {
   "property": "C20",
   "status": "proved",
   "theorems": [
    "Verif.Interp.C20_empty",
    "Verif.Interp.C20_exact",
    "Verif.Interp.C20_mean",
    "Verif.Interp.C20_constant",
    "Verif.Interp.C20_init"
   ],
   "note": ""
  },
  {
   "property": "C21",
   "status": "partial",
   "theorems": [
    "Verif.Interp.C21_level_exactly",
    "Verif.Interp.C21_above",
    "Verif.Interp.C21_exact",
    "Verif.Interp.C21_scaled_mean",
    "Verif.Interp.C21_gauss_positive",
    "Verif.Interp.C21_in_range",
    "Verif.Interp.C21_factor",
    "Verif.Interp.C21_pointcloud_false"
   ],
   "note": "proved for the interpolator; refuted for the default point cloud configuration (scale 50 makes the value leave the range) C21_level_exactly and C21_above describe the effect of the scale exactly for level data and for positive boat speeds."
  },
  {
   "property": "C22",
   "status": "partial",
   "theorems": [
    "Verif.Interp.C22_exact",
    "Verif.Interp.C22_in_range_partial",
    "Verif.Interp.C22_equidistant_false",
    "Verif.Interp.C22_nan_iff",
    "Verif.Interp.C22_single_false",
    "Verif.Interp.C22_empty"
   ],
   "note": "refuted for points equidistant from the grid point (0/0); proved when the farthest point is strictly farther than the nearest"
  },
  {
   "property": "C23",
   "status": "proved",
   "theorems": [
    "Verif.Interp.C23_exact",
    "Verif.Interp.C23_cell",
    "Verif.Interp.C23_cell_bounds",
    "Verif.Interp.C23_outside",
    "Verif.Interp.C23_missing"
   ],
   "note": ""
  },
  {
   "property": "C24",
   "status": "proved",
   "theorems": [
    "Verif.Imputator.C24_impute",
    "Verif.Imputator.C24_statistics",
    "Verif.Imputator.C24_default",
    "Verif.Imputator.C24_fills",
    "Verif.Imputator.C24_raises"
   ],
   "note": "proved for chronologically ordered time stamps"
  },
  {
   "property": "C25",
   "status": "partial",
   "theorems": [
    "Verif.Imputator.C25_nothing_else",
    "Verif.Imputator.C25_filled_partial",
    "Verif.Imputator.C25_after_gap_false",
    "Verif.Imputator.C25_exactly"
   ],
   "note": "False after a too long gap (C25_after_gap_false); C25_exactly: a missing time stamp is filled exactly if all consecutive present ones up to its gap are close."
  },
  {
   "property": "C26",
   "status": "partial",
   "theorems": [
    "Verif.Imputator.C26_exactly",
    "Verif.Imputator.C26_rows",
    "Verif.Imputator.C26_statistics_false",
    "Verif.Imputator.C26_statistics_witness_false"
   ],
   "note": "rows proved; the reported number of removed rows is refuted C26_exactly: the reported number is right exactly if half of the rows are complete."
  },
  {
   "property": "C27",
   "status": "proved",
   "theorems": [
    "Verif.Smoother.C27_range",
    "Verif.Smoother.C27_constant",
    "Verif.Smoother.C27_table",
    "Verif.Smoother.C27_unsorted_accepted"
   ],
   "note": "proved for chronologically sorted data; C27_unsorted_accepted shows that unsorted data is accepted and can leave the range"
  },
  {
   "property": "C28",
   "status": "proved",
   "theorems": [
    "Verif.Injector.C28_inject",
    "Verif.Injector.C28_raises",
    "Verif.Injector.C28_append"
   ],
   "note": ""
  },
  {
   "property": "C29",
   "status": "proved",
   "theorems": [
    "Verif.Sampler.C29_sample",
    "Verif.Sampler.C29_terminates",
    "Verif.Sampler.C29_init"
   ],
   "note": "also: the loop ends whenever the random numbers hit the hull again and again"
  },
  {
   "property": "C30",
   "status": "proved",
   "theorems": [
    "Verif.Sampler.C30_rescale",
    "Verif.Sampler.C30_spiral_samples",
    "Verif.Sampler.C30_rescale_diverges",
    "Verif.Sampler.C30_enclosing",
    "Verif.Sampler.C30_small_circle",
    "Verif.Sampler.C30_small_circle_encloses"
   ],
   "note": "whenever the searches return; C30_rescale_diverges: the rescaling search need not return"
  },
  {
   "property": "C31",
   "status": "proved",
   "theorems": [
    "Verif.Table.C31_lookup",
    "Verif.Table.C31_missing",
    "Verif.Table.C31_raises",
    "Verif.Table.C31_zero"
   ],
   "note": ""
  },
  {
   "property": "C32",
   "status": "proved",
   "theorems": [
    "Verif.Table.C32_change",
    "Verif.Table.C32_raises_unchanged",
    "Verif.Table.C32_succeeds"
   ],
   "note": ""
  },
  {
   "property": "C33",
   "status": "proved",
   "theorems": [
    "Verif.Table.C33_symmetrize"
   ],
   "note": ""
  },
  {
   "property": "C34",
   "status": "proved",
   "theorems": [
    "Verif.Table.C34_round_trip",
    "Verif.Table.C34_blank_line"
   ],
   "note": "for all four formats, on the level of characters; printing and reading single numbers are parameters"
  },
  {
   "property": "C35",
   "status": "partial",
   "theorems": [
    "Verif.Table.C35_exactly",
    "Verif.Table.C35_short_partial",
    "Verif.Table.C35_long_columns",
    "Verif.Table.C35_long_false"
   ],
   "note": "proved for at most 15 wind speeds; refuted for wider tables (the last five columns show the wrong speeds) C35_exactly: all printed numbers are right exactly for at most 15 wind speeds or if columns 6 to 10 equal the last five."
  },
  {
   "property": "C36",
   "status": "proved",
   "theorems": [
    "Verif.Wind.C36_vector",
    "Verif.Wind.C36_round_trip",
    "Verif.Wind.C36_arrays",
    "Verif.Wind.C36_negative",
    "Verif.Wind.C36_cancel"
   ],
   "note": ""
  },
  {
   "property": "C37",
   "status": "partial",
   "theorems": [
    "Verif.Cloud.C37_exactly",
    "Verif.Interp.C37_default",
    "Verif.Cloud.C37_init",
    "Verif.Cloud.C37_lookup",
    "Verif.Cloud.C37_lookup_distinct",
    "Verif.Cloud.C37_periodic",
    "Verif.Cloud.C37_calm_false",
    "Verif.Cloud.C37_symmetrize"
   ],
   "note": "refuted for calm wind (ws = 0 is stored but cannot be looked up); proved for positive wind speeds C37_exactly: a stored point is found exactly if its wind speed is positive."
  },
  {
   "property": "C38",
   "status": "proved",
   "theorems": [
    "Verif.Diagram.C38_max",
    "Verif.Diagram.C38_defined",
    "Verif.Diagram.C38_names",
    "Verif.Diagram.C38_getitem",
    "Verif.Diagram.C38_labels"
   ],
   "note": ""
  },
  {
   "property": "C39",
   "status": "proved",
   "theorems": [
    "Verif.Diagram.C39_n_steps",
    "Verif.Diagram.C39_plain",
    "Verif.Diagram.C39_raises"
   ],
   "note": ""
  },
  {
   "property": "C40",
   "status": "proved",
   "theorems": [
    "Verif.Pipeline.C40_test_data",
    "Verif.Pipeline.C40_raises",
    "Verif.Pipeline.C40_fitted"
   ],
   "note": "components are arbitrary state transformers which may raise"
  },
  {
   "property": "C41",
   "status": "partial",
   "theorems": [
    "Verif.Pipeline.C41_pre_expanding_exactly",
    "Verif.Pipeline.C41_test",
    "Verif.Pipeline.C41_training_partial",
    "Verif.Pipeline.C41_per_input",
    "Verif.Pipeline.C41_pre_expanding_filter_false"
   ],
   "note": "proved for all fields except pre_expanding_filter of the training statistics, which is refuted C41_pre_expanding_exactly says what the wrong field contains."
  },
  {
   "property": "C42",
   "status": "partial",
   "theorems": [
    "Verif.Expander.C42_rows_exactly",
    "Verif.Expander.C42_count_partial",
    "Verif.Expander.C42_layout_partial",
    "Verif.Expander.C42_rows_false",
    "Verif.Expander.C42_row_weather_false",
    "Verif.Expander.C42_ignore_all_false"
   ],
   "note": "The property is false: update appends the weather below the measurements (C42_rows_false, C42_row_weather_false); in the mode ignore a model without any answer raises TypeError (C42_ignore_all_false). Proved instead: exactly 2 rows per remaining measurement (any row-preserving standard format), and the exact layout (measurements first, then the weather in the same order). The number of rows is right exactly if no measurement remains (C42_rows_exactly)."
  },
  {
   "property": "C43",
   "status": "partial",
   "theorems": [
    "Verif.Weather.C43_actual",
    "Verif.Weather.C43_exactly",
    "Verif.Weather.C43_outside",
    "Verif.Weather.C43_empty",
    "Verif.Weather.C43_interpolation_partial",
    "Verif.Weather.C43_reference",
    "Verif.Weather.C43_grid_point_false",
    "Verif.Weather.C43_grid_points_false"
   ],
   "note": "False on grid planes (C43_grid_point_false, C43_grid_points_false): C43_actual gives the result for all points (a coordinate that is a grid value is replaced by the first one of its grid), C43_exactly shows that the result is right for all data exactly if no coordinate is a later grid value. Outside of the grid the call raises (C43_outside)."
  },
  {
   "property": "C44",
   "status": "partial",
   "theorems": [
    "Verif.Cruising.C44_monotone_partial",
    "Verif.Cruising.C44_values",
    "Verif.Cruising.C44_calm_false",
    "Verif.Cruising.C44_exactly"
   ],
   "note": "False for boat speed 0, for which the time per distance 0 is used (C44_calm_false); C44_exactly: true exactly if the slower boat moves or both stand still."
  },
  {
   "property": "C45",
   "status": "partial",
   "theorems": [
    "Verif.Cruising.C45_budget",
    "Verif.Cruising.C45_terminates_partial",
    "Verif.Cruising.C45_zero_budget_diverges",
    "Verif.Cruising.C45_calm_diverges",
    "Verif.Cruising.C45_into_calm_diverges",
    "Verif.Cruising.C45_exactly",
    "Verif.Cruising.C45_distance"
   ],
   "note": "False for total_time = 0 and in dead calm, where the loop does not end (C45_zero_budget_diverges, C45_calm_diverges), and for boats getting into a calm (C45_into_calm_diverges). Termination proved for positive budgets and boat speeds bounded away from 0 and infinity; the accounting is proved whenever the loop ends. C45_exactly, C45_distance: with the same speed everywhere it ends exactly for positive budget and speed, with their product."
  },
  {
   "property": "C46",
   "status": "partial",
   "theorems": [
    "Verif.Cruising.C46_round_trip_partial",
    "Verif.Cruising.C46_inverse",
    "Verif.Cruising.C46_false",
    "Verif.Cruising.C46_actual",
    "Verif.Cruising.C46_exactly"
   ],
   "note": "False for longitudes of absolute value above 90 (C46_false); C46_exactly gives the exact condition, C46_actual the actual result for all longitudes."
  },
  {
   "property": "C47",
   "status": "proved",
   "theorems": [
    "Verif.Globe.C47_lat_lon",
    "Verif.Globe.C47_project",
    "Verif.Globe.C47_distance",
    "Verif.Globe.C47_triangle",
    "Verif.Globe.C47_path",
    "Verif.Globe.C47_shortest_path",
    "Verif.Globe.C47_same_place"
   ],
   "note": ""
  },
  {
   "property": "C48",
   "status": "partial",
   "theorems": [
    "Verif.Influence.C48_exactly",
    "Verif.Influence.C48_remove",
    "Verif.Influence.C48_add_partial",
    "Verif.Influence.C48_undone_partial",
    "Verif.Influence.C48_single_false",
    "Verif.Influence.C48_single_differs_false",
    "Verif.Influence.C48_remove_single_false",
    "Verif.Influence.C48_identity"
   ],
   "note": "False for single values, for which the shift is ignored when adding and IndexError is raised when removing (C48_single_false, C48_single_differs_false, C48_remove_single_false); proved for lists. C48_exactly: single values are right exactly if the correction makes no difference."
  },
  {
   "property": "C49",
   "status": "partial",
   "theorems": [
    "Verif.Plot.C49_exactly",
    "Verif.Plot.C49_mixed_false",
    "Verif.Plot.C49_segments_partial",
    "Verif.Plot.C49_false"
   ],
   "note": "False for slices with unsorted angles, whose points are sorted without their labels (C49_false); proved for sorted slices. C49_exactly says for which clouds the segments stay within one sail."
  },
  {
   "property": "C50",
   "status": "partial",
   "theorems": [
    "Verif.Nmea.C50_position",
    "Verif.Nmea.C50_hemisphere_false",
    "Verif.Nmea.C50_time_partial",
    "Verif.Nmea.C50_carry",
    "Verif.Nmea.C50_carry_succeeds",
    "Verif.Nmea.C50_fraction_false",
    "Verif.Nmea.C50_no_fraction_false",
    "Verif.Nmea.C50_entries",
    "Verif.Nmea.C50_short",
    "Verif.Nmea.C50_exactly"
   ],
   "note": "False for the hemisphere, for fractions with less than six digits and for times without fraction (C50_hemisphere_false, C50_fraction_false, C50_no_fraction_false); C50_exactly: fractions are right exactly with six digits or zeros only. Degrees, minutes and carrying are proved for all values."
  },
  {
   "property": "C51",
   "status": "partial",
   "theorems": [
    "Verif.Data.C51_rows_exactly",
    "Verif.Data.C51_merged",
    "Verif.Data.C51_datetime_partial",
    "Verif.Data.C51_existing_datetime_false",
    "Verif.Data.C51_cast",
    "Verif.Data.C51_floats"
   ],
   "note": "date/time columns are merged when no datetime column exists; refuted for data having one already Exactly: the number of rows is kept iff there is no datetime column yet, otherwise it doubles (C51_rows_exactly)."
  },
  {
   "property": "C52",
   "status": "partial",
   "theorems": [
    "Verif.Table.C52_default_exactly",
    "Verif.Table.C52_on_grid",
    "Verif.Table.C52_off_grid",
    "Verif.Table.C52_default_in_range",
    "Verif.Table.C52_periodic_partial",
    "Verif.Table.C52_periodic_false"
   ],
   "note": "proved on the grid and for the range; periodicity refuted off the grid C52_default_exactly gives the exact condition for the default."
  },
  {
   "property": "C53",
   "status": "partial",
   "theorems": [
    "Verif.Cloud.C53_exactly",
    "Verif.Cloud.C53_round_trip",
    "Verif.Cloud.C53_empty_false"
   ],
   "note": "proved for all non-empty clouds; refuted for the empty cloud C53_exactly."
  },
  {
   "property": "C54",
   "status": "proved",
   "theorems": [
    "Verif.Cloud.C54_add_points",
    "Verif.Cloud.C54_lookup"
   ],
   "note": ""
  },
  {
   "property": "C55",
   "status": "proved",
   "theorems": [
    "Verif.Cloud.C55_slices",
    "Verif.Cloud.C55_winds"
   ],
   "note": ""
  },
  {
   "property": "C56",
   "status": "partial",
   "theorems": [
    "Verif.Diagram.C56_overwritten",
    "Verif.Diagram.C56_stem_exactly",
    "Verif.Diagram.C56_round_trip",
    "Verif.Diagram.C56_other_files_partial",
    "Verif.Diagram.C56_overwritten_false"
   ],
   "note": "round trip proved; independence refuted for paths that agree before their first dot, proved for others C56_stem_exactly says when the first diagram survives another one written to a path with the same stem; C56_overwritten describes what is left otherwise."
  },
  {
   "property": "C57",
   "status": "proved",
   "theorems": [
    "Verif.Diagram.C57_rows",
    "Verif.Diagram.C57_columns",
    "Verif.Diagram.C57_tuple",
    "Verif.Diagram.C57_raises"
   ],
   "note": ""
  },
  {
   "property": "C58",
   "status": "partial",
   "theorems": [
    "Verif.Table.C58_exactly",
    "Verif.Table.C58_slices",
    "Verif.Table.C58_defined_partial",
    "Verif.Table.C58_zero_table_false",
    "Verif.Table.C58_between"
   ],
   "note": "values proved for all tables; existence refuted for tables made without boat speeds C58_exactly: slices exist exactly for tables made with boat speeds."
  },
  {
   "property": "C59",
   "status": "partial",
   "theorems": [
    "Verif.Curve.C59_degrees",
    "Verif.Curve.C59_radians",
    "Verif.Curve.C59_symmetric_partial",
    "Verif.Curve.C59_mean_partial",
    "Verif.Curve.C59_symmetric_radians_false",
    "Verif.Curve.C59_slice_partial",
    "Verif.Curve.C59_slice_radians_false",
    "Verif.Curve.C59_radians_exactly"
   ],
   "note": "symmetry and slices refuted for functions of radians, proved for degrees C59_radians_exactly gives the exact condition for symmetry with radians."
  },
  {
   "property": "C60",
   "status": "partial",
   "theorems": [
    "Verif.Curve.C60_round_trip_partial",
    "Verif.Curve.C60_unknown_false",
    "Verif.Curve.C60_exactly"
   ],
   "note": "C60_exactly: the round trip works exactly for the model functions with enough parameters; false for other functions, e.g. for symmetrised curves (C60_unknown_false)."
  },
  {
   "property": "C61",
   "status": "partial",
   "theorems": [
    "Verif.Curve.C61_formulas_partial",
    "Verif.Curve.C61_gauss_false",
    "Verif.Curve.C61_gauss_partial",
    "Verif.Curve.C61_square_zero",
    "Verif.Curve.C61_gauss_exactly"
   ],
   "note": "proved for five functions; refuted for ws_s_wa_gauss Exactly: eleven parameters are needed (C61_gauss_exactly). The formulas with gaussians are claimed for widths other than 0 only (division by zero gives nan or 0, see C118_gaussian_zero)."
  },
  {
   "property": "C62",
   "status": "partial",
   "theorems": [
    "Verif.Wind.C62_unchanged_partial",
    "Verif.Wind.C62_changed_false",
    "Verif.Wind.C62_exactly"
   ],
   "note": "refuted for arrays with angles outside of [0, 360), proved for others"
  },
  {
   "property": "C63",
   "status": "partial",
   "theorems": [
    "Verif.Pipeline.C63_single_partial",
    "Verif.Pipeline.C63_list_false",
    "Verif.Pipeline.C63_no_input",
    "Verif.Pipeline.C63_nothing_left"
   ],
   "note": "proved for a single handler; refuted for a list of handlers (TypeError)"
  },
  {
   "property": "C64",
   "status": "partial",
   "theorems": [
    "Verif.Weather.C64_exactly",
    "Verif.Weather.C64_last_wins",
    "Verif.Weather.C64_ignore_partial",
    "Verif.Weather.C64_sensitive",
    "Verif.Weather.C64_not_implemented_false"
   ],
   "note": "NotImplementedError is not caught (C64_not_implemented_false), everything else is proved. C64_exactly: there is an answer exactly if only the three exceptions occur."
  },
  {
   "property": "C65",
   "status": "proved",
   "theorems": [
    "Verif.Weather.C65_coordinate",
    "Verif.Weather.C65_ascending",
    "Verif.Weather.C65_entries",
    "Verif.Weather.C65_fails_iff"
   ],
   "note": ""
  },
  {
   "property": "C66",
   "status": "partial",
   "theorems": [
    "Verif.Weather.C66_exactly",
    "Verif.Weather.C66_round_trip_partial",
    "Verif.Weather.C66_fraction_false"
   ],
   "note": "Proved for times the format can express and false for fractions of a second; for the actual format see C166_weather_file_exactly: the model is restored exactly if no time has a fraction of a second. C66_exactly gives the exact condition."
  },
  {
   "property": "C67",
   "status": "partial",
   "theorems": [
    "Verif.Globe.C67_round_trip_partial",
    "Verif.Globe.C67_default",
    "Verif.Globe.C67_default_round_trip",
    "Verif.Globe.C67_false",
    "Verif.Globe.C67_distance",
    "Verif.Globe.C67_everywhere_exactly",
    "Verif.Globe.C67_poles_exactly",
    "Verif.Globe.C67_nan_false",
    "Verif.Globe.C67_exactly"
   ],
   "note": "C67_exactly: places are recovered exactly if the virtual zero point is on the virtual equator (e.g. for the default arguments); false otherwise (C67_false). Places without a projection are explicit (nan where the height exceeds 1, infinite at the virtual poles): the distance is a metric on the places with a projection (C67_distance), all places have one iff the squares of the heights of the rotated axes sum to less than 1 (C67_everywhere_exactly), with the virtual zero point on the virtual equator exactly the two virtual poles have none (C67_poles_exactly), and with the virtual zero point moved to 60N the place 60N 0E has distance nan to itself (C67_nan_false)."
  },
  {
   "property": "C68",
   "status": "partial",
   "theorems": [
    "Verif.Influence.C68_gap_exactly",
    "Verif.Influence.C68_density_partial",
    "Verif.Influence.C68_lowest_partial",
    "Verif.Influence.C68_circle_false"
   ],
   "note": "False for the distance on the circle (C68_circle_false); proved for the distance abs(a - b) % 360 used by the code. C68_gap_exactly gives the exact condition for a gap."
  },
  {
   "property": "C69",
   "status": "partial",
   "theorems": [
    "Verif.Plot.C69_coefficients_partial",
    "Verif.Plot.C69_colors",
    "Verif.Plot.C69_equal_false",
    "Verif.Plot.C69_exactly"
   ],
   "note": "C69_exactly: the coefficients are numbers exactly if two values differ; false for lists of equal values (C69_equal_false)."
  },
  {
   "property": "C70",
   "status": "partial",
   "theorems": [
    "Verif.Nmea.C70_speed_exactly",
    "Verif.Nmea.C70_angle_exactly",
    "Verif.Nmea.C70_reference_partial",
    "Verif.Nmea.C70_wanted_false"
   ],
   "note": "False if only wind speed or only wind angle is wanted (C70_wanted_false); proved for sentences with all three fields. C70_speed_exactly and C70_angle_exactly give the exact conditions."
  },
  {
   "property": "C71",
   "status": "partial",
   "theorems": [
    "Verif.Convex.C71_two_partial",
    "Verif.Convex.C71_single_partial",
    "Verif.Convex.C71_exists",
    "Verif.Convex.C71_single_false",
    "Verif.Convex.C71_opposite_false",
    "Verif.Convex.C71_single_exactly"
   ],
   "note": "Existence proved if the origin is in the interior of the hull; proved for two directions (optimality against all mixes); refuted for a single direction that is not the requested one (C71_single_false) and for diagrams that do not go around (C71_opposite_false). ConvexHull is a parameter with the contract IsHull. C71_single_exactly gives the exact condition for a single value."
  },
  {
   "property": "C72",
   "status": "partial",
   "theorems": [
    "Verif.Convex.C72_length_partial",
    "Verif.Convex.C72_single",
    "Verif.Convex.C72_repeated_false",
    "Verif.Convex.C72_short_false",
    "Verif.Convex.C72_exactly"
   ],
   "note": "False whenever two courses are mixed: the boat ends short of the destination (C72_short_false), and a recommended angle that occurs twice raises TypeError (C72_repeated_false); proved for a single course. C72_exactly: the destination is reached exactly if only one of the courses is sailed."
  },
  {
   "property": "C73",
   "status": "partial",
   "theorems": [
    "Verif.Course.C73_wa_hdt",
    "Verif.Course.C73_wan",
    "Verif.Course.C73_unsupported",
    "Verif.Course.C73_components_partial",
    "Verif.Course.C73_range_false",
    "Verif.Course.C73_north_false",
    "Verif.Course.C73_weather",
    "Verif.Course.C73_degrees_false",
    "Verif.Course.C73_exactly"
   ],
   "note": "False for wind given by components, which is measured from east and may be negative (C73_range_false, C73_north_false), and for the heading, which uses degrees as radians (C73_degrees_false); proved for the other formats. C73_exactly: components give an angle from 0 to 360 exactly if v >= 0, and one from north exactly if u = v."
  },
  {
   "property": "C74",
   "status": "partial",
   "theorems": [
    "Verif.Course.C74_symmetric",
    "Verif.Course.C74_same_place_false",
    "Verif.Course.C74_equator_false",
    "Verif.Course.C74_meridian_false",
    "Verif.Course.C74_course_partial",
    "Verif.Course.C74_course_false",
    "Verif.Course.C74_west_false",
    "Verif.Course.C74_near_nan_false",
    "Verif.Course.C74_near_east_false",
    "Verif.Course.C74_course_exactly"
   ],
   "note": "False: nan for the same place, distance too short by pi/180, courses off the equator and to the west wrong (C74_same_place_false, C74_equator_false, C74_course_false, C74_west_false); the course to destinations nearby is nan between the equator and 45 degrees north (C74_near_nan_false) and nearly east for all other starts, in whatever direction they are (C74_near_east_false). Proved: symmetry, and the course from the equator to the east. C74_course_exactly: the course is right exactly if the destination is not to the west and the start is on the equator, the destination is at 45 degrees north, or in two further cases."
  },
  {
   "property": "C75",
   "status": "partial",
   "theorems": [
    "Verif.Course.C75_length_partial",
    "Verif.Course.C75_north_false",
    "Verif.Course.C75_east_false",
    "Verif.Course.C75_exchanged",
    "Verif.Course.C75_exactly"
   ],
   "note": "False: north and east are exchanged (C75_exchanged for all directions); C75_exactly: the direction is right exactly for 45 + 180 k degrees. The length is proved."
  },
  {
   "property": "C76",
   "status": "partial",
   "theorems": [
    "Verif.Course.C76_absolute",
    "Verif.Course.C76_constant",
    "Verif.Course.C76_monotone",
    "Verif.Course.C76_ends",
    "Verif.Course.C76_way",
    "Verif.Course.C76_same_place_false",
    "Verif.Course.C76_exactly"
   ],
   "note": "False if the start is the destination (C76_same_place_false); proved otherwise. The solver of the initial value problem is a parameter. C76_exactly: positions exist exactly if the projections of start and end differ."
  },
  {
   "property": "C77",
   "status": "proved",
   "theorems": [
    "Verif.Pipeline.C77_flow",
    "Verif.Pipeline.C77_test"
   ],
   "note": "components are arbitrary; proved for components that compute functions of their input and the state"
  },
  {
   "property": "C78",
   "status": "partial",
   "theorems": [
    "Verif.Weigher.C78_sum_partial",
    "Verif.Weigher.C78_exactly",
    "Verif.Weigher.C78_bounds",
    "Verif.Weigher.C78_quantiles",
    "Verif.Weigher.C78_cover_partial",
    "Verif.Weigher.C78_sum_false",
    "Verif.Weigher.C78_equal_false",
    "Verif.Weigher.C78_empty"
   ],
   "note": "False: weights between two tenths are counted twice, so percentages may add up to more than 100, up to 1000 for equal weights (C78_sum_false, C78_equal_false); proved: each entry, bounds of average, and that the sum is at least 100 up to rounding. C78_sum_partial: up to rounding the sum is 100 plus the percentage of weights on inner borders; C78_exactly: it is 100 exactly if there are none (less than 1000 weights)."
  },
  {
   "property": "C79",
   "status": "partial",
   "theorems": [
    "Verif.Weigher.C79_columns_exactly",
    "Verif.Weigher.C79_dimensions_false",
    "Verif.Weigher.C79_columns_false",
    "Verif.Weigher.C79_scaled_norm",
    "Verif.Weigher.C79_two_dimensions_false",
    "Verif.Weigher.C79_history_false",
    "Verif.Weigher.C79_weights_partial",
    "Verif.Weigher.C79_history_partial"
   ],
   "note": "False for the default norm with other than two (or three) columns, for the default norm with two dimensions, which scales one component by both factors, and for a weigher used twice (C79_dimensions_false, C79_columns_false, C79_two_dimensions_false, C79_history_false); proved for norms given by the user and for data with the same columns. C79_columns_exactly gives the exact condition on the columns."
  },
  {
   "property": "C80",
   "status": "partial",
   "theorems": [
    "Verif.Weigher.C80_any_order",
    "Verif.Weigher.C80_order_exactly",
    "Verif.Weigher.C80_weights_partial",
    "Verif.Weigher.C80_range",
    "Verif.Weigher.C80_missing_bound",
    "Verif.Weigher.C80_order_false",
    "Verif.Weigher.C80_unsorted_false",
    "Verif.Weigher.C80_zero_bound_false"
   ],
   "note": "False for attributes named in another order than in the data, for unsorted times and for the bound 0 (C80_order_false, C80_unsorted_false, C80_zero_bound_false); proved for sorted times and attributes in the order of the data; the range is proved in general. For any order the bounds are used in the order of the data (C80_any_order), which is right for different bounds iff the attributes are in the order of the data (C80_order_exactly)."
  },
  {
   "property": "C81",
   "status": "partial",
   "theorems": [
    "Verif.Ext.C81_exactly",
    "Verif.Ext.C81_min_max",
    "Verif.Ext.C81_near",
    "Verif.Ext.C81_max_false",
    "Verif.Ext.C81_auto_partial",
    "Verif.Ext.C81_auto",
    "Verif.Ext.C81_equal_false",
    "Verif.Ext.C81_multiple_false"
   ],
   "note": "False: the rounded maximum is missing if its parity differs from that of the minimum (C81_max_false); auto repeats values (C81_equal_false, C81_multiple_false). Proved: the exact contents of both resolutions. C81_exactly: the rounded maximum is included exactly for an even difference."
  },
  {
   "property": "C82",
   "status": "partial",
   "theorems": [
    "Verif.Ext.C82_radians_exactly",
    "Verif.Ext.C82_table",
    "Verif.Ext.C82_min_max",
    "Verif.Ext.C82_given",
    "Verif.Ext.C82_auto_false",
    "Verif.Ext.C82_cloud",
    "Verif.Ext.C82_curve",
    "Verif.Ext.C82_radians_false"
   ],
   "note": "False for auto, whose tables may repeat winds (C82_auto_false), and for a second use of data with radians (C82_radians_false). Proved for resolutions without repetitions, in particular min_max, and for clouds; neighbourhoods, interpolators and samplers are parameters. C82_radians_exactly gives the exact condition."
  },
  {
   "property": "C83",
   "status": "partial",
   "theorems": [
    "Verif.Quality.C83_local_exactly",
    "Verif.Quality.C83_minimal",
    "Verif.Quality.C83_order",
    "Verif.Quality.C83_empty",
    "Verif.Quality.C83_comforming",
    "Verif.Quality.C83_zero_partial",
    "Verif.Quality.C83_zero_false",
    "Verif.Quality.C83_cloud_false",
    "Verif.Quality.C83_covering_partial",
    "Verif.Quality.C83_local_false"
   ],
   "note": "False for point clouds (C83_cloud_false), for zero values between the samples (C83_zero_false) and for the local difference, which is an average (C83_local_false). Proved otherwise; np.mean of no values is nan. C83_local_exactly gives the exact condition."
  },
  {
   "property": "C84",
   "status": "partial",
   "theorems": [
    "Verif.C84_exactly",
    "Verif.C84_table_partial",
    "Verif.C84_table_false",
    "Verif.C84_cloud",
    "Verif.C84_add_points_false"
   ],
   "note": "False for arrays with angles outside of [0, 360) (C84_table_false, C84_add_points_false); proved for angles in [0, 360) and for the creation of point clouds. C84_exactly: unchanged exactly for angles in [0, 360)."
  },
  {
   "property": "C85",
   "status": "partial",
   "theorems": [
    "Verif.C85_exactly",
    "Verif.C85_step",
    "Verif.C85_invalid",
    "Verif.C85_default_false",
    "Verif.C85_empty_false"
   ],
   "note": "False: steps 2 and 5 do not give the default resolutions and the largest step sizes give empty tables (C85_default_false, C85_empty_false); the multiples and the exceptions are proved. C85_exactly: tables are nonempty exactly for step sizes below 40 (360)."
  },
  {
   "property": "C86",
   "status": "partial",
   "theorems": [
    "Verif.Shepard.C86_constant_exactly",
    "Verif.Shepard.C86_init",
    "Verif.Shepard.C86_exact",
    "Verif.Shepard.C86_empty",
    "Verif.Shepard.C86_tolerance",
    "Verif.Shepard.C86_constant_false",
    "Verif.Shepard.C86_isolated_false",
    "Verif.Shepard.C86_ball",
    "Verif.Shepard.C86_planar_false",
    "Verif.Shepard.C86_shift",
    "Verif.Shepard.C86_swap_false",
    "Verif.Shepard.C86_translate_false",
    "Verif.Shepard.C86_scale_false"
   ],
   "note": "False: constant data gives nan (C86_constant_false), one isolated data point gives nan everywhere (C86_isolated_false), planar neighbourhoods raise ValueError (C86_planar_false), and the result is neither symmetric nor translation invariant nor homogeneous (C86_swap_false, C86_translate_false, C86_scale_false). Proved: exactness, tolerance, shift. C86_constant_exactly: constant data is reproduced exactly at the data points and within the tolerance of one."
  },
  {
   "property": "C87",
   "status": "partial",
   "theorems": [
    "Verif.Sampler.C87_fibonacci",
    "Verif.Sampler.C87_archimedean",
    "Verif.Sampler.C87_fibonacci_radii",
    "Verif.Sampler.C87_archimedean_growth",
    "Verif.Sampler.C87_bounds",
    "Verif.Sampler.C87_columns_false",
    "Verif.Sampler.C87_pointcloud_false",
    "Verif.Sampler.C87_close_diverges",
    "Verif.Sampler.C87_two_points_false"
   ],
   "note": "False for arrays with boat speeds, so in particular in PointcloudExtension (C87_columns_false, C87_pointcloud_false), for points that are very close (C87_close_diverges) and for two points (C87_two_points_false). Proved otherwise, whenever the samplers return; ConvexHull is a parameter with the contract IsHull."
  },
  {
   "property": "C88",
   "status": "partial",
   "theorems": [
    "Verif.Handler.C88_array_partial",
    "Verif.Handler.C88_array_keys",
    "Verif.Handler.C88_array_repeated_false",
    "Verif.Handler.C88_csv_long",
    "Verif.Handler.C88_csv_partial",
    "Verif.Handler.C88_csv_short_false",
    "Verif.Handler.C88_csv_repeated_false",
    "Verif.Handler.C88_csv_empty_false",
    "Verif.Handler.C88_entry",
    "Verif.Handler.C88_strip",
    "Verif.Handler.C88_no_lines",
    "Verif.Handler.C88_word_false",
    "Verif.Handler.C88_mixed_false",
    "Verif.Handler.C88_array_exactly"
   ],
   "note": "False for repeated names (C88_array_repeated_false, C88_csv_repeated_false), rows that are too short (C88_csv_short_false), empty entries without pandas (C88_csv_empty_false), words (C88_word_false) and missing dates with pandas (C88_mixed_false). Proved for rectangular files without repeated names. C88_array_exactly: every column of the array has its own column in the data iff no name is repeated."
  },
  {
   "property": "C89",
   "status": "partial",
   "theorems": [
    "Verif.Handler.C89_measured",
    "Verif.Handler.C89_unreadable",
    "Verif.Handler.C89_wanted_partial",
    "Verif.Handler.C89_unwanted_partial",
    "Verif.Handler.C89_default",
    "Verif.Handler.C89_wanted_false",
    "Verif.Handler.C89_unwanted_false",
    "Verif.Handler.C89_attributes",
    "Verif.Handler.C89_fields",
    "Verif.Handler.C89_iterator_false",
    "Verif.Handler.C89_sentences_exactly",
    "Verif.Handler.C89_type_exactly",
    "Verif.Nmea.C89_parsed"
   ],
   "note": "False: the names of the sentences are searched anywhere in the line (C89_wanted_false, C89_unwanted_false), and iterators are exhausted (C89_iterator_false). Proved: completeness and order of the values, bound on the rows, attribute filters, and that all wanted sentences pass. A sentence is read exactly if a wanted name occurs in it (C89_sentences_exactly); these are the sentences of the wanted types for all lines only if nothing is wanted (C89_type_exactly)."
  },
  {
   "property": "C90",
   "status": "partial",
   "theorems": [
    "Verif.Slices.C90_cover_exactly",
    "Verif.Slices.C90_forms_partial",
    "Verif.Slices.C90_iterable_false",
    "Verif.Slices.C90_numpy_false",
    "Verif.Slices.C90_default_cloud",
    "Verif.Slices.C90_default_curve",
    "Verif.Slices.C90_default_sails",
    "Verif.Slices.C90_cover_partial",
    "Verif.Slices.C90_cover_false",
    "Verif.Slices.C90_table_points",
    "Verif.Slices.C90_curve_points",
    "Verif.Slices.C90_sails_points_partial",
    "Verif.Slices.C90_sails_points_false",
    "Verif.Slices.C90_interpolator_false"
   ],
   "note": "False for iterators, sets and numbers of numpy (C90_iterable_false, C90_numpy_false), for slices of point clouds with an interpolator (C90_interpolator_false), for clouds whose wind speeds differ by more than 38 (C90_cover_false) and for default points of several sails (C90_sails_points_false). Proved otherwise. Exactly: all points of all clouds with a given span of wind speeds are in default slices iff the span is at most 38 times the range (C90_cover_exactly)."
  },
  {
   "property": "C91",
   "status": "partial",
   "theorems": [
    "Verif.Plot.C91_rgb_exactly",
    "Verif.Plot.C91_name",
    "Verif.Plot.C91_rgb_partial",
    "Verif.Plot.C91_rgb_values_partial",
    "Verif.Plot.C91_no_color",
    "Verif.Plot.C91_two_numbers",
    "Verif.Plot.C91_rgb_false",
    "Verif.Plot.C91_turn",
    "Verif.Plot.C91_gradient",
    "Verif.Plot.C91_order_false",
    "Verif.Plot.C91_pairs",
    "Verif.Plot.C91_pairs_missing"
   ],
   "note": "False for colours given by values of type float (C91_rgb_false) and for wind speeds in decreasing order (C91_order_false). Proved otherwise; is_color_like is a parameter. Exactly: a tuple is used iff its first value is an int (C91_rgb_exactly)."
  },
  {
   "property": "C92",
   "status": "partial",
   "theorems": [
    "Verif.Plot.C92_exactly",
    "Verif.Plot.C92_bar",
    "Verif.Plot.C92_entries_partial",
    "Verif.Plot.C92_few_false",
    "Verif.Plot.C92_pairs_false",
    "Verif.Plot.C92_name_false",
    "Verif.Plot.C92_rgb_false"
   ],
   "note": "False for too few colours (C92_few_false), pairs (C92_pairs_false), the name of a colour (C92_name_false) and a tuple of values (C92_rgb_false). Proved for the colour bar and if there is a colour for each slice. For lists of names other than two the legend is complete exactly if there are at least as many colours as slices (C92_exactly)."
  },
  {
   "property": "C93",
   "status": "partial",
   "theorems": [
    "Verif.Plot.C93_last_exactly",
    "Verif.Plot.C93_first_exactly",
    "Verif.Plot.C93_points",
    "Verif.Plot.C93_drawn",
    "Verif.Plot.C93_mask_partial",
    "Verif.Plot.C93_narrow_false",
    "Verif.Plot.C93_north_false"
   ],
   "note": "False: the difference of the second and third wind speed and the position of the third vertex are ignored, so the result depends on the order (C93_narrow_false, C93_north_false). Proved: coordinates, and the cases that do not depend on these. C93_first_exactly and C93_last_exactly say exactly when the order of the vertices matters."
  },
  {
   "property": "C94",
   "status": "partial",
   "theorems": [
    "Verif.Plot.C94_vertices",
    "Verif.Plot.C94_no_hull",
    "Verif.Plot.C94_sorted",
    "Verif.Plot.C94_closed_partial",
    "Verif.Plot.C94_crossing",
    "Verif.Plot.C94_closing_partial",
    "Verif.Plot.C94_outside_false",
    "Verif.Plot.C94_order_false"
   ],
   "note": "False: the weights of the first and last vertex are exchanged, so the added point is on the edge only for symmetric slices (C94_closing_partial, an equivalence) and may be outside of the hull (C94_outside_false); for slices over less than 180 degrees the order is not that of the boundary (C94_order_false). Proved: vertices, order by angle, closedness. ConvexHull is a parameter."
  },
  {
   "property": "C95",
   "status": "partial",
   "theorems": [
    "Verif.Heap.C95_programs_partial",
    "Verif.Heap.C95_others_partial",
    "Verif.Heap.C95_lists_partial",
    "Verif.Heap.C95_slice_false",
    "Verif.Heap.C95_extend_false",
    "Verif.Heap.C95_caller_false",
    "Verif.Heap.C95_self_false"
   ],
   "note": "False for get_slice (C95_slice_false), for extend with a new key (C95_extend_false, C95_caller_false) and for tables updated with themselves (C95_self_false). Proved for all other programs by a refinement of a heap by values."
  },
  {
   "property": "C96",
   "status": "partial",
   "theorems": [
    "Verif.Rows.C96_lists",
    "Verif.Rows.C96_default",
    "Verif.Rows.C96_missing",
    "Verif.Rows.C96_dicts",
    "Verif.Rows.C96_iterator_false",
    "Verif.Rows.C96_tuples_partial",
    "Verif.Rows.C96_tuples_false",
    "Verif.Rows.C96_reread_false",
    "Verif.Rows.C96_iterator_exactly",
    "Verif.Rows.C96_tuples_exactly",
    "Verif.Rows.C96_read_exactly"
   ],
   "note": "False for return_type=tuple unless each row is read at once (C96_tuples_false, C96_reread_false) and for iterators of keys (C96_iterator_false). Proved otherwise. Exact conditions: C96_iterator_exactly, C96_tuples_exactly and, for any program reading tuples, C96_read_exactly."
  },
  {
   "property": "C97",
   "status": "partial",
   "theorems": [
    "Verif.Rows.C97_column",
    "Verif.Rows.C97_row",
    "Verif.Rows.C97_no_row",
    "Verif.Rows.C97_mask",
    "Verif.Rows.C97_columns_partial",
    "Verif.Rows.C97_mixed",
    "Verif.Rows.C97_numpy_strings_false",
    "Verif.Rows.C97_numpy_integer_false",
    "Verif.Rows.C97_iterator_false",
    "Verif.Rows.C97_boolean",
    "Verif.Rows.C97_strings_exactly"
   ],
   "note": "False for arrays of strings (C97_numpy_strings_false), integers of numpy (C97_numpy_integer_false) and iterators (C97_iterator_false). Proved otherwise. Exactly the type of the first string decides (C97_strings_exactly)."
  },
  {
   "property": "C98",
   "status": "partial",
   "theorems": [
    "Verif.Regr.C98_exactly",
    "Verif.Regr.C98_terminates_exactly",
    "Verif.Regr.C98_star_partial",
    "Verif.Regr.C98_named_false",
    "Verif.Regr.C98_error_diverges",
    "Verif.Regr.C98_signature_diverges",
    "Verif.Regr.C98_other",
    "Verif.Regr.C98_given"
   ],
   "note": "False for functions with named parameters (C98_named_false: fitting always raises TypeError); the constructor never returns for functions that always raise TypeError or IndexError (C98_error_diverges, C98_signature_diverges). Proved for *params and given initial values. curve_fit is a parameter. The chosen number is exactly the least one without IndexError and TypeError (C98_exactly), and the constructor returns exactly if there is one (C98_terminates_exactly)."
  },
  {
   "property": "C99",
   "status": "partial",
   "theorems": [
    "Verif.Regr.C99_arrays_exactly",
    "Verif.Regr.C99_failed",
    "Verif.Regr.C99_refit",
    "Verif.Regr.C99_data",
    "Verif.Regr.C99_shape_partial",
    "Verif.Regr.C99_columns_false",
    "Verif.Regr.C99_lists_false"
   ],
   "note": "False for lists (C99_lists_false) and, with LeastSquareRegressor, for arrays with further columns (C99_columns_false). Proved otherwise; curve_fit and ODR are parameters. C99_arrays_exactly says exactly which arrays can be used."
  },
  {
   "property": "C100",
   "status": "partial",
   "theorems": [
    "Verif.Fuzzy.C100_clear_partial",
    "Verif.Fuzzy.C100_exactly",
    "Verif.Fuzzy.C100_unique_partial",
    "Verif.Fuzzy.C100_structure",
    "Verif.Fuzzy.C100_elementary",
    "Verif.Fuzzy.C100_item_false",
    "Verif.Fuzzy.C100_sharpness_false"
   ],
   "note": "False with subscripts of statements (C100_item_false) and for different sharpness (C100_sharpness_false). Proved by unique readability for all statements without subscripts whose keys and numbers contain no blanks, brackets and commas. C100_exactly: two statements have the same representation iff they are the same up to sharpness after moving subscripts of conjunctions to second parts represented without blanks; C100_clear_partial: subscripts of other statements are unambiguous."
  },
  {
   "property": "C101",
   "status": "partial",
   "theorems": [
    "Verif.Fuzzy.C101_exactly",
    "Verif.Fuzzy.C101_number",
    "Verif.Fuzzy.C101_array_partial",
    "Verif.Fuzzy.C101_and_false",
    "Verif.Fuzzy.C101_nested_false",
    "Verif.Fuzzy.C101_weights",
    "Verif.Fuzzy.C101_range"
   ],
   "note": "False for &, | and == (C101_and_false: only the first entry counts; C101_nested_false: ValueError). Proved for all others, for numbers, and for the weights. Exactly the statements without &, | and == give the truth values of the entries (C101_exactly)."
  },
  {
   "property": "C102",
   "status": "partial",
   "theorems": [
    "Verif.InflData.C102_array_exactly",
    "Verif.InflData.C102_true_partial",
    "Verif.InflData.C102_apparent",
    "Verif.InflData.C102_lengths",
    "Verif.InflData.C102_missing",
    "Verif.InflData.C102_array_false",
    "Verif.InflData.C102_single_false"
   ],
   "note": "False for arrays (C102_array_false: the result is transposed, silently so for three measurements) and for single values (C102_single_false). Proved for lists and for apparent wind; the conversion is a parameter (C36). For arrays the rows are right exactly if there are three measurements forming a symmetric array (C102_array_exactly)."
  },
  {
   "property": "C103",
   "status": "partial",
   "theorems": [
    "Verif.InflData.C103_identity_exactly",
    "Verif.InflData.C103_speeds_partial",
    "Verif.InflData.C103_identity_scalars",
    "Verif.InflData.C103_identity_false",
    "Verif.InflData.C103_changed_false",
    "Verif.InflData.C103_none_false",
    "Verif.InflData.C103_directions_false"
   ],
   "note": "False for curves with the IdentityInfluenceModel (C103_identity_false: the boat speed at 0 degrees is used for all directions), for the dictionary of the caller (C103_changed_false), without data (C103_none_false), and the directions ignore the influence (C103_directions_false). Partial: the boat speed of the right angle is used if there is one per angle. Exactly: the speed is right iff it equals that at the first angle (C103_identity_exactly)."
  },
  {
   "property": "C104",
   "status": "partial",
   "theorems": [
    "Verif.Globe.C104_equator_exactly",
    "Verif.Globe.C104_shortest",
    "Verif.Globe.C104_path_partial",
    "Verif.Globe.C104_date_line_false",
    "Verif.Globe.C104_pole_false"
   ],
   "note": "False across the 180th meridian (C104_date_line_false) and for virtual north poles (C104_pole_false: the matrix is used instead of its inverse). Proved for the default map: number, ends, straight line, equal steps, and that no way is shorter. Exactly, on the equator: iff the longitudes differ by at most 180 degrees (C104_equator_exactly). C104_shortest is stated for ways and ends whose distances are numbers (not nan or infinite)."
  },
  {
   "property": "C105",
   "status": "partial",
   "theorems": [
    "Verif.Names.C105_name_exactly",
    "Verif.Names.C105_components",
    "Verif.Names.C105_flags",
    "Verif.Names.C105_kept",
    "Verif.Names.C105_unknown_false",
    "Verif.Names.C105_both_false"
   ],
   "note": "False for unknown names, which are ignored (C105_unknown_false), and if a name and its alias are given (C105_both_false). Values, defaults, independence of earlier calls and preservation of components are proved. C105_name_exactly: a component given by its name is used iff all aliases given too carry the same value."
  },
  {
   "property": "C106",
   "status": "partial",
   "theorems": [
    "Verif.CurveExt.C106_degrees_partial",
    "Verif.CurveExt.C106_radians_partial",
    "Verif.CurveExt.C106_invalid",
    "Verif.CurveExt.C106_full_false",
    "Verif.CurveExt.C106_points_false",
    "Verif.CurveExt.C106_quality_false",
    "Verif.CurveExt.C106_points_exactly",
    "Verif.CurveExt.C106_full_exactly"
   ],
   "note": "False at 360 degrees (C106_full_false), for the caller's data with radians (C106_points_false) and for quality assurance of curves in radians (C106_quality_false). Proved for angles from 0 to 360 degrees. C106_points_exactly and C106_full_exactly give the exact conditions."
  },
  {
   "property": "C107",
   "status": "partial",
   "theorems": [
    "Verif.Norms.C107_scaled_exactly",
    "Verif.Norms.C107_euclid",
    "Verif.Norms.C107_rows",
    "Verif.Norms.C107_scaled",
    "Verif.Norms.C107_default",
    "Verif.Norms.C107_winds",
    "Verif.Norms.C107_width_false",
    "Verif.Norms.C107_zero_false",
    "Verif.Norms.C107_periodic_false",
    "Verif.Norms.C107_standard_false"
   ],
   "note": "Norm axioms proved for all widths and nonzero factors. False for factors 0, other widths, the periodicity of angles and the equality of the two standard norms. A scaled norm is a norm exactly if no factor is zero (C107_scaled_exactly)."
  },
  {
   "property": "C108",
   "status": "partial",
   "theorems": [
    "Verif.Sources.C108_exactly",
    "Verif.Sources.C108_times_partial",
    "Verif.Sources.C108_fraction_false",
    "Verif.Sources.C108_before_false",
    "Verif.Sources.C108_units_false",
    "Verif.Sources.C108_descending_false",
    "Verif.Sources.C108_attrs"
   ],
   "note": "Proved for whole numbers. False for fractions (C108_fraction_false, C108_before_false), other units and formats (C108_units_false) and descending times (C108_descending_false). The times are right exactly if all numbers are whole (C108_exactly)."
  },
  {
   "property": "C109",
   "status": "partial",
   "theorems": [
    "Verif.Sources.C109_exactly",
    "Verif.Sources.C109_entries_exactly",
    "Verif.Sources.C109_complete_partial",
    "Verif.Sources.C109_missing_false",
    "Verif.Sources.C109_gaps",
    "Verif.Sources.C109_times_false",
    "Verif.Sources.C109_length_false"
   ],
   "note": "Proved if all stations have data for the same hours. False for stations without data (zeros), different hours (times of the last station) and different numbers of hours (ValueError). Exactly: C109_exactly (when a model is made) and C109_entries_exactly (when its weather is the fetched one)."
  },
  {
   "property": "C110",
   "status": "partial",
   "theorems": [
    "Verif.CloudText.C110_lines",
    "Verif.CloudText.C110_aligned_partial",
    "Verif.CloudText.C110_aligned_false",
    "Verif.CloudText.C110_rounded_false",
    "Verif.CloudText.C110_unambiguous",
    "Verif.CloudText.C110_exactly"
   ],
   "note": "Proved, except that columns are only aligned for speeds below 999 (C110_aligned_false) and that rounding loses digits (C110_rounded_false). Two clouds are printed in the same way exactly if all numbers have the same sign and rounded hundredths (C110_exactly)."
  },
  {
   "property": "C111",
   "status": "partial",
   "theorems": [
    "Verif.Default.C111_gauss_false",
    "Verif.Default.C111_between_false",
    "Verif.Default.C111_interpolate_false",
    "Verif.Default.C111_outlier_false",
    "Verif.Default.C111_distance_partial",
    "Verif.Interp.C111_gauss_exactly"
   ],
   "note": "False: the default distribution is exp(-alpha*weight*distance), so that points with greater weights count less (C111_gauss_false, C111_between_false) and outliers most (C111_outlier_false). Monotonicity in the distance is proved for positive weights. C111_gauss_exactly gives the exact condition for gauss_potential."
  },
  {
   "property": "C112",
   "status": "proved",
   "theorems": [
    "Verif.Default.C112_range",
    "Verif.Default.C112_defaults",
    "Verif.Default.C112_nothing"
   ],
   "note": "The default pipeline is modelled with its default components; the parts refuted concern data for which the default components fail."
  },
  {
   "property": "C113",
   "status": "partial",
   "theorems": [
    "Verif.Default.C113_order_partial",
    "Verif.Default.C113_first_false",
    "Verif.Default.C113_exactly"
   ],
   "note": "Proved for data in which the same wind has the same boat speed. False otherwise: of contradicting measurements of a wind of the table the first is taken (C113_first_false). C113_exactly: the order does not matter iff no two measurements kept by the filter contradict each other at a wind of the table."
  },
  {
   "property": "C114",
   "status": "partial",
   "theorems": [
    "Verif.Default.C114_unit",
    "Verif.Default.C114_member_false",
    "Verif.Weigher.C114_member_partial"
   ],
   "note": "Proved for the default pipeline. False for the weights of CylindricMemberWeigher (C114_member_false). If the height of the cylinders is given in the same unit, the weights are the same (C114_member_partial)."
  },
  {
   "property": "C115",
   "status": "proved",
   "theorems": [
    "Verif.Default.C115_mirror",
    "Verif.Default.C115_defaults"
   ],
   "note": "For consistent data; the norms of the defaults meet the hypotheses (C115_defaults)."
  },
  {
   "property": "C116",
   "status": "partial",
   "theorems": [
    "Verif.Default.C116_norm_false",
    "Verif.Default.C116_value_false",
    "Verif.Default.C116_exactly"
   ],
   "note": "False for the norms of weigher, neighbourhood and interpolator (C116_norm_false) and the interpolated values (C116_value_false). Exactly: the norms respect the circle iff the angles differ by at most 180 degrees (C116_exactly)."
  },
  {
   "property": "C117",
   "status": "partial",
   "theorems": [
    "Verif.StatsObj.C117_own_exactly",
    "Verif.StatsObj.C117_same_exactly",
    "Verif.StatsObj.C117_own",
    "Verif.StatsObj.C117_old",
    "Verif.StatsObj.C117_influence",
    "Verif.StatsObj.C117_same_false",
    "Verif.StatsObj.C117_stale_false",
    "Verif.StatsObj.C117_latest_partial"
   ],
   "note": "False for influence models that set statistics only in fit (C117_same_false: the test statistics are the very object of the training statistics) and for methods that return early (C117_stale_false). Proved: nothing reported earlier is ever changed (C117_old), and objects are new if every method sets its statistics. C117_own_exactly and C117_same_exactly: exact conditions for new and for shared statistics objects."
  },
  {
   "property": "C118",
   "status": "partial",
   "theorems": [
    "Verif.Models2d.C118_concave_exactly",
    "Verif.Models2d.C118_gaussian_exactly",
    "Verif.Models2d.C118_gompertz_exactly",
    "Verif.Models2d.C118_polynomial",
    "Verif.Models2d.C118_parabola",
    "Verif.Models2d.C118_concave_partial",
    "Verif.Models2d.C118_concave_false",
    "Verif.Models2d.C118_flags",
    "Verif.Models2d.C118_limit",
    "Verif.Models2d.C118_s_shaped",
    "Verif.Models2d.C118_downturn",
    "Verif.Models2d.C118_gaussian",
    "Verif.Models2d.C118_gaussian_false",
    "Verif.Models2d.C118_gaussian_zero",
    "Verif.Models2d.C118_gmm",
    "Verif.Models2d.C118_gompertz",
    "Verif.Models2d.C118_gompertz_false",
    "Verif.Models2d.C118_gompertz_step",
    "Verif.Models2d.C118_agree"
   ],
   "note": "False for negative coefficients (C118_concave_false), negative widths (C118_gaussian_false) and gompertz_model with neg=True (C118_gompertz_false). Otherwise proved over the reals. C118_concave_exactly, C118_gaussian_exactly and C118_gompertz_exactly give the exact conditions. C118_gaussian_zero: with width 0 the function is nan at its centre and 0 elsewhere."
  },
  {
   "property": "C119",
   "status": "proved",
   "theorems": [
    "Verif.Filter.C119_order",
    "Verif.Filter.C119_percent",
    "Verif.Filter.C119_permutation",
    "Verif.Filter.C119_bounds",
    "Verif.Filter.C119_bounds_order"
   ],
   "note": "Proved over every ordered field."
  },
  {
   "property": "C120",
   "status": "partial",
   "theorems": [
    "Verif.Interp.C120_units_exactly",
    "Verif.Interp.C120_order_exactly",
    "Verif.Interp.C120_units_idw",
    "Verif.Interp.C120_units_improved",
    "Verif.Interp.C120_units_arith",
    "Verif.Interp.C120_units_false",
    "Verif.Interp.C120_units_bilinear",
    "Verif.Interp.C120_order_idw_partial",
    "Verif.Interp.C120_order_improved_partial",
    "Verif.Interp.C120_order_arith_partial",
    "Verif.Interp.C120_order_bilinear_partial",
    "Verif.Interp.C120_order_false",
    "Verif.Interp.C120_origin",
    "Verif.Interp.C120_norm_idw",
    "Verif.Interp.C120_wind_bilinear"
   ],
   "note": "False for ArithmeticMeanInterpolator with s other than 1 (C120_units_false) and, for the order, at winds measured twice with different boat speeds (C120_order_false); proved otherwise. C120_units_exactly and C120_order_exactly give the exact conditions."
  },
  {
   "property": "C121",
   "status": "proved",
   "theorems": [
    "Verif.Weigher.C121_isometry_mean",
    "Verif.Weigher.C121_order_member",
    "Verif.Weigher.C121_order_mean",
    "Verif.Weigher.C121_units_member",
    "Verif.Weigher.C121_units_mean",
    "Verif.Weigher.C121_isometry"
   ],
   "note": "Proved, including movements keeping distances for both weighers. CylindricMeanWeigher is treated over the reals because of the square root; every point lies in its own cylinder by hypothesis."
  },
  {
   "property": "C122",
   "status": "partial",
   "theorems": [
    "Verif.Convex.C122_hull",
    "Verif.Convex.C122_directions",
    "Verif.Convex.C122_times",
    "Verif.Convex.C122_mirror_false",
    "Verif.Cruising.C122_inverse_partial",
    "Verif.Cruising.C122_weather_false",
    "Verif.Cruising.C122_isochrone_partial",
    "Verif.Cruising.C122_constant",
    "Verif.Cruising.C122_isochrone_false",
    "Verif.Convex.C122_mirror_exactly"
   ],
   "note": "Units: proved if times and distances change together (C122_inverse_partial, C122_isochrone_partial); false for changes of one unit only, as the path and the failure value are in fixed units (C122_weather_false, C122_isochrone_false). Sides: false, ties between headings are broken one-sidedly (C122_mirror_false). C122_mirror_exactly: for courses that are not headings of the slice, the recommendation for the mirrored course is the mirrored one iff two headings are recommended whose mixture leads along the course."
  },
  {
   "property": "C123",
   "status": "partial",
   "theorems": [
    "Verif.DiaHeap.C123_programs_partial",
    "Verif.DiaHeap.C123_others_partial",
    "Verif.DiaHeap.C123_diagrams_partial",
    "Verif.DiaHeap.C123_empty_false",
    "Verif.DiaHeap.C123_sails_false",
    "Verif.DiaHeap.C123_member_false",
    "Verif.DiaHeap.C123_same_array_false"
   ],
   "note": "Proved for programs without diagrams of several sails, without symmetrisation of empty point clouds, and with different arrays for wind speeds and wind angles. False for these three (C123_sails_false, C123_member_false, C123_empty_false, C123_same_array_false)."
  },
  {
   "property": "C124",
   "status": "proved",
   "theorems": [
    "Verif.Plot.C124_slices",
    "Verif.Plot.C124_info",
    "Verif.Plot.C124_info_calls",
    "Verif.Plot.C124_info_long",
    "Verif.Plot.C124_info_error",
    "Verif.Plot.C124_polar_flat",
    "Verif.Plot.C124_scatter",
    "Verif.Plot.C124_gradient",
    "Verif.Plot.C124_3d"
   ],
   "note": "The calls of matplotlib with their points are modelled; rendering is not. np.argsort is modelled as a stable sort. The convex hull of scipy is an arbitrary parameter."
  },
  {
   "property": "C125",
   "status": "proved",
   "theorems": [
    "Verif.Wind.C125_speed",
    "Verif.Wind.C125_rest",
    "Verif.Wind.C125_units",
    "Verif.Wind.C125_period",
    "Verif.Wind.C125_mirror",
    "Verif.Wind.C125_forward",
    "Verif.Wind.C125_faster"
   ],
   "note": "Proved over the reals. The mirror image of a wind exactly from ahead or astern is itself and excluded from C125_mirror."
  },
  {
   "property": "C126",
   "status": "proved",
   "theorems": [
    "Verif.Interp.C126_idw",
    "Verif.Interp.C126_improved",
    "Verif.Interp.C126_arith",
    "Verif.Interp.C126_bilinear"
   ],
   "note": "Proved over the reals. At winds at the same distance from all data ImprovedIDWInterpolator is undefined (see C22). With exponent zero IDWInterpolator returns the mean of all data and jumps at the data points."
  },
  {
   "property": "C127",
   "status": "proved",
   "theorems": [
    "Verif.Data.C127_standard_format",
    "Verif.Imputator.C127_remove",
    "Verif.Imputator.C127_remove_again",
    "Verif.Imputator.C127_fill",
    "Verif.Imputator.C127_fill_again",
    "Verif.Weigher.C127_normalize",
    "Verif.Filter.C127_bound_filter",
    "Verif.Cloud.C127_symmetrize"
   ],
   "note": "Proved. The time stamps are assumed present for the second call of FillLocalImputator. QuantileFilter is not meant to be repeated and is not covered; stripping twice fails because of the wrong n_rows (C07_again_false)."
  },
  {
   "property": "C128",
   "status": "proved",
   "theorems": [
    "Verif.Diagram.C128_more_sails",
    "Verif.Diagram.C128_order",
    "Verif.Diagram.C128_dominated",
    "Verif.Diagram.MultiSails.C128_symmetrize",
    "Verif.Diagram.MultiSails.C128_symmetrize_fails",
    "Verif.Diagram.MultiSails.C128_symmetric",
    "Verif.Diagram.MultiSails.C128_names",
    "Verif.Diagram.MultiSails.C128_str"
   ],
   "note": "Proved. That the symmetrised diagram of a single sail is symmetric is the hypothesis of C128_symmetric; see C33, C37 and C59 for the kinds of diagrams."
  },
  {
   "property": "C129",
   "status": "proved",
   "theorems": [
    "Verif.Data.C129_contains",
    "Verif.Data.C129_n_cols",
    "Verif.Data.C129_text",
    "Verif.Data.C129_short_determined",
    "Verif.Data.C129_long"
   ],
   "note": "Proved. The texts of single entries and of types are parameters; names are assumed to contain no quotation mark."
  },
  {
   "property": "C130",
   "status": "proved",
   "theorems": [
    "Verif.Interp.C130_idw_faster",
    "Verif.Interp.C130_idw_error",
    "Verif.Interp.C130_improved_faster",
    "Verif.Interp.C130_improved_error",
    "Verif.Interp.C130_arith_faster",
    "Verif.Interp.C130_arith_error",
    "Verif.Interp.C130_bilinear_faster",
    "Verif.Interp.C130_bilinear_error",
    "Verif.Ext.C130_values",
    "Verif.Ext.C130_mean_passes",
    "Verif.Ext.C130_table"
   ],
   "note": "Proved. ShepardInterpolator estimates slopes from the data and is not part of the claim."
  },
  {
   "property": "C131",
   "status": "proved",
   "theorems": [
    "Verif.Ext.C131_ball",
    "Verif.Ext.C131_local",
    "Verif.Ext.C131_far",
    "Verif.Ext.C131_scaling_ball",
    "Verif.Ext.C131_table"
   ],
   "note": "Proved. The resolutions auto and min_max depend on all data, so the claim for tables is about given winds."
  },
  {
   "property": "C132",
   "status": "proved",
   "theorems": [
    "Verif.Convex.C132_direct",
    "Verif.Convex.C132_detour",
    "Verif.Convex.C132_faster"
   ],
   "note": "Proved for recommendations which add up to the requested direction (MakesGood); C71 and C47 say when they do. Hypotheses on the slice are collected in Sailable."
  },
  {
   "property": "C133",
   "status": "proved",
   "theorems": [
    "Verif.Cruising.C133_error",
    "Verif.Cruising.C133_limit"
   ],
   "note": "Proved over the real numbers for Lipschitz continuous speeds; the way sailed is any solution of the differential equation."
  },
  {
   "property": "C134",
   "status": "partial",
   "theorems": [
    "Verif.Cruising.C134_speed_partial",
    "Verif.Cruising.C134_time_partial",
    "Verif.Cruising.C134_speed_false",
    "Verif.Cruising.C134_time_false"
   ],
   "note": "Partial: false for fixed numbers of nodes (a faster boat or a longer time can step into a calm which is jumped over otherwise, C134_speed_false and C134_time_false); true up to any tolerance with sufficiently many nodes."
  },
  {
   "property": "C135",
   "status": "proved",
   "theorems": [
    "Verif.Sampler.C135_smallest",
    "Verif.Sampler.C135_shuffle",
    "Verif.Sampler.C135_tolerance"
   ],
   "note": "Proved over the real numbers. Separated says that the tolerance eps is smaller than the gaps of the data; C135_tolerance shows that it holds for all sufficiently small eps."
  },
  {
   "property": "C136",
   "status": "proved",
   "theorems": [
    "Verif.Sampler.C136_search",
    "Verif.Sampler.C136_rescale",
    "Verif.Sampler.C136_midpoint",
    "Verif.Sampler.C136_interior",
    "Verif.Sampler.C136_fibonacci",
    "Verif.Sampler.C136_archimedean",
    "Verif.Sampler.C136_scale",
    "Verif.Sampler.C136_slopes",
    "Verif.Sampler.C136_square"
   ],
   "note": "Proved over the real numbers, with the contract that ConvexHull yields the area and the sides of the convex hull. C136_square shows that the hypotheses can be met."
  },
  {
   "property": "C137",
   "status": "proved",
   "theorems": [
    "Verif.Course.C137_error",
    "Verif.Course.C137_limit"
   ],
   "note": "Proved over the real numbers. The solver is a contract: it returns increasing distances from 0 to the end with gaps of at most h and times with errors of at most del."
  },
  {
   "property": "C138",
   "status": "proved",
   "theorems": [
    "Verif.Sampler.C138_uniform",
    "Verif.Sampler.C138_returns"
   ],
   "note": "Proved over the real numbers, with the contracts that the generator yields independent numbers uniformly distributed in [0, 1) which are consumed in order, and that ConvexHull yields the sides of the convex hull."
  },
  {
   "property": "C139",
   "status": "proved",
   "theorems": [
    "Verif.Fuzzy.C139_error",
    "Verif.Fuzzy.C139_half",
    "Verif.Fuzzy.C139_limit",
    "Verif.Fuzzy.C139_border"
   ],
   "note": "Proved over the real numbers. Equality comparisons are excluded from the statement: C139_border shows that they are at most half true."
  },
  {
   "property": "C140",
   "status": "proved",
   "theorems": [
    "Verif.Ext.C140_mean",
    "Verif.Ext.C140_idw",
    "Verif.Ext.C140_improved",
    "Verif.Ext.C140_value",
    "Verif.Ext.C140_ball",
    "Verif.Ext.C140_scaling_ball",
    "Verif.Ext.C140_limit",
    "Verif.Ext.C140_table"
   ],
   "note": "Proved over all ordered fields. Norm and distribution are parameters with the properties proved for the defaults in C21."
  },
  {
   "property": "C141",
   "status": "proved",
   "theorems": [
    "Verif.Sampler.C141_fibonacci",
    "Verif.Sampler.C141_square"
   ],
   "note": "Proved over the real numbers, with the contract that ConvexHull yields the area and the sides of the convex hull. C141_square shows that for large squares in almost all directions samples are returned for all n, so the claim is not empty."
  },
  {
   "property": "C142",
   "status": "proved",
   "theorems": [
    "Verif.Sampler.C142_archimedean"
   ],
   "note": "Proved over the real numbers, with the same contract as C141; C141_square covers this sampler, too."
  },
  {
   "property": "C143",
   "status": "partial",
   "theorems": [
    "Verif.Table.C143_entries",
    "Verif.Table.C143_between_partial",
    "Verif.Table.C143_ball_partial",
    "Verif.Table.C143_mean",
    "Verif.Table.C143_default_false",
    "Verif.Table.C143_limit_false",
    "Verif.Table.C143_radius_partial"
   ],
   "note": "The error at other winds is at most delta plus the variation of the speed over the neighbourhood (C143_between_partial), so L r + delta for a ball of radius r (C143_ball_partial, C143_radius_partial). With the default neighbourhood it does not go down: C143_default_false and C143_limit_false show an error of at least 0.15 knots for exact tables of any fineness, because the ball of radius 1 and the falloff 50 do not depend on the table."
  },
  {
   "property": "C144",
   "status": "partial",
   "theorems": [
    "Verif.Weather.C144_everywhere",
    "Verif.Weather.C144_affine_exactly",
    "Verif.Weather.C144_cell_partial",
    "Verif.Weather.C144_lipschitz_partial",
    "Verif.Weather.C144_affine_partial",
    "Verif.Weather.C144_grid_false"
   ],
   "note": "Proved for points none of whose coordinates is a grid value other than the first one. On grid values the code takes the first stored value (see C43), so the error does not go down with the mesh: C144_grid_false. C144_everywhere: at all points of the grid the result approximates the weather at the point in which grid values are replaced by the first ones; C144_affine_exactly: affine weather is reproduced iff it is the same at these two points."
  },
  {
   "property": "C145",
   "status": "partial",
   "theorems": [
    "Verif.F64.C145_values_exactly",
    "Verif.F64.C145_error",
    "Verif.F64.C145_length",
    "Verif.F64.C145_length_matters",
    "Verif.F64.C145_dyadic_partial",
    "Verif.F64.C145_accepted",
    "Verif.F64.C145_lookup_false",
    "Verif.F64.C145_max_false"
   ],
   "note": "The model of double precision rounds to 53 bits, ties to even, without bounds for the exponent; np.arange as implemented in numpy. Proved for fractions m/2^j with j <= 40. For 0.1 the wind speed 0.3 is missing (C145_lookup_false), for 0.16 the maximum 40 is included (C145_max_false). For other step sizes that are doubles: C145_values_exactly, C145_error, C145_length (the number of values differs from the exact one by at most one; both differences occur, C145_length_matters)."
  },
  {
   "property": "C146",
   "status": "partial",
   "theorems": [
    "Verif.F64.C146_exactly",
    "Verif.F64.C146_doubles_exactly",
    "Verif.F64.C146_twice_exactly",
    "Verif.F64.C146_nonneg",
    "Verif.F64.C146_negative_partial",
    "Verif.F64.C146_integers",
    "Verif.F64.C146_tiny_false",
    "Verif.F64.C146_lookup_false"
   ],
   "note": "Double precision as in C145. Proved for nonnegative angles and for those at least 2^-44 away from multiples of 360; -1e-20 is normalised to 360 (C146_tiny_false). C146_exactly and C146_doubles_exactly: 360 is returned iff the angle is negative and at most 2^-45 degrees below a multiple of 360 (for doubles: between -2^-45 and 0)."
  },
  {
   "property": "C147",
   "status": "proved",
   "theorems": [
    "Verif.F64.C147_average",
    "Verif.F64.C147_interpolator",
    "Verif.F64.C147_range",
    "Verif.F64.C147_outside"
   ],
   "note": "Double precision as in C145 (no overflow and no subnormal numbers). The sums may be calculated in any order. C147_outside shows that the range can be left, so a tolerance is needed."
  },
  {
   "property": "C148",
   "status": "proved",
   "theorems": [
    "Verif.F64.C148_returns",
    "Verif.F64.C148_budget",
    "Verif.F64.C148_bound_needed"
   ],
   "note": "Full in the double precision model (unbounded exponent): termination by lower bounds for the progress of each step and the shrinking of the step size; C148_bound_needed shows that some bound on the speeds is needed."
  },
  {
   "property": "C149",
   "status": "proved",
   "theorems": [
    "Verif.TableChars.C149_numbers",
    "Verif.TableChars.C149_text",
    "Verif.TableChars.C149_unambiguous",
    "Verif.TableChars.C149_bound_needed"
   ],
   "note": "Full: the character level text refines the pieces of C35 (which number belongs to which wind is the subject of C35, where abbreviated tables fail); C149_bound_needed shows why the boat speeds are bounded."
  },
  {
   "property": "C150",
   "status": "partial",
   "theorems": [
    "Verif.F64.C150_mirror_exactly",
    "Verif.F64.C150_mirror_partial",
    "Verif.F64.C150_tenths_partial",
    "Verif.F64.C150_decimal_false",
    "Verif.F64.C150_close_false"
   ],
   "note": "Proved for angles that are at least 2^-43 degrees apart when the mirrored angle is calculated, and for angles with at most one decimal when it is written as a decimal. With two decimals, 327.91 is not found in the symmetrised table of 32.09 (C150_decimal_false); angles next to 0 collide with 0 (C150_close_false). C150_mirror_exactly: the result is a table with different angles iff the rounded mirror images are different."
  },
  {
   "property": "C151",
   "status": "proved",
   "theorems": [
    "Verif.FloatText.C151_number",
    "Verif.FloatText.C151_shortest",
    "Verif.FloatText.C151_table",
    "Verif.FloatText.C151_cloud",
    "Verif.FloatText.C151_curve",
    "Verif.FloatText.C151_distinct"
   ],
   "note": "Full in the double precision model (no negative zero, infinity, nan, subnormal numbers): str of a double is modelled by the shortest digits that are rounded to it and python's layout; reading rounds the decimal number. Discharges the assumptions on printing of C34, C53 and C60 for doubles."
  },
  {
   "property": "C152",
   "status": "proved",
   "theorems": [
    "Verif.F64.C152_error",
    "Verif.F64.C152_exceptions",
    "Verif.F64.C152_weather",
    "Verif.F64.C152_inexact"
   ],
   "note": "Full in the double precision model (unbounded exponent). The combination with C144 holds where C144 holds, i.e. between grid values (hypothesis OffGrid). C152_inexact shows that constant weather is not reproduced exactly, so an error bound is needed."
  },
  {
   "property": "C153",
   "status": "partial",
   "theorems": [
    "Verif.Default.C153_entry_partial",
    "Verif.Default.C153_unfiltered_partial",
    "Verif.Default.C153_dropped_false"
   ],
   "note": "Proved for winds with a measurement in the ball that the filter keeps (C153_entry_partial), so for all winds with measurements if nothing is dropped, QuantileFilter(0) (C153_unfiltered_partial). False for the default settings: all measurements of a wind, however many and however accurate, can be dropped, and the entry is off by 2 of 7 knots (C153_dropped_false). Over the real numbers, from the point where the influence model has returned the data."
  },
  {
   "property": "C154",
   "status": "partial",
   "theorems": [
    "Verif.F64.C154_defined",
    "Verif.F64.C154_weights",
    "Verif.F64.C154_uniform_partial",
    "Verif.F64.C154_uniform_false"
   ],
   "note": "Range, order and existence of the weights are proved in full. Weight 1 for measurements in agreement is proved if the speed times the number of measurements has at most 53 bits (C154_uniform_partial); three measurements of 5.4 knots all get weight 0 (C154_uniform_false). Double precision model with unbounded exponent; the root is rounded correctly."
  },
  {
   "property": "C155",
   "status": "partial",
   "theorems": [
    "Verif.F64.C155_kept",
    "Verif.F64.C155_number_partial",
    "Verif.F64.C155_number_false",
    "Verif.F64.C155_close_false",
    "Verif.F64.C155_quarters_partial"
   ],
   "note": "Maximal weights are always kept (C155_kept); the number of discarded points exceeds the exact bound by at most one (C155_number_partial); 0, 25, 50, 75 and 100 percent give exactly the exact mask if weights are not too close (C155_quarters_partial). False for 28 percent of 26 points (C155_number_false) and for neighbouring doubles (C155_close_false). The interpolation formula of numpy's percentile is modelled."
  },
  {
   "property": "C156",
   "status": "proved",
   "theorems": [
    "Verif.F64.C156_defined",
    "Verif.F64.C156_stored",
    "Verif.F64.C156_error",
    "Verif.F64.C156_distance",
    "Verif.F64.C156_default",
    "Verif.F64.C156_inexact"
   ],
   "note": "Full in the double precision model (unbounded exponent, correctly rounded root, exponent 2). C156_error is for any norm given with a relative error, C156_distance bounds this error for the default norm, C156_default is the result for all defaults. C156_inexact shows that equal speeds are not reproduced exactly."
  },
  {
   "property": "C157",
   "status": "proved",
   "theorems": [
    "Verif.F64.C157_raises",
    "Verif.F64.C157_error",
    "Verif.F64.C157_stored",
    "Verif.F64.C157_faster",
    "Verif.F64.C157_nonneg",
    "Verif.F64.C157_range",
    "Verif.F64.C157_outside"
   ],
   "note": "Doubles with 53 bits, ties to even and unbounded exponents (no overflow or underflow); the data and the wind need not even be doubles."
  },
  {
   "property": "C158",
   "status": "partial",
   "theorems": [
    "Verif.F64.C158_defined_partial",
    "Verif.F64.C158_speed",
    "Verif.F64.C158_speed_always",
    "Verif.F64.C158_angle_partial",
    "Verif.F64.C158_rest",
    "Verif.F64.C158_calm",
    "Verif.F64.C158_cancel",
    "Verif.F64.C158_nan_false"
   ],
   "note": "Proved: error bounds of speed and angle, numbers whenever w^2 >= (eps + 8 * 2^-53) (ws + |bsp|)^2, exact results for a boat at rest and in a calm. False in general: an apparent wind of 13.4 knots from ahead and a boat speed of 13.4000001 knots give nan (C158_nan_false). Exponents of doubles are unbounded; cosine and arc cosine are parameters with error bounds; angles are already reduced modulo 360."
  },
  {
   "property": "C159",
   "status": "partial",
   "theorems": [
    "Verif.F64.C159_error",
    "Verif.F64.C159_defined_partial",
    "Verif.F64.C159_same_place_nan",
    "Verif.F64.C159_same_place_partial",
    "Verif.F64.C159_same_place_false",
    "Verif.F64.C159_metres",
    "Verif.F64.C159_symmetric_close",
    "Verif.F64.C159_symmetric_partial",
    "Verif.F64.C159_lat_lon"
   ],
   "note": "Proved: error bound of every calculated distance, distances are numbers for places further apart than about 5 metres and not nearly antipodal, the exact cases of equal places that give nan or arccos(1), symmetry up to twice the error and exact symmetry if a norm is 1 or the norms agree, lat_lon of projected places is never nan. False: the distance of the place 3 degrees north on the prime meridian to itself is nan, because the calculated scalar product with itself is the double before 1 and dividing twice by its root gives more than 1. The sum of np.dot is taken from left to right without fused operations."
  },
  {
   "property": "C160",
   "status": "partial",
   "theorems": [
    "Verif.F64.C160_close",
    "Verif.F64.C160_mono",
    "Verif.F64.C160_scale",
    "Verif.F64.C160_five_degrees",
    "Verif.F64.C160_fifteen",
    "Verif.F64.C160_angles",
    "Verif.F64.C160_single_partial",
    "Verif.F64.C160_two_partial",
    "Verif.F64.C160_missing",
    "Verif.F64.C160_cruise_false",
    "Verif.F64.C160_border_false"
   ],
   "note": "Proved: converted angles differ by at most 5*2^-53 of their size and keep their order, which multiples of 5 degrees are changed (15, 30, 60, 105, 120, 125, 210, 240, 245, 250, 255), and for slices with unchanged angles that cruise returns the recommended courses with legs adding up to the distance up to 5*2^-53 of it. False: cruise raises TypeError for slices with an angle of 30 degrees if this course is recommended, and convex_direction rejects the direction 120 for a diagram from 45 to 120 degrees. The hull and the proportion are parameters."
  },
  {
   "property": "C161",
   "status": "proved",
   "theorems": [
    "Verif.F64.C161_degrees",
    "Verif.F64.C161_error",
    "Verif.F64.C161_exact",
    "Verif.F64.C161_range",
    "Verif.F64.C161_mono",
    "Verif.F64.C161_whole"
   ],
   "note": "Full in the double precision model; the number of the sentence is rounded once when it is read."
  },
  {
   "property": "C162",
   "status": "partial",
   "theorems": [
    "Verif.F64.C162_range",
    "Verif.F64.C162_nonneg",
    "Verif.F64.C162_table",
    "Verif.F64.C162_constant_false",
    "Verif.F64.C162_constant_partial",
    "Verif.F64.C162_error"
   ],
   "note": "Proved: lengths, names, types, sign, the range up to 2^-51 of the largest absolute value, and the error for whole seconds. False: a column with the constant value 3 and rows at 0, 3 and 5 seconds gets the value 3.0000000000000004, so ranges and constant columns are not kept exactly (C162_constant_false)."
  },
  {
   "property": "C163",
   "status": "proved",
   "theorems": [
    "Verif.F64.C163_length",
    "Verif.F64.C163_ends",
    "Verif.F64.C163_sorted",
    "Verif.F64.C163_error",
    "Verif.F64.C163_strict",
    "Verif.F64.C163_n_steps",
    "Verif.F64.C163_slices_sorted",
    "Verif.F64.C163_plain",
    "Verif.F64.C163_default",
    "Verif.F64.C163_curve",
    "Verif.F64.C163_angles",
    "Verif.F64.C163_strict_bound_needed"
   ],
   "note": "Full in the double precision model; np.linspace is modelled as numpy implements it (step, multiples, start added, last number replaced)."
  },
  {
   "property": "C164",
   "status": "partial",
   "theorems": [
    "Verif.F64.C164_error",
    "Verif.F64.C164_degrees",
    "Verif.F64.C164_defined_partial",
    "Verif.F64.C164_range",
    "Verif.F64.C164_symmetric",
    "Verif.F64.C164_same_false",
    "Verif.F64.C164_cruise_nan",
    "Verif.F64.C164_cruise_number",
    "Verif.F64.C164_unsupported_false"
   ],
   "note": "Proved: error and range of the heading when it is a number, and that it is one unless the cosine of the angle between course and wind is within 4 eps + 4*2^-53 of 1 or -1. False: for the course 0.025 and the wind direction 0.025 (radians) and correctly rounded sine and cosine the heading is nan instead of 180 (C164_same_false); cruise then raises ValueError for diagrams with less than 180 degrees between first and last vertex, as if the direction were not supported (C164_unsupported_false), or returns unknown times (C164_cruise_nan)."
  },
  {
   "property": "C165",
   "status": "partial",
   "theorems": [
    "Verif.Weather.C165_exactly",
    "Verif.Weather.C165_name_exactly",
    "Verif.Weather.C165_dimensions_partial",
    "Verif.Weather.C165_scalar_false",
    "Verif.Weather.C165_names_false",
    "Verif.Weather.C165_one_line",
    "Verif.Weather.C165_data_partial",
    "Verif.Weather.C165_entry_partial",
    "Verif.Weather.C165_scalar_file_false"
   ],
   "note": "Proved for variables with at least one dimension and names without blanks, brackets and line ends (C165_dimensions_partial, C165_data_partial). False for variables without dimensions (C165_scalar_false), which make every access to the file fail (C165_scalar_file_false), and for names with blanks or brackets (C165_names_false). C165_entry_partial names the entry read. C165_exactly and C165_name_exactly: the names for which the dimensions are read correctly."
  },
  {
   "property": "C166",
   "status": "partial",
   "theorems": [
    "Verif.Stamps.C166_read",
    "Verif.Stamps.C166_exactly",
    "Verif.Stamps.C166_valid",
    "Verif.Stamps.C166_csv_exactly",
    "Verif.Stamps.C166_spelled",
    "Verif.Stamps.C166_fraction",
    "Verif.Stamps.C166_calendar",
    "Verif.Stamps.C166_dates",
    "Verif.Stamps.C166_csv_false",
    "Verif.Stamps.C166_weather_file_exactly",
    "Verif.Stamps.C166_weather_file_read",
    "Verif.Stamps.C166_start_partial",
    "Verif.Stamps.C166_start_false",
    "Verif.Stamps.C166_point_false"
   ],
   "note": "C166_read and C166_exactly for all formats, C166_weather_file_exactly and C166_weather_file_read for weather files, C166_valid. False for the default format of CsvFileHandler and times without fraction of a second (C166_csv_false, exact condition C166_csv_exactly) and for start times of NetCDF files such as 1900-01-01 00:00:00.0 (C166_start_false, C166_point_false). strptime and strftime are models of the python library; years before 1000 are printed with four digits. C166_calendar and C166_dates describe the accepted dates, C166_fraction the fractions of a second. C166_spelled: the characters of the printed times."
  },
  {
   "property": "C167",
   "status": "partial",
   "theorems": [
    "Verif.Repr.C167_exactly",
    "Verif.Repr.C167_default_false",
    "Verif.Repr.C167_raises",
    "Verif.Repr.C167_keywords_false",
    "Verif.Repr.C167_syntax_false",
    "Verif.Repr.C167_injective",
    "Verif.Repr.C167_ambiguous_false",
    "Verif.Repr.C167_ellipsoid_exactly",
    "Verif.Repr.C167_ellipsoid_false",
    "Verif.Repr.C167_defaults"
   ],
   "note": "C167_exactly: evaluating the representation gives the object back exactly for IDWInterpolator, BilinearGridInterpolator, Ball, ScalingBall, QuantileFilter, BoundFilter and weighers without dimensions, with norms known under their names; these have different representations (C167_injective). False otherwise: repr(CylindricMeanWeigher()) raises AttributeError (C167_default_false), wrong keywords (C167_keywords_false), texts that are no expressions (C167_syntax_false), parameters not shown (C167_ambiguous_false), the inverse matrix of an ellipsoid (C167_ellipsoid_false, C167_ellipsoid_exactly). Calls are modelled as syntax trees; numbers are read back as printed (C151). Tables of a single wind are not considered. C167_defaults: representations without arguments give the default components."
  },
  {
   "property": "C168",
   "status": "partial",
   "theorems": [
    "Verif.F64.C168_range_exactly",
    "Verif.F64.C168_remove",
    "Verif.F64.C168_restored",
    "Verif.F64.C168_undone",
    "Verif.F64.C168_integers",
    "Verif.F64.C168_restored_false",
    "Verif.F64.C168_range_false"
   ],
   "note": "Up to whole turns the angles are within 2^-43 degrees of the exact ones (C168_remove), restored within 3*2^-44 degrees (C168_restored, C168_undone), exactly for whole degrees (C168_integers); % 360 gives 360 exactly for negative angles at most 2^-45 degrees below a multiple of 360 (C168_range_exactly). Refuted as stated: 0.7 corrected by 0.8 is not restored exactly (C168_restored_false), and the angle 360 can occur (C168_range_false)."
  },
  {
   "property": "C169",
   "status": "partial",
   "theorems": [
    "Verif.PlotKw.C169_forwarded",
    "Verif.PlotKw.C169_exactly",
    "Verif.PlotKw.C169_legend_exactly",
    "Verif.PlotKw.C169_label_false",
    "Verif.PlotKw.C169_empty_false",
    "Verif.PlotKw.C169_use_scatter",
    "Verif.PlotKw.C169_gradient_exactly",
    "Verif.PlotKw.C169_legend3d_false",
    "Verif.PlotKw.C169_3d_exactly",
    "Verif.PlotKw.C169_check",
    "Verif.PlotKw.C169_functions"
   ],
   "note": "Keywords are forwarded unchanged once for each slice (C169_forwarded); exact conditions in C169_exactly, C169_legend_exactly, C169_gradient_exactly and C169_3d_exactly. Refuted: legend_kw with label, a keyword of Colorbar, raises TypeError (C169_label_false); scatter without slices calls plot with the keywords of scatter (C169_empty_false); show_legend and legend_kw do not work for three-dimensional plots (C169_legend3d_false). The keywords known by matplotlib are a parameter."
  },
  {
   "property": "C170",
   "status": "proved",
   "theorems": [
    "Verif.Table.C170_refines",
    "Verif.Table.C170_last",
    "Verif.Table.C170_commute",
    "Verif.Table.C170_overwrite",
    "Verif.Table.C170_write_back",
    "Verif.Table.C170_block",
    "Verif.Table.C170_call",
    "Verif.Table.C170_tables"
   ],
   "note": "C170_refines: a history of changes refines the history of a function of the wind, by induction; C170_last for single entries, C170_block for several entries at once, C170_commute, C170_overwrite, C170_write_back, C170_call. Exact arithmetic; C170_tables: tables made from distinct winds qualify."
  },
  {
   "property": "C171",
   "status": "proved",
   "theorems": [
    "Verif.Cloud.C171_keeps",
    "Verif.Cloud.C171_points",
    "Verif.Cloud.C171_first",
    "Verif.Cloud.C171_lookup",
    "Verif.Cloud.C171_order",
    "Verif.Cloud.C171_consistent",
    "Verif.Cloud.C171_order_matters",
    "Verif.Cloud.C171_symmetrize",
    "Verif.Cloud.C171_symmetrize_twice"
   ],
   "note": "C171_keeps, C171_points: the cloud after a history, by induction; C171_first, C171_lookup: the speed added first stays; C171_order, C171_consistent: permuted calls (C171_order_matters: the consistency is needed); C171_symmetrize, C171_symmetrize_twice. True wind only, exact arithmetic."
  },
  {
   "property": "C172",
   "status": "partial",
   "theorems": [
    "Verif.F64.C172_cuboid",
    "Verif.F64.C172_cuboid_all",
    "Verif.F64.C172_symmetric",
    "Verif.F64.C172_decimal_false",
    "Verif.F64.C172_polytope",
    "Verif.F64.C172_ball"
   ],
   "note": "C172_cuboid: exact for doubles if the coordinates of the grid point are zero or larger than the sides (Sterbenz); C172_cuboid_all: for all doubles nothing is missed; C172_symmetric; C172_polytope: for every way of rounding the products; C172_ball. C172_decimal_false: of the decimal wind speeds 7.95 and 8.05 only the first one is in the default cuboid around 8. Unbounded exponents."
  },
  {
   "property": "C173",
   "status": "partial",
   "theorems": [
    "Verif.Course.C173_distance",
    "Verif.Course.C173_places",
    "Verif.Course.C173_pace_partial",
    "Verif.Course.C173_heading",
    "Verif.Course.C173_heading_false",
    "Verif.Course.C173_boat_false",
    "Verif.Cruising.C173_time",
    "Verif.Cruising.C173_agree_partial"
   ],
   "note": "Same distance, same places proved for all inputs (C173_distance, C173_places). False for the heading: cost_cruise uses an angle from 0 to pi, isochrone the direction in degrees (C173_heading, C173_heading_false); C173_boat_false gives a boat for which cost_cruise calculates with twice the speed. Proved from end to end for boats whose speed does not depend on the heading (C173_agree_partial), with the error bound of C133."
  },
  {
   "property": "C174",
   "status": "partial",
   "theorems": [
    "Verif.Given.C174_count",
    "Verif.Given.C174_initial",
    "Verif.Given.C174_values",
    "Verif.Given.C174_matters_partial",
    "Verif.Given.C174_unused_false",
    "Verif.Given.C174_gauss_exactly",
    "Verif.Given.C174_concave_exactly",
    "Verif.Given.C174_mirror_false"
   ],
   "note": "Number of parameters proved for all functions (C174_count, C174_initial). All parameters matter but one of ws_s_wa_gauss (C174_unused_false, C174_gauss_exactly). Different parameters may describe the same function: for ws_concave_dt_wa exactly if six combinations agree (C174_concave_exactly), for the others after mirroring (C174_mirror_false)."
  },
  {
   "property": "C175",
   "status": "partial",
   "theorems": [
    "Verif.Course.C175_symmetric",
    "Verif.Course.C175_triangle",
    "Verif.Course.C175_shift",
    "Verif.Course.C175_zero_exactly",
    "Verif.Course.C175_zero_partial",
    "Verif.Course.C175_opposite_false",
    "Verif.Course.C175_first",
    "Verif.Course.C175_second",
    "Verif.Course.C175_scale",
    "Verif.Course.C175_degrees_false",
    "Verif.Course.C175_degrees_exactly",
    "Verif.Course.C175_turn_false"
   ],
   "note": "False: the latitude takes the place of the longitude in the projection and the second coordinate is in radians: places 180 degrees apart are at distance zero (C175_opposite_false), turning the globe changes distances (C175_turn_false), a degree of the second coordinate at 0 counts less than 2, a degree of the first 69 (C175_degrees_false). Proved: symmetry, triangle inequality, the exact pairs at distance zero, the exact scale at every place and where both scales agree."
  },
  {
   "property": "C176",
   "status": "proved",
   "theorems": [
    "Verif.Data.C176_step",
    "Verif.Data.C176_history",
    "Verif.Data.C176_from_empty",
    "Verif.Data.C176_rows",
    "Verif.Data.C176_join"
   ],
   "note": "C176_step/C176_history/C176_from_empty: forward simulation with exact success conditions and the same exceptions; C176_rows: rows() gives the records; C176_join: update with a Data object. Row numbers given to delete must be distinct and present and a list of names non-empty (otherwise see C06 for what happens; python cannot tell an empty list of names from an empty mask)."
  },
  {
   "property": "C177",
   "status": "partial",
   "theorems": [
    "Verif.Nan.C177_bound",
    "Verif.Nan.C177_bound_numbers",
    "Verif.Nan.C177_quantile_numbers",
    "Verif.Nan.C177_quantile_false",
    "Verif.Nan.C177_member",
    "Verif.Nan.C177_member_numbers",
    "Verif.Nan.C177_member_all_false",
    "Verif.Nan.C177_ball",
    "Verif.Nan.C177_scaling_false",
    "Verif.Nan.C177_scaling_last",
    "Verif.Nan.C177_idw_numbers",
    "Verif.Nan.C177_idw_false",
    "Verif.Nan.C177_idw_measured",
    "Verif.Nan.C177_mean_numbers",
    "Verif.Nan.C177_mean_false",
    "Verif.Nan.C177_mean_exactly",
    "Verif.Nan.C177_default_false",
    "Verif.Nan.C177_default_numbers",
    "Verif.Nan.C177_default_succeeds",
    "Verif.Nan.C177_fluctuation_exactly",
    "Verif.Nan.C177_fluctuation_last",
    "Verif.Nan.C177_fluctuation_numbers"
   ],
   "note": "Holds of BoundFilter, Ball and (if one point is complete) CylindricMemberWeigher. False of CylindricMeanWeigher (one nan makes all weights nan, exactly then), QuantileFilter (removes everything), the default pipeline (RuntimeError), ScalingBall (contains nothing if the nan is at position min_pts - 1 of ascending distances) and IDWInterpolator; the weight of FluctuationWeigher is nan exactly under the stated condition."
  },
  {
   "property": "C178",
   "status": "proved",
   "theorems": [
    "Verif.Globe.C178_longer",
    "Verif.Globe.C178_exactly",
    "Verif.Globe.C178_default",
    "Verif.Globe.C178_default_exactly",
    "Verif.Globe.C178_meridian",
    "Verif.Globe.C178_equator_needed"
   ],
   "note": "C178_equator_needed: with a virtual zero point off the virtual equator (accepted by the constructor) there are places nearer to each other on the map than on the globe; the theorems therefore assume an orthogonal transformation."
  },
  {
   "property": "C179",
   "status": "partial",
   "theorems": [
    "Verif.Convex.C179_direction",
    "Verif.Convex.C179_time",
    "Verif.Convex.C179_cruise_false",
    "Verif.Cruising.C179_voyage",
    "Verif.Cruising.C179_isochrone",
    "Verif.Cruising.C179_isochrone_limit",
    "Verif.Cruising.C179_arrival",
    "Verif.Cruising.C179_cost"
   ],
   "note": "False for the times returned by cruise (C179_cruise_false): since cruise divides the proportions by the mean of the speeds of both courses instead of taking the speed made good, the returned time jumps by more than a quarter between diagrams that are arbitrarily close, when a course enters the convex hull. The speed made good on the recommended courses (C179_direction, C179_time), isochrone (C179_isochrone, C179_isochrone_limit) and cost_cruise (C179_arrival, C179_cost) are stable with explicit bounds."
  },
  {
   "property": "C180",
   "status": "proved",
   "theorems": [
    "Verif.Clock.C180_stamps",
    "Verif.Clock.C180_equal_matters",
    "Verif.Clock.C180_order",
    "Verif.Clock.C180_exact",
    "Verif.Clock.C180_positions",
    "Verif.Clock.C180_impute"
   ],
   "note": "For data in chronological order. C180_equal_matters: rows closer than a microsecond may get equal time stamps."
  },
  {
   "property": "C181",
   "status": "proved",
   "theorems": [
    "Verif.F64.C181_members",
    "Verif.F64.C181_symmetric",
    "Verif.F64.C181_weights",
    "Verif.F64.C181_members_needed"
   ],
   "note": "The norm is any function of the difference of two winds. C181_members_needed: for values further apart than a factor of two a point outside of the cylinder may be counted."
  },
  {
   "property": "C182",
   "status": "proved",
   "theorems": [
    "Verif.F64.C182_inject",
    "Verif.F64.C182_small",
    "Verif.F64.C182_raises"
   ],
   "note": "C182_small: n = 0 and n = 1; C182_raises: exceptions."
  },
  {
   "property": "C183",
   "status": "proved",
   "theorems": [
    "Verif.F64.C183_deviation",
    "Verif.F64.C183_range",
    "Verif.F64.C183_monotone",
    "Verif.F64.C183_defined",
    "Verif.F64.C183_weights",
    "Verif.F64.C183_constant",
    "Verif.F64.C183_constant_inexact"
   ],
   "note": "Exponents of doubles are unbounded (no underflow). C183_constant_inexact: the computed deviation of 5.4, 5.4, 5.4 is 2^-50 and the weight for the bound 1 is 1 - 2^-50."
  },
  {
   "property": "C184",
   "status": "proved",
   "theorems": [
    "Verif.F64.C184_search_exactly",
    "Verif.F64.C184_never",
    "Verif.F64.C184_rectangle_exactly",
    "Verif.F64.C184_rounding_matters"
   ],
   "note": "C184_search_exactly: the search in double precision returns exactly if some positive double has the requested number of points; C184_rectangle_exactly: this applies to hulls with sides parallel to the axes; C184_never: otherwise it never returns; C184_rounding_matters: two neighbouring points for which the exact search returns and the rounded one does not. The exponent of doubles is not bounded."
  },
  {
   "property": "C185",
   "status": "partial",
   "theorems": [
    "Verif.FuzzyArray.C185_number",
    "Verif.FuzzyArray.C185_plain_partial",
    "Verif.FuzzyArray.C185_first_false",
    "Verif.FuzzyArray.C185_returns_exactly",
    "Verif.FuzzyArray.C185_exactly",
    "Verif.FuzzyArray.C185_one",
    "Verif.FuzzyArray.C185_empty_exactly",
    "Verif.FuzzyArray.C185_weights_false"
   ],
   "note": "Refuted: statements with &, | or == return the truth value of the first entry only (C185_first_false), and a weigher ignores all components but the first (C185_weights_false). Exactly the statements without these operators return all truth values (C185_exactly, C185_plain_partial); for two or more entries a statement raises ValueError exactly if somewhere a statement with such an operator is combined with one without (C185_returns_exactly); one entry: C185_one; no entries: C185_empty_exactly; numbers: C185_number."
  },
  {
   "property": "C186",
   "status": "proved",
   "theorems": [
    "Verif.F64.C186_integral",
    "Verif.F64.C186_relative",
    "Verif.F64.C186_cost",
    "Verif.F64.C186_order",
    "Verif.F64.C186_ends",
    "Verif.F64.C186_between",
    "Verif.F64.C186_end_inexact"
   ],
   "note": "Every operation rounded to 53 bits with unbounded exponent. The end of the way is reached up to rounding only (C186_end_inexact). The solution of the initial value problem is arbitrary."
  },
  {
   "property": "C187",
   "status": "proved",
   "theorems": [
    "Verif.F64.C187_order",
    "Verif.F64.C187_error",
    "Verif.F64.C187_apart",
    "Verif.F64.C187_whole",
    "Verif.F64.C187_restored",
    "Verif.F64.C187_later",
    "Verif.F64.C187_times"
   ],
   "note": "The arithmetic of timedelta is that of CPython (integral and fractional part, one product in double precision, rounding halves to even). OverflowError is no ValueError, so it leaves the cruise functions (C187_later gives the exact condition)."
  },
  {
   "property": "C188",
   "status": "proved",
   "theorems": [
    "Verif.WPoints.C188_array",
    "Verif.WPoints.C188_column",
    "Verif.WPoints.C188_sublist",
    "Verif.WPoints.C188_refused",
    "Verif.WPoints.C188_unchanged"
   ],
   "note": "Arrays have a fixed number of columns; for dictionaries the columns are those which all extensions have. Single steps for Data objects are C10, histories of Data objects C176."
  },
  {
   "property": "C189",
   "status": "proved",
   "theorems": [
    "Verif.Table.C189_table",
    "Verif.Table.C189_changes",
    "Verif.Table.C189_begin",
    "Verif.Table.C189_double",
    "Verif.Cloud.C189_cloud",
    "Verif.Cloud.C189_cloud_needed"
   ],
   "note": "Number text is a parameter with the round-trip hypothesis (RoundTrip), instantiated for doubles in C189_double; symmetrising is exact there because the mirrored angles are assumed to be doubles. A step that raises leaves the diagram unchanged, an unreadable file ends the session."
  },
  {
   "property": "C190",
   "status": "proved",
   "theorems": [
    "Verif.Table.C190_points",
    "Verif.Table.C190_proper",
    "Verif.Table.C190_double",
    "Verif.Table.C190_twice",
    "Verif.Table.C190_lookup"
   ],
   "note": "Over an ordered field (exact 360 - a; rounding is C150). The warning in the docstring about duplicate data is made precise: C190_proper says exactly when it happens, C190_double and C190_twice what happens then."
  },
  {
   "property": "C191",
   "status": "proved",
   "theorems": [
    "Verif.Curve.C191_idempotent",
    "Verif.Curve.C191_fixed",
    "Verif.Curve.C191_between",
    "Verif.F64.C191_double_between",
    "Verif.F64.C191_double_symmetric",
    "Verif.F64.C191_double_needed"
   ],
   "note": "Rounding as in Model/Float64.lean (53 bits, unbounded exponent). C191_double_needed shows that the restriction to angles with 44 binary digits after the point can not be dropped."
  },
  {
   "property": "C192",
   "status": "proved",
   "theorems": [
    "Verif.F64.C192_defined",
    "Verif.F64.C192_stored",
    "Verif.F64.C192_nan",
    "Verif.F64.C192_range",
    "Verif.F64.C192_default",
    "Verif.F64.C192_matters"
   ],
   "note": "Rounding as in Model/Float64.lean (53 bits, unbounded exponent). The key lemma is that the quotient of two different doubles is never rounded to one (fl_div_lt). C192_matters: rounded distances can be equal though the exact ones are not; then the exact interpolation is a number but the calculated one is nan. The accuracy compared with exact weights is not claimed: the weight of a point whose distance is almost the largest has no small relative error."
  },
  {
   "property": "C193",
   "status": "partial",
   "theorems": [
    "Verif.Diagram.C193_directory_partial",
    "Verif.Diagram.C193_apart_partial",
    "Verif.Diagram.C193_order",
    "Verif.Diagram.C193_relative",
    "Verif.Diagram.C193_relative_false",
    "Verif.Diagram.C193_sail_file_false",
    "Verif.Diagram.C193_tables"
   ],
   "note": "Holds for ordinary names (one dot, that of the ending .csv, and no name like boat_sail_0.csv) and more generally if the files have nothing in common (Apart). False for paths beginning with a dot: the part before the first dot is empty, so ./a.csv and ../b.csv put their sails into the same files _sail_0.csv, ... of the current directory, and the first diagram silently gets the sails of the second one. False also if a diagram is saved under the name of a sail of another one. Single diagrams are written and read by parameters; C193_tables instantiates them with tables. A diagram of several sails contains diagrams of single sails only."
  },
  {
   "property": "C194",
   "status": "proved",
   "theorems": [
    "Verif.F64.C194_value",
    "Verif.F64.C194_table",
    "Verif.F64.C194_accuracy",
    "Verif.F64.C194_default"
   ],
   "note": "Doubles are modelled with unbounded exponents; the calculated weights are any positive numbers (the default exponential does not underflow for weights and distances of at most 1). Sums are in any order."
  },
  {
   "property": "C195",
   "status": "proved",
   "theorems": [
    "Verif.F64.C195_defined",
    "Verif.F64.C195_table",
    "Verif.F64.C195_nothing",
    "Verif.F64.C195_default"
   ],
   "note": "Composition of C154 (weights), C155 (filter), C182 (injected points) and C194 (table). Doubles have unbounded exponents; the calculated values of the exponential function are any positive numbers."
  },
  {
   "property": "C196",
   "status": "proved",
   "theorems": [
    "Verif.Ext.C196_files",
    "Verif.Ext.C196_session",
    "Verif.F64.C196_double",
    "Verif.F64.C196_pipeline"
   ],
   "note": "C196_files and C196_session assume the round trip of single numbers (RoundTrip), which holds for exact rational text; C196_double (rationals) and C196_pipeline (reals that are doubles) use the shortest decimal notation of doubles proved in C151. Entries of the table that would be nan (C95, C123) are not numbers of the model and are not covered."
  },
  {
   "property": "C197",
   "status": "partial",
   "theorems": [
    "Verif.F64.C197_points",
    "Verif.F64.C197_files_exactly",
    "Verif.F64.C197_stable",
    "Verif.F64.C197_files_false",
    "Verif.F64.C197_extension",
    "Verif.F64.C197_made"
   ],
   "note": "False for wind angles between -2^-45 degrees and 0 (C197_files_false): the constructor makes them 360, reading the file makes that 0. C197_files_exactly: these are the only exceptions; C197_stable: after one reading the cloud stays the same. Doubles have unbounded exponents; the winds of the sampler are a parameter."
  },
  {
   "property": "C198",
   "status": "proved",
   "theorems": [
    "Verif.F64.C198_value",
    "Verif.F64.C198_bounds",
    "Verif.F64.C198_samples",
    "Verif.F64.C198_returns",
    "Verif.F64.C198_running",
    "Verif.F64.C198_extension",
    "Verif.F64.C198_one_needed"
   ],
   "note": "The equations of the convex hull (Qhull) and the random stream are parameters; the stream consists of numbers from 0 to 1 - 2^-53. No fused multiply-add. Distribution of the samples in exact arithmetic is C138."
  },
  {
   "property": "C199",
   "status": "partial",
   "theorems": [
    "Verif.F64.C199_symmetrize",
    "Verif.F64.C199_session_partial",
    "Verif.F64.C199_add_exactly",
    "Verif.F64.C199_session_false",
    "Verif.F64.C199_grid"
   ],
   "note": "False if a point with a wind angle between -2^-45 degrees and 0 is added (C199_session_false): it gets the angle 360 and a file makes that 0. C199_add_exactly: these angles are the only exceptions; C199_session_partial: all other sessions. Doubles have unbounded exponents. add_points with apparent wind is not part of the steps."
  },
  {
   "property": "C200",
   "status": "partial",
   "theorems": [
    "Verif.F64.C200_given",
    "Verif.F64.C200_session_partial",
    "Verif.F64.C200_files_false",
    "Verif.F64.C200_shown_false",
    "Verif.F64.C200_turn_false",
    "Verif.F64.C200_symmetric",
    "Verif.F64.C200_raises",
    "Verif.F64.C200_interpolated",
    "Verif.F64.C200_value"
   ],
   "note": "False in three ways: a point with a tiny negative angle is shown with the angle 360 and is not found there (C200_shown_false); after a file it is not found at the wind that was given (C200_files_false); a full turn added by the user in double precision, as 0.1 + 360, is not the same angle (C200_turn_false). Interpolator and neighbourhood are parameters. The symmetric lookup is proved for angles with at most 44 binary digits after the point. C200_value: with the arithmetic mean and positive calculated weights (composition with C194)."
  },
  {
   "property": "C201",
   "status": "partial",
   "theorems": [
    "Verif.F64.C201_slices_partial",
    "Verif.F64.C201_close",
    "Verif.F64.C201_range_false",
    "Verif.F64.C201_default_partial",
    "Verif.F64.C201_default_double_partial",
    "Verif.F64.C201_default_false"
   ],
   "note": "C201_slices_partial: exact for slices at wind speeds of more than twice the range; C201_close: otherwise only points exceeding the range by at most 2^-52 of it are added (C201_range_false: the slice at 2 with range 1 has the wind speed 1 - 2^-53). C201_default_partial: the default slices show every point if the wind speeds differ by at most 38 times the range; C201_default_false: for every larger span some cloud has a point in no default slice. C201_default_double_partial: the same with rounding for a span less by 380 * 2^-53 of the largest wind speed."
  },
  {
   "property": "C202",
   "status": "partial",
   "theorems": [
    "Verif.F64.C202_lookup_partial",
    "Verif.F64.C202_raises",
    "Verif.F64.C202_turns",
    "Verif.F64.C202_last",
    "Verif.F64.C202_exact",
    "Verif.F64.C202_shown_false",
    "Verif.F64.C202_turn_false"
   ],
   "note": "False for wind angles between -2^-45 degrees and 0: the table shows 360 and nothing is found there (C202_shown_false); and for a full turn added by the user in double precision, as 0.1 + 360 (C202_turn_false). C202_lookup_partial: all other angles. C202_last holds for all angles, also those that are normalised to 360. C202_exact: for angles that are not negative or have at most 44 binary digits after the point everything is as in exact arithmetic. Tables without given boat speeds and step sizes are C31 and C145."
  },
  {
   "property": "C203",
   "status": "partial",
   "theorems": [
    "Verif.F64.C203_given_partial",
    "Verif.F64.C203_last",
    "Verif.F64.C203_turns",
    "Verif.F64.C203_interpolated",
    "Verif.F64.C203_value",
    "Verif.F64.C203_exact",
    "Verif.F64.C203_turn_false",
    "Verif.F64.C203_shown_false"
   ],
   "note": "False for a full turn added by the user in double precision (C203_turn_false: 0.1 + 360 is not found, and as the angle is not normalised for the interpolation its neighbourhood has no points) and for wind angles between -2^-45 degrees and 0, which the table shows as 360 (C203_shown_false). C203_given_partial: all other angles. Interpolator and neighbourhood are parameters. C203_exact: agreement with exact arithmetic if the differences to the wind are doubles. C203_value: with the arithmetic mean and positive calculated weights (composition with C194)."
  },
  {
   "property": "C204",
   "status": "partial",
   "theorems": [
    "Verif.F64.C204_session_partial",
    "Verif.F64.C204_begin_partial",
    "Verif.F64.C204_begin_exactly",
    "Verif.F64.C204_last_partial",
    "Verif.F64.C204_grid",
    "Verif.F64.C204_session_false"
   ],
   "note": "False for tables made with a wind angle between -2^-45 degrees and 0 (C204_session_false): the angle is 360 and a file makes it 0. C204_session_partial: all tables with angles less than 360, all sessions, also symmetrisations with rounded mirror images and changes at tiny negative angles; C204_begin_partial: all other tables begin such a session. C204_grid: refinement to the sessions of C189 in exact arithmetic. Numbers in files are written in the shortest decimal notation (C151). C204_begin_exactly: these angles are the only exceptions."
  },
  {
   "property": "C205",
   "status": "partial",
   "theorems": [
    "Verif.F64.C205_slices_partial",
    "Verif.F64.C205_default",
    "Verif.F64.C205_steps",
    "Verif.F64.C205_shown_false"
   ],
   "note": "False for tables made with a wind angle between -2^-45 degrees and 0 (C205_shown_false): the slice shows the angle 360, at which evaluating the table is not a lookup. C205_slices_partial: all tables with angles less than 360. Tables with given boat speeds only (without them see C58). Interpolator and neighbourhood are parameters; C205_steps is for the arithmetic mean with positive calculated weights."
  }
 ]
}