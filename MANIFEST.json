{
 "claims": [
  {
   "property": "C01",
   "status": "proved",
   "theorems": [
    "Scipp.Props.C01_unique_labels_nonneg_extents",
    "Scipp.Props.C01_add_iff",
    "Scipp.Props.C01_set_iff",
    "Scipp.Props.C01_resize_iff",
    "Scipp.Props.C01_erase_iff",
    "Scipp.Props.C01_of_labels_iff",
    "Scipp.Props.C01_of_list_iff",
    "Scipp.Props.C01_offset"
   ],
   "note": ""
  },
  {
   "property": "C02",
   "status": "proved",
   "theorems": [
    "Scipp.Props.C02_merge_succeeds_iff",
    "Scipp.Props.C02_merge_error",
    "Scipp.Props.C02_merge_content",
    "Scipp.Props.C02_merge_order",
    "Scipp.Props.C02_merge_nodup",
    "Scipp.Props.C02_mergeSizes",
    "Scipp.Props.C02_intersection"
   ],
   "note": ""
  },
  {
   "property": "C03",
   "status": "proved",
   "theorems": [
    "Scipp.Props.C03_transpose_succeeds_iff",
    "Scipp.Props.C03_transpose_default",
    "Scipp.Props.C03_transpose_elements",
    "Scipp.Props.C03_transpose_back"
   ],
   "note": ""
  },
  {
   "property": "C04",
   "status": "proved",
   "theorems": [
    "Scipp.Props.C04_slice_accepts_iff",
    "Scipp.Props.C04_range_slice",
    "Scipp.Props.C04_point_slice",
    "Scipp.Props.C04_views_in_bounds"
   ],
   "note": ""
  },
  {
   "property": "C05",
   "status": "proved",
   "theorems": [
    "Scipp.Props.C05_range_of_range",
    "Scipp.Props.C05_point_of_range",
    "Scipp.Props.C05_slices_commute"
   ],
   "note": ""
  },
  {
   "property": "C06",
   "status": "partial",
   "theorems": [
    "Scipp.Props.C06_fold_elements",
    "Scipp.Props.C06_fold_succeeds_iff",
    "Scipp.Props.C06_fold_extents_partial",
    "Scipp.Props.C06_fold_extent_not_checked",
    "Scipp.Props.C06_copy_elements",
    "Scipp.Props.C06_flatten_succeeds_iff",
    "Scipp.Props.C06_flatten_elements",
    "Scipp.Props.C06_flatten_fold"
   ],
   "note": "Fold compares total volumes only: with another extent of 0 a fold with a wrong product is accepted (C06_fold_extent_not_checked); the extent claim is proved when the other extents are non-zero."
  },
  {
   "property": "C07",
   "status": "proved",
   "theorems": [
    "Scipp.Props.C07_broadcast_succeeds_iff",
    "Scipp.Props.C07_broadcast_elements",
    "Scipp.Props.C07_shared_elements_readonly"
   ],
   "note": ""
  },
  {
   "property": "C08",
   "status": "proved",
   "theorems": [
    "Scipp.Props.C08_replace_one",
    "Scipp.Props.C08_rename_sequence",
    "Scipp.Props.C08_rename_view",
    "Scipp.Props.C08_rename_simultaneous"
   ],
   "note": ""
  },
  {
   "property": "C09",
   "status": "proved",
   "theorems": [
    "Scipp.Props.C09_iterator_exists",
    "Scipp.Props.C09_seven_dims_undefined",
    "Scipp.Props.C09_random_access",
    "Scipp.Props.C09_iteration"
   ],
   "note": ""
  },
  {
   "property": "C10",
   "status": "proved",
   "theorems": [
    "Scipp.Props.C10_extract_position",
    "Scipp.Props.C10_compose_extract",
    "Scipp.Props.C10_extract_injective",
    "Scipp.Props.C10_extract_end"
   ],
   "note": ""
  },
  {
   "property": "C100",
   "status": "partial",
   "theorems": [
    "Scipp.Props.C100_bins_partial",
    "Scipp.Props.C100_histogram",
    "Scipp.Props.C100_part",
    "Scipp.Props.C100_nearly_even",
    "Scipp.Props.C100_integers",
    "Scipp.Props.C100_linspace",
    "Scipp.Props.C100_linspace_accepted",
    "Scipp.Props.C100_linspace_bins",
    "Scipp.Props.C100_wrong_far_from_zero",
    "Scipp.Props.C100_wrong_unsorted",
    "Scipp.Props.C100_wrong_linspace_one"
   ],
   "note": "Bins must be wide enough compared with the magnitude of the edges, as the tolerance of islinspace is relative to the edges; a witness shows values counted in wrong bins otherwise."
  },
  {
   "property": "C101",
   "status": "partial",
   "theorems": [
    "Scipp.Props.C101_transform_partial",
    "Scipp.Props.C101_metadata",
    "Scipp.Props.C101_refused",
    "Scipp.Props.C101_succeeds",
    "Scipp.Props.C101_schedule",
    "Scipp.Props.C101_in_place_partial",
    "Scipp.Props.C101_in_place_refused",
    "Scipp.Props.C101_in_place_succeeds",
    "Scipp.Props.C101_wrong_in_place_overlap",
    "Scipp.Props.C101_wrong_for_buffer_dims",
    "Scipp.Props.C101_wrong_for_buffer_dims_exchanged",
    "Scipp.Props.C101_wrong_for_order",
    "Scipp.Props.C101_no_race"
   ],
   "note": "Partial: event buffers with a single dim; operands of in-place operations that share memory must be the same bins or be found by the check for overlap (the code violates the claim otherwise, see the C101_wrong_ theorems). Creation, schedule independence, tables, errors and success are proved."
  },
  {
   "property": "C102",
   "status": "partial",
   "theorems": [
    "Scipp.Props.C102_calls_partial",
    "Scipp.Props.C102_wrong_large_integer",
    "Scipp.Props.C102_arithmetic_partial",
    "Scipp.Props.C102_either_order_partial",
    "Scipp.Props.C102_wrong_order",
    "Scipp.Props.C102_comparison_partial",
    "Scipp.Props.C102_wrong_equal",
    "Scipp.Props.C102_in_place_partial",
    "Scipp.Props.C102_in_place_modified",
    "Scipp.Props.C102_wrong_in_place",
    "Scipp.Props.C102_other"
   ],
   "note": "Partial: the code violates parts of the claim (large integers, datasets on the right, comparison of data arrays with numbers, in-place power of data arrays); see the C102_wrong_ theorems. The rules of pybind11 and Python are assumed."
  },
  {
   "property": "C103",
   "status": "partial",
   "theorems": [
    "Scipp.Props.C103_contents",
    "Scipp.Props.C103_visits_partial",
    "Scipp.Props.C103_size_change_noticed",
    "Scipp.Props.C103_assignments",
    "Scipp.Props.C103_wrong_exchange",
    "Scipp.Props.C103_wrong_reused_memory"
   ],
   "note": "Partial: a loop whose body leaves size and address unchanged but exchanges items is not noticed by the code (C103_wrong_exchange), and reuse of the address of the keys defeats the check (C103_wrong_reused_memory); everything else is proved for all bodies of the loop."
  },
  {
   "property": "C104",
   "status": "partial",
   "theorems": [
    "Scipp.Props.C104_round_trip",
    "Scipp.Props.C104_distinct",
    "Scipp.Props.C104_commodity",
    "Scipp.Props.C104_version",
    "Scipp.Props.C104_from_dict_partial",
    "Scipp.Props.C104_wrong_power",
    "Scipp.Props.C104_wrong_name",
    "Scipp.Props.C104_numbers"
   ],
   "note": "Partial: from_dict gives the powers in the dict only if they are in range (C104_wrong_power) and known (C104_wrong_name); the round trip, injectivity, versions and commodities are proved in full."
  },
  {
   "property": "C105",
   "status": "partial",
   "theorems": [
    "Scipp.Props.C105_slice_partial",
    "Scipp.Props.C105_transpose",
    "Scipp.Props.C105_broadcast",
    "Scipp.Props.C105_rename",
    "Scipp.Props.C105_reduce_slice_partial",
    "Scipp.Props.C105_reduce_transpose_partial",
    "Scipp.Props.C105_reduce_parts_partial",
    "Scipp.Props.C105_reduce_order_partial",
    "Scipp.Props.C105_reduce_linear_partial",
    "Scipp.Props.C105_wrong_dim_order",
    "Scipp.Props.C105_wrong_for_broadcast"
   ],
   "note": "Elementwise operations: slicing, transposing, broadcasting, renaming of operands, any number of operands, all schedules. Reductions: slicing, transposing, splitting, exchange of two reductions, additivity. Partial because the order of dims after slicing out a point can differ (C105_wrong_dim_order) and because reductions along broadcast dims are wrong (C105_wrong_for_broadcast). That the second computation succeeds if the first does is not claimed."
  },
  {
   "property": "C106",
   "status": "partial",
   "theorems": [
    "Scipp.Props.C106_make",
    "Scipp.Props.C106_graph",
    "Scipp.Props.C106_target_order",
    "Scipp.Props.C106_unique",
    "Scipp.Props.C106_transform_partial",
    "Scipp.Props.C106_transform_keep",
    "Scipp.Props.C106_order_partial",
    "Scipp.Props.C106_targets_partial",
    "Scipp.Props.C106_wrong_multi_alias",
    "Scipp.Props.C106_wrong_stale_event"
   ],
   "note": "Proved for graphs in which aliases with several names are of coords that are kept (always if everything is kept: C106_transform_keep). Fails for aliases with several names of dropped coords (C106_wrong_multi_alias); event coords of recomputed names may be stale (C106_wrong_stale_event)."
  },
  {
   "property": "C107",
   "status": "partial",
   "theorems": [
    "Scipp.Props.C107_ends",
    "Scipp.Props.C107_names",
    "Scipp.Props.C107_tree_partial",
    "Scipp.Props.C107_wrong_after_cycle",
    "Scipp.Props.C107_wrong_ambiguous"
   ],
   "note": "General facts for all acyclic graphs (C107_ends, C107_names); the documented name for trees (C107_tree_partial). Below undirected cycles the documented rules do not hold (C107_wrong_after_cycle, C107_wrong_ambiguous)."
  },
  {
   "property": "C108",
   "status": "partial",
   "theorems": [
    "Scipp.Props.C108_count_int_partial",
    "Scipp.Props.C108_count_time_partial",
    "Scipp.Props.C108_count_float_partial",
    "Scipp.Props.C108_step_int_partial",
    "Scipp.Props.C108_dataset_range",
    "Scipp.Props.C108_groups_partial",
    "Scipp.Props.C108_wrong_dataset_max",
    "Scipp.Props.C108_wrong_bin_coord",
    "Scipp.Props.C108_wrong_large_int",
    "Scipp.Props.C108_wrong_time",
    "Scipp.Props.C108_wrong_large_float",
    "Scipp.Props.C108_wrong_float_step",
    "Scipp.Props.C108_wrong_groups",
    "Scipp.Props.C108_upper_bound",
    "Scipp.Props.C108_spacing_count_partial",
    "Scipp.Props.C108_spacing_step_partial"
   ],
   "note": "For regular data all values are in a bin (C108_count_*_partial, C108_step_int_partial) and groups are exactly the values that occur (C108_groups_partial). The code loses values of datasets whose last item does not have the maximum, of large integers, datetimes in nanoseconds, and with a floating-point step (C108_wrong_*). Overflow of int32/int64 in `max + 1`, NaN, float32, and datetime steps are not modelled."
  },
  {
   "property": "C109",
   "status": "partial",
   "theorems": [
    "Scipp.Props.C109_concat",
    "Scipp.Props.C109_group_partial",
    "Scipp.Props.C109_group_fails",
    "Scipp.Props.C109_wrong_one_masked"
   ],
   "note": "C109_concat covers bins.concat with masks of any kind. C109_group_partial covers group/bin by a coordinate of the bins with no mask or masks for several dims. With a mask for one dim the code fails (C109_group_fails) or mixes up groups (C109_wrong_one_masked)."
  },
  {
   "property": "C11",
   "status": "partial",
   "theorems": [
    "Scipp.Props.C11_wrong_when_all_broadcast",
    "Scipp.Props.C11_block_partial",
    "Scipp.Props.C11_block_new_output",
    "Scipp.Props.C11_within_arrays"
   ],
   "note": "False in full: flatten_dims merges a second-innermost dim in which all operands have stride 0 (C11_wrong_when_all_broadcast). Proved unconditionally for operations creating their output and (via C12/C14) for in-place operations on writable outputs; C11_block_partial excludes the pattern."
  },
  {
   "property": "C110",
   "status": "proved",
   "theorems": [
    "Scipp.Props.C110_same_function",
    "Scipp.Props.C110_minimal"
   ],
   "note": "Complete for 1-D histograms. That other coordinates and masks are not kept is not part of the claim."
  },
  {
   "property": "C111",
   "status": "partial",
   "theorems": [
    "Scipp.Props.C111_sizes",
    "Scipp.Props.C111_slice",
    "Scipp.Props.C111_wrong_positional",
    "Scipp.Props.C111_reduce_all_partial",
    "Scipp.Props.C111_wrong_scalar_bins",
    "Scipp.Props.C111_reduce_partial",
    "Scipp.Props.C111_wrong_nested",
    "Scipp.Props.C111_wrong_binned",
    "Scipp.Props.C111_transform",
    "Scipp.Props.C111_wrong_transform",
    "Scipp.Props.C111_function_partial",
    "Scipp.Props.C111_wrong_function",
    "Scipp.Props.C111_binary",
    "Scipp.Props.C111_binary_names",
    "Scipp.Props.C111_wrong_order"
   ],
   "note": "Partial: reductions hold if nested groups and binned items have one of the dims; functions agree with methods only for flat groups of arrays having the dim."
  },
  {
   "property": "C112",
   "status": "partial",
   "theorems": [
    "Scipp.Props.C112_variable",
    "Scipp.Props.C112_array_partial",
    "Scipp.Props.C112_agree_partial",
    "Scipp.Props.C112_refused",
    "Scipp.Props.C112_refused_masked",
    "Scipp.Props.C112_sum",
    "Scipp.Props.C112_sum_order",
    "Scipp.Props.C112_order",
    "Scipp.Props.C112_wrong_unit",
    "Scipp.Props.C112_wrong_unit_always",
    "Scipp.Props.C112_wrong_masked"
   ],
   "note": "Partial: the unit of var of a data array is wrong, and output elements with too few unmasked contributions are arbitrary values."
  },
  {
   "property": "C113",
   "status": "partial",
   "theorems": [
    "Scipp.Props.C113_histogram",
    "Scipp.Props.C113_previous",
    "Scipp.Props.C113_nearest",
    "Scipp.Props.C113_nearest_int_partial",
    "Scipp.Props.C113_wrong_int",
    "Scipp.Props.C113_refused_mode",
    "Scipp.Props.C113_refused_previous",
    "Scipp.Props.C113_arrange_partial",
    "Scipp.Props.C113_wrong_outer",
    "Scipp.Props.C113_wrong_unsorted",
    "Scipp.Props.C113_wrong_merge"
   ],
   "note": "Partial: wrong for integer coordinates with mode nearest, unsorted coordinates are not always rejected, one-dimensional coordinates of outer dims are refused."
  },
  {
   "property": "C114",
   "status": "partial",
   "theorems": [
    "Scipp.Props.C114_variable_partial",
    "Scipp.Props.C114_array_partial",
    "Scipp.Props.C114_wrong_name",
    "Scipp.Props.C114_dataset_partial",
    "Scipp.Props.C114_wrong_affine",
    "Scipp.Props.C114_wrong_strings",
    "Scipp.Props.C114_wrong_unaligned",
    "Scipp.Props.C114_wrong_binned",
    "Scipp.Props.C114_wrong_empty",
    "Scipp.Props.C114_wrong_names"
   ],
   "note": "Partial: fails for affine transformations, names of data arrays, unaligned vectors, arrays of strings, bins, datasets without items or with certain names."
  },
  {
   "property": "C115",
   "status": "partial",
   "theorems": [
    "Scipp.Props.C115_partial",
    "Scipp.Props.C115_loaded_partial",
    "Scipp.Props.C115_order",
    "Scipp.Props.C115_names",
    "Scipp.Props.C115_wrong_name",
    "Scipp.Props.C115_wrong_unaligned",
    "Scipp.Props.C115_wrong_strings",
    "Scipp.Props.C115_wrong_coords",
    "Scipp.Props.C115_wrong_item"
   ],
   "note": "Partial: fails for more than a thousand elements, names of arrays in groups, unaligned bins, strings with several dims, datasets with items called coords or of types that cannot be saved."
  },
  {
   "property": "C116",
   "status": "partial",
   "theorems": [
    "Scipp.Props.C116_range",
    "Scipp.Props.C116_open_start_partial",
    "Scipp.Props.C116_open_stop_int_partial",
    "Scipp.Props.C116_open_stop_float_partial",
    "Scipp.Props.C116_split",
    "Scipp.Props.C116_label",
    "Scipp.Props.C116_wrong_nan",
    "Scipp.Props.C116_wrong_inf",
    "Scipp.Props.C116_wrong_large",
    "Scipp.Props.C116_wrong_largest_int"
   ],
   "note": "Partial: open ranges fail for NaN, infinity, large floating-point numbers, and the largest integer."
  },
  {
   "property": "C117",
   "status": "partial",
   "theorems": [
    "Scipp.Props.C117_contents",
    "Scipp.Props.C117_dims",
    "Scipp.Props.C117_key_coords_partial",
    "Scipp.Props.C117_other_coords",
    "Scipp.Props.C117_succeeds",
    "Scipp.Props.C117_hist_partial",
    "Scipp.Props.C117_replaced",
    "Scipp.Props.C117_wrong_edges",
    "Scipp.Props.C117_wrong_points",
    "Scipp.Props.C117_wrong_error",
    "Scipp.Props.C117_wrong_scalar",
    "Scipp.Props.C117_wrong_dim"
   ],
   "note": "Partial: if all dims are concatenated, a coord with the name of a key overwrites the key; hist with a coord that does not depend on the dims asked for."
  },
  {
   "property": "C118",
   "status": "partial",
   "theorems": [
    "Scipp.Props.C118_positions",
    "Scipp.Props.C118_contents",
    "Scipp.Props.C118_dims_partial",
    "Scipp.Props.C118_event_coords_partial",
    "Scipp.Props.C118_bin_coords",
    "Scipp.Props.C118_succeeds_partial",
    "Scipp.Props.C118_hist_partial",
    "Scipp.Props.C118_wrong_order",
    "Scipp.Props.C118_wrong_name",
    "Scipp.Props.C118_wrong_lost",
    "Scipp.Props.C118_wrong_inner",
    "Scipp.Props.C118_wrong_dim"
   ],
   "note": "Partial: order of the dims depends on a set; coords named like another dim are lost; hist if the last key is not named like a dim."
  },
  {
   "property": "C119",
   "status": "proved",
   "theorems": [
    "Scipp.Props.C119_collapse",
    "Scipp.Props.C119_keeps",
    "Scipp.Props.C119_slices"
   ],
   "note": "Variables; order of the entries is not part of the claim."
  },
  {
   "property": "C12",
   "status": "proved",
   "theorems": [
    "Scipp.Props.C12_transform",
    "Scipp.Props.C12_transform_deterministic",
    "Scipp.Props.C12_transform_terminates",
    "Scipp.Props.C12_in_place"
   ],
   "note": ""
  },
  {
   "property": "C120",
   "status": "partial",
   "theorems": [
    "Scipp.Props.C120_values_partial",
    "Scipp.Props.C120_metadata_partial",
    "Scipp.Props.C120_order_partial",
    "Scipp.Props.C120_conserved_partial",
    "Scipp.Props.C120_wrong_order"
   ],
   "note": "Partial: one-dimensional edges; with edges depending on other dims the order matters."
  },
  {
   "property": "C121",
   "status": "partial",
   "theorems": [
    "Scipp.Props.C121_accepts",
    "Scipp.Props.C121_rejects_partial",
    "Scipp.Props.C121_dense",
    "Scipp.Props.C121_wrong_dims",
    "Scipp.Props.C121_wrong_unit",
    "Scipp.Props.C121_wrong_scalar",
    "Scipp.Props.C121_scalar",
    "Scipp.Props.C121_wrong_bins",
    "Scipp.Props.C121_wrong_dataset"
   ],
   "note": "Partial: identical objects are accepted; others are rejected only if they agree in what the code does not look at."
  },
  {
   "property": "C122",
   "status": "partial",
   "theorems": [
    "Scipp.Props.C122_fits_partial",
    "Scipp.Props.C122_metadata",
    "Scipp.Props.C122_succeeds_partial",
    "Scipp.Props.C122_points",
    "Scipp.Props.C122_masked",
    "Scipp.Props.C122_wrong_coord"
   ],
   "note": "Partial: no output if a coord which is not used depends on dims of the output and others."
  },
  {
   "property": "C123",
   "status": "partial",
   "theorems": [
    "Scipp.Props.C123_labels",
    "Scipp.Props.C123_all",
    "Scipp.Props.C123_plain",
    "Scipp.Props.C123_steps",
    "Scipp.Props.C123_rejects",
    "Scipp.Props.C123_wrong_steps",
    "Scipp.Props.C123_footprint_partial",
    "Scipp.Props.C123_size",
    "Scipp.Props.C123_checks",
    "Scipp.Props.C123_wrong_footprint"
   ],
   "note": "Partial: footprints must have the dims in the order of the data; steps are counted right in exact arithmetic, not in double."
  },
  {
   "property": "C124",
   "status": "partial",
   "theorems": [
    "Scipp.Props.C124_used",
    "Scipp.Props.C124_points_partial",
    "Scipp.Props.C124_metadata",
    "Scipp.Props.C124_rejects",
    "Scipp.Props.C124_wrong_integer"
   ],
   "note": "Partial: not for integers, where results are truncated."
  },
  {
   "property": "C125",
   "status": "partial",
   "theorems": [
    "Scipp.Props.C125_header",
    "Scipp.Props.C125_roundtrip",
    "Scipp.Props.C125_no_unit",
    "Scipp.Props.C125_other_partial",
    "Scipp.Props.C125_wrong_newline",
    "Scipp.Props.C125_columns_partial",
    "Scipp.Props.C125_succeeds",
    "Scipp.Props.C125_index_partial",
    "Scipp.Props.C125_wrong_lost",
    "Scipp.Props.C125_wrong_index"
   ],
   "note": "Partial: names in headers must be distinct, there must be some data for the index to be kept, no newline after the closing bracket."
  },
  {
   "property": "C126",
   "status": "partial",
   "theorems": [
    "Scipp.Props.C126_near",
    "Scipp.Props.C126_equivalent_partial",
    "Scipp.Props.C126_rejects",
    "Scipp.Props.C126_succeeds",
    "Scipp.Props.C126_wrong_dtype",
    "Scipp.Props.C126_wrong_masks"
   ],
   "note": "Partial: if coords are floating-point numbers; masks are not compared."
  },
  {
   "property": "C127",
   "status": "partial",
   "theorems": [
    "Scipp.Props.C127_rejects",
    "Scipp.Props.C127_converted",
    "Scipp.Props.C127_roundtrip",
    "Scipp.Props.C127_unchanged_partial",
    "Scipp.Props.C127_wrong_name",
    "Scipp.Props.C127_wrong_unit",
    "Scipp.Props.C127_wrong_aligned"
   ],
   "note": "Partial: for data arrays without name, whose aligned coords are dimension coords, and with units unless the default is none."
  },
  {
   "property": "C128",
   "status": "partial",
   "theorems": [
    "Scipp.Props.C128_integral_partial",
    "Scipp.Props.C128_metadata",
    "Scipp.Props.C128_rejects",
    "Scipp.Props.C128_accepts",
    "Scipp.Props.C128_area",
    "Scipp.Props.C128_wrong_order"
   ],
   "note": "Partial: the coord is one-dimensional, or has the dims of the data in the same order."
  },
  {
   "property": "C129",
   "status": "proved",
   "theorems": [
    "Scipp.Props.C129_digits",
    "Scipp.Props.C129_relative",
    "Scipp.Props.C129_significant",
    "Scipp.Props.C129_exact"
   ],
   "note": "In exact arithmetic: `log10`, `power` and products in `double` are not modelled."
  },
  {
   "property": "C13",
   "status": "partial",
   "theorems": [
    "Scipp.Props.C13_block_partial",
    "Scipp.Props.C13_validated_sizes_partial",
    "Scipp.Props.C13_constructor_terminates",
    "Scipp.Props.C13_constructed_at_begin",
    "Scipp.Props.C13_serial_partial",
    "Scipp.Props.C13_wrong_for_empty_buffer_dim",
    "Scipp.Props.C13_within_arrays_partial",
    "Scipp.Props.C13_wrong_for_scalar"
   ],
   "note": "C13_block_partial requires the buffers to have no other inner dim of extent 0 (C13_wrong_for_empty_buffer_dim shows the failure). Memory safety of the constructor proved except for scalars with a 6-D buffer (C13_wrong_for_scalar)."
  },
  {
   "property": "C130",
   "status": "proved",
   "theorems": [
    "Scipp.Props.C130_accepts",
    "Scipp.Props.C130_form",
    "Scipp.Props.C130_roundtrip",
    "Scipp.Props.C130_selected",
    "Scipp.Props.C130_all",
    "Scipp.Props.C130_count"
   ],
   "note": "Digits are those of ASCII; the pattern also accepts other digits of Unicode."
  },
  {
   "property": "C131",
   "status": "partial",
   "theorems": [
    "Scipp.Props.C131_arange_partial",
    "Scipp.Props.C131_linspace_partial",
    "Scipp.Props.C131_rejects",
    "Scipp.Props.C131_numbers",
    "Scipp.Props.C131_defaults",
    "Scipp.Props.C131_wrong_integer"
   ],
   "note": "Partial: for floating-point numbers, or if no unit is requested."
  },
  {
   "property": "C132",
   "status": "partial",
   "theorems": [
    "Scipp.Props.C132_requested",
    "Scipp.Props.C132_copy",
    "Scipp.Props.C132_widest_partial",
    "Scipp.Props.C132_once",
    "Scipp.Props.C132_rejects",
    "Scipp.Props.C132_wrong_binned"
   ],
   "note": "Order of conversions holds for data which are not binned; for binned data it fails (C132_wrong_binned). Conversions of single values are arbitrary functions."
  },
  {
   "property": "C133",
   "status": "proved",
   "theorems": [
    "Scipp.Props.C133_original",
    "Scipp.Props.C133_assigned",
    "Scipp.Props.C133_succeeds",
    "Scipp.Props.C133_rejects"
   ],
   "note": "Data arrays; whether a value fits is an arbitrary function here (see SizedDict for the one of the code)."
  },
  {
   "property": "C134",
   "status": "partial",
   "theorems": [
    "Scipp.Props.C134_frequency_partial",
    "Scipp.Props.C134_accepts",
    "Scipp.Props.C134_rejects",
    "Scipp.Props.C134_applied",
    "Scipp.Props.C134_variable",
    "Scipp.Props.C134_size",
    "Scipp.Props.C134_wrong_integer",
    "Scipp.Props.C134_wrong_coord"
   ],
   "note": "Exact arithmetic (no tolerance in islinspace), one dim. Fails for integer critical frequencies in another unit and for integer coords (C134_wrong_integer, C134_wrong_coord)."
  },
  {
   "property": "C135",
   "status": "partial",
   "theorems": [
    "Scipp.Props.C135_renamed_partial",
    "Scipp.Props.C135_rejects",
    "Scipp.Props.C135_wrong_chain",
    "Scipp.Props.C135_wrong_order",
    "Scipp.Props.C135_wrong_events"
   ],
   "note": "For new names used nowhere; otherwise it fails in three ways (C135_wrong_chain, C135_wrong_order, C135_wrong_events). Dims themselves are in Rename."
  },
  {
   "property": "C136",
   "status": "partial",
   "theorems": [
    "Scipp.Props.C136_sizes_partial",
    "Scipp.Props.C136_succeeds",
    "Scipp.Props.C136_unique",
    "Scipp.Props.C136_rejects",
    "Scipp.Props.C136_wrong_empty"
   ],
   "note": "If no other dim has length zero; otherwise any sizes are accepted (C136_wrong_empty). Integers are unbounded."
  },
  {
   "property": "C137",
   "status": "partial",
   "theorems": [
    "Scipp.Props.C137_union",
    "Scipp.Props.C137_succeeds",
    "Scipp.Props.C137_commutes",
    "Scipp.Props.C137_self_partial",
    "Scipp.Props.C137_wrong_nan"
   ],
   "note": "Merging with itself holds if every item is identical to itself, which fails for NaN (C137_wrong_nan)."
  },
  {
   "property": "C138",
   "status": "partial",
   "theorems": [
    "Scipp.Props.C138_full_partial",
    "Scipp.Props.C138_const",
    "Scipp.Props.C138_isolated"
   ],
   "note": "Attributes, name, variances of masks and failing dtypes are not modelled."
  },
  {
   "property": "C139",
   "status": "proved",
   "theorems": [
    "Scipp.Props.C139_entries",
    "Scipp.Props.C139_fields",
    "Scipp.Props.C139_scalings",
    "Scipp.Props.C139_scalings_count"
   ],
   "note": "One dimension of matrices; arrays of wrong shape are excluded by hypothesis."
  },
  {
   "property": "C14",
   "status": "partial",
   "theorems": [
    "Scipp.Props.C14_wrong_for_broadcast_element",
    "Scipp.Props.C14_in_place_partial",
    "Scipp.Props.C14_in_place_terminates"
   ],
   "note": "False in full (C14_wrong_for_broadcast_element: memory_bounds is empty for a broadcast single element). C14_in_place_partial proves it for all other operands."
  },
  {
   "property": "C15",
   "status": "proved",
   "theorems": [
    "Scipp.Props.C15_chunks_cover",
    "Scipp.Props.C15_parallel_eq_serial"
   ],
   "note": "The per-element sequence of inputs of one transform_data call is a parameter (that is C11/C12); decision logic, chunking, combination and output blocks are modelled."
  },
  {
   "property": "C16",
   "status": "proved",
   "theorems": [
    "Scipp.Props.C16_dict",
    "Scipp.Props.C16_extract",
    "Scipp.Props.C16_initializer"
   ],
   "note": ""
  },
  {
   "property": "C17",
   "status": "partial",
   "theorems": [
    "Scipp.Props.C17_add",
    "Scipp.Props.C17_sub",
    "Scipp.Props.C17_add_intersection",
    "Scipp.Props.C17_sum",
    "Scipp.Props.C17_cumsum_exclusive",
    "Scipp.Props.C17_exclusive_scan_partial",
    "Scipp.Props.C17_exclusive_scan_negative_index",
    "Scipp.Props.C17_scan_list_partial",
    "Scipp.Props.C17_scan_list_loses_trimmed"
   ],
   "note": "All operations proved as functions Int -> Int. exclusive_scan needs an argument that does not begin before the accumulant (otherwise out-of-bounds read, C17_exclusive_scan_negative_index); the scan over a list needs non-decreasing begins and ends (otherwise C17_scan_list_loses_trimmed). Both hold for sorted bin coordinates."
  },
  {
   "property": "C18",
   "status": "proved",
   "theorems": [
    "Scipp.Props.C18_sorted_edges",
    "Scipp.Props.C18_outside",
    "Scipp.Props.C18_linspace",
    "Scipp.Props.C18_two_off_wrong",
    "Scipp.Props.C18_exact_guess"
   ],
   "note": "Edges and values in an arbitrary linear order, NaN modelled for values. std::upper_bound modelled by its contract."
  },
  {
   "property": "C19",
   "status": "partial",
   "theorems": [
    "Scipp.Props.C19_histogram_partial",
    "Scipp.Props.C19_unsorted_rejected",
    "Scipp.Props.C19_unsorted_accepted",
    "Scipp.Props.C19_table"
   ],
   "note": "C19_histogram_partial: totals and per-bin weights proved for every edge list that really is sorted (the linear branch for a rounded guess within one bin of the right one); false in full because the linear test accepts unsorted integer edges (C19_unsorted_accepted). Multi-threaded table histogram proved equal (C19_table). Rounding of float sums not modelled."
  },
  {
   "property": "C20",
   "status": "partial",
   "theorems": [
    "Scipp.Props.C20_binning_partial",
    "Scipp.Props.C20_order_of_input_bins",
    "Scipp.Props.C20_unaligned_edges"
   ],
   "note": "C20_binning_partial: full statement with order 'input bins by decreasing extent of the rebinned dims' (= original order for one rebinned dim; C20_order_of_input_bins otherwise) and for considered ranges that do not decrease (C20_unaligned_edges: out-of-bounds read with 2-D bin edges). Proved for every interleaving of the threads' writes."
  },
  {
   "property": "C21",
   "status": "proved",
   "theorems": [
    "Scipp.Props.C21_chunkwise",
    "Scipp.Props.C21_output",
    "Scipp.Props.C21_choice"
   ],
   "note": ""
  },
  {
   "property": "C22",
   "status": "proved",
   "theorems": [
    "Scipp.Props.C22_two_stage"
   ],
   "note": ""
  },
  {
   "property": "C23",
   "status": "proved",
   "theorems": [
    "Scipp.Props.C23_row_major",
    "Scipp.Props.C23_in_range",
    "Scipp.Props.C23_injective"
   ],
   "note": ""
  },
  {
   "property": "C24",
   "status": "partial",
   "theorems": [
    "Scipp.Props.C24_group",
    "Scipp.Props.C24_duplicates",
    "Scipp.Props.C24_integers_partial",
    "Scipp.Props.C24_duplicates_accepted"
   ],
   "note": "C24_integers_partial: the fast path for consecutive integers is right whenever the labels are distinct; isarange accepts non-ranges with duplicate labels and the fast path then skips the duplicate check (C24_duplicates_accepted)."
  },
  {
   "property": "C25",
   "status": "partial",
   "theorems": [
    "Scipp.Props.C25_relevant_bins",
    "Scipp.Props.C25_build_partial",
    "Scipp.Props.C25_existing",
    "Scipp.Props.C25_wrong_after_group",
    "Scipp.Props.C25_wrong_for_two_scalars",
    "Scipp.Props.C25_negative_size"
   ],
   "note": "Per-bin edge restriction proved (C25_relevant_bins, C25_build_partial when the restricted axis is first or follows axes of one bin); false in full: C25_wrong_after_group, C25_wrong_for_two_scalars."
  },
  {
   "property": "C26",
   "status": "partial",
   "theorems": [
    "Scipp.Props.C26_map",
    "Scipp.Props.C26_map_needs_edges",
    "Scipp.Props.C26_scale",
    "Scipp.Props.C26_unsorted_rejected",
    "Scipp.Props.C26_lookup_previous_partial",
    "Scipp.Props.C26_lookup_nan"
   ],
   "note": "map and scale proved; lookup_previous proved for non-NaN queries, NaN returns the last value instead of fill (C26_lookup_nan)."
  },
  {
   "property": "C27",
   "status": "proved",
   "theorems": [
    "Scipp.Props.C27_overlap",
    "Scipp.Props.C27_conserved",
    "Scipp.Props.C27_descending",
    "Scipp.Props.C27_wrong_for_repeated_edges"
   ],
   "note": ""
  },
  {
   "property": "C28",
   "status": "partial",
   "theorems": [
    "Scipp.Props.C28_non_inner_partial",
    "Scipp.Props.C28_descending_partial",
    "Scipp.Props.C28_wrong_for_nan",
    "Scipp.Props.C28_wrong_without_bins"
   ],
   "note": "Both algorithms proved equal for strictly monotonic edges, at least one old bin and data without NaN; outside of this they differ (C28_wrong_for_nan, C28_wrong_without_bins, C27_wrong_for_repeated_edges). Exact arithmetic."
  },
  {
   "property": "C29",
   "status": "proved",
   "theorems": [
    "Scipp.Props.C29_scan",
    "Scipp.Props.C29_cumsum",
    "Scipp.Props.C29_cumsum_all",
    "Scipp.Props.C29_last",
    "Scipp.Props.C29_cumsum_bins"
   ],
   "note": "Exact arithmetic. The order in which elements are visited is the row-major order established in C11/C13."
  },
  {
   "property": "C30",
   "status": "proved",
   "theorems": [
    "Scipp.Props.C30_add",
    "Scipp.Props.C30_sub",
    "Scipp.Props.C30_mul",
    "Scipp.Props.C30_div",
    "Scipp.Props.C30_neg",
    "Scipp.Props.C30_scalar",
    "Scipp.Props.C30_functions",
    "Scipp.Props.C30_pow_int",
    "Scipp.Props.C30_pow_real",
    "Scipp.Props.C30_correlated",
    "Scipp.Props.C30_not_independent",
    "Scipp.Props.C30_nonneg",
    "Scipp.Props.C30_order",
    "Scipp.Props.C30_min_max"
   ],
   "note": ""
  },
  {
   "property": "C31",
   "status": "proved",
   "theorems": [
    "Scipp.Props.C31_transform",
    "Scipp.Props.C31_transform_bins",
    "Scipp.Props.C31_in_place",
    "Scipp.Props.C31_in_place_bins",
    "Scipp.Props.C31_accepted",
    "Scipp.Props.C31_stricter_than_needed"
   ],
   "note": ""
  },
  {
   "property": "C32",
   "status": "partial",
   "theorems": [
    "Scipp.Props.C32_add",
    "Scipp.Props.C32_none",
    "Scipp.Props.C32_mul",
    "Scipp.Props.C32_mul_fails_iff",
    "Scipp.Props.C32_mul_comm",
    "Scipp.Props.C32_mul_assoc",
    "Scipp.Props.C32_one",
    "Scipp.Props.C32_div_mul",
    "Scipp.Props.C32_mul_div",
    "Scipp.Props.C32_pow_partial",
    "Scipp.Props.C32_pow_one",
    "Scipp.Props.C32_wrong_for_large_powers",
    "Scipp.Props.C32_sqrt",
    "Scipp.Props.C32_sqrt_square",
    "Scipp.Props.C32_sqrt_fails_iff"
   ],
   "note": "Group of base-unit powers with 32-bit powers; false in full because powers wrap (C32_wrong_for_large_powers), proved for powers representable in 32 bits. The multiplier is an exact rational."
  },
  {
   "property": "C33",
   "status": "proved",
   "theorems": [
    "Scipp.Props.C33_dict_flag",
    "Scipp.Props.C33_dict_readonly",
    "Scipp.Props.C33_dict_as_const",
    "Scipp.Props.C33_readonly_error",
    "Scipp.Props.C33_inherited",
    "Scipp.Props.C33_inherited_flatten",
    "Scipp.Props.C33_history",
    "Scipp.Props.C33_view_of_part",
    "Scipp.Props.C33_complete_view",
    "Scipp.Props.C33_fresh_writable"
   ],
   "note": "Heap model with buffers shared by views; proved for all histories of operations. Elements are written by position, the dtype is not modelled."
  },
  {
   "property": "C34",
   "status": "partial",
   "theorems": [
    "Scipp.Props.C34_variable_partial",
    "Scipp.Props.C34_dry_run_is_faithful",
    "Scipp.Props.C34_data_array_variable_partial",
    "Scipp.Props.C34_set_slice_variable",
    "Scipp.Props.C34_masks_checked",
    "Scipp.Props.C34_data_array_partial",
    "Scipp.Props.C34_dataset_partial",
    "Scipp.Props.C34_dataset_variable_partial",
    "Scipp.Props.C34_dataset_set_slice_partial",
    "Scipp.Props.C34_wrong_for_data_array",
    "Scipp.Props.C34_wrong_for_masks",
    "Scipp.Props.C34_wrong_for_dataset_masks",
    "Scipp.Props.C34_wrong_for_aliases",
    "Scipp.Props.C34_wrong_for_bins",
    "Scipp.Props.C34_wrong_for_set_slice_variable",
    "Scipp.Props.C34_wrong_for_set_slice",
    "Scipp.Props.C34_coords_checked",
    "Scipp.Props.C34_coords_accepted",
    "Scipp.Props.C34_dataset_coords_checked",
    "Scipp.Props.C34_set_slice_masks_checked",
    "Scipp.Props.C34_set_slice_masks",
    "Scipp.Props.C34_array_set_slice_partial",
    "Scipp.Props.C34_dataset_set_slice_masks_partial",
    "Scipp.Props.C34_slice_ref"
   ],
   "note": "False in full, seven kinds of operations throw after modifying (C34_wrong_for_*). Proved: single variables, data arrays and datasets when masks fit and items do not alias, setSlice for variables, data arrays and datasets including masks; coords and masks that do not fit are rejected before anything is modified."
  },
  {
   "property": "C35",
   "status": "partial",
   "theorems": [
    "Scipp.Props.C35_merge_from",
    "Scipp.Props.C35_meta",
    "Scipp.Props.C35_erase",
    "Scipp.Props.C35_set_iff",
    "Scipp.Props.C35_set_readonly",
    "Scipp.Props.C35_operation",
    "Scipp.Props.C35_history_partial",
    "Scipp.Props.C35_construct",
    "Scipp.Props.C35_construct_auto",
    "Scipp.Props.C35_auto_sizes",
    "Scipp.Props.C35_auto_accepted",
    "Scipp.Props.C35_set_sizes_partial",
    "Scipp.Props.C35_wrong_for_set_sizes",
    "Scipp.Props.C35_wrong_for_rename_unknown"
   ],
   "note": "All operations but setSizes and rename of unknown dims (C35_wrong_for_set_sizes, C35_wrong_for_rename_unknown); C35_set_sizes_partial under the condition that no new dim is an extra dim of an entry."
  },
  {
   "property": "C36",
   "status": "proved",
   "theorems": [
    "Scipp.Props.C36_fails_iff",
    "Scipp.Props.C36_result",
    "Scipp.Props.C36_aligned_survives",
    "Scipp.Props.C36_order_independent",
    "Scipp.Props.C36_intersection"
   ],
   "note": ""
  },
  {
   "property": "C37",
   "status": "proved",
   "theorems": [
    "Scipp.Props.C37_new_mask_is_a_copy",
    "Scipp.Props.C37_union_succeeds_iff",
    "Scipp.Props.C37_union",
    "Scipp.Props.C37_in_place_succeeds_iff",
    "Scipp.Props.C37_in_place"
   ],
   "note": ""
  },
  {
   "property": "C38",
   "status": "partial",
   "theorems": [
    "Scipp.Props.C38_sum",
    "Scipp.Props.C38_nansum",
    "Scipp.Props.C38_any",
    "Scipp.Props.C38_all",
    "Scipp.Props.C38_max",
    "Scipp.Props.C38_min",
    "Scipp.Props.C38_nanmax",
    "Scipp.Props.C38_nanmin",
    "Scipp.Props.C38_max_is_maximum_partial",
    "Scipp.Props.C38_min_is_minimum_partial",
    "Scipp.Props.C38_wrong_for_minus_infinity",
    "Scipp.Props.C38_fully_masked",
    "Scipp.Props.C38_mean",
    "Scipp.Props.C38_mean_reorders_dims",
    "Scipp.Props.C38_sum_all"
   ],
   "note": "Missing: rows of -inf only for max (C38_wrong_for_minus_infinity), rows without unmasked element (C38_fully_masked), order of dims of mean (C38_mean_reorders_dims). Exact arithmetic."
  },
  {
   "property": "C39",
   "status": "partial",
   "theorems": [
    "Scipp.Props.C39_groups_partial",
    "Scipp.Props.C39_wrong_for_nan",
    "Scipp.Props.C39_reduce",
    "Scipp.Props.C39_sum"
   ],
   "note": "Missing: NaN of different representation form several groups (C39_wrong_for_nan). std::sort and the hash map by contract."
  },
  {
   "property": "C40",
   "status": "proved",
   "theorems": [
    "Scipp.Props.C40_groups",
    "Scipp.Props.C40_unsorted"
   ],
   "note": ""
  },
  {
   "property": "C41",
   "status": "partial",
   "theorems": [
    "Scipp.Props.C41_strict_weak",
    "Scipp.Props.C41_sort_partial",
    "Scipp.Props.C41_wrong_length",
    "Scipp.Props.C41_descending_nan_first",
    "Scipp.Props.C41_dataset_out_of_bounds",
    "Scipp.Props.C41_dataset_loses_slices"
   ],
   "note": "Missing: NaN in coords not depending on the dim (C42_wrong_for_nan) and datasets, where the length of the key is not checked (C41_dataset_out_of_bounds, C41_dataset_loses_slices)."
  },
  {
   "property": "C42",
   "status": "partial",
   "theorems": [
    "Scipp.Props.C42_extract_partial",
    "Scipp.Props.C42_wrong_length",
    "Scipp.Props.C42_extract_binned",
    "Scipp.Props.C42_wrong_for_nan"
   ],
   "note": "Missing: NaN in a coord, mask or attr not depending on the dim (C42_wrong_for_nan)."
  },
  {
   "property": "C43",
   "status": "partial",
   "theorems": [
    "Scipp.Props.C43_concat",
    "Scipp.Props.C43_concat_succeeds",
    "Scipp.Props.C43_unit",
    "Scipp.Props.C43_slice",
    "Scipp.Props.C43_join_edges_partial",
    "Scipp.Props.C43_join_edges",
    "Scipp.Props.C43_data_array_partial",
    "Scipp.Props.C43_wrong_for_empty_edges",
    "Scipp.Props.C43_wrong_for_scalar_coord",
    "Scipp.Props.C43_unit_of_empty_input",
    "Scipp.Props.C43_sizes_partial",
    "Scipp.Props.C43_wrong_sizes_empty_first",
    "Scipp.Props.C43_wrong_sizes_not_compared"
   ],
   "note": "Variables in full (content, units, success, slicing back). Joining edges needs at least one bin per input (C43_wrong_for_empty_edges); data arrays need coords that depend on the dim in all inputs alike (C43_wrong_for_scalar_coord). Sizes of datasets without items: C43_sizes_partial needs at least one slice in the first (C43_wrong_sizes_empty_first)."
  },
  {
   "property": "C44",
   "status": "proved",
   "theorems": [
    "Scipp.Props.C44_slice_succeeds",
    "Scipp.Props.C44_no_edges",
    "Scipp.Props.C44_edges",
    "Scipp.Props.C44_alignment"
   ],
   "note": ""
  },
  {
   "property": "C45",
   "status": "partial",
   "theorems": [
    "Scipp.Props.C45_range_points",
    "Scipp.Props.C45_range_edges",
    "Scipp.Props.C45_overlap_partial",
    "Scipp.Props.C45_point",
    "Scipp.Props.C45_bin",
    "Scipp.Props.C45_checks_labels",
    "Scipp.Props.C45_requires_sorted",
    "Scipp.Props.C45_wrong_for_empty_interval",
    "Scipp.Props.C45_wrong_for_nan",
    "Scipp.Props.C45_throws_for_constant",
    "Scipp.Props.C45_throws_for_reversed_interval"
   ],
   "note": "Points and single bins in full; for ranges of bins the interval must not be empty (C45_wrong_for_empty_interval). NaN labels: C45_wrong_for_nan."
  },
  {
   "property": "C46",
   "status": "partial",
   "theorems": [
    "Scipp.Props.C46_floor_divide_partial",
    "Scipp.Props.C46_wrong_beyond_2_53",
    "Scipp.Props.C46_by_zero",
    "Scipp.Props.C46_integer_pow",
    "Scipp.Props.C46_pow"
   ],
   "note": "C46_floor_divide_partial for |a|,|b| < 2^53; beyond, division goes through double and is wrong (C46_wrong_beyond_2_53)."
  },
  {
   "property": "C47",
   "status": "partial",
   "theorems": [
    "Scipp.Props.C47_copy_partial",
    "Scipp.Props.C47_wrong_for_nan",
    "Scipp.Props.C47_copy_into_sizes",
    "Scipp.Props.C47_contiguous_indices"
   ],
   "note": "Missing: NaN in a coord or mask of the buffer not depending on the bin dim (C47_wrong_for_nan)."
  },
  {
   "property": "C48",
   "status": "partial",
   "theorems": [
    "Scipp.Props.C48_combine",
    "Scipp.Props.C48_append_partial",
    "Scipp.Props.C48_append_wrong_for_transposed",
    "Scipp.Props.C48_concatenate_dim"
   ],
   "note": "concat of bins in full; append requires a target stored in the order of its dims (C48_append_wrong_for_transposed)."
  },
  {
   "property": "C49",
   "status": "partial",
   "theorems": [
    "Scipp.Props.C49_flatten_edges_partial",
    "Scipp.Props.C49_fold_back",
    "Scipp.Props.C49_flatten_folded",
    "Scipp.Props.C49_flatten_plain",
    "Scipp.Props.C49_wrong_for_outer_edge",
    "Scipp.Props.C49_wrong_for_other_dims",
    "Scipp.Props.C49_drops_for_other_dims",
    "Scipp.Props.C49_throws_for_empty",
    "Scipp.Props.C49_drops_nan"
   ],
   "note": "Flattening needs edges along the innermost flattened dim and no further dims (C49_wrong_for_outer_edge, C49_wrong_for_other_dims), folding proved."
  },
  {
   "property": "C50",
   "status": "partial",
   "theorems": [
    "Scipp.Props.C50_isarange_accepts_zigzag",
    "Scipp.Props.C50_islinspace_accepts_zigzag",
    "Scipp.Props.C50_isarange_iff",
    "Scipp.Props.C50_isarange_partial",
    "Scipp.Props.C50_islinspace_int_partial",
    "Scipp.Props.C50_islinspace_float",
    "Scipp.Props.C50_short",
    "Scipp.Props.C50_islinspace_accepts"
   ],
   "note": "False in full for integer input (adjacent_find with |b-a|: zigzag accepted, C50_*_accepts_zigzag). Exact characterisation of what is accepted proved, and the claim under no sign change."
  },
  {
   "property": "C51",
   "status": "proved",
   "theorems": [
    "Scipp.Props.C51_ranges_partition"
   ],
   "note": ""
  },
  {
   "property": "C52",
   "status": "proved",
   "theorems": [
    "Scipp.Props.C52_write_seen",
    "Scipp.Props.C52_frame",
    "Scipp.Props.C52_shallow",
    "Scipp.Props.C52_deep",
    "Scipp.Props.C52_family",
    "Scipp.Props.C52_independent"
   ],
   "note": ""
  },
  {
   "property": "C53",
   "status": "proved",
   "theorems": [
    "Scipp.Props.C53_operation",
    "Scipp.Props.C53_stays_valid",
    "Scipp.Props.C53_history",
    "Scipp.Props.C53_start",
    "Scipp.Props.C53_conflict",
    "Scipp.Props.C53_insert",
    "Scipp.Props.C53_item",
    "Scipp.Props.C53_wrong_for_unaligned",
    "Scipp.Props.C53_item_loses_edges",
    "Scipp.Props.C53_wrong_for_default",
    "Scipp.Props.C53_erase"
   ],
   "note": ""
  },
  {
   "property": "C54",
   "status": "proved",
   "theorems": [
    "Scipp.Props.C54_equal_iff",
    "Scipp.Props.C54_equals_nan_iff",
    "Scipp.Props.C54_layout",
    "Scipp.Props.C54_symmetric",
    "Scipp.Props.C54_transitive",
    "Scipp.Props.C54_equals_nan_element",
    "Scipp.Props.C54_equals_nan_element_iff",
    "Scipp.Props.C54_wrong_for_nan",
    "Scipp.Props.C54_dict_iff",
    "Scipp.Props.C54_dict_order",
    "Scipp.Props.C54_dict_symmetric",
    "Scipp.Props.C54_dict_reflexive",
    "Scipp.Props.C54_dict_transitive",
    "Scipp.Props.C54_sizes",
    "Scipp.Props.C54_data_array_iff",
    "Scipp.Props.C54_dataset_iff"
   ],
   "note": ""
  },
  {
   "property": "C55",
   "status": "partial",
   "theorems": [
    "Scipp.Props.C55_set_variances_partial",
    "Scipp.Props.C55_wrong_for_slice",
    "Scipp.Props.C55_wrong_for_broadcast",
    "Scipp.Props.C55_wrong_for_transposed"
   ],
   "note": "Holds if the argument is laid out like the target; otherwise C55_wrong_for_slice, _broadcast, _transposed."
  },
  {
   "property": "C56",
   "status": "partial",
   "theorems": [
    "Scipp.Props.C56_every_item_once_partial",
    "Scipp.Props.C56_wrong_for_shared_buffer"
   ],
   "note": "Holds if items refer to different objects; otherwise C56_wrong_for_shared_buffer."
  },
  {
   "property": "C57",
   "status": "partial",
   "theorems": [
    "Scipp.Props.C57_reduce_partial",
    "Scipp.Props.C57_reduce_runs_partial",
    "Scipp.Props.C57_reduce_missing_dim",
    "Scipp.Props.C57_reduce_all",
    "Scipp.Props.C57_reduce_all_runs",
    "Scipp.Props.C57_wrong_for_broadcast"
   ],
   "note": "Holds unless the input is broadcast along the reduced dim and this dim is the second-innermost of at least three: then flatten_dims merges it with the innermost dim, giving wrong values and out-of-bounds writes (C57_wrong_for_broadcast). Reducing all dims is always right. Threaded branches of do_accumulate: C15. Operations over exact values."
  },
  {
   "property": "C58",
   "status": "partial",
   "theorems": [
    "Scipp.Props.C58_slice",
    "Scipp.Props.C58_step",
    "Scipp.Props.C58_int",
    "Scipp.Props.C58_missing_dim",
    "Scipp.Props.C58_implicit_dim",
    "Scipp.Props.C58_list_partial",
    "Scipp.Props.C58_list_out_of_range"
   ],
   "note": "C58_list_partial inherits the limitation of C42: data arrays with NaN in a coord, mask or attr not depending on the dim make extract_ranges throw. Integers and slices are proved in full."
  },
  {
   "property": "C59",
   "status": "partial",
   "theorems": [
    "Scipp.Props.C59_monotone",
    "Scipp.Props.C59_exact_partial",
    "Scipp.Props.C59_wrong_for_large",
    "Scipp.Props.C59_nearest_partial",
    "Scipp.Props.C59_overflow",
    "Scipp.Props.C59_tie",
    "Scipp.Props.C59_refused",
    "Scipp.Props.C59_elementwise"
   ],
   "note": "False in full: round<int64_t> adds 0.5 in double, so results of 2^52 and more are changed (C59_wrong_for_large). Exact below 2^52, nearest up to a relative error of 2^-50 for other factors, monotone for all magnitudes."
  },
  {
   "property": "C60",
   "status": "proved",
   "theorems": [
    "Scipp.Props.C60_field",
    "Scipp.Props.C60_elements",
    "Scipp.Props.C60_write",
    "Scipp.Props.C60_slice_commutes",
    "Scipp.Props.C60_matrix_offsets",
    "Scipp.Props.C60_vector_offsets",
    "Scipp.Props.C60_matrix_array",
    "Scipp.Props.C60_unzip_zip"
   ],
   "note": ""
  },
  {
   "property": "C61",
   "status": "partial",
   "theorems": [
    "Scipp.Props.C61_apply_partial",
    "Scipp.Props.C61_compose_partial",
    "Scipp.Props.C61_inverse_partial",
    "Scipp.Props.C61_assoc_partial",
    "Scipp.Props.C61_inverse_unit_partial",
    "Scipp.Props.C61_unit_mismatch",
    "Scipp.Props.C61_wrong_affine_linear",
    "Scipp.Props.C61_wrong_unnormalized",
    "Scipp.Props.C61_wrong_linear_unit"
   ],
   "note": "Proved for normalized quaternions, linear transformations without unit and all pairs of types but affine * linear, where the code differs (Eigen's operators are taken from its documentation)."
  },
  {
   "property": "C62",
   "status": "partial",
   "theorems": [
    "Scipp.Props.C62_subspan_view",
    "Scipp.Props.C62_as_contiguous",
    "Scipp.Props.C62_rows",
    "Scipp.Props.C62_sort_partial",
    "Scipp.Props.C62_sort_refused",
    "Scipp.Props.C62_issorted",
    "Scipp.Props.C62_allsorted",
    "Scipp.Props.C62_sorted_after_sort",
    "Scipp.Props.C62_wrong_nan"
   ],
   "note": "sort(var, dim) is proved where it does not raise: dims inside of dim have total length one; elements must be strictly weakly ordered (no NaN)."
  },
  {
   "property": "C63",
   "status": "partial",
   "theorems": [
    "Scipp.Props.C63_labels_partial",
    "Scipp.Props.C63_separate_labels",
    "Scipp.Props.C63_one_thread",
    "Scipp.Props.C63_wrong_with_race",
    "Scipp.Props.C63_limit",
    "Scipp.Props.C63_all_constructed"
   ],
   "note": "Proved for one thread, for threads without common new labels, and for all executions in which no two threads are about to register the same label. False otherwise (C63_wrong_with_race). The mutex makes sections atomic by assumption."
  },
  {
   "property": "C64",
   "status": "partial",
   "theorems": [
    "Scipp.Props.C64_assign_partial",
    "Scipp.Props.C64_assign_foreign",
    "Scipp.Props.C64_shape_checked",
    "Scipp.Props.C64_slices_in_order",
    "Scipp.Props.C64_fresh_in_order",
    "Scipp.Props.C64_wrong_for_transposed"
   ],
   "note": "proved for variables whose dims are in memory order, and for all variables if the array does not refer to their memory; false for transposed variables and matrices (C64_wrong_for_transposed)"
  },
  {
   "property": "C65",
   "status": "partial",
   "theorems": [
    "Scipp.Props.C65_max_partial",
    "Scipp.Props.C65_min_partial",
    "Scipp.Props.C65_nanmax_partial",
    "Scipp.Props.C65_wrong_for_infinity",
    "Scipp.Props.C65_nansum_partial",
    "Scipp.Props.C65_sum",
    "Scipp.Props.C65_nanmean_partial",
    "Scipp.Props.C65_wrong_for_nansum",
    "Scipp.Props.C65_along_partial",
    "Scipp.Props.C65_wrong_for_scalar"
   ],
   "note": "sum proved; the others under the stated conditions: an element above the lowest finite number (max, nanmax), below the largest (min, nanmin), infinities of one sign only (nansum, nanmean); otherwise false (C65_wrong_for_infinity, C65_wrong_for_nansum, C65_wrong_for_scalar)"
  },
  {
   "property": "C66",
   "status": "partial",
   "theorems": [
    "Scipp.Props.C66_finite",
    "Scipp.Props.C66_nan",
    "Scipp.Props.C66_infinite_partial",
    "Scipp.Props.C66_wrong_for_infinity",
    "Scipp.Props.C66_reflexive",
    "Scipp.Props.C66_variances",
    "Scipp.Props.C66_units"
   ],
   "note": "false if the second argument is infinite and rtol is not zero (C66_wrong_for_infinity); all other cases proved"
  },
  {
   "property": "C67",
   "status": "partial",
   "theorems": [
    "Scipp.Props.C67_pow",
    "Scipp.Props.C67_type_partial",
    "Scipp.Props.C67_only_output",
    "Scipp.Props.C67_out_partial",
    "Scipp.Props.C67_wrong_for_integers",
    "Scipp.Props.C67_error_partial",
    "Scipp.Props.C67_succeeds",
    "Scipp.Props.C67_wrong_integer_example",
    "Scipp.Props.C67_wrong_for_exponent",
    "Scipp.Props.C67_wrong_after_error",
    "Scipp.Props.C67_wrong_for_int32",
    "Scipp.Props.C67_wrong_type"
   ],
   "note": "Into an existing variable the claim fails for integer outputs with floating-point exponents, for the exponent as output, and after errors concerning the unit (witnesses). Partial theorems exclude exactly these. Rounding, overflow, slices as output and binned data are not modelled."
  },
  {
   "property": "C68",
   "status": "partial",
   "theorems": [
    "Scipp.Props.C68_density",
    "Scipp.Props.C68_round_trip",
    "Scipp.Props.C68_round_trip_partial",
    "Scipp.Props.C68_other_units",
    "Scipp.Props.C68_dataset_partial",
    "Scipp.Props.C68_dataset_only_items",
    "Scipp.Props.C68_widths_iff",
    "Scipp.Props.C68_to_density_iff",
    "Scipp.Props.C68_from_density_iff",
    "Scipp.Props.C68_wrong_for_dataset",
    "Scipp.Props.C68_wrong_after_error",
    "Scipp.Props.C68_wrong_for_counts",
    "Scipp.Props.C68_wrong_for_cancelling"
   ],
   "note": "Round trip proved for data arrays and coords without counts in their units; datasets are converted in place and the round trip fails for other units (witnesses)."
  },
  {
   "property": "C69",
   "status": "partial",
   "theorems": [
    "Scipp.Props.C69_sum",
    "Scipp.Props.C69_nansum",
    "Scipp.Props.C69_any",
    "Scipp.Props.C69_all",
    "Scipp.Props.C69_max",
    "Scipp.Props.C69_min",
    "Scipp.Props.C69_bins_mean",
    "Scipp.Props.C69_mean_partial",
    "Scipp.Props.C69_wrong_for_mean",
    "Scipp.Props.C69_wrong_for_variable",
    "Scipp.Props.C69_mean_no_events",
    "Scipp.Props.C69_sum_all",
    "Scipp.Props.C69_mean_all",
    "Scipp.Props.C69_mean_array_all",
    "Scipp.Props.C69_wrong_for_empty"
   ],
   "note": "mean along a dim is proved without bin masks depending on the dim; with such masks the code throws (C69_wrong_for_mean). Everything else, including the mean over all dims with bin masks, is proved in full."
  },
  {
   "property": "C70",
   "status": "partial",
   "theorems": [
    "Scipp.Props.C70_iso_partial",
    "Scipp.Props.C70_date",
    "Scipp.Props.C70_distinct",
    "Scipp.Props.C70_wrong_before_1970",
    "Scipp.Props.C70_wrong_far_future",
    "Scipp.Props.C70_other_units",
    "Scipp.Props.C70_array_short",
    "Scipp.Props.C70_array_long"
   ],
   "note": "Full statement for time points from 1970 on and for whole seconds before, within the range of the system clock; fails for fractional seconds before 1970 (C70_wrong_before_1970) and outside the clock's range (C70_wrong_far_future)."
  },
  {
   "property": "C71",
   "status": "partial",
   "theorems": [
    "Scipp.Props.C71_values_partial",
    "Scipp.Props.C71_wrong_input_modified",
    "Scipp.Props.C71_others_unchanged",
    "Scipp.Props.C71_out_partial",
    "Scipp.Props.C71_out_succeeds",
    "Scipp.Props.C71_wrong_chained",
    "Scipp.Props.C71_wrong_out_combined",
    "Scipp.Props.C71_wrong_out_none"
   ],
   "note": "The returned elements are right unless replacements are infinite (C71_wrong_chained); but the input is modified (C71_wrong_input_modified), and with out only one replacement works (C71_wrong_out_combined, C71_wrong_out_none)."
  },
  {
   "property": "C72",
   "status": "proved",
   "theorems": [
    "Scipp.Props.C72_accepted_iff",
    "Scipp.Props.C72_refused",
    "Scipp.Props.C72_at_most_one_bin",
    "Scipp.Props.C72_begin_end",
    "Scipp.Props.C72_begin_only",
    "Scipp.Props.C72_begin_only_succeeds",
    "Scipp.Props.C72_default"
   ],
   "note": ""
  },
  {
   "property": "C73",
   "status": "proved",
   "theorems": [
    "Scipp.Props.C73_int",
    "Scipp.Props.C73_int_swapped_iff",
    "Scipp.Props.C73_float",
    "Scipp.Props.C73_midpoints",
    "Scipp.Props.C73_refused",
    "Scipp.Props.C73_dim_deduced",
    "Scipp.Props.C73_sorted"
   ],
   "note": "Full. Floating-point rounding is not modelled; the branch for one tiny and one huge argument is shown to be off by at most the smallest normal number."
  },
  {
   "property": "C74",
   "status": "partial",
   "theorems": [
    "Scipp.Props.C74_order_partial",
    "Scipp.Props.C74_wrong_order",
    "Scipp.Props.C74_content",
    "Scipp.Props.C74_wrong_variances_length",
    "Scipp.Props.C74_python"
   ],
   "note": "Content in full for consistent arguments. Order independence (C74_order_partial) excludes labels with an empty shape and a shape with empty labels (C74_wrong_order). Conversion of dtype and unit and structured element types are not modelled."
  },
  {
   "property": "C75",
   "status": "partial",
   "theorems": [
    "Scipp.Props.C75_assign_partial",
    "Scipp.Props.C75_programs_partial",
    "Scipp.Props.C75_refused_iff",
    "Scipp.Props.C75_refused",
    "Scipp.Props.C75_programs",
    "Scipp.Props.C75_check_ends",
    "Scipp.Props.C75_wrong_slice"
   ],
   "note": "Partial: array ownership is acyclic only in programs without slices; a slice of a variable may be assigned to one of its other elements (C75_wrong_slice). Visibility of elements is acyclic in all programs (C75_programs)."
  },
  {
   "property": "C76",
   "status": "partial",
   "theorems": [
    "Scipp.Props.C76_content_partial",
    "Scipp.Props.C76_wrong_copy_assign",
    "Scipp.Props.C76_wrong_self_move",
    "Scipp.Props.C76_wrong_minus_one"
   ],
   "note": "Partial: three operations are excepted, for which the code deviates (copy assignment from an array that is not set, self-move, size -1); shown by the C76_wrong_ theorems."
  },
  {
   "property": "C77",
   "status": "partial",
   "theorems": [
    "Scipp.Props.C77_dims",
    "Scipp.Props.C77_dims_table",
    "Scipp.Props.C77_coords",
    "Scipp.Props.C77_masks",
    "Scipp.Props.C77_attrs",
    "Scipp.Props.C77_masks_partial",
    "Scipp.Props.C77_hidden",
    "Scipp.Props.C77_fits",
    "Scipp.Props.C77_requires",
    "Scipp.Props.C77_succeeds",
    "Scipp.Props.C77_wrong_mask_lost",
    "Scipp.Props.C77_wrong_mask_applied_and_kept",
    "Scipp.Props.C77_wrong_edges_ignored",
    "Scipp.Props.C77_wrong_attr_and_coord"
   ],
   "note": "Dimensions, coords, masks and attrs of the result are characterised. The claim that every mask is kept or applied fails if the event dimension has the name of an outer dimension (C77_wrong_mask_lost), hence partial."
  },
  {
   "property": "C78",
   "status": "proved",
   "theorems": [
    "Scipp.Props.C78_bin",
    "Scipp.Props.C78_table",
    "Scipp.Props.C78_once",
    "Scipp.Props.C78_successive",
    "Scipp.Props.C78_rebin",
    "Scipp.Props.C78_finer_first"
   ],
   "note": "The coords and dims of the output are the subject of C77. Excluded: several rebinned dimensions with bin edges (the order of the input bins and the considered ranges, see C20 and C25); duplicate labels (C24); zero-width input bins."
  },
  {
   "property": "C79",
   "status": "partial",
   "theorems": [
    "Scipp.Props.C79_datasets",
    "Scipp.Props.C79_datasets_error",
    "Scipp.Props.C79_datasets_iff",
    "Scipp.Props.C79_coords_partial",
    "Scipp.Props.C79_conflict_partial",
    "Scipp.Props.C79_disjoint",
    "Scipp.Props.C79_no_items",
    "Scipp.Props.C79_readonly_coords",
    "Scipp.Props.C79_dataset_array",
    "Scipp.Props.C79_array_dataset",
    "Scipp.Props.C79_dataset_var",
    "Scipp.Props.C79_var_dataset",
    "Scipp.Props.C79_arrays",
    "Scipp.Props.C79_array_var",
    "Scipp.Props.C79_merge_partial",
    "Scipp.Props.C79_merge_no_items",
    "Scipp.Props.C79_merge_items",
    "Scipp.Props.C79_merge_conflict",
    "Scipp.Props.C79_merge_wrong_unaligned",
    "Scipp.Props.C79_merge_wrong_other_coord",
    "Scipp.Props.C79_merge_wrong_other_dim"
   ],
   "note": "partial because the code disagrees with the claim: without common items coords are neither compared nor kept (C79_disjoint, C79_no_items), merge fails for unaligned coords that differ and for shared items with further coords (C79_merge_wrong_*). Everything else is proved for all inputs; the operation on the data and the combination of masks are parameters."
  },
  {
   "property": "C80",
   "status": "proved",
   "theorems": [
    "Scipp.Props.C80_dataset",
    "Scipp.Props.C80_variable",
    "Scipp.Props.C80_volume",
    "Scipp.Props.C80_order",
    "Scipp.Props.C80_all",
    "Scipp.Props.C80_array"
   ],
   "note": "Names of data arrays are not modelled."
  },
  {
   "property": "C81",
   "status": "partial",
   "theorems": [
    "Scipp.Props.C81_accepts",
    "Scipp.Props.C81_consistent",
    "Scipp.Props.C81_item_partial",
    "Scipp.Props.C81_item_loses_edges"
   ],
   "note": "Commutation is proved for all coords except those with bin edges along a dim sliced at one position, for which the code violates it (C81_item_loses_edges)."
  },
  {
   "property": "C82",
   "status": "partial",
   "theorems": [
    "Scipp.Props.C82_array",
    "Scipp.Props.C82_array_ok",
    "Scipp.Props.C82_array_back",
    "Scipp.Props.C82_dataset",
    "Scipp.Props.C82_dataset_ok",
    "Scipp.Props.C82_item",
    "Scipp.Props.C82_transpose_accepts",
    "Scipp.Props.C82_transpose_array",
    "Scipp.Props.C82_transpose_back",
    "Scipp.Props.C82_transpose_dataset_partial",
    "Scipp.Props.C82_transpose_loses"
   ],
   "note": "Proved for data arrays and for renaming of datasets; partial because transposing a dataset loses coords (C82_transpose_loses), which is what the code does. Names of data arrays (dropped by DataArray::rename_dims) are not modelled."
  },
  {
   "property": "C83",
   "status": "partial",
   "theorems": [
    "Scipp.Props.C83_representable",
    "Scipp.Props.C83_exact",
    "Scipp.Props.C83_binned",
    "Scipp.Props.C83_dense_partial",
    "Scipp.Props.C83_dense_wrong_bin",
    "Scipp.Props.C83_dense_loses_event",
    "Scipp.Props.C83_label_overflow"
   ],
   "note": "Proved for binned data; partial because dense data with more than 2^31 - 1 output bins gets wrong bins (C83_dense_wrong_bin, C83_dense_loses_event), and because `x - offset` can overflow (C83_label_overflow). Axes without groups (extent 0) are excluded."
  },
  {
   "property": "C84",
   "status": "partial",
   "theorems": [
    "Scipp.Props.C84_values_partial",
    "Scipp.Props.C84_variances_partial",
    "Scipp.Props.C84_variances_outer",
    "Scipp.Props.C84_layout_partial",
    "Scipp.Props.C84_masked_partial",
    "Scipp.Props.C84_unit_ignored",
    "Scipp.Props.C84_variance_depends_on_layout",
    "Scipp.Props.C84_types",
    "Scipp.Props.C84_mask_changes_order"
   ],
   "note": "Values are proved for every layout, order of dims and masks. Variances, unit checks, supported types and the order of dims depend on the layout in the code, with witnesses."
  },
  {
   "property": "C85",
   "status": "partial",
   "theorems": [
    "Scipp.Props.C85_dense_partial",
    "Scipp.Props.C85_binned",
    "Scipp.Props.C85_edges_out_of_bounds"
   ],
   "note": "Proved for dense and binned data, except that for dense data the coord must not be a bin-edge coord: this is detected only if the coord has the name of the dim, with a witness for the read beyond the end."
  },
  {
   "property": "C86",
   "status": "partial",
   "theorems": [
    "Scipp.Props.C86_kept",
    "Scipp.Props.C86_succeeds_iff",
    "Scipp.Props.C86_succeeds",
    "Scipp.Props.C86_all_dims",
    "Scipp.Props.C86_rebin",
    "Scipp.Props.C86_histogram_partial",
    "Scipp.Props.C86_dataset_partial",
    "Scipp.Props.C86_dataset_loses",
    "Scipp.Props.C86_leftover_edges",
    "Scipp.Props.C86_attr_conflict"
   ],
   "note": "Proved for data arrays. Histograms need the absence of leftover edges of the new dim, and datasets need items, with witnesses."
  },
  {
   "property": "C87",
   "status": "partial",
   "theorems": [
    "Scipp.Props.C87_succeeds",
    "Scipp.Props.C87_items",
    "Scipp.Props.C87_parts_partial",
    "Scipp.Props.C87_coord_names",
    "Scipp.Props.C87_no_items_partial",
    "Scipp.Props.C87_no_items_flags",
    "Scipp.Props.C87_wrong_array_flags",
    "Scipp.Props.C87_wrong_flags",
    "Scipp.Props.C87_wrong_example",
    "Scipp.Props.C87_wrong_edges_lost",
    "Scipp.Props.C87_wrong_for_empty",
    "Scipp.Props.C87_joined_edges"
   ],
   "note": "Items, names and success proved outright. Contents need the same dependence on the dim in all inputs (as C43). Alignment flags and edges of absent dims are lost, with witnesses."
  },
  {
   "property": "C88",
   "status": "partial",
   "theorems": [
    "Scipp.Props.C88_datetimes",
    "Scipp.Props.C88_integers",
    "Scipp.Props.C88_dtype",
    "Scipp.Props.C88_instants_partial",
    "Scipp.Props.C88_astype",
    "Scipp.Props.C88_set",
    "Scipp.Props.C88_wrong_list",
    "Scipp.Props.C88_wrong_dimensionless",
    "Scipp.Props.C88_wrong_sizes",
    "Scipp.Props.C88_wrong_nat"
   ],
   "note": "Acceptance, dtype, unit and numbers proved as equivalences. Instants are exact within the limits of C59. Lists of datetimes, NaT, unit='dimensionless' and small integers deviate, with witnesses."
  },
  {
   "property": "C89",
   "status": "partial",
   "theorems": [
    "Scipp.Props.C89_dtype",
    "Scipp.Props.C89_integers",
    "Scipp.Props.C89_floor_division",
    "Scipp.Props.C89_integer_remainder_partial",
    "Scipp.Props.C89_integer_remainder_defined",
    "Scipp.Props.C89_wrong_remainder_overflow",
    "Scipp.Props.C89_floats",
    "Scipp.Props.C89_remainder",
    "Scipp.Props.C89_commutes",
    "Scipp.Props.C89_in_place_types_partial",
    "Scipp.Props.C89_in_place",
    "Scipp.Props.C89_datetimes",
    "Scipp.Props.C89_datetimes_only",
    "Scipp.Props.C89_wrong_wraps",
    "Scipp.Props.C89_wrong_bool",
    "Scipp.Props.C89_wrong_floor_divide"
   ],
   "note": "Types, exactness, in place versus out of place and datetimes proved for all values. The lists of pairs deviate for bool, for floor division in place and by wrapping to 32 bits, with witnesses."
  },
  {
   "property": "C90",
   "status": "partial",
   "theorems": [
    "Scipp.Props.C90_value_partial",
    "Scipp.Props.C90_variance_partial",
    "Scipp.Props.C90_wrong_zero",
    "Scipp.Props.C90_unit_partial",
    "Scipp.Props.C90_wrong_none"
   ],
   "note": "Proved for all values and units except quotients of zeros and products and quotients without unit, where the code deviates, with witnesses."
  },
  {
   "property": "C91",
   "status": "partial",
   "theorems": [
    "Scipp.Props.C91_values_when",
    "Scipp.Props.C91_values",
    "Scipp.Props.C91_variances_when",
    "Scipp.Props.C91_variances",
    "Scipp.Props.C91_remove",
    "Scipp.Props.C91_atomic_partial",
    "Scipp.Props.C91_wrong_half_done",
    "Scipp.Props.C91_scalar"
   ],
   "note": "Everything proved except that a failing assignment of variances changes nothing if there were none before, which is false: `C91_wrong_half_done`."
  },
  {
   "property": "C92",
   "status": "partial",
   "theorems": [
    "Scipp.Props.C92_type",
    "Scipp.Props.C92_mean_partial",
    "Scipp.Props.C92_wrong_mean_without_unit",
    "Scipp.Props.C92_wrong_nanmean_bool",
    "Scipp.Props.C92_all_dims_partial",
    "Scipp.Props.C92_wrong_scalar",
    "Scipp.Props.C92_work_type",
    "Scipp.Props.C92_sum_exact",
    "Scipp.Props.C92_sum_partial",
    "Scipp.Props.C92_sum_bool",
    "Scipp.Props.C92_sum_of_bools",
    "Scipp.Props.C92_mean_of_integers",
    "Scipp.Props.C92_wrong_overflow"
   ],
   "note": "Proved for all types and units except means without unit, `nanmean` of bool, reductions of scalars and sums that overflow, where the code deviates, with witnesses."
  },
  {
   "property": "C93",
   "status": "partial",
   "theorems": [
    "Scipp.Props.C93_get",
    "Scipp.Props.C93_get_missing",
    "Scipp.Props.C93_wrong_scalar",
    "Scipp.Props.C93_items_partial",
    "Scipp.Props.C93_set_when",
    "Scipp.Props.C93_set_get",
    "Scipp.Props.C93_set_others",
    "Scipp.Props.C93_set_shared",
    "Scipp.Props.C93_slice_partial",
    "Scipp.Props.C93_wrong_slice",
    "Scipp.Props.C93_wrong_edges",
    "Scipp.Props.C93_pop",
    "Scipp.Props.C93_wrong_erase",
    "Scipp.Props.C93_readonly",
    "Scipp.Props.C93_data",
    "Scipp.Props.C93_set_data",
    "Scipp.Props.C93_wrong_equal",
    "Scipp.Props.C93_wrong_unequal",
    "Scipp.Props.C93_equal_when",
    "Scipp.Props.C93_slice_bins"
   ],
   "note": "Iteration agrees with indexing only for items along the event dimension (C93_wrong_scalar); bins outside of a slice keep their values only if the buffer that is set agrees there (C93_wrong_slice); further violations: C93_wrong_edges, C93_wrong_erase, C93_wrong_equal, C93_wrong_unequal."
  },
  {
   "property": "C94",
   "status": "proved",
   "theorems": [
    "Scipp.Props.C94_python_dict",
    "Scipp.Props.C94_readonly",
    "Scipp.Props.C94_misfit",
    "Scipp.Props.C94_update_fails",
    "Scipp.Props.C94_keys"
   ],
   "note": ""
  },
  {
   "property": "C95",
   "status": "partial",
   "theorems": [
    "Scipp.Props.C95_reduce_partial",
    "Scipp.Props.C95_sum",
    "Scipp.Props.C95_any",
    "Scipp.Props.C95_all",
    "Scipp.Props.C95_whole",
    "Scipp.Props.C95_conservation",
    "Scipp.Props.C95_key_clash",
    "Scipp.Props.C95_wrong_bool",
    "Scipp.Props.C95_mean_partial",
    "Scipp.Props.C95_wrong_mean",
    "Scipp.Props.C95_wrong_unit",
    "Scipp.Props.C95_groups",
    "Scipp.Props.C95_bin_groups"
   ],
   "note": "Partial because the code violates the claim for masked bool sums and for mean with N-D masks or without unit (C95_wrong_*). Coords/attrs, datasets and binned data are not modelled."
  },
  {
   "property": "C96",
   "status": "partial",
   "theorems": [
    "Scipp.Props.C96_transform_iff",
    "Scipp.Props.C96_transform_error",
    "Scipp.Props.C96_transform",
    "Scipp.Props.C96_never_dropped",
    "Scipp.Props.C96_in_place_iff",
    "Scipp.Props.C96_in_place",
    "Scipp.Props.C96_in_place_never_dropped",
    "Scipp.Props.C96_operations",
    "Scipp.Props.C96_in_place_operations",
    "Scipp.Props.C96_out_partial",
    "Scipp.Props.C96_wrong_out",
    "Scipp.Props.C96_strides",
    "Scipp.Props.C96_functions",
    "Scipp.Props.C96_out_functions"
   ],
   "note": "Partial because functions with an `out` argument, except those flagged expect_in_variance_if_out_variance, accept an operand without variances for an output with variances and set the variances to zero (C96_wrong_out); C96_out_partial is the claim for flagged operations. Everything else in the statement is proved for all inputs."
  },
  {
   "property": "C97",
   "status": "partial",
   "theorems": [
    "Scipp.Props.C97_bin_then_sum",
    "Scipp.Props.C97_bins_histogram",
    "Scipp.Props.C97_finer_bins",
    "Scipp.Props.C97_tables",
    "Scipp.Props.C97_slice",
    "Scipp.Props.C97_histogram_rebin_partial",
    "Scipp.Props.C97_rebin_rebin",
    "Scipp.Props.C97_wrong_for_repeated_edges"
   ],
   "note": "Missing: histograms with repeated edges, which rebin turns into NaN (C97_wrong_for_repeated_edges). Everything else is proved for all inputs."
  },
  {
   "property": "C98",
   "status": "partial",
   "theorems": [
    "Scipp.Props.C98_contents",
    "Scipp.Props.C98_conservation",
    "Scipp.Props.C98_groupby_partial",
    "Scipp.Props.C98_groupby_bins",
    "Scipp.Props.C98_key",
    "Scipp.Props.C98_reduced",
    "Scipp.Props.C98_dims",
    "Scipp.Props.C98_coords",
    "Scipp.Props.C98_masks",
    "Scipp.Props.C98_hidden",
    "Scipp.Props.C98_masks_kept_or_applied",
    "Scipp.Props.C98_attrs",
    "Scipp.Props.C98_mask_applied_and_kept",
    "Scipp.Props.C98_wrong_for_dim_order",
    "Scipp.Props.C98_wrong_for_dim_coord",
    "Scipp.Props.C98_wrong_for_2d_coord",
    "Scipp.Props.C98_wrong_for_key_variable",
    "Scipp.Props.C98_wrong_for_nan"
   ],
   "note": "Events of NaN groups are lost (C98_wrong_for_nan); link to groupby for 1-D arrays only."
  },
  {
   "property": "C99",
   "status": "partial",
   "theorems": [
    "Scipp.Props.C99_unary_partial",
    "Scipp.Props.C99_binary_partial",
    "Scipp.Props.C99_calculation_partial",
    "Scipp.Props.C99_comparison",
    "Scipp.Props.C99_isclose",
    "Scipp.Props.C99_to_unit_partial",
    "Scipp.Props.C99_factor_accuracy",
    "Scipp.Props.C99_trig",
    "Scipp.Props.C99_trig_fails",
    "Scipp.Props.C99_accepted",
    "Scipp.Props.C99_accepted_binary",
    "Scipp.Props.C99_wrong_for_floor",
    "Scipp.Props.C99_wrong_for_floor_divide",
    "Scipp.Props.C99_wrong_for_snapped_factor",
    "Scipp.Props.C99_values",
    "Scipp.Props.C99_remainder",
    "Scipp.Props.C99_compares"
   ],
   "note": "Rounding functions and floor division depend on the unit; to_unit takes factors close to an integer for the integer."
  }
 ]
}