{
 "claims": [
  {
   "property": "C01",
   "status": "proved",
   "theorems": [
    "Kws.C01_intersection_uint32",
    "Kws.C01_intersection_int"
   ],
   "note": ""
  },
  {
   "property": "C02",
   "status": "proved",
   "theorems": [
    "Kws.C02_symmetric",
    "Kws.C02_symmetric_int",
    "Kws.C02_bounded",
    "Kws.C02_self",
    "Kws.C02_self_needs_range"
   ],
   "note": ""
  },
  {
   "property": "C03",
   "status": "proved",
   "theorems": [
    "Kws.C03_union_modular",
    "Kws.C03_union"
   ],
   "note": ""
  },
  {
   "property": "C04",
   "status": "proved",
   "theorems": [
    "Kws.C04_different_documents",
    "Kws.C04_same_document"
   ],
   "note": ""
  },
  {
   "property": "C05",
   "status": "partial",
   "theorems": [
    "Kws.C05_area_refuted",
    "Kws.C05_intersection_refuted",
    "Kws.C05_int_area_refuted",
    "Kws.C05_no_wrap_uint32_partial",
    "Kws.C05_no_wrap_int_partial"
   ],
   "note": "The claim is false of the code. C05_area_refuted, C05_intersection_refuted and C05_int_area_refuted give the witnesses; the _partial theorems give the exact range of boxes for which the results are correct."
  },
  {
   "property": "C06",
   "status": "proved",
   "theorems": [
    "Kws.C06_box_order",
    "Kws.C06_docbox_order",
    "Kws.C06_event_order",
    "Kws.C06_icdar_event_order"
   ],
   "note": ""
  },
  {
   "property": "C07",
   "status": "partial",
   "theorems": [
    "Kws.C07_scored_order_partial",
    "Kws.C07_le_is_ge",
    "Kws.C07_le_refuted",
    "Kws.C07_nan_needed"
   ],
   "note": "operator<= of ScoredEvent is wrong (C07_le_is_ge, C07_le_refuted). The partial theorem covers the other operators."
  },
  {
   "property": "C08",
   "status": "partial",
   "theorems": [
    "Kws.C08_copy",
    "Kws.C08_assign_partial",
    "Kws.C08_self_assign",
    "Kws.C08_self_assign_refuted",
    "Kws.C08_move_assign",
    "Kws.C08_eq_partial",
    "Kws.C08_ne_refuted"
   ],
   "note": "Self-assignment drops the events (C08_self_assign_refuted) and operator!= never returns (C08_ne_refuted). The _partial theorems cover the rest."
  },
  {
   "property": "C09",
   "status": "proved",
   "theorems": [
    "Kws.C09_plain_set",
    "Kws.C09_plain_set_of_range",
    "Kws.C09_events"
   ],
   "note": ""
  },
  {
   "property": "C10",
   "status": "proved",
   "theorems": [
    "Kws.C10_doc_set_size"
   ],
   "note": ""
  },
  {
   "property": "C11",
   "status": "proved",
   "theorems": [
    "Kws.C11_overlap_search",
    "Kws.C11_overlap_search_uint32"
   ],
   "note": ""
  },
  {
   "property": "C12",
   "status": "partial",
   "theorems": [
    "Kws.C12_size_refuted",
    "Kws.C12_contents_partial"
   ],
   "note": "The claim is false: the range constructor does not initialise size_, so Size() reads an indeterminate value (C12_size_refuted); the partial theorem covers the contents."
  },
  {
   "property": "C13",
   "status": "proved",
   "theorems": [
    "Kws.C13_kinds",
    "Kws.C13_counts",
    "Kws.C13_accumulate",
    "Kws.C13_order_irrelevant",
    "Kws.C13_add"
   ],
   "note": ""
  },
  {
   "property": "C14",
   "status": "proved",
   "theorems": [
    "Kws.C14_every_ref_once",
    "Kws.C14_segmentation",
    "Kws.C14_box"
   ],
   "note": ""
  },
  {
   "property": "C15",
   "status": "proved",
   "theorems": [
    "Kws.C15_hyps_in_order"
   ],
   "note": ""
  },
  {
   "property": "C16",
   "status": "proved",
   "theorems": [
    "Kws.C16_false_positives",
    "Kws.C16_segmentation",
    "Kws.C16_box"
   ],
   "note": ""
  },
  {
   "property": "C17",
   "status": "proved",
   "theorems": [
    "Kws.C17_greedy",
    "Kws.C17_box_search",
    "Kws.C17_box_best",
    "Kws.C17_plain_search",
    "Kws.C17_box_matching"
   ],
   "note": ""
  },
  {
   "property": "C18",
   "status": "proved",
   "theorems": [
    "Kws.C18_repeated",
    "Kws.C18_repeated_not_in_result",
    "Kws.C18_repeated_needs_distinct",
    "Kws.C18_segmentation"
   ],
   "note": "C18_repeated_needs_distinct shows that the last part needs its condition that no hypothesis is listed twice."
  },
  {
   "property": "C19",
   "status": "proved",
   "theorems": [
    "Kws.C19_refs_as_set_box",
    "Kws.C19_refs_as_set_plain"
   ],
   "note": ""
  },
  {
   "property": "C20",
   "status": "proved",
   "theorems": [
    "Kws.C20_effective_hyps",
    "Kws.C20_segmentation",
    "Kws.C20_box"
   ],
   "note": ""
  },
  {
   "property": "C21",
   "status": "proved",
   "theorems": [
    "Kws.C21_ioh_decision",
    "Kws.C21_ioh_half",
    "Kws.C21_ioh_rounded",
    "Kws.C21_ioh_half_rounded",
    "Kws.C21_ioh_rounding_matters"
   ],
   "note": ""
  },
  {
   "property": "C22",
   "status": "proved",
   "theorems": [
    "Kws.C22_iou_decision",
    "Kws.C22_iou_symmetric",
    "Kws.C22_iou_monotone",
    "Kws.C22_iou_rounded"
   ],
   "note": ""
  },
  {
   "property": "C23",
   "status": "proved",
   "theorems": [
    "Kws.C23_soft_other_query",
    "Kws.C23_soft_value",
    "Kws.C23_soft_in_unit",
    "Kws.C23_soft_fp_zero"
   ],
   "note": ""
  },
  {
   "property": "C24",
   "status": "proved",
   "theorems": [
    "Kws.C24_trivial_scorer",
    "Kws.C24_segmentation_result"
   ],
   "note": ""
  },
  {
   "property": "C25",
   "status": "proved",
   "theorems": [
    "Kws.C25_points",
    "Kws.C25_unit",
    "Kws.C25_unit_rounded",
    "Kws.C25_recall_monotone",
    "Kws.C25_last_recall",
    "Kws.C25_recall_monotone_double",
    "Kws.C25_recall_monotone_collapsed"
   ],
   "note": ""
  },
  {
   "property": "C26",
   "status": "proved",
   "theorems": [
    "Kws.C26_textbook"
   ],
   "note": ""
  },
  {
   "property": "C27",
   "status": "proved",
   "theorems": [
    "Kws.C27_interpolated_is_max",
    "Kws.C27_least_majorant"
   ],
   "note": ""
  },
  {
   "property": "C28",
   "status": "proved",
   "theorems": [
    "Kws.C28_area",
    "Kws.C28_area_matches"
   ],
   "note": ""
  },
  {
   "property": "C29",
   "status": "partial",
   "theorems": [
    "Kws.C29_global_ap_partial",
    "Kws.C29_global_ap_grouped_partial",
    "Kws.C29_mean_ap_partial",
    "Kws.C29_double_refuted"
   ],
   "note": "True in exact arithmetic (the _partial theorems), false in double arithmetic: two hits and six false positives have AP 1 + 2^-51 with the default options (C29_double_refuted). C64 bounds the error."
  },
  {
   "property": "C30",
   "status": "partial",
   "theorems": [
    "Kws.C30_perfect_partial",
    "Kws.C30_worthless",
    "Kws.C30_worthless_double",
    "Kws.C30_double_refuted"
   ],
   "note": "AP = 0 is proved in exact and double arithmetic, AP = 1 in exact arithmetic. In double arithmetic a perfect submission of 63 hits has AP 1 - 2^-48 (C30_double_refuted). C64 bounds the error."
  },
  {
   "property": "C31",
   "status": "proved",
   "theorems": [
    "Kws.C31_formulas_agree",
    "Kws.C31_hard",
    "Kws.C31_soft_differs"
   ],
   "note": ""
  },
  {
   "property": "C32",
   "status": "proved",
   "theorems": [
    "Kws.C32_totals",
    "Kws.C32_counts",
    "Kws.C32_one_per_score"
   ],
   "note": ""
  },
  {
   "property": "C33",
   "status": "proved",
   "theorems": [
    "Kws.C33_collapse_ties",
    "Kws.C33_collapse_ties_rounded",
    "Kws.C33_global",
    "Kws.C33_mean",
    "Kws.C33_collapse_needed"
   ],
   "note": ""
  },
  {
   "property": "C34",
   "status": "proved",
   "theorems": [
    "Kws.C34_sort",
    "Kws.C34_comparator",
    "Kws.C34_sort_undefined"
   ],
   "note": ""
  },
  {
   "property": "C35",
   "status": "proved",
   "theorems": [
    "Kws.C35_grouping",
    "Kws.C35_partition",
    "Kws.C35_empty_match"
   ],
   "note": ""
  },
  {
   "property": "C36",
   "status": "proved",
   "theorems": [
    "Kws.C36_unit",
    "Kws.C36_extremes",
    "Kws.C36_mean"
   ],
   "note": ""
  },
  {
   "property": "C37",
   "status": "proved",
   "theorems": [
    "Kws.C37_interpolation",
    "Kws.C37_unique",
    "Kws.C37_range",
    "Kws.C37_rounded",
    "Kws.C37_lengths"
   ],
   "note": ""
  },
  {
   "property": "C38",
   "status": "proved",
   "theorems": [
    "Kws.C38_grid",
    "Kws.C38_none",
    "Kws.C38_rounded"
   ],
   "note": ""
  },
  {
   "property": "C39",
   "status": "proved",
   "theorems": [
    "Kws.C39_global",
    "Kws.C39_global_rounded",
    "Kws.C39_mean",
    "Kws.C39_mean_rounded",
    "Kws.C39_unwritable"
   ],
   "note": ""
  },
  {
   "property": "C40",
   "status": "proved",
   "theorems": [
    "Kws.C40_shape",
    "Kws.C40_every_sample"
   ],
   "note": ""
  },
  {
   "property": "C41",
   "status": "partial",
   "theorems": [
    "Kws.C41_flat_refuted",
    "Kws.C41_flat_partial"
   ],
   "note": "The claim is false: the sample is appended to a vector already resized to the size of the original, so it has twice the size, half of it default constructed (C41_flat_refuted). C41_flat_partial says exactly what the sample is."
  },
  {
   "property": "C42",
   "status": "partial",
   "theorems": [
    "Kws.C42_bounds_partial",
    "Kws.C42_bounds_rounded_partial",
    "Kws.C42_needed",
    "Kws.C42_tiny_alpha_refuted",
    "Kws.C42_grouped",
    "Kws.C42_gap",
    "Kws.C42_bounds_double_partial",
    "Kws.C42_exact"
   ],
   "note": "True in exact arithmetic (C42_bounds_partial). In double arithmetic it is false for alpha very close to 0 (C42_tiny_alpha_refuted); C42_bounds_rounded_partial covers 2^-19 <= alpha <= 2 - 2^-19 and up to 2^32 repetitions; C42_bounds_double_partial and C42_exact give the exact condition for IEEE doubles and up to 2^53 repetitions: 2^-53 < alpha < 2."
  },
  {
   "property": "C43",
   "status": "partial",
   "theorems": [
    "Kws.C43_values_partial",
    "Kws.C43_tool_partial",
    "Kws.C43_ascending_refuted",
    "Kws.C43_ties_refuted",
    "Kws.C43_no_ties_partial",
    "Kws.C43_no_ties_tool_partial",
    "Kws.C43_no_ties_main_partial"
   ],
   "note": "The claim is false for --sort=asc (C43_ascending_refuted) and without collapsing (C43_ties_refuted). The _partial theorems cover --sort=desc with collapsing, and without collapsing if matches of the same score have the same error, in particular for hypotheses with different scores (in any arithmetic)."
  },
  {
   "property": "C44",
   "status": "proved",
   "theorems": [
    "Kws.C44_ids",
    "Kws.C44_stable_injective",
    "Kws.C44_dense",
    "Kws.C44_order"
   ],
   "note": ""
  },
  {
   "property": "C45",
   "status": "partial",
   "theorems": [
    "Kws.C45_capacity_partial",
    "Kws.C45_unchanged",
    "Kws.C45_no_wrap",
    "Kws.C45_uint64_refuted"
   ],
   "note": "The claim is false for a 64-bit unsigned type, whose capacity wraps to 0 (C45_uint64_refuted); it is proved for every smaller type."
  },
  {
   "property": "C46",
   "status": "proved",
   "theorems": [
    "Kws.C46_renaming",
    "Kws.C46_identity"
   ],
   "note": ""
  },
  {
   "property": "C47",
   "status": "proved",
   "theorems": [
    "Kws.C47_irrelevant",
    "Kws.C47_whitespace"
   ],
   "note": ""
  },
  {
   "property": "C48",
   "status": "proved",
   "theorems": [
    "Kws.C48_accepts",
    "Kws.C48_rejects",
    "Kws.C48_outcomes",
    "Kws.C48_mapped",
    "Kws.C48_str_words",
    "Kws.C48_scored_str_words",
    "Kws.C48_box_words"
   ],
   "note": ""
  },
  {
   "property": "C49",
   "status": "proved",
   "theorems": [
    "Kws.C49_str",
    "Kws.C49_box",
    "Kws.C49_comment"
   ],
   "note": ""
  },
  {
   "property": "C50",
   "status": "partial",
   "theorems": [
    "Kws.C50_range_refuted",
    "Kws.C50_file_refuted",
    "Kws.C50_accepted_partial",
    "Kws.C50_in_range_partial"
   ],
   "note": "The claim is false: '-1' is accepted and stored as 4294967295 (C50_range_refuted, C50_file_refuted). The _partial theorems say exactly which texts are accepted and with which value."
  },
  {
   "property": "C51",
   "status": "proved",
   "theorems": [
    "Kws.C51_finite"
   ],
   "note": ""
  },
  {
   "property": "C52",
   "status": "proved",
   "theorems": [
    "Kws.C52_accepts",
    "Kws.C52_help"
   ],
   "note": ""
  },
  {
   "property": "C53",
   "status": "proved",
   "theorems": [
    "Kws.C53_unknown",
    "Kws.C53_missing_value",
    "Kws.C53_invalid_value",
    "Kws.C53_positional",
    "Kws.C53_rejects",
    "Kws.C53_trichotomy"
   ],
   "note": ""
  },
  {
   "property": "C54",
   "status": "proved",
   "theorems": [
    "Kws.C54_fails",
    "Kws.C54_succeeds",
    "Kws.C54_history",
    "Kws.C54_tool"
   ],
   "note": ""
  },
  {
   "property": "C55",
   "status": "partial",
   "theorems": [
    "Kws.C55_double_dash_refuted",
    "Kws.C55_selected_partial"
   ],
   "note": "The claim is false: the second character of the argument is not checked (C55_double_dash_refuted)."
  },
  {
   "property": "C56",
   "status": "partial",
   "theorems": [
    "Kws.C56_size_partial",
    "Kws.C56_int_partial",
    "Kws.C56_in_range_partial",
    "Kws.C56_garbage_partial",
    "Kws.C56_empty_refuted",
    "Kws.C56_range_refuted",
    "Kws.C56_incomplete_refuted",
    "Kws.C56_double_partial"
   ],
   "note": "The claim is false: empty, incomplete and out of range numbers are accepted (the _refuted theorems). The _partial theorems say exactly which texts integer and floating-point options accept and with which value, that numbers in range get their value, and that texts with characters that cannot belong to a number are rejected."
  },
  {
   "property": "C57",
   "status": "proved",
   "theorems": [
    "Kws.C57_option",
    "Kws.C57_argument",
    "Kws.C57_string"
   ],
   "note": ""
  },
  {
   "property": "C58",
   "status": "proved",
   "theorems": [
    "Kws.C58_segmentation_query_set",
    "Kws.C58_segmentation_query_groups",
    "Kws.C58_segmentation_no_filter",
    "Kws.C58_query_set",
    "Kws.C58_query_groups",
    "Kws.C58_no_filter"
   ],
   "note": ""
  },
  {
   "property": "C59",
   "status": "proved",
   "theorems": [
    "Kws.C59_groups",
    "Kws.C59_group"
   ],
   "note": ""
  },
  {
   "property": "C60",
   "status": "proved",
   "theorems": [
    "Kws.C60_line_order",
    "Kws.C60_reference_order",
    "Kws.C60_command_line"
   ],
   "note": ""
  },
  {
   "property": "C61",
   "status": "partial",
   "theorems": [
    "Kws.C61_line_order_partial",
    "Kws.C61_ids_partial",
    "Kws.C61_renaming_partial",
    "Kws.C61_map_refuted"
   ],
   "note": "In IEEE arithmetic the claim is false for the mean average precision (C61_map_refuted): the order in which it is added up depends on the ids. The _partial theorems (--sort=desc, collapsing) say that the other three metrics and the global curve do not differ, that the mean average precision differs only by the order of summation, and that in exact arithmetic it and the mean curve do not differ either. Confidence intervals are the subject of C114."
  },
  {
   "property": "C62",
   "status": "partial",
   "theorems": [
    "Kws.C62_segmentation_partial",
    "Kws.C62_command_line",
    "Kws.C62_box_partial",
    "Kws.C62_curve_refuted",
    "Kws.C62_samples_refuted"
   ],
   "note": "The claim is false: an unwritable curve file ends a run with an uncaught exception, and zero bootstrap samples with undefined behaviour (C62_curve_refuted, C62_samples_refuted). The _partial theorems cover all feasible runs of both tools; C90 says how every run ends."
  },
  {
   "property": "C63",
   "status": "partial",
   "theorems": [
    "Kws.C63_separated_refuted",
    "Kws.C63_fraction_refuted",
    "Kws.C63_separated_partial"
   ],
   "note": "The claim is false for bounding boxes: '1+2+3+4' are four coordinates, and '4.5' as last field is a coordinate and a score. The partial theorem covers the segmentation-based formats."
  },
  {
   "property": "C64",
   "status": "proved",
   "theorems": [
    "Kws.C64_ap_hard",
    "Kws.C64_ap_soft",
    "Kws.C64_curves",
    "Kws.C64_soft_on_grid",
    "Kws.C64_mean_ap"
   ],
   "note": "The arithmetic is IEEE binary64 with round to nearest, ties to even, without fused operations. Soft errors with collapsing are not covered: their sums are rounded to single precision."
  },
  {
   "property": "C65",
   "status": "proved",
   "theorems": [
    "Kws.C65_measures",
    "Kws.C65_measures_rounded",
    "Kws.C65_thresholds",
    "Kws.C65_same_counts"
   ],
   "note": ""
  },
  {
   "property": "C66",
   "status": "proved",
   "theorems": [
    "Kws.C66_segmentation",
    "Kws.C66_segmentation_rounded"
   ],
   "note": "Assumes --sort=desc and collapsing (the defaults) and at most 2^31 different strings. Confidence intervals are not part of the statement; curves are the subject of C78."
  },
  {
   "property": "C67",
   "status": "proved",
   "theorems": [
    "Kws.C67_box",
    "Kws.C67_box_rounded"
   ],
   "note": "Assumes --sort=desc and collapsing (the defaults) and boxes that do not wrap around. Confidence intervals are not part of the statement; curves are the subject of C78. Ties in the number of common cells may be broken in any way."
  },
  {
   "property": "C68",
   "status": "proved",
   "theorems": [
    "Kws.C68_segmentation",
    "Kws.C68_box"
   ],
   "note": "Assumes --sort=desc and collapsing (the defaults), exact arithmetic or any faithful rounding with at most 2^24 events. Both runs are assumed to end with a report (C62 says when). Confidence intervals are not part of the statement."
  },
  {
   "property": "C69",
   "status": "proved",
   "theorems": [
    "Kws.C69_trailing"
   ],
   "note": "Exact arithmetic, hard errors."
  },
  {
   "property": "C70",
   "status": "partial",
   "theorems": [
    "Kws.C70_ranking",
    "Kws.C70_exchange",
    "Kws.C70_thresholds_partial",
    "Kws.C70_collapsed_ap_refuted",
    "Kws.C70_collapsed_ndcg_refuted"
   ],
   "note": "Proved without collapsing (C70_ranking), and for the interpolated AP with collapsing (C70_thresholds_partial), in exact arithmetic. With collapsing the claim is false for the AP without interpolation and for NDCG (the _refuted theorems): a hit that is raised to the score of a false positive shares its relevance."
  },
  {
   "property": "C71",
   "status": "proved",
   "theorems": [
    "Kws.C71_add",
    "Kws.C71_drop",
    "Kws.C71_adjust",
    "Kws.C71_numbers",
    "Kws.C71_segmentation",
    "Kws.C71_segmentation_rounded"
   ],
   "note": "Assumes --sort=desc, collapsing and interpolation (the defaults). Both runs are assumed to end with a report (C62 says when). NDCG is not part of the statement (C70_collapsed_ndcg_refuted)."
  },
  {
   "property": "C72",
   "status": "proved",
   "theorems": [
    "Kws.C72_interpolation",
    "Kws.C72_trapezoid",
    "Kws.C72_collapsed_differs"
   ],
   "note": "Exact arithmetic. With collapsing and without interpolation the trapezoids can be larger (C72_collapsed_differs)."
  },
  {
   "property": "C73",
   "status": "proved",
   "theorems": [
    "Kws.C73_ap",
    "Kws.C73_ndcg",
    "Kws.C73_intervals",
    "Kws.C73_curve",
    "Kws.C73_evaluate",
    "Kws.C73_box",
    "Kws.C73_segmentation"
   ],
   "note": "Intervals are compared if both or none were asked for. The curves are compared if there are references."
  },
  {
   "property": "C74",
   "status": "proved",
   "theorems": [
    "Kws.C74_general",
    "Kws.C74_scientific",
    "Kws.C74_monotone",
    "Kws.C74_exact",
    "Kws.C74_relative",
    "Kws.C74_absolute",
    "Kws.C74_same_text"
   ],
   "note": "The rounding of the library (exact value to nearest, ties to even) is part of the model, see DESIGN.md; the sign of a zero is not modelled. Different numbers may print the same (C74_same_text), which the claim does not exclude."
  },
  {
   "property": "C75",
   "status": "proved",
   "theorems": [
    "Kws.C75_digits",
    "Kws.C75_seven_differs",
    "Kws.C75_str",
    "Kws.C75_box",
    "Kws.C75_str_six",
    "Kws.C75_box_six",
    "Kws.C75_reread_differs"
   ],
   "note": "IEEE arithmetic for the exactness with six digits (in the range of normal floats). With seven digits the score may change (C75_seven_differs, C75_reread_differs), which the claim does not exclude."
  },
  {
   "property": "C76",
   "status": "proved",
   "theorems": [
    "Kws.C76_report",
    "Kws.C76_nothing",
    "Kws.C76_exit",
    "Kws.C76_aborted",
    "Kws.C76_segmentation",
    "Kws.C76_segmentation_rounded",
    "Kws.C76_box",
    "Kws.C76_box_rounded"
   ],
   "note": "The values assume --sort=desc and collapsing, as C66 and C67 do. In IEEE arithmetic the printed numbers are those of values that differ from the exact ones as C66 and C67 say."
  },
  {
   "property": "C77",
   "status": "partial",
   "theorems": [
    "Kws.C77_lines_box",
    "Kws.C77_lines_ids",
    "Kws.C77_unambiguous",
    "Kws.C77_determined",
    "Kws.C77_determined_ids",
    "Kws.C77_box_run",
    "Kws.C77_names_refuted"
   ],
   "note": "False for the segmentation-based tool: its file has the integers of the mapper instead of the names, and different events lead to the same file (C77_names_refuted). For the ICDAR tool: C77_box_run, C77_unambiguous and C77_determined; boxes must not wrap around. C77_determined_ids says that the file of the segmentation-based tool determines the matches of integers."
  },
  {
   "property": "C78",
   "status": "proved",
   "theorems": [
    "Kws.C78_text",
    "Kws.C78_text_numbers",
    "Kws.C78_lines",
    "Kws.C78_segmentation",
    "Kws.C78_box",
    "Kws.C78_segmentation_files",
    "Kws.C78_box_files",
    "Kws.C78_segmentation_shape",
    "Kws.C78_box_shape",
    "Kws.C78_segmentation_best",
    "Kws.C78_segmentation_rounded",
    "Kws.C78_box_rounded"
   ],
   "note": "Both in exact and in IEEE arithmetic (C78_segmentation_rounded, C78_box_rounded: up to 2^24 events and samples, error at most (n+3)/2^49). The statements about shapes, best precisions and the text of the files are for exact arithmetic. Without groups the mean is not a number; its sign, which decides between nan and -nan, is not modelled."
  },
  {
   "property": "C79",
   "status": "proved",
   "theorems": [
    "Kws.C79_segmentation_stops",
    "Kws.C79_box_stops",
    "Kws.C79_segmentation",
    "Kws.C79_box",
    "Kws.C79_cases"
   ],
   "note": "C79_cases: the two kinds of runs are all. The segmentation-based tool needs at most 2^31 different names; for the ICDAR tool boxes must not wrap around and, in IEEE arithmetic, have areas of at most 2^24. The theorems also cover runs that end abnormally after the matching, and all sorting criteria."
  },
  {
   "property": "C80",
   "status": "partial",
   "theorems": [
    "Kws.C80_stdin_refuted",
    "Kws.C80_segmentation_partial",
    "Kws.C80_box_partial"
   ],
   "note": "False: the code tests whether there is exactly one command line argument. With options, a failure on the standard input is reported as that of a file with an empty name (C80_stdin_refuted). It is right for a named file, and if the references are the only argument."
  },
  {
   "property": "C81",
   "status": "proved",
   "theorems": [
    "Kws.C81_message",
    "Kws.C81_unique",
    "Kws.C81_wrong",
    "Kws.C81_help"
   ],
   "note": "C53_rejects and C53_trichotomy (same file) show that the cases are all. Names of options are assumed to be distinct and different from help, which registration ensures (C54)."
  },
  {
   "property": "C82",
   "status": "proved",
   "theorems": [
    "Kws.C82_lists",
    "Kws.C82_help",
    "Kws.C82_back",
    "Kws.C82_restated",
    "Kws.C82_double",
    "Kws.C82_defaults",
    "Kws.C82_digits_differ"
   ],
   "note": "C82_defaults compares exit status, standard output and files in IEEE arithmetic; the text of one message depends on the number of arguments (C80). Real numbers are covered between 2^-126 and 1 in magnitude (C82_double); with more than six digits they can change (C82_digits_differ), which the claim does not exclude. The type name of double is that of libstdc++."
  },
  {
   "property": "C83",
   "status": "proved",
   "theorems": [
    "Kws.C83_options",
    "Kws.C83_same"
   ],
   "note": "Texts that denote no number in range are left to C56. The sample count, seed and level of the confidence intervals and the number of curve points are numbers; the others are texts or flags."
  },
  {
   "property": "C84",
   "status": "proved",
   "theorems": [
    "Kws.C84_values",
    "Kws.C84_assign"
   ],
   "note": "Objects are numbered and addresses are never used twice. C84_assign: the value model of Model/Match.lean, which the other theorems use, is what the pointer model shows."
  },
  {
   "property": "C85",
   "status": "partial",
   "theorems": [
    "Kws.C85_leak_partial",
    "Kws.C85_clean_partial",
    "Kws.C85_leak_refuted"
   ],
   "note": "False: copy assignment calls release() on the pointers of the target, whose events stay allocated (C85_leak_refuted). C85_leak_partial: this is the only way to lose memory, and it happens whenever the target holds an event."
  },
  {
   "property": "C86",
   "status": "partial",
   "theorems": [
    "Kws.C86_safe_partial",
    "Kws.C86_clean_partial",
    "Kws.C86_copies_share",
    "Kws.C86_assign_refuted",
    "Kws.C86_copy_refuted"
   ],
   "note": "False for copy assignment, which the class does not declare: both mappers then own one table and it is deleted twice (C86_assign_refuted). False for a copy that is used after the original is gone (C86_copy_refuted). C86_safe_partial and C86_clean_partial: without copy assignments nothing else goes wrong. The constructors that take a table are not modelled."
  },
  {
   "property": "C87",
   "status": "partial",
   "theorems": [
    "Kws.C87_memory",
    "Kws.C87_values",
    "Kws.C87_copy_refuted"
   ],
   "note": "False for copies of a parser, which are possible because no copy constructor is declared (C87_copy_refuted). C87_memory: true without copies. C87_values: the value model of Model/Cmd.lean holds the same."
  },
  {
   "property": "C88",
   "status": "proved",
   "theorems": [
    "Kws.C88_box",
    "Kws.C88_box_rounded",
    "Kws.C88_determined",
    "Kws.C88_refines"
   ],
   "note": "C88_box and C88_box_rounded: a run produces a matching as Spec/Ties.lean describes it. C88_determined: there is at most one. C88_refines: it is one of those of C67."
  },
  {
   "property": "C89",
   "status": "proved",
   "theorems": [
    "Kws.C89_no_files",
    "Kws.C89_query_set",
    "Kws.C89_query_groups",
    "Kws.C89_matching",
    "Kws.C89_box",
    "Kws.C89_box_rounded"
   ],
   "note": "C89_matching: for the matchings of Spec/Ties.lean. C89_box: for two runs, in exact arithmetic; C89_box_rounded: in IEEE arithmetic the matches are the same and average precisions agree up to rounding (normalised gains are not rounded in the model). C89_no_files, C89_query_set and C89_query_groups: what is required of the files with queries and groups. Curves are not compared; confidence intervals are the subject of C114."
  },
  {
   "property": "C90",
   "status": "proved",
   "theorems": [
    "Kws.C90_box",
    "Kws.C90_segmentation",
    "Kws.C90_command_line",
    "Kws.C90_interval",
    "Kws.C90_interval_default",
    "Kws.C90_interval_double",
    "Kws.C90_alpha"
   ],
   "note": "C90_box and C90_segmentation (up to 2^31 different words): the four ends of Spec/Endings.lean, which exclude each other and cover all runs whose curves, if any, have at most 2^24 (not collapsed: 2^53) events, in any arithmetic. C90_interval: without rounding, intervals are defined exactly if there are samples and 0 < alpha < 2; C90_interval_double: with IEEE doubles and up to 2^53 samples exactly if 2^-53 < alpha < 2 (alpha is a double by C90_alpha). C90_command_line: command lines. Running out of memory is not modelled."
  },
  {
   "property": "C91",
   "status": "proved",
   "theorems": [
    "Kws.C91_law",
    "Kws.C91_independent",
    "Kws.C91_distinct",
    "Kws.C91_fair"
   ],
   "note": "Probabilities are shares of finite sequences of numbers (Spec/Resampling.lean). C91_law: the law of a sample; C91_independent: of successive samples; C91_distinct: the law in numbers if all matches differ. The theorems say what the sampler makes of ideal draws, not that std::default_random_engine gives such draws."
  },
  {
   "property": "C92",
   "status": "proved",
   "theorems": [
    "Kws.C92_near",
    "Kws.C92_near_collapsed",
    "Kws.C92_unit",
    "Kws.C92_extremes",
    "Kws.C92_mean",
    "Kws.C92_global",
    "Kws.C92_libm"
   ],
   "note": "C92_near: without collapsing, errors of any scorer; C92_near_collapsed, C92_global and C92_mean: hits, false positives and false negatives, at most 2^19 hypotheses with the same score; C92_unit and C92_extremes: the exact values. exp2 and log2 are a parameter (Libm.Accurate: exp2 exact at 0 and 1, relative errors at most 2^-52; C92_libm: such functions exist). C93 has the tools."
  },
  {
   "property": "C93",
   "status": "proved",
   "theorems": [
    "Kws.C93_intervals",
    "Kws.C93_box",
    "Kws.C93_segmentation",
    "Kws.C93_no_run",
    "Kws.C93_segmentation_prints",
    "Kws.C93_box_prints"
   ],
   "note": "Model/ToolDouble.lean is Main with NDCG in double. C93_box and C93_segmentation compare it with the model of C76 (NDCG over the reals); C93_no_run: command lines that are not accepted; C93_intervals: intervals of any statistic; C93_box_prints and C93_segmentation_prints: the printed numbers in terms of the files, for the default sorting and collapsing. exp2 and log2 as in C92."
  },
  {
   "property": "C94",
   "status": "proved",
   "theorems": [
    "Kws.C94_nested",
    "Kws.C94_defined",
    "Kws.C94_assess",
    "Kws.C94_run",
    "Kws.C94_program"
   ],
   "note": "C94_nested and C94_defined: the function, for any statistic, sampler and monotone rounding; C94_assess, C94_run and C94_program: the tools. The same generator and seed in both runs; NDCG over the reals."
  },
  {
   "property": "C95",
   "status": "partial",
   "theorems": [
    "Kws.C95_contains_partial",
    "Kws.C95_range_partial",
    "Kws.C95_report_partial",
    "Kws.C95_evaluate_partial",
    "Kws.C95_refuted"
   ],
   "note": "False: C95_refuted (three queries, one of them missed: with a positive probability of the draws the interval is [4/3, 4/3]; the code reflects the quantiles at the value). C95_contains_partial: exactly when the interval reaches the value, in numbers of samples; C95_range_partial, C95_report_partial and C95_evaluate_partial: the bounds are between 2v - 1 and 2v. Exact arithmetic."
  },
  {
   "property": "C96",
   "status": "proved",
   "theorems": [
    "Kws.C96_matching_box",
    "Kws.C96_matching_segmentation",
    "Kws.C96_evaluate",
    "Kws.C96_program",
    "Kws.C96_box",
    "Kws.C96_segmentation"
   ],
   "note": "C96_matching_box and C96_matching_segmentation: the matchers, any property of queries and any scorer; C96_evaluate: groups; C96_program, C96_box and C96_segmentation: files with a single query. No NaN scores; NDCG over the reals."
  },
  {
   "property": "C97",
   "status": "proved",
   "theorems": [
    "Kws.C97_box",
    "Kws.C97_segmentation",
    "Kws.C97_set_order",
    "Kws.C97_whole_set",
    "Kws.C97_group_names"
   ],
   "note": "C97_box and C97_segmentation: equal reports for any two selections that agree on the queries of the events (at most 2^31 strings for the segmentation-based tool); C97_set_order, C97_whole_set and C97_group_names: files that select the same. Messages on stderr count queries and groups and may differ."
  },
  {
   "property": "C98",
   "status": "proved",
   "theorems": [
    "Kws.C98_matcher",
    "Kws.C98_matching",
    "Kws.C98_box",
    "Kws.C98_segmentation",
    "Kws.C98_attained"
   ],
   "note": "C98_matcher: any index and scorer; C98_matching and C98_box: the box-based tool; C98_attained: a run that finds one of two; C98_segmentation: the segmentation-based tool's matcher finds the most."
  },
  {
   "property": "C99",
   "status": "proved",
   "theorems": [
    "Kws.C99_hypothesis",
    "Kws.C99_reference",
    "Kws.C99_box_hypothesis",
    "Kws.C99_box_reference",
    "Kws.C99_segmentation"
   ],
   "note": "C99_hypothesis and C99_reference: the box-based matching; C99_box_hypothesis and C99_box_reference: the matches that two runs write; C99_segmentation: the segmentation-based tool's matcher."
  },
  {
   "property": "C100",
   "status": "proved",
   "theorems": [
    "Kws.C100_error",
    "Kws.C100_counts",
    "Kws.C100_of_errors",
    "Kws.C100_base",
    "Kws.C100_accumulated",
    "Kws.C100_print"
   ],
   "note": "C100_error, C100_counts, C100_of_errors, C100_base, C100_accumulated (exact arithmetic); C100_print: counts of one error are printed like the error."
  },
  {
   "property": "C101",
   "status": "proved",
   "theorems": [
    "Kws.C101_lower_threshold",
    "Kws.C101_union_stricter",
    "Kws.C101_union_loses"
   ],
   "note": "C101_lower_threshold and C101_union_stricter: any monotone rounding that keeps the integers up to 2^24, the second for boxes whose edges and covered area fit in 32 bits; C101_union_loses: two references and two hypotheses with fewer hits at 1/4 than at 1/2."
  },
  {
   "property": "C102",
   "status": "proved",
   "theorems": [
    "Kws.C102_matching",
    "Kws.C102_box",
    "Kws.C102_box_rounded"
   ],
   "note": "C102_matching for the rule, C102_box for exact arithmetic, C102_box_rounded for IEEE arithmetic with hypotheses of at most 2^24 pixels after scaling, where the average precisions agree up to rounding; without intervals and curves. The example doubles x and triples y. C89 is proved as the case of scale one."
  },
  {
   "property": "C103",
   "status": "partial",
   "theorems": [
    "Kws.C103_references",
    "Kws.C103_trivial",
    "Kws.C103_threshold",
    "Kws.C103_soft",
    "Kws.C103_soft_partial",
    "Kws.C103_soft_refuted"
   ],
   "note": "The claim is false for the soft scorer in float arithmetic (C103_soft_refuted): a hypothesis of one pixel in a reference of 2^26 pixels is matched with rates (0, 1), the rates of a missed reference. It is proved for the sum of NR, for the three other scorers in any arithmetic, for the soft scorer in exact arithmetic, and in C103_soft_partial for the soft scorer in float arithmetic and references of at most 2^24 pixels."
  },
  {
   "property": "C104",
   "status": "proved",
   "theorems": [
    "Kws.C104_measures",
    "Kws.C104_measures_rounded",
    "Kws.C104_box",
    "Kws.C104_box_rounded",
    "Kws.C104_segmentation",
    "Kws.C104_segmentation_rounded"
   ],
   "note": "C104_measures for lists of matches, C104_box and C104_segmentation for the tools in exact arithmetic, the _rounded versions in IEEE arithmetic with up to 2^24 lines, where average precisions are off by at most (n + 3)^2 / 2^52 and, for the box tool, hypotheses have at most 2^24 pixels. NDCG is computed over the reals. Unlike C66 and C67 this covers all sortings and also runs without collapsing."
  },
  {
   "property": "C105",
   "status": "proved",
   "theorems": [
    "Kws.C105_best",
    "Kws.C105_box",
    "Kws.C105_box_rounded",
    "Kws.C105_segmentation",
    "Kws.C105_segmentation_rounded",
    "Kws.C105_box_shape",
    "Kws.C105_segmentation_shape",
    "Kws.C105_box_files",
    "Kws.C105_segmentation_files"
   ],
   "note": "C105_box and C105_segmentation in exact arithmetic, with the files in C105_box_files and C105_segmentation_files, the shape in the _shape theorems and C105_best; the _rounded versions in IEEE arithmetic with up to 2^24 lines and points, where coordinates are off by at most (n + 3) / 2^49 and, for the box tool, hypotheses have at most 2^24 pixels. Unlike C78 this covers all sortings and also runs without collapsing."
  },
  {
   "property": "C106",
   "status": "proved",
   "theorems": [
    "Kws.C106_same",
    "Kws.C106_text",
    "Kws.C106_seed",
    "Kws.C106_run",
    "Kws.C106_first"
   ],
   "note": "C106_seed for the engine of libstdc++ (Model/Engine.lean), C106_same and C106_text for tools with any generator, C106_run for everything that a tool writes, with NDCG in double, C106_first for small seeds."
  },
  {
   "property": "C107",
   "status": "proved",
   "theorems": [
    "Kws.C107_period",
    "Kws.C107_draws",
    "Kws.C107_ends",
    "Kws.C107_uniform",
    "Kws.C107_missing",
    "Kws.C107_bias",
    "Kws.C107_same",
    "Kws.C107_huge"
   ],
   "note": "C107_draws (all ranges of a size_t), C107_same, C107_huge, C107_ends, C107_period, C107_uniform, C107_bias, C107_missing, for the engine and the distribution of libstdc++ as transcribed in Model/Engine.lean (containers of 2^31 - 2 or more elements are not modelled). The period rests on a Lucas certificate that 2^31 - 1 is prime with primitive root 16807."
  },
  {
   "property": "C108",
   "status": "proved",
   "theorems": [
    "Kws.C108_samples",
    "Kws.C108_run",
    "Kws.C108_report"
   ],
   "note": "C108_samples for the samples of all statistics, C108_report for the intervals of a report, C108_run for the reports of two runs of a tool whose options differ in the intervals and files asked for, in any arithmetic."
  },
  {
   "property": "C109",
   "status": "partial",
   "theorems": [
    "Kws.C109_segmentation",
    "Kws.C109_segmentation_rounded",
    "Kws.C109_box_partial",
    "Kws.C109_box_rounded_partial",
    "Kws.C109_box_refuted"
   ],
   "note": "False for the box tool if a reference lies within another one of the same query (C109_box_refuted: AP 1/2): a hypothesis may be given the larger reference, and is then missing for its own. C109_box_partial and C109_box_rounded_partial: 1 if no reference lies within another, at least 1/2 otherwise, for references of positive area that do not wrap around (in IEEE arithmetic at most 2^24 pixels and 2^24 lines, AP within (n+3)^2/2^52). C109_segmentation and C109_segmentation_rounded: the claim for the segmentation-based tool, also with repeated lines. NDCG over the reals."
  },
  {
   "property": "C110",
   "status": "proved",
   "theorems": [
    "Kws.C110_add",
    "Kws.C110_drop",
    "Kws.C110_matching",
    "Kws.C110_box",
    "Kws.C110_box_rounded"
   ],
   "note": "C110_box in exact arithmetic, C110_box_rounded in IEEE arithmetic (boxes of at most 2^24 pixels, 2^24 lines, within the rounding errors of C67_box_rounded), for boxes that do not wrap around; C110_matching is the claim about the matching. C110_add and C110_drop: adding a right hypothesis and dropping wrong ones are such changes. Average precision only."
  },
  {
   "property": "C111",
   "status": "partial",
   "theorems": [
    "Kws.C111_adjust",
    "Kws.C111_matching_partial",
    "Kws.C111_box_partial",
    "Kws.C111_box_rounded_partial",
    "Kws.C111_box_refuted"
   ],
   "note": "False: a hypothesis that fits two references, raised above one that fits only the first choice of both, costs a hit (C111_box_refuted: both average precisions fall from 1 to 1/2). C111_box_partial and C111_box_rounded_partial: true if no hypothesis of the second run fits two references; C111_adjust: raising and lowering scores is such a change."
  },
  {
   "property": "C112",
   "status": "proved",
   "theorems": [
    "Kws.C112_matching",
    "Kws.C112_matching_global",
    "Kws.C112_box",
    "Kws.C112_segmentation"
   ],
   "note": "C112_box and C112_segmentation: two runs with the same options and any sorts; events of other groups may be anywhere in the files. C112_matching and C112_matching_global are the same for the specified matching. NDCG is compared exactly (before rounding to double), average precision within the tolerance of C76."
  },
  {
   "property": "C113",
   "status": "partial",
   "theorems": [
    "Kws.C113_lines",
    "Kws.C113_fits",
    "Kws.C113_stops",
    "Kws.C113_room",
    "Kws.C113_curves_partial",
    "Kws.C113_status",
    "Kws.C113_anyway",
    "Kws.C113_anyway_double",
    "Kws.C113_double",
    "Kws.C113_refuted"
   ],
   "note": "False of the standard output and of the file with the matches, whose streams are not checked: a run can end with status 0 although not a single character of them has arrived (C113_refuted). True of the files with the curves, whose stream throws (C113_curves_partial, C113_status); C113_fits, C113_stops and C113_room say what arrives in all cases; C113_lines: it does not matter that the loops write line by line; C113_double transfers the ending to NDCG in double. C113_anyway (and C113_anyway_double): since the curves come last, the standard output, the messages and the file with the matches arrive as far as there is room also in runs that end with the exception of a curve."
  },
  {
   "property": "C114",
   "status": "partial",
   "theorems": [
    "Kws.C114_samples_partial",
    "Kws.C114_segmentation_partial",
    "Kws.C114_box_partial",
    "Kws.C114_segmentation_refuted",
    "Kws.C114_box_refuted"
   ],
   "note": "False with the engine of the program: C114_segmentation_refuted (the same lines in another order; the intervals of the global average precision are [1/2, 1/2] and [1/4, 1/4]) and C114_box_refuted (the names of two queries exchanged), with one sample and the default seed. What holds: with ideal draws, in exact arithmetic, everything that can be said about the four metrics and their intervals has the same probability in both runs (C114_segmentation_partial for reordered lines, C114_box_partial for other names, other places and other orders; C114_samples_partial for the samples)."
  },
  {
   "property": "C115",
   "status": "proved",
   "theorems": [
    "Kws.C115_lines",
    "Kws.C115_words",
    "Kws.C115_box",
    "Kws.C115_segmentation",
    "Kws.C115_box_output",
    "Kws.C115_segmentation_output"
   ],
   "note": "C115_lines and C115_words are about reading in each of the four formats, for any mapper; C115_box and C115_segmentation about the result of a run, C115_box_output and C115_segmentation_output about everything a program writes, with reals and with doubles for NDCG. `words` splits at the six characters of isspace in the C locale. The layout of the lines themselves matters: the same words on one line are not the same events (example beside the theorems). C47 is the special case of whitespace around lines."
  },
  {
   "property": "C116",
   "status": "proved",
   "theorems": [
    "Kws.C116_between",
    "Kws.C116_matching",
    "Kws.C116_box",
    "Kws.C116_segmentation",
    "Kws.C116_global"
   ],
   "note": "C116_box and C116_segmentation are about three runs, C116_matching about any exact matching, C116_between says that in exact arithmetic the means lie between those of the parts (if there is a group at all). That the same does not hold for global average precision is C116_global: parts with 1 and 1 whose joint run has 5/6, and parts with 1/2 and 2/3 whose joint run has 49/72. C112 is the case of a part without anything to be found, C96 the case of parts with one query each."
  },
  {
   "property": "C117",
   "status": "proved",
   "theorems": [
    "Kws.C117_views",
    "Kws.C117_one",
    "Kws.C117_tables",
    "Kws.C117_lost",
    "Kws.C117_tool"
   ],
   "note": "C117_views: without undefined behaviour a program means what Spec/EventMappers says, where nothing ends and nobody owns anything; C117_one is the case of one table; C117_tables says what can be left, C117_lost that what a default-constructed event mapper made is left (StringEventToIntMapper has a member own_ but no destructor), C117_tool is about tools/SimpleKwsEval.cc. Copy assignment of string mappers is not among the statements: C86_assign_refuted shows what goes wrong with it."
  },
  {
   "property": "C118",
   "status": "proved",
   "theorems": [
    "Kws.C118_matcher",
    "Kws.C118_box",
    "Kws.C118_segmentation",
    "Kws.C118_box_twice"
   ],
   "note": "C118_matcher for any search and scorer; C118_box (exact and rounded) and C118_segmentation (any rounding, both evaluation orders, ids included) for whole runs; C118_box_twice is a run showing that FoundAlready cannot be weakened to a repetition of a box: each copy may be given another reference. What is said of the repeated matches at the level of runs is that the old list is a sublist of the new one; which ones are added is in C118_matcher."
  },
  {
   "property": "C119",
   "status": "proved",
   "theorems": [
    "Kws.C119_global_ap",
    "Kws.C119_global_ndcg",
    "Kws.C119_mean_ap",
    "Kws.C119_mean_ndcg",
    "Kws.C119_determined",
    "Kws.C119_tool"
   ],
   "note": "C119_global_ap, C119_global_ndcg (Pools), C119_mean_ap, C119_mean_ndcg (Averages) hold with any rounding and sort; C119_determined is in exact arithmetic (rounded versions of its parts are C33_global and C33_mean); C119_tool identifies the model of the tool, which calls the functions of core/Assessment.h directly, with one that makes and calls the objects."
  },
  {
   "property": "C120",
   "status": "proved",
   "theorems": [
    "Kws.C120_matching",
    "Kws.C120_no_files",
    "Kws.C120_box",
    "Kws.C120_segmentation",
    "Kws.C120_global_ndcg"
   ],
   "note": "C120_matching, C120_box and C120_segmentation for any number of copies (rounded and exact: \u03b5, \u03b5' are the tolerances of the two runs); C120_no_files: without query options the hypothesis about these holds; C120_global_ndcg: two runs in which the other three numbers agree and global NDCG gets worse."
  },
  {
   "property": "C121",
   "status": "partial",
   "theorems": [
    "Kws.C121_reorder_partial",
    "Kws.C121_dashes_partial",
    "Kws.C121_output_partial",
    "Kws.C121_flag_refuted"
   ],
   "note": "False of the code (C121_flag_refuted): a flag without value takes the next word for its value unless that starts with a dash, so moving it to the end of the options makes it take the file with the references. Proved (C121_reorder_partial, C121_output_partial) whenever this does not happen (NotSwallowed), in particular for any order before `--` (C121_dashes_partial). The output is compared unless the command line is rejected."
  },
  {
   "property": "C122",
   "status": "partial",
   "theorems": [
    "Kws.C122_box_partial",
    "Kws.C122_segmentation_partial",
    "Kws.C122_set_refuted",
    "Kws.C122_groups_refuted"
   ],
   "note": "False of the code: C122_set_refuted (a comment that mentions a query includes it in the evaluation), C122_groups_refuted (a comment of one word makes the tool fail). C122_box_partial and C122_segmentation_partial: comments none of whose words is the query of an event, with two or more words in a file of groups, change nothing."
  },
  {
   "property": "C123",
   "status": "proved",
   "theorems": [
    "Kws.C123_box",
    "Kws.C123_segmentation",
    "Kws.C123_box_double",
    "Kws.C123_segmentation_double",
    "Kws.C123_scorers"
   ],
   "note": "C123_box, C123_segmentation (and _double with NDCG in double): all traces are equal, for every command line. Options such as --bootstrap_alpha=1e308 do overflow, but then the index does not fit in size_t whatever stands for infinity (undefined behaviour on both sides, C41). Sums of floats stop growing at 2^25 terms. C123_scorers: the two scorers that the tools do not use. The library of the _double theorems need only be right within a factor of two (Libm.Sane)."
  },
  {
   "property": "C124",
   "status": "proved",
   "theorems": [
    "Kws.C124_recall",
    "Kws.C124_perfect",
    "Kws.C124_product",
    "Kws.C124_zero",
    "Kws.C124_ndcg",
    "Kws.C124_box",
    "Kws.C124_box_rounded",
    "Kws.C124_segmentation",
    "Kws.C124_segmentation_rounded"
   ],
   "note": "C124_recall, C124_perfect, C124_product, C124_zero, C124_ndcg: the measures on any list. C124_box, C124_segmentation (and _rounded): the numbers of a run, as CountBounds lists them. The product bound needs interpolation (an example shows 1/8 < 1/4 without). In IEEE arithmetic the equivalences for average precision are not claimed, those for NDCG are."
  },
  {
   "property": "C125",
   "status": "proved",
   "theorems": [
    "Kws.C125_box",
    "Kws.C125_segmentation",
    "Kws.C125_box_nothing",
    "Kws.C125_box_perfect",
    "Kws.C125_segmentation_nothing",
    "Kws.C125_segmentation_perfect"
   ],
   "note": "C125_box, C125_segmentation: matching, numbers (ShowsList) and intervals (ShowsIntervals) of one and the same run. C125_box_nothing, C125_segmentation_nothing: without a hit all numbers and bounds are 0. C125_box_perfect, C125_segmentation_perfect: if the references are handed in (for boxes: each once, none within another one), they are 1. Exact arithmetic only; the values of the samples are rounded in the program."
  },
  {
   "property": "C126",
   "status": "proved",
   "theorems": [
    "Kws.C126_box_nothing",
    "Kws.C126_box_perfect",
    "Kws.C126_segmentation_nothing",
    "Kws.C126_segmentation_perfect"
   ],
   "note": "C126_box_nothing, C126_box_perfect, C126_segmentation_nothing, C126_segmentation_perfect: the texts written to standard output by traceMainD (every number a double) are resultLines. The values 0 and the NDCG 1 are exact; the average precisions are within 10^-7 of 1 and the bounds of their intervals within 4*10^-7, so that six digits show 1. The boxes of hypotheses have areas up to 2^24."
  },
  {
   "property": "C127",
   "status": "proved",
   "theorems": [
    "Kws.C127_numbers",
    "Kws.C127_matching",
    "Kws.C127_boxNumbers",
    "Kws.C127_segmentation",
    "Kws.C127_segmentation_rounded",
    "Kws.C127_box",
    "Kws.C127_box_rounded",
    "Kws.C127_alone_needed"
   ],
   "note": "C127_numbers and C127_boxNumbers: the numbers defined by the files, in terms of Spec.CostsLittle. C127_matching: the matches of the box tool with and without x. C127_segmentation and C127_box: two runs in exact arithmetic; the theorems ending in _rounded: in IEEE arithmetic (boxes of hypotheses up to an area of 2^24). C127_alone_needed: the bound of gNDCG is false if the score of x is shared."
  },
  {
   "property": "C128",
   "status": "proved",
   "theorems": [
    "Kws.C128_run",
    "Kws.C128_program",
    "Kws.C128_standardInput",
    "Kws.C128_standardInput_message"
   ],
   "note": "C128_run: all effects and the result, in terms of Spec.SameRun. C128_program: two accepted command lines. C128_standardInput: file and standard input. C128_standardInput_message: the messages do differ if the hypotheses cannot be read."
  },
  {
   "property": "C129",
   "status": "proved",
   "theorems": [
    "Kws.C129_untouched",
    "Kws.C129_written",
    "Kws.C129_again",
    "Kws.C129_over",
    "Kws.C129_separate_needed"
   ],
   "note": "C129_untouched, C129_written: the files after a run (unlimited devices; distinct names are distinct files). C129_again: the second run. C129_over: output over input. C129_separate_needed: without the condition on the names the second run differs. The model reads every input from the world before the run, as the program does: all inputs are read before the first output file is opened."
  },
  {
   "property": "C130",
   "status": "proved",
   "theorems": [
    "Kws.C130_numbers",
    "Kws.C130_matching",
    "Kws.C130_boxNumbers",
    "Kws.C130_segmentation",
    "Kws.C130_segmentation_rounded",
    "Kws.C130_box",
    "Kws.C130_box_rounded",
    "Kws.C130_lower_needed",
    "Kws.C130_group_needed"
   ],
   "note": "C130_segmentation, C130_box (and _rounded): two runs. C130_numbers, C130_boxNumbers: the numbers that the files define. C130_matching: the matches. C130_lower_needed, C130_group_needed: the two conditions are needed."
  },
  {
   "property": "C131",
   "status": "proved",
   "theorems": [
    "Kws.C131_two",
    "Kws.C131_files",
    "Kws.C131_newline_needed",
    "Kws.C131_newline_silent",
    "Kws.C131_events",
    "Kws.C131_badLine",
    "Kws.C131_segmentation_message",
    "Kws.C131_box_message",
    "Kws.C131_box_order"
   ],
   "note": "C131_two, C131_files: for every extractor and mapper. C131_events, C131_badLine: in terms of the grammar. C131_segmentation_message, C131_box_message, C131_box_order: runs. C131_newline_needed, C131_newline_silent: the line feed is needed."
  },
  {
   "property": "C132",
   "status": "proved",
   "theorems": [
    "Kws.C132_numbers",
    "Kws.C132_boxNumbers",
    "Kws.C132_segmentation",
    "Kws.C132_segmentation_rounded",
    "Kws.C132_box",
    "Kws.C132_reached",
    "Kws.C132_lower_needed"
   ],
   "note": "C132_numbers, C132_boxNumbers: the numbers that the files define. C132_segmentation, C132_segmentation_rounded, C132_box: the numbers that the runs show. C132_reached: the bound for AP is an equality for two hits. C132_lower_needed: higher scores can gain more."
  },
  {
   "property": "C133",
   "status": "proved",
   "theorems": [
    "Kws.C133_curve",
    "Kws.C133_curve_notBelow",
    "Kws.C133_segmentation",
    "Kws.C133_box",
    "Kws.C133_box_matches",
    "Kws.C133_interpolation",
    "Kws.C133_empty"
   ],
   "note": "C133_curve, C133_curve_notBelow: the curves that the files define. C133_segmentation, C133_box: the curves of runs. C133_box_matches: the matches of runs. C133_interpolation, C133_empty: the conditions are needed."
  },
  {
   "property": "C134",
   "status": "proved",
   "theorems": [
    "Kws.C134_matching",
    "Kws.C134_box",
    "Kws.C134_segmentation"
   ],
   "note": "C134_matching: the matching of boxes that C88 determines. C134_box, C134_segmentation: runs of the tools."
  }
 ]
}
