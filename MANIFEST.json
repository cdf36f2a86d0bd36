{
 "claims": [
  {
   "property": "C01",
   "status": "proved",
   "theorems": [
    "Genex.Props.C01_euclidean_dtw",
    "Genex.Props.C01_manhattan_dtw",
    "Genex.Props.C01_chebyshev_dtw",
    "Genex.Props.C01_feasible",
    "Genex.Props.C01_least"
   ],
   "note": "Least cost over all in-band alignments, exact arithmetic over any ordered field (euclidean: with square root, e.g. the reals)."
  },
  {
   "property": "C02",
   "status": "partial",
   "theorems": [
    "Genex.Props.C02_dropout_partial",
    "Genex.Props.C02_column_false",
    "Genex.Props.C02_single_point_false"
   ],
   "note": "False when the second series has one point and the first more than the band reaches but not more than twice that: then every finite bound gives infinity (C02_column_false for all such series). Proved for all others and every bound."
  },
  {
   "property": "C03",
   "status": "proved",
   "theorems": [
    "Genex.Props.C03_euclidean",
    "Genex.Props.C03_manhattan",
    "Genex.Props.C03_chebyshev",
    "Genex.Props.C03_length_mismatch"
   ],
   "note": ""
  },
  {
   "property": "C04",
   "status": "partial",
   "theorems": [
    "Genex.Props.C04_dropout_partial",
    "Genex.Props.C04_sorensen_false",
    "Genex.Props.C04_cosine_false"
   ],
   "note": "Proved for euclidean, manhattan, chebyshev; false for sorensen and cosine (C04_sorensen_false, C04_cosine_false)."
  },
  {
   "property": "C05",
   "status": "proved",
   "theorems": [
    "Genex.Props.C05_kim"
   ],
   "note": "Kim's bound never exceeds the euclidean_dtw distance, all finite series with at least one point."
  },
  {
   "property": "C06",
   "status": "proved",
   "theorems": [
    "Genex.Props.C06_keogh",
    "Genex.Props.C06_value"
   ],
   "note": "Keogh's bound and the cross bound, all finite series, every bound (dropout)."
  },
  {
   "property": "C07",
   "status": "partial",
   "theorems": [
    "Genex.Props.C07_cascade_partial",
    "Genex.Props.C07_column_false",
    "Genex.Props.C07_single_point_false"
   ],
   "note": "False when the second series has one point and the first more than the band reaches but not more than twice that (C07_column_false for all such series). Proved for all others."
  },
  {
   "property": "C08",
   "status": "proved",
   "theorems": [
    "Genex.Props.C08_envelope",
    "Genex.Props.C08_cap"
   ],
   "note": "Window minima/maxima for finite values, every window; widths beyond the length give the envelope of length - 1."
  },
  {
   "property": "C09",
   "status": "proved",
   "theorems": [
    "Genex.Props.C09_safe",
    "Genex.Props.C09_keoghLU"
   ],
   "note": "The ring buffers never overflow and are never read while empty."
  },
  {
   "property": "C10",
   "status": "proved",
   "theorems": [
    "Genex.Props.C10_euclidean",
    "Genex.Props.C10_manhattan",
    "Genex.Props.C10_chebyshev"
   ],
   "note": ""
  },
  {
   "property": "C11",
   "status": "proved",
   "theorems": [
    "Genex.Props.C11_symmetric",
    "Genex.Props.C11_nonneg",
    "Genex.Props.C11_le_pairwise",
    "Genex.Props.C11_self"
   ],
   "note": ""
  },
  {
   "property": "C12",
   "status": "partial",
   "theorems": [
    "Genex.Props.C12_matching_partial",
    "Genex.Props.C12_single_points_false",
    "Genex.Props.C12_cascade_partial"
   ],
   "note": "False for two one-point series (C12_single_points_false): no pair is returned; proved otherwise, every ratio and bound."
  },
  {
   "property": "C13",
   "status": "partial",
   "theorems": [
    "Genex.Props.C13_full_band_partial",
    "Genex.Props.C13_leaves_band"
   ],
   "note": "Proved for the full band; false for narrower bands (C13_leaves_band)."
  },
  {
   "property": "C14",
   "status": "partial",
   "theorems": [
    "Genex.Props.C14_returns_partial",
    "Genex.Props.C14_diverges",
    "Genex.Props.C14_null_pointer"
   ],
   "note": "Proved for 8 of 10 distances on all data and for sorensen_dtw/cosine_dtw on zero-free data; false otherwise (C14_diverges, C14_null_pointer)."
  },
  {
   "property": "C15",
   "status": "proved",
   "theorems": [
    "Genex.Props.C15_traverse",
    "Genex.Props.C15_finite"
   ],
   "note": ""
  },
  {
   "property": "C16",
   "status": "proved",
   "theorems": [
    "Genex.Props.C16_range",
    "Genex.Props.C16_value",
    "Genex.Props.C16_mono",
    "Genex.Props.C16_full"
   ],
   "note": ""
  },
  {
   "property": "C17",
   "status": "proved",
   "theorems": [
    "Genex.Props.C17_contents",
    "Genex.Props.C17_names",
    "Genex.Props.C17_accepts",
    "Genex.Props.C17_rejects"
   ],
   "note": ""
  },
  {
   "property": "C18",
   "status": "proved",
   "theorems": [
    "Genex.Props.C18_count",
    "Genex.Props.C18_prefix"
   ],
   "note": ""
  },
  {
   "property": "C19",
   "status": "proved",
   "theorems": [
    "Genex.Props.C19_unchanged",
    "Genex.Props.C19_again"
   ],
   "note": "After any history; every failure, for GenexException also that no object is left behind."
  },
  {
   "property": "C20",
   "status": "partial",
   "theorems": [
    "Genex.Props.C20_reload_false",
    "Genex.Props.C20_reload_partial"
   ],
   "note": "False: lengths, normalised flag are carried over (C20_reload_false); exact description of what is kept in C20_reload_partial."
  },
  {
   "property": "C21",
   "status": "proved",
   "theorems": [
    "Genex.Props.C21_save_load",
    "Genex.Props.C21_second_round"
   ],
   "note": ""
  },
  {
   "property": "C22",
   "status": "proved",
   "theorems": [
    "Genex.Props.C22_slice",
    "Genex.Props.C22_whole",
    "Genex.Props.C22_throws",
    "Genex.Props.C22_confined"
   ],
   "note": ""
  },
  {
   "property": "C23",
   "status": "proved",
   "theorems": [
    "Genex.Props.C23_normalize",
    "Genex.Props.C23_range",
    "Genex.Props.C23_empty"
   ],
   "note": ""
  },
  {
   "property": "C24",
   "status": "proved",
   "theorems": [
    "Genex.Props.C24_idempotent"
   ],
   "note": ""
  },
  {
   "property": "C25",
   "status": "proved",
   "theorems": [
    "Genex.Props.C25_topk",
    "Genex.Props.C25_refuses"
   ],
   "note": "For every sort/heap implementation meeting the C++ contract; distances that differ do so by at least 1e-9, as the property says."
  },
  {
   "property": "C26",
   "status": "partial",
   "theorems": [
    "Genex.Props.C26_order_partial",
    "Genex.Props.C26_asymm_partial",
    "Genex.Props.C26_order_false"
   ],
   "note": "False (C26_order_false: a cycle of three); proved for candidates whose distances are equal or at least 1e-9 apart, asymmetry for all."
  },
  {
   "property": "C27",
   "status": "proved",
   "theorems": [
    "Genex.Props.C27_partition"
   ],
   "note": "Whenever grouping returns; that it returns is C33."
  },
  {
   "property": "C28",
   "status": "proved",
   "theorems": [
    "Genex.Props.C28_radius"
   ],
   "note": "Exact arithmetic; the three metrics and thresholds named in the property."
  },
  {
   "property": "C29",
   "status": "proved",
   "theorems": [
    "Genex.Props.C29_separation"
   ],
   "note": ""
  },
  {
   "property": "C30",
   "status": "proved",
   "theorems": [
    "Genex.Props.C30_count"
   ],
   "note": ""
  },
  {
   "property": "C31",
   "status": "proved",
   "theorems": [
    "Genex.Props.C31_same",
    "Genex.Props.C31_exception"
   ],
   "note": "Any schedule of the workers; condition on the clock only so as to exclude the division by zero of C33."
  },
  {
   "property": "C32",
   "status": "proved",
   "theorems": [
    "Genex.Props.C32_once",
    "Genex.Props.C32_progress",
    "Genex.Props.C32_terminates",
    "Genex.Props.C32_can_finish",
    "Genex.Props.C32_exclusive"
   ],
   "note": "Transition system of genex/lib/ThreadPool.hpp with explicit mutex, condition variable and spurious wake-ups."
  },
  {
   "property": "C33",
   "status": "partial",
   "theorems": [
    "Genex.Props.C33_partial",
    "Genex.Props.C33_returns",
    "Genex.Props.C33_clock_false",
    "Genex.Props.C33_threshold_false"
   ],
   "note": "False: progress logging divides by zero (C33_clock_false), infinite threshold with undefined distances reads an uninitialised index (C33_threshold_false); proved otherwise."
  },
  {
   "property": "C34",
   "status": "proved",
   "theorems": [
    "Genex.Props.C34_best_match",
    "Genex.Props.C34_returns"
   ],
   "note": "The three metrics; every grouping state reached by a successful groupDataset, any threshold, any number of threads, or by loading saved groups."
  },
  {
   "property": "C35",
   "status": "proved",
   "theorems": [
    "Genex.Props.C35_best"
   ],
   "note": "As C34."
  },
  {
   "property": "C36",
   "status": "partial",
   "theorems": [
    "Genex.Props.C36_partial",
    "Genex.Props.C36_long_false",
    "Genex.Props.C36_whole_false"
   ],
   "note": "False: queries longer than the series (C36_long_false) and whole-series groupings (C36_whole_false) crash; exact description of when it returns in C36_partial."
  },
  {
   "property": "C37",
   "status": "partial",
   "theorems": [
    "Genex.Props.C37_partial",
    "Genex.Props.C37_long_query_false",
    "Genex.Props.C37_zero_budget"
   ],
   "note": "False for queries longer than the series (C37_long_query_false); proved for all shorter queries, of one point too, in a dataset with a series of two points or more, distances equal or at least 1e-9 apart."
  },
  {
   "property": "C38",
   "status": "partial",
   "theorems": [
    "Genex.Props.C38_exhaustive_partial",
    "Genex.Props.C38_close_false"
   ],
   "note": "False for distances closer than 1e-9 (C38_close_false); otherwise as C37."
  },
  {
   "property": "C39",
   "status": "partial",
   "theorems": [
    "Genex.Props.C39_partial",
    "Genex.Props.C39_false"
   ],
   "note": "False: missing results are padded with empty entries (C39_false); otherwise as C37."
  },
  {
   "property": "C40",
   "status": "partial",
   "theorems": [
    "Genex.Props.C40_partial",
    "Genex.Props.C40_false"
   ],
   "note": "False for distances closer than 1e-9 (C40_false); proved for distances equal or at least 1e-9 apart."
  },
  {
   "property": "C41",
   "status": "proved",
   "theorems": [
    "Genex.Props.C41_round_trip",
    "Genex.Props.C41_grouped"
   ],
   "note": "The file is the list of the values written; boost's bytes and the compression are not modelled. Any object with the same series."
  },
  {
   "property": "C42",
   "status": "proved",
   "theorems": [
    "Genex.Props.C42_incompatible"
   ],
   "note": "Files saved by any object whatever."
  },
  {
   "property": "C43",
   "status": "proved",
   "theorems": [
    "Genex.Props.C43_truncated"
   ],
   "note": "Cut after any number of values; loading throws a standard exception. What is left of the groups is C45."
  },
  {
   "property": "C44",
   "status": "partial",
   "theorems": [
    "Genex.Props.C44_partial",
    "Genex.Props.C44_false"
   ],
   "note": "False for whole-series groupings (C44_false: null pointer); proved otherwise, the second round trip gives the original file."
  },
  {
   "property": "C45",
   "status": "partial",
   "theorems": [
    "Genex.Props.C45_partial",
    "Genex.Props.C45_group_false",
    "Genex.Props.C45_load_false"
   ],
   "note": "False (C45_group_false, C45_load_false); proved for failures before the old groups are dropped, and that the data never changes."
  },
  {
   "property": "C46",
   "status": "partial",
   "theorems": [
    "Genex.Props.C46_count",
    "Genex.Props.C46_listed",
    "Genex.Props.C46_registered",
    "Genex.Props.C46_query_partial",
    "Genex.Props.C46_query_false",
    "Genex.Props.C46_unknown",
    "Genex.Props.C46_used",
    "Genex.Props.C46_others",
    "Genex.Props.C46_kept"
   ],
   "note": "False in one point: after a grouping that threw, or after groups were loaded from text (C80), asking for the dataset reads an uninitialised threshold (C46_query_false); the rest is proved for all histories."
  },
  {
   "property": "C47",
   "status": "partial",
   "theorems": [
    "Genex.Props.C47_other",
    "Genex.Props.C47_partial",
    "Genex.Props.C47_false",
    "Genex.Props.C47_search_false",
    "Genex.Props.C47_all_false"
   ],
   "note": "False: a wrapper for PAA outlives its dataset (C47_false, C47_search_false, C47_all_false); proved for all calls without PAA, and for histories that unload no prepared dataset."
  },
  {
   "property": "C48",
   "status": "proved",
   "theorems": [
    "Genex.Props.C48_lookup",
    "Genex.Props.C48_listed",
    "Genex.Props.C48_rejected"
   ],
   "note": ""
  },
  {
   "property": "C49",
   "status": "partial",
   "theorems": [
    "Genex.Props.C49_partial",
    "Genex.Props.C49_empty_false"
   ],
   "note": "False for the empty series (C49_empty_false); proved for every series of at least one point."
  },
  {
   "property": "C50",
   "status": "partial",
   "theorems": [
    "Genex.Props.C50_partial",
    "Genex.Props.C50_uninit",
    "Genex.Props.C50_zero_partial",
    "Genex.Props.C50_long_false"
   ],
   "note": "False: the uninitialised variable sum is read for every part that leaves a remainder (C50_uninit), and parts past the shortest series are wrong (C50_long_false); proved otherwise."
  },
  {
   "property": "C51",
   "status": "partial",
   "theorems": [
    "Genex.Props.C51_partial",
    "Genex.Props.C51_false"
   ],
   "note": "False: with at most maxCol series the lengths are read out of bounds (C51_false); proved for datasets with more series than the longest has points."
  },
  {
   "property": "C52",
   "status": "partial",
   "theorems": [
    "Genex.Props.C52_partial",
    "Genex.Props.C52_same_pointer",
    "Genex.Props.C52_false",
    "Genex.Props.C52_nan_false"
   ],
   "note": "False: parts of the same stored series always compare equal (C52_same_pointer, C52_false), NaN equals everything (C52_nan_false); proved otherwise."
  },
  {
   "property": "C53",
   "status": "partial",
   "theorems": [
    "Genex.Props.C53_partial",
    "Genex.Props.C53_shorter_false",
    "Genex.Props.C53_longer_false",
    "Genex.Props.C53_self_false",
    "Genex.Props.C53_move"
   ],
   "note": "False for owning sources of another length (C53_shorter_false, C53_longer_false) and self-assignment (C53_self_false); proved otherwise, move assignment for all lengths."
  },
  {
   "property": "C54",
   "status": "partial",
   "theorems": [
    "Genex.Props.C54_partial",
    "Genex.Props.C54_assign_false",
    "Genex.Props.C54_write_false",
    "Genex.Props.C54_add_false",
    "Genex.Props.C54_false"
   ],
   "note": "False: assignment, writes, additions to a series on the same data and normalisation leave old envelopes (C54_*_false, C54_false); proved for histories without these."
  },
  {
   "property": "C55",
   "status": "partial",
   "theorems": [
    "Genex.Props.C55_partial",
    "Genex.Props.C55_false",
    "Genex.Props.C55_refused"
   ],
   "note": "False when both a range and ke are given: the range is ignored (C55_false, for all values); proved for the other three forms."
  },
  {
   "property": "C56",
   "status": "partial",
   "theorems": [
    "Genex.Props.C56_partial",
    "Genex.Props.C56_false"
   ],
   "note": "False (C56_false): the file is emptied before the object is asked for its groups."
  },
  {
   "property": "C57",
   "status": "proved",
   "theorems": [
    "Genex.Props.C57_group",
    "Genex.Props.C57_load"
   ],
   "note": ""
  },
  {
   "property": "C58",
   "status": "proved",
   "theorems": [
    "Genex.Props.C58_same"
   ],
   "note": "Including the exceptions: same result or same exception."
  },
  {
   "property": "C59",
   "status": "partial",
   "theorems": [
    "Genex.Props.C59_false",
    "Genex.Props.C59_partial"
   ],
   "note": "False for every block size from two on, if the series have three points or more (C59_false); proved for block size one and series of one length."
  },
  {
   "property": "C60",
   "status": "proved",
   "theorems": [
    "Genex.Props.C60_destroy",
    "Genex.Props.C60_move",
    "Genex.Props.C60_copy",
    "Genex.Props.C60_dataset"
   ],
   "note": "Any history of the modelled operations; objects reachable from none."
  },
  {
   "property": "C61",
   "status": "proved",
   "theorems": [
    "Genex.Props.C61_local"
   ],
   "note": "All calls but those about all datasets (count, overview, unload all) and those about PAA; grouping with any threads."
  },
  {
   "property": "C62",
   "status": "proved",
   "theorems": [
    "Genex.Props.C62_served"
   ],
   "note": "Any files whose lines reach the first value column (see C17)."
  },
  {
   "property": "C63",
   "status": "partial",
   "theorems": [
    "Genex.Props.C63_usage_partial",
    "Genex.Props.C63_distance_false",
    "Genex.Props.C63_only_partial",
    "Genex.Props.C63_bf_false"
   ],
   "note": "False for distance without a name (help says euclidean, code uses euclidean_dtw) and for ksimBF with one or three extra arguments, which are ignored; proved for all other documented forms, and that nothing else is accepted."
  },
  {
   "property": "C64",
   "status": "proved",
   "theorems": [
    "Genex.Props.C64_alive",
    "Genex.Props.C64_ends",
    "Genex.Props.C64_unchanged"
   ],
   "note": "stoi, stod, the files and the number of hardware threads are parameters that may differ from line to line."
  },
  {
   "property": "C65",
   "status": "partial",
   "theorems": [
    "Genex.Props.C65_value",
    "Genex.Props.C65_values",
    "Genex.Props.C65_kept_partial",
    "Genex.Props.C65_grows_false",
    "Genex.Props.C65_unbounded_false"
   ],
   "note": "The value is independent of earlier calls, for all calls; gNoMatching is kept by pairwise distances only and grows without bound with every DTW (C65_grows_false, C65_unbounded_false)."
  },
  {
   "property": "C66",
   "status": "partial",
   "theorems": [
    "Genex.Props.C66_once",
    "Genex.Props.C66_partial",
    "Genex.Props.C66_false"
   ],
   "note": "False: DTW with cosine or sorensen never deletes the arrays of the first row and column (C66_false, exact number); no array is deleted twice (C66_once), all others are deleted (C66_partial)."
  },
  {
   "property": "C67",
   "status": "partial",
   "theorems": [
    "Genex.Props.C67_state",
    "Genex.Props.C67_partial",
    "Genex.Props.C67_false"
   ],
   "note": "False after a normalisation without grouping again (C67_false); proved for all other histories. This also justifies that the other search properties compute envelopes afresh."
  },
  {
   "property": "C68",
   "status": "partial",
   "theorems": [
    "Genex.Props.C68_euclidean",
    "Genex.Props.C68_chebyshev",
    "Genex.Props.C68_manhattan_partial",
    "Genex.Props.C68_manhattan_false"
   ],
   "note": "Euclidean (half the distance) and chebyshev: proved for all series. Manhattan: false (C68_manhattan_false), proved with the factor min(2w+1, n)/2, w the width of the band (C68_manhattan_partial)."
  },
  {
   "property": "C69",
   "status": "partial",
   "theorems": [
    "Genex.Props.C69_euclidean",
    "Genex.Props.C69_chebyshev",
    "Genex.Props.C69_manhattan_partial",
    "Genex.Props.C69_same_length_partial",
    "Genex.Props.C69_manhattan_false"
   ],
   "note": "Euclidean: within a quarter, chebyshev: within half of the threshold, for all datasets. Manhattan: false (C69_manhattan_false), proved with the factor of C68, and against the ordinary distance to subsequences of the length of the query."
  },
  {
   "property": "C70",
   "status": "proved",
   "theorems": [
    "Genex.Props.C70_best",
    "Genex.Props.C70_returns",
    "Genex.Props.C70_near",
    "Genex.Props.C70_kbest",
    "Genex.Props.C70_exhaustive"
   ],
   "note": "Proved for euclidean, manhattan and chebyshev (nearness: euclidean and chebyshev), for numbers that are finite; exhaustive search if distances are equal or at least 1e-9 apart (the search compares with an epsilon)."
  },
  {
   "property": "C71",
   "status": "partial",
   "theorems": [
    "Genex.Props.C71_ratio",
    "Genex.Props.C71_pairwise",
    "Genex.Props.C71_unequal",
    "Genex.Props.C71_dtw",
    "Genex.Props.C71_symmetric",
    "Genex.Props.C71_self",
    "Genex.Props.C71_name",
    "Genex.Props.C71_matching_partial",
    "Genex.Props.C71_optimal_partial",
    "Genex.Props.C71_matching_name",
    "Genex.Props.C71_single_points_false",
    "Genex.Props.C71_narrow_false",
    "Genex.Props.C71_short_name"
   ],
   "note": "Distances: proved for euclidean, manhattan and chebyshev and their DTW distances. Matchings are alignments except for two single points (C71_single_points_false); their cost is the distance for the full band only (C71_narrow_false)."
  },
  {
   "property": "C72",
   "status": "partial",
   "theorems": [
    "Genex.Props.C72_double",
    "Genex.Props.C72_digits",
    "Genex.Props.C72_exact",
    "Genex.Props.C72_dropout_partial",
    "Genex.Props.C72_alignment_partial",
    "Genex.Props.C72_pairwise_partial",
    "Genex.Props.C72_euclidean_false",
    "Genex.Props.C72_kim",
    "Genex.Props.C72_keogh",
    "Genex.Props.C72_cascade_partial",
    "Genex.Props.C72_optimal_false",
    "Genex.Props.C72_symmetric_false"
   ],
   "note": "Warped distances, bounds and cascade: proved for every rounding with the laws, double among them (except where C02 is false). Pairwise: manhattan and chebyshev; false for euclidean, whose test is made on the rounded square of the bound (C72_euclidean_false). Overflow is in C87 and C108."
  },
  {
   "property": "C73",
   "status": "proved",
   "theorems": [
    "Genex.Props.C73_digits",
    "Genex.Props.C73_double",
    "Genex.Props.C73_representable",
    "Genex.Props.C73_dtw",
    "Genex.Props.C73_infinite",
    "Genex.Props.C73_order",
    "Genex.Props.C73_pairwise",
    "Genex.Props.C73_giving_up"
   ],
   "note": "For lengths with 12(m+n)u at most 1 (with 53 digits: any length below 10^14). The data are numbers the rounding leaves as they are, as doubles are; underflow is covered, overflow is in C87."
  },
  {
   "property": "C74",
   "status": "proved",
   "theorems": [
    "Genex.Props.C74_topk",
    "Genex.Props.C74_returns",
    "Genex.Props.C74_best",
    "Genex.Props.C74_kbest",
    "Genex.Props.C74_partition",
    "Genex.Props.C74_radius"
   ],
   "note": "Candidates with equal computed distances are told apart as in C09 (computed distances spaced by more than the tolerance of operator<). Data as in C73."
  },
  {
   "property": "C75",
   "status": "partial",
   "theorems": [
    "Genex.Props.C75_euclidean",
    "Genex.Props.C75_chebyshev",
    "Genex.Props.C75_manhattan_partial"
   ],
   "note": "Euclidean and chebyshev; for manhattan with a factor, and false without (C69_manhattan_false: exact arithmetic is one of the roundings)."
  },
  {
   "property": "C76",
   "status": "partial",
   "theorems": [
    "Genex.Props.C76_sizes",
    "Genex.Props.C76_round_trip_partial",
    "Genex.Props.C76_search_partial",
    "Genex.Props.C76_sound",
    "Genex.Props.C76_refused_partial",
    "Genex.Props.C76_threshold_false",
    "Genex.Props.C76_ksearch_false",
    "Genex.Props.C76_truncated_false",
    "Genex.Props.C76_sizes_false",
    "Genex.Props.C76_infinite_false",
    "Genex.Props.C76_lengths_false"
   ],
   "note": "Groups, members, centroids and searches are the same (C76_round_trip_partial, C76_search_partial), but the threshold is left uninitialised (C76_threshold_false), and saving the groups again or searching for several matches reads it (C76_ksearch_false) and a grouping of whole series is not marked as one. Not refused: truncated files (C76_truncated_false), files of sizes only (C76_sizes_false), files for series of other lengths (C76_lengths_false); a file written with an infinite threshold is refused (C76_infinite_false)."
  },
  {
   "property": "C77",
   "status": "partial",
   "theorems": [
    "Genex.Props.C77_reads",
    "Genex.Props.C77_error",
    "Genex.Props.C77_sixteen_partial",
    "Genex.Props.C77_exact",
    "Genex.Props.C77_search_partial",
    "Genex.Props.C77_sum_false",
    "Genex.Props.C77_power_false"
   ],
   "note": "Proved for doubles read from at most sixteen digits, except powers of two, for which the digits must be exact; false for computed doubles such as 0.1 + 0.2 (C77_sum_false) and for a power of two read from fourteen digits (C77_power_false). The error bound holds for all. Printing and reading round to nearest; reading past the largest double and the sign of zero are not modelled."
  },
  {
   "property": "C78",
   "status": "partial",
   "theorems": [
    "Genex.Props.C78_error",
    "Genex.Props.C78_range_partial",
    "Genex.Props.C78_idempotent",
    "Genex.Props.C78_empty",
    "Genex.Props.C78_strict_false"
   ],
   "note": "Order is kept, but different values can become equal (C78_strict_false). Overflow of max - min is in C87."
  },
  {
   "property": "C79",
   "status": "partial",
   "theorems": [
    "Genex.Props.C79_error_partial",
    "Genex.Props.C79_constant_false"
   ],
   "note": "The error bound is proved; the mean of equal points can differ from them (C79_constant_false). Overflow is in C87. getPAA and average in double: C101."
  },
  {
   "property": "C80",
   "status": "proved",
   "theorems": [
    "Genex.Props.C80_best",
    "Genex.Props.C80_near",
    "Genex.Props.C80_save",
    "Genex.Props.C80_load",
    "Genex.Props.C80_info_false"
   ],
   "note": "If sixteen digits are enough for the points (C77); false for the overview, several matches and saving again, which read the threshold that the text does not restore (C80_info_false)."
  },
  {
   "property": "C81",
   "status": "partial",
   "theorems": [
    "Genex.Props.C81_allocated",
    "Genex.Props.C81_destroyed",
    "Genex.Props.C81_wrappers_partial",
    "Genex.Props.C81_wrapper_false"
   ],
   "note": "Proved for datasets, for all histories; false for the objects made by preparePAA, which nothing ever deletes (C81_wrapper_false)."
  },
  {
   "property": "C82",
   "status": "partial",
   "theorems": [
    "Genex.Props.C82_call_partial",
    "Genex.Props.C82_only",
    "Genex.Props.C82_required_false",
    "Genex.Props.C82_unknown",
    "Genex.Props.C82_overflow",
    "Genex.Props.C82_matching_full",
    "Genex.Props.C82_matching_false",
    "Genex.Props.C82_session",
    "Genex.Props.C82_refused",
    "Genex.Props.C82_ksim_false"
   ],
   "note": "Proved for calls that name optional parameters only; false when a required parameter is named (C82_required_false), for getMatching with fewer than nine positional arguments (C82_matching_false), and for the number of entries of ksim (C82_ksim_false).  C82_overflow and C82_unknown say which exception a refused call raises."
  },
  {
   "property": "C83",
   "status": "proved",
   "theorems": [
    "Genex.Props.C83_dtw_rows",
    "Genex.Props.C83_dtw_columns",
    "Genex.Props.C83_dtw_plain",
    "Genex.Props.C83_given_up_false"
   ],
   "note": "Proved for exact arithmetic; a result that is not below the bound need not be the distance (C83_given_up_false), and is not meant to be."
  },
  {
   "property": "C84",
   "status": "partial",
   "theorems": [
    "Genex.Props.C84_kim_partial",
    "Genex.Props.C84_kim_false",
    "Genex.Props.C84_kim_two_points_false",
    "Genex.Props.C84_keogh_query",
    "Genex.Props.C84_keogh_data"
   ],
   "note": "The bound of Kim is proved for six points and more and false for five (C84_kim_false), with two points it reads outside (C84_kim_two_points_false); the bounds of Keogh are proved for all lengths."
  },
  {
   "property": "C85",
   "status": "partial",
   "theorems": [
    "Genex.Props.C85_search_partial",
    "Genex.Props.C85_calculate_partial",
    "Genex.Props.C85_order_partial",
    "Genex.Props.C85_flat_query_false",
    "Genex.Props.C85_short_query_false",
    "Genex.Props.C85_no_number_false",
    "Genex.Props.C85_long_query_false",
    "Genex.Props.C85_five_points_false",
    "Genex.Props.C85_wide_band_false",
    "Genex.Props.C85_two_points_false",
    "Genex.Props.C85_no_window_false",
    "Genex.Props.C85_flat_window_false",
    "Genex.Props.C85_order_false"
   ],
   "note": "Proved for queries of 6 to 100000 points that are not all the same, bands narrower than the query, files of numbers only, less than 2^31 points, windows that are not flat; false without each of these (the _false theorems)."
  },
  {
   "property": "C86",
   "status": "partial",
   "theorems": [
    "Genex.Props.C86_never_null",
    "Genex.Props.C86_objects",
    "Genex.Props.C86_race_partial",
    "Genex.Props.C86_race_false",
    "Genex.Props.C86_leak_false",
    "Genex.Props.C86_progress",
    "Genex.Props.C86_ends"
   ],
   "note": "Free of races only if the object was made before the threads start (C86_race_partial); otherwise two threads race (C86_race_false) and objects are lost (C86_leak_false). The rest is proved for all sequentially consistent schedules."
  },
  {
   "property": "C87",
   "status": "partial",
   "theorems": [
    "Genex.Props.C87_same_code",
    "Genex.Props.C87_distances_partial",
    "Genex.Props.C87_matching_partial",
    "Genex.Props.C87_group_partial",
    "Genex.Props.C87_search_partial",
    "Genex.Props.C87_load",
    "Genex.Props.C87_normalize_partial",
    "Genex.Props.C87_paa_partial",
    "Genex.Props.C87_double",
    "Genex.Props.C87_infinite_false",
    "Genex.Props.C87_zero_false",
    "Genex.Props.C87_search_false",
    "Genex.Props.C87_normalize_false",
    "Genex.Props.C87_paa_false"
   ],
   "note": "Proved for data in the range of the metric (for double: up to 2^480 in size, at least) and the euclidean, manhattan and chebyshev metrics; false beyond it (C87_infinite_false, C87_zero_false, C87_search_false, C87_normalize_false, C87_paa_false). Cosine and Sorensen: C108."
  },
  {
   "property": "C88",
   "status": "proved",
   "theorems": [
    "Genex.Props.C88_best",
    "Genex.Props.C88_returns",
    "Genex.Props.C88_near",
    "Genex.Props.C88_query",
    "Genex.Props.C88_normalize",
    "Genex.Props.C88_exhaustive",
    "Genex.Props.C88_kbest"
   ],
   "note": "Holds for the interface in double arithmetic with overflow; PAA searches are not part of it."
  },
  {
   "property": "C89",
   "status": "partial",
   "theorems": [
    "Genex.Props.C89_value",
    "Genex.Props.C89_off_by_one",
    "Genex.Props.C89_exact_false",
    "Genex.Props.C89_tenth",
    "Genex.Props.C89_grows_partial",
    "Genex.Props.C89_grows_false",
    "Genex.Props.C89_converts_partial",
    "Genex.Props.C89_converts_false",
    "Genex.Props.C89_traverse_partial",
    "Genex.Props.C89_dtw",
    "Genex.Props.C89_best_partial",
    "Genex.Props.C89_near_partial"
   ],
   "note": "For lengths up to 2^26 and products below 2^31: beyond, the band can grow by two at once (C89_grows_false) and the conversion is undefined (C89_converts_false). The rounded band can be one wider than the exact one (C89_exact_false)."
  },
  {
   "property": "C90",
   "status": "proved",
   "theorems": [
    "Genex.Props.C90_tells",
    "Genex.Props.C90_matching",
    "Genex.Props.C90_best",
    "Genex.Props.C90_returns",
    "Genex.Props.C90_near",
    "Genex.Props.C90_exhaustive",
    "Genex.Props.C90_kbest",
    "Genex.Props.C90_normalize"
   ],
   "note": "Exact arithmetic; files with fewer than 2^31 lines of fewer than 2^31 numbers. getMatching with its nine arguments."
  },
  {
   "property": "C91",
   "status": "partial",
   "theorems": [
    "Genex.Props.C91_load_partial",
    "Genex.Props.C91_load_over",
    "Genex.Props.C91_loaded_partial",
    "Genex.Props.C91_access_partial",
    "Genex.Props.C91_save_partial",
    "Genex.Props.C91_cells_partial",
    "Genex.Props.C91_length",
    "Genex.Props.C91_group_partial",
    "Genex.Props.C91_total",
    "Genex.Props.C91_log_over",
    "Genex.Props.C91_load_false",
    "Genex.Props.C91_log_false",
    "Genex.Props.C91_total_false"
   ],
   "note": "Proved for data of less than 2^31 places and less than 2^31 subsequences to group, and for the log exactly: it needs less than 21474840 places of a length. False beyond: C91_load_false (a file of 200000 characters), C91_log_false, C91_total_false (one series of 65537 points)."
  },
  {
   "property": "C92",
   "status": "partial",
   "theorems": [
    "Genex.Props.C92_order",
    "Genex.Props.C92_best_partial",
    "Genex.Props.C92_counter_partial",
    "Genex.Props.C92_session_partial",
    "Genex.Props.C92_repeat_false",
    "Genex.Props.C92_counter_false"
   ],
   "note": "Proved for datasets of at most 2^30 places, queries not longer than the longest series, and sessions in which sizes and budgets add up to less than 2^31. The effect of one call on the counter is given exactly (C92_counter_partial). False for longer sessions: the counter is never set back, so repeating a search ends in overflow (C92_repeat_false), twice is enough for budget 2^31-1 (C92_counter_false). For the integers inside the distances see C93."
  },
  {
   "property": "C93",
   "status": "partial",
   "theorems": [
    "Genex.Props.C93_distance",
    "Genex.Props.C93_envelope",
    "Genex.Props.C93_long",
    "Genex.Props.C93_long_false",
    "Genex.Props.C93_normalize_partial",
    "Genex.Props.C93_group_partial",
    "Genex.Props.C93_best_partial",
    "Genex.Props.C93_session_partial",
    "Genex.Props.C93_double_partial"
   ],
   "note": "Distances proved for series of less than 2^30 points, cascade 715827882; grouping and searching for data of fewer values than that. False from 2^30 points on: twice the length, the divisor of Euclidean and Manhattan distances, overflows for every pair of series (C93_long, C93_long_false)."
  },
  {
   "property": "C94",
   "status": "proved",
   "theorems": [
    "Genex.Props.C94_run"
   ],
   "note": "Sizes: lines times columns less than 715827882, values up to 2^480, subsequences less than 2^31, logged lengths 5 to 21474839 places. Beyond them see C91_load_false, C91_log_false, C91_total_false, C93_long_false. Any number of threads by C95_run."
  },
  {
   "property": "C95",
   "status": "partial",
   "theorems": [
    "Genex.Props.C95_result",
    "Genex.Props.C95_groups",
    "Genex.Props.C95_exists",
    "Genex.Props.C95_finish",
    "Genex.Props.C95_group_partial",
    "Genex.Props.C95_run",
    "Genex.Props.C95_run_exists"
   ],
   "note": "C95_result, C95_groups, C95_run: no condition on sizes. C95_group_partial, absence of overflow: sizes as in C91."
  },
  {
   "property": "C96",
   "status": "partial",
   "theorems": [
    "Genex.Props.C96_same_partial",
    "Genex.Props.C96_longest",
    "Genex.Props.C96_double_partial",
    "Genex.Props.C96_run_partial"
   ],
   "note": "Sizes as in C94. Missing: computed distances that are different but closer than 1e-9 (operator< is then no order, C26), cosine and Sorensen. C96_longest: a series of 2^31-1 points overflows the counter of lengths."
  },
  {
   "property": "C97",
   "status": "partial",
   "theorems": [
    "Genex.Props.C97_double_partial",
    "Genex.Props.C97_run_partial"
   ],
   "note": "As C96, and the counter extraTimeSeries must have room (C92_repeat_false says it runs out)."
  },
  {
   "property": "C98",
   "status": "partial",
   "theorems": [
    "Genex.Props.C98_valid_partial",
    "Genex.Props.C98_alignment_partial",
    "Genex.Props.C98_machine_partial",
    "Genex.Props.C98_optimal_false"
   ],
   "note": "Full band and not two single points (C13, C12 are false otherwise). Exact optimality is false in double: C98_optimal_false."
  },
  {
   "property": "C99",
   "status": "partial",
   "theorems": [
    "Genex.Props.C99_sorensen",
    "Genex.Props.C99_sorensen_value",
    "Genex.Props.C99_sorensen_laws",
    "Genex.Props.C99_sorensen_dtw_partial",
    "Genex.Props.C99_sorensen_dtw_self",
    "Genex.Props.C99_cosine",
    "Genex.Props.C99_cosine_zero",
    "Genex.Props.C99_cosine_self",
    "Genex.Props.C99_cosine_dtw_partial",
    "Genex.Props.C99_least_false",
    "Genex.Props.C99_triangle_false",
    "Genex.Props.C99_cosine_false"
   ],
   "note": "The last sentence of the claim is false: sorensen_dtw is not the least over the alignments (C99_least_false), cosine is largest for the series itself (C99_cosine_self, C99_cosine_false). sorensen violates the triangle inequality (C99_triangle_false)."
  },
  {
   "property": "C100",
   "status": "partial",
   "theorems": [
    "Genex.Props.C100_sorensen",
    "Genex.Props.C100_sorensen_dtw_partial",
    "Genex.Props.C100_cosine_partial",
    "Genex.Props.C100_cosine_dtw_partial",
    "Genex.Props.C100_range_false",
    "Genex.Props.C100_underflow_false",
    "Genex.Props.C100_overflow_false"
   ],
   "note": "C100_range_false: in double a cosine can exceed 1. C100_underflow_false: with underflow it is NaN. C100_overflow_false: with overflow sorensen is NaN. Which alignment the dtw variants use is open as in C99."
  },
  {
   "property": "C101",
   "status": "partial",
   "theorems": [
    "Genex.Props.C101_direct_partial",
    "Genex.Props.C101_prepare_partial",
    "Genex.Props.C101_prepare_false",
    "Genex.Props.C101_same_partial",
    "Genex.Props.C101_uninit",
    "Genex.Props.C101_zero_partial",
    "Genex.Props.C101_search_partial",
    "Genex.Props.C101_never",
    "Genex.Props.C101_error_partial"
   ],
   "note": "C101_prepare_false: datasets with at most maxCol series read outside an array. C101_uninit: parts that leave a rest read an uninitialised variable, so searches with larger blocks never return (C101_never). Parts that end after the shortest series: C50_long_false."
  },
  {
   "property": "C102",
   "status": "partial",
   "theorems": [
    "Genex.Props.C102_exact",
    "Genex.Props.C102_safe",
    "Genex.Props.C102_near_partial",
    "Genex.Props.C102_double_partial",
    "Genex.Props.C102_overflow_false",
    "Genex.Props.C102_cancelled_false"
   ],
   "note": "C102_cancelled_false: the variance is the difference of two large numbers, so a copy of the query added to 2^27 is passed over. C102_overflow_false: a copy of the query times 2^600 is reported at distance 4. So nearness is among the windows with a computed deviation, for the normalised values as they are computed, and without overflow (with overflow: C107); C102_safe has no such restriction. Queries below six points: C84_kim_false."
  },
  {
   "property": "C103",
   "status": "proved",
   "theorems": [
    "Genex.Props.C103_window",
    "Genex.Props.C103_query",
    "Genex.Props.C103_distance",
    "Genex.Props.C103_near",
    "Genex.Props.C103_nearest",
    "Genex.Props.C103_double",
    "Genex.Props.C103_flat_false"
   ],
   "note": "C103_flat_false: a window of equal numbers may get a positive computed variance and be reported, so C103_near speaks of the windows varied enough and C103_nearest assumes that all are. Overflow: C102_overflow_false."
  },
  {
   "property": "C104",
   "status": "proved",
   "theorems": [
    "Genex.Props.C104_jaccard",
    "Genex.Props.C104_jaccard_empty",
    "Genex.Props.C104_jaccard_symm",
    "Genex.Props.C104_jaccard_one",
    "Genex.Props.C104_weighted_false",
    "Genex.Props.C104_weighted",
    "Genex.Props.C104_print",
    "Genex.Props.C104_print_none",
    "Genex.Props.C104_jaccard_false"
   ],
   "note": "C104_weighted_false: sizes differ, so the loop to the longer size reads outside (undefined behaviour, for all such vectors). C104_jaccard_false: places are compared, not sets. Arithmetic is exact here (the counts are small integers; the quotient is not rounded)."
  },
  {
   "property": "C105",
   "status": "proved",
   "theorems": [
    "Genex.Props.C105_queries",
    "Genex.Props.C105_last_false",
    "Genex.Props.C105_queries_end",
    "Genex.Props.C105_short_false",
    "Genex.Props.C105_table",
    "Genex.Props.C105_range",
    "Genex.Props.C105_count",
    "Genex.Props.C105_order",
    "Genex.Props.C105_order_none",
    "Genex.Props.C105_order_false",
    "Genex.Props.C105_run",
    "Genex.Props.C105_again",
    "Genex.Props.C105_resume",
    "Genex.Props.C105_dry",
    "Genex.Props.C105_k_false",
    "Genex.Props.C105_error",
    "Genex.Props.C105_error_sizes",
    "Genex.Props.C105_sweep",
    "Genex.Props.C105_error_false"
   ],
   "note": "The scripts as loops over queries and records, without files, logging and timings. C105_last_false, C105_short_false, C105_order_false, C105_k_false, C105_error_false. 4_paa.py prepares block size 3, with which the search never returns normally (C59, C101_never). The errors are computed in exact arithmetic."
  },
  {
   "property": "C106",
   "status": "proved",
   "theorems": [
    "Genex.Props.C106_thresholds",
    "Genex.Props.C106_double",
    "Genex.Props.C106_included_false",
    "Genex.Props.C106_extent_mono",
    "Genex.Props.C106_extent_last",
    "Genex.Props.C106_progress",
    "Genex.Props.C106_again",
    "Genex.Props.C106_resume",
    "Genex.Props.C106_dry"
   ],
   "note": "np.arange as numpy computes it: the length is the rounded quotient rounded up, the entries go on with the difference of the first two. C106_included_false: from 0.1 to 0.4 the end is included. C106_extent_last is about the rounding of double over the rationals."
  },
  {
   "property": "C107",
   "status": "proved",
   "theorems": [
    "Genex.Props.C107_same",
    "Genex.Props.C107_double",
    "Genex.Props.C107_nearest"
   ],
   "note": "The limit on the numbers is needed: C102_overflow_false (numbers 2^600 apart). Rounding beyond the limit is as IEEE 754 has it (rounded first as if there were no limit)."
  },
  {
   "property": "C108",
   "status": "proved",
   "theorems": [
    "Genex.Props.C108_distances",
    "Genex.Props.C108_group",
    "Genex.Props.C108_search",
    "Genex.Props.C108_load",
    "Genex.Props.C108_normalized",
    "Genex.Props.C108_double",
    "Genex.Props.C108_cosine_false",
    "Genex.Props.C108_sorensen_false"
   ],
   "note": "The ranges are needed: C108_cosine_false (beyond 2^256 the cosine of a series with itself is 0), C108_sorensen_false (small numbers of both signs). Normalised data: numbers of the array outside the series are assumed to lie between 0 and 1 too (those that loading leaves are 0)."
  },
  {
   "property": "C109",
   "status": "partial",
   "theorems": [
    "Genex.Props.C109_save",
    "Genex.Props.C109_partial",
    "Genex.Props.C109_shorter",
    "Genex.Props.C109_longer",
    "Genex.Props.C109_kept_false",
    "Genex.Props.C109_false"
   ],
   "note": "Partial because the code falsifies the rest: loading does not discard the kept envelopes, C109_false, C109_kept_false. Series of other lengths: C109_shorter, C109_longer. The bytes and the compression of the file are not modelled."
  },
  {
   "property": "C110",
   "status": "partial",
   "theorems": [
    "Genex.Props.C110_ksim",
    "Genex.Props.C110_ksimBF",
    "Genex.Props.C110_sim",
    "Genex.Props.C110_distance",
    "Genex.Props.C110_load",
    "Genex.Props.C110_group",
    "Genex.Props.C110_print",
    "Genex.Props.C110_digits",
    "Genex.Props.C110_timer",
    "Genex.Props.C110_timer_line",
    "Genex.Props.C110_range",
    "Genex.Props.C110_steady_partial",
    "Genex.Props.C110_error",
    "Genex.Props.C110_refused_partial",
    "Genex.Props.C110_asked",
    "Genex.Props.C110_ends",
    "Genex.Props.C110_sorted",
    "Genex.Props.C110_false",
    "Genex.Props.C110_pad_false",
    "Genex.Props.C110_message_false",
    "Genex.Props.C110_sim_false"
   ],
   "note": "Partial because the code falsifies the rest: the precision of cout stays as TIME_COMMAND or printData left it, C110_false (steady with the timer off and without print, C110_steady_partial); results that were asked for and do not exist are shown as series 0, C110_pad_false; other exceptions are reported as numbers that cannot be converted, C110_message_false; sim with one position is no error, C110_sim_false. The texts of help, the seconds and the progress of grouping are any text."
  },
  {
   "property": "C111",
   "status": "proved",
   "theorems": [
    "Genex.Props.C111_sim",
    "Genex.Props.C111_sim_answers",
    "Genex.Props.C111_ksim",
    "Genex.Props.C111_ksim_answers",
    "Genex.Props.C111_ksimBF",
    "Genex.Props.C111_ksimBF_answers",
    "Genex.Props.C111_normalize",
    "Genex.Props.C111_print",
    "Genex.Props.C111_print_answers"
   ],
   "note": "Exact arithmetic. Distances equal or at least 1e-9 apart for ksim and ksimBF. The form of ksim with a range and ke is excluded (C55_false). That the lines can be typed at all, i.e. that the program answers, is C111_sim_answers, C111_ksim_answers, C111_ksimBF_answers."
  },
  {
   "property": "C112",
   "status": "proved",
   "theorems": [
    "Genex.Props.C112_sim",
    "Genex.Props.C112_sim_answers",
    "Genex.Props.C112_ksim",
    "Genex.Props.C112_ksim_answers",
    "Genex.Props.C112_ksimBF",
    "Genex.Props.C112_ksimBF_answers",
    "Genex.Props.C112_normalize",
    "Genex.Props.C112_print",
    "Genex.Props.C112_print_answers"
   ],
   "note": "Double arithmetic as in C88; the sessions of C111. Computed distances equal or at least 1e-9 apart for ksim and ksimBF. That the program answers is C112_sim_answers, C112_ksim_answers, C112_ksimBF_answers, C112_print_answers."
  },
  {
   "property": "C113",
   "status": "proved",
   "theorems": [
    "Genex.Props.C113_best",
    "Genex.Props.C113_returns",
    "Genex.Props.C113_near",
    "Genex.Props.C113_exhaustive",
    "Genex.Props.C113_kbest",
    "Genex.Props.C113_normalize",
    "Genex.Props.C113_query"
   ],
   "note": "Double arithmetic as in C88; the sessions of C90. Computed distances equal or at least 1e-9 apart for ksim and ksimbf. No restriction is made on what the other calls of the session are, but that they do not load, unload or normalize that dataset or change its groups."
  },
  {
   "property": "C114",
   "status": "partial",
   "theorems": [
    "Genex.Props.C114_rows",
    "Genex.Props.C114_status_partial",
    "Genex.Props.C114_answers",
    "Genex.Props.C114_distance",
    "Genex.Props.C114_marks",
    "Genex.Props.C114_false"
   ],
   "note": "Partial because the code falsifies the rest: after a loadGroups that shows an error the dataset is listed as grouped, C114_false; after a group that shows an error its threshold is not initialised (C46). Files that loadGroups has read with an error may name a distance with a tab, so that there is none of these in the session. Numbers are shown without tabs."
  },
  {
   "property": "C115",
   "status": "partial",
   "theorems": [
    "Genex.Props.C115_save",
    "Genex.Props.C115_save_again",
    "Genex.Props.C115_load_partial",
    "Genex.Props.C115_sim",
    "Genex.Props.C115_sim_answers",
    "Genex.Props.C115_ksim",
    "Genex.Props.C115_ksim_answers",
    "Genex.Props.C115_refused",
    "Genex.Props.C115_false"
   ],
   "note": "Partial because the code falsifies the rest: the longest line is taken over the whole file, also over lines that load was told to leave out, so that groups of the same series are refused, C115_false. Bytes and compression of the file are not modelled (tokens, C42); exact arithmetic."
  },
  {
   "property": "C116",
   "status": "partial",
   "theorems": [
    "Genex.Props.C116_reads",
    "Genex.Props.C116_near",
    "Genex.Props.C116_alike",
    "Genex.Props.C116_form",
    "Genex.Props.C116_saved_partial",
    "Genex.Props.C116_again",
    "Genex.Props.C116_false",
    "Genex.Props.C116_names_false",
    "Genex.Props.C116_separator_false",
    "Genex.Props.C116_save",
    "Genex.Props.C116_load"
   ],
   "note": "Partial because the code falsifies the rest: saveData writes six digits, so other numbers come back, C116_false. The text of a number (Model/NumberText.lean) is operator<< with the format %g, rounding to nearest even; stod is any function that reads these texts as ReadsNumbers says; numbers between 10^-300 and 10^300, or zero."
  },
  {
   "property": "C117",
   "status": "partial",
   "theorems": [
    "Genex.Props.C117_sim",
    "Genex.Props.C117_ksim",
    "Genex.Props.C117_print_partial",
    "Genex.Props.C117_double",
    "Genex.Props.C117_print_false"
   ],
   "note": "Partial because the code falsifies the rest: print shows sixteen digits, which do not tell all doubles apart, C117_print_false. Rational numbers, hence not the euclidean distance; the text of a number as in C116."
  },
  {
   "property": "C118",
   "status": "proved",
   "theorems": [
    "Genex.Props.C118_distance",
    "Genex.Props.C118_sim",
    "Genex.Props.C118_ksimBF",
    "Genex.Props.C118_normalize",
    "Genex.Props.C118_scales",
    "Genex.Props.C118_constant_false",
    "Genex.Props.C118_rounded",
    "Genex.Props.C118_kept"
   ],
   "note": "C118_distance is about warpedValue, the value of warpedDistance without a dropout. C118_kept is over the rationals, hence not the euclidean distance, and has for the chebyshev distance the allowance of C111, half the threshold; the numbers are ordinary (zero, or between 10^-300 and 10^300 in size)."
  },
  {
   "property": "C119",
   "status": "partial",
   "theorems": [
    "Genex.Props.C119_groups",
    "Genex.Props.C119_place",
    "Genex.Props.C119_sim",
    "Genex.Props.C119_distance",
    "Genex.Props.C119_plain",
    "Genex.Props.C119_normalize",
    "Genex.Props.C119_terminal",
    "Genex.Props.C119_sim_partial",
    "Genex.Props.C119_exhaustive_false"
   ],
   "note": "Partial because the code falsifies the rest: candidates are compared with a tolerance of 1e-9 in every unit, C119_exhaustive_false. C119_normalize and C119_terminal carry all results on normalized data from one unit to the other; C119_sim_partial is the answer on data that is not normalized. C119_groups and C119_place are about two runs on a dataset in two units: the same groups, the same part found by getBestMatch. C119_sim says it of two sessions at the terminal, for files of which all lines are read (the array is as wide as the longest line of the file, read or not). Not shown: the same for getKBestMatches, which compares with the tolerance. Exact arithmetic; not the sorensen and cosine distances, which depend on the zero."
  },
  {
   "property": "C120",
   "status": "proved",
   "theorems": [
    "Genex.Props.C120_groups",
    "Genex.Props.C120_groups_ratio",
    "Genex.Props.C120_brute_ratio",
    "Genex.Props.C120_binary",
    "Genex.Props.C120_distance",
    "Genex.Props.C120_ratio",
    "Genex.Props.C120_matching",
    "Genex.Props.C120_normalize",
    "Genex.Props.C120_underflow"
   ],
   "note": "Euclidean and cosine distances need sqrt to be the true square root before it is rounded (LawfulSqrt). C120_underflow is the negation for the rounding of double near its least number; overflow is not in this model of rounding. Rounding to 53 digits with a power of two is an instance of the hypothesis by C120_binary. In C120_groups half of the threshold is not rounded, which is exact in binary. Not covered: getKBestMatches with the euclidean, manhattan and chebyshev distances, which compares with a tolerance in every unit (C119_exhaustive_false)."
  }
 ]
}
