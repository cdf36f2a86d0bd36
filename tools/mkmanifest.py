#!/usr/bin/env python3
"""Write MANIFEST.json.  Theorems are collected by their prefix (C01_ ...) from lean/Verif/Props; a property is partial
as soon as one of its theorems is named _partial."""
import json, pathlib, re
top = pathlib.Path(__file__).resolve().parent.parent
NOTES = {
 "C01": "Least cost over all in-band alignments, exact arithmetic over any ordered field (euclidean: with square root, e.g. the reals).",
 "C02": "False when the second series has one point and the first more than the band reaches but not more than twice that: then every finite bound gives infinity (C02_column_false for all such series). Proved for all others and every bound.",
 "C04": "Proved for euclidean, manhattan, chebyshev; false for sorensen and cosine (C04_sorensen_false, C04_cosine_false).",
 "C05": "Kim's bound never exceeds the euclidean_dtw distance, all finite series with at least one point.",
 "C06": "Keogh's bound and the cross bound, all finite series, every bound (dropout).",
 "C07": "False when the second series has one point and the first more than the band reaches but not more than twice that (C07_column_false for all such series). Proved for all others.",
 "C08": "Window minima/maxima for finite values, every window; widths beyond the length give the envelope of length - 1.",
 "C09": "The ring buffers never overflow and are never read while empty.",
 "C12": "False for two one-point series (C12_single_points_false): no pair is returned; proved otherwise, every ratio and bound.",
 "C13": "Proved for the full band; false for narrower bands (C13_leaves_band).",
 "C20": "False: lengths, normalised flag are carried over (C20_reload_false); exact description of what is kept in C20_reload_partial.",
 "C25": "For every sort/heap implementation meeting the C++ contract; distances that differ do so by at least 1e-9, as the property says.",
 "C26": "False (C26_order_false: a cycle of three); proved for candidates whose distances are equal or at least 1e-9 apart, asymmetry for all.",
 "C27": "Whenever grouping returns; that it returns is C33.",
 "C28": "Exact arithmetic; the three metrics and thresholds named in the property.",
 "C31": "Any schedule of the workers; condition on the clock only so as to exclude the division by zero of C33.",
 "C32": "Transition system of genex/lib/ThreadPool.hpp with explicit mutex, condition variable and spurious wake-ups.",
 "C33": "False: progress logging divides by zero (C33_clock_false), infinite threshold with undefined distances reads an uninitialised index (C33_threshold_false); proved otherwise.",
 "C34": "The three metrics; every grouping state reached by a successful groupDataset, any threshold, any number of threads, or by loading saved groups.",
 "C35": "As C34.",
 "C36": "False: queries longer than the series (C36_long_false) and whole-series groupings (C36_whole_false) crash; exact description of when it returns in C36_partial.",
 "C37": "False for queries longer than the series (C37_long_query_false); proved for all shorter queries, of one point too, in a dataset with a series of two points or more, distances equal or at least 1e-9 apart.",
 "C38": "False for distances closer than 1e-9 (C38_close_false); otherwise as C37.",
 "C39": "False: missing results are padded with empty entries (C39_false); otherwise as C37.",
 "C40": "False for distances closer than 1e-9 (C40_false); proved for distances equal or at least 1e-9 apart.",
 "C41": "The file is the list of the values written; boost's bytes and the compression are not modelled. Any object with the same series.",
 "C42": "Files saved by any object whatever.",
 "C43": "Cut after any number of values; loading throws a standard exception. What is left of the groups is C45.",
 "C44": "False for whole-series groupings (C44_false: null pointer); proved otherwise, the second round trip gives the original file.",
 "C45": "False (C45_group_false, C45_load_false); proved for failures before the old groups are dropped, and that the data never changes.",
 "C56": "False (C56_false): the file is emptied before the object is asked for its groups.",
 "C49": "False for the empty series (C49_empty_false); proved for every series of at least one point.",
 "C50": "False: the uninitialised variable sum is read for every part that leaves a remainder (C50_uninit), and parts past the shortest series are wrong (C50_long_false); proved otherwise.",
 "C51": "False: with at most maxCol series the lengths are read out of bounds (C51_false); proved for datasets with more series than the longest has points.",
 "C52": "False: parts of the same stored series always compare equal (C52_same_pointer, C52_false), NaN equals everything (C52_nan_false); proved otherwise.",
 "C53": "False for owning sources of another length (C53_shorter_false, C53_longer_false) and self-assignment (C53_self_false); proved otherwise, move assignment for all lengths.",
 "C54": "False: assignment, writes, additions to a series on the same data and normalisation leave old envelopes (C54_*_false, C54_false); proved for histories without these.",
 "C60": "Any history of the modelled operations; objects reachable from none.",
 "C19": "After any history; every failure, for GenexException also that no object is left behind.",
 "C46": "False in one point: after a grouping that threw, or after groups were loaded from text (C80), asking for the dataset reads an uninitialised threshold (C46_query_false); the rest is proved for all histories.",
 "C47": "False: a wrapper for PAA outlives its dataset (C47_false, C47_search_false, C47_all_false); proved for all calls without PAA, and for histories that unload no prepared dataset.",
 "C61": "All calls but those about all datasets (count, overview, unload all) and those about PAA; grouping with any threads.",
 "C55": "False when both a range and ke are given: the range is ignored (C55_false, for all values); proved for the other three forms.",
 "C63": "False for distance without a name (help says euclidean, code uses euclidean_dtw) and for ksimBF with one or three extra arguments, which are ignored; proved for all other documented forms, and that nothing else is accepted.",
 "C64": "stoi, stod, the files and the number of hardware threads are parameters that may differ from line to line.",
 "C65": "The value is independent of earlier calls, for all calls; gNoMatching is kept by pairwise distances only and grows without bound with every DTW (C65_grows_false, C65_unbounded_false).",
 "C66": "False: DTW with cosine or sorensen never deletes the arrays of the first row and column (C66_false, exact number); no array is deleted twice (C66_once), all others are deleted (C66_partial).",
 "C67": "False after a normalisation without grouping again (C67_false); proved for all other histories. This also justifies that the other search properties compute envelopes afresh.",
 "C68": "Euclidean (half the distance) and chebyshev: proved for all series. Manhattan: false (C68_manhattan_false), proved with the factor min(2w+1, n)/2, w the width of the band (C68_manhattan_partial).",
 "C69": "Euclidean: within a quarter, chebyshev: within half of the threshold, for all datasets. Manhattan: false (C69_manhattan_false), proved with the factor of C68, and against the ordinary distance to subsequences of the length of the query.",
 "C70": "Proved for euclidean, manhattan and chebyshev (nearness: euclidean and chebyshev), for numbers that are finite; exhaustive search if distances are equal or at least 1e-9 apart (the search compares with an epsilon).",
 "C71": "Distances: proved for euclidean, manhattan and chebyshev and their DTW distances. Matchings are alignments except for two single points (C71_single_points_false); their cost is the distance for the full band only (C71_narrow_false).",
 "C72": "Warped distances, bounds and cascade: proved for every rounding with the laws, double among them (except where C02 is false). Pairwise: manhattan and chebyshev; false for euclidean, whose test is made on the rounded square of the bound (C72_euclidean_false). Overflow is in C87 and C108.",
 "C73": "For lengths with 12(m+n)u at most 1 (with 53 digits: any length below 10^14). The data are numbers the rounding leaves as they are, as doubles are; underflow is covered, overflow is in C87.",
 "C74": "Candidates with equal computed distances are told apart as in C09 (computed distances spaced by more than the tolerance of operator<). Data as in C73.",
 "C75": "Euclidean and chebyshev; for manhattan with a factor, and false without (C69_manhattan_false: exact arithmetic is one of the roundings).",
 "C76": "Groups, members, centroids and searches are the same (C76_round_trip_partial, C76_search_partial), but the threshold is left uninitialised (C76_threshold_false), and saving the groups again or searching for several matches reads it (C76_ksearch_false) and a grouping of whole series is not marked as one. Not refused: truncated files (C76_truncated_false), files of sizes only (C76_sizes_false), files for series of other lengths (C76_lengths_false); a file written with an infinite threshold is refused (C76_infinite_false).",
 "C77": "Proved for doubles read from at most sixteen digits, except powers of two, for which the digits must be exact; false for computed doubles such as 0.1 + 0.2 (C77_sum_false) and for a power of two read from fourteen digits (C77_power_false). The error bound holds for all. Printing and reading round to nearest; reading past the largest double and the sign of zero are not modelled.",
 "C78": "Order is kept, but different values can become equal (C78_strict_false). Overflow of max - min is in C87.",
 "C79": "The error bound is proved; the mean of equal points can differ from them (C79_constant_false). Overflow is in C87. getPAA and average in double: C101.",
 "C80": "If sixteen digits are enough for the points (C77); false for the overview, several matches and saving again, which read the threshold that the text does not restore (C80_info_false).",
 "C81": "Proved for datasets, for all histories; false for the objects made by preparePAA, which nothing ever deletes (C81_wrapper_false).",
 "C82": "Proved for calls that name optional parameters only; false when a required parameter is named (C82_required_false), for getMatching with fewer than nine positional arguments (C82_matching_false), and for the number of entries of ksim (C82_ksim_false).  C82_overflow and C82_unknown say which exception a refused call raises.",
 "C83": "Proved for exact arithmetic; a result that is not below the bound need not be the distance (C83_given_up_false), and is not meant to be.",
 "C84": "The bound of Kim is proved for six points and more and false for five (C84_kim_false), with two points it reads outside (C84_kim_two_points_false); the bounds of Keogh are proved for all lengths.",
 "C85": "Proved for queries of 6 to 100000 points that are not all the same, bands narrower than the query, files of numbers only, less than 2^31 points, windows that are not flat; false without each of these (the _false theorems).",
 "C86": "Free of races only if the object was made before the threads start (C86_race_partial); otherwise two threads race (C86_race_false) and objects are lost (C86_leak_false). The rest is proved for all sequentially consistent schedules.",
 "C87": "Proved for data in the range of the metric (for double: up to 2^480 in size, at least) and the euclidean, manhattan and chebyshev metrics; false beyond it (C87_infinite_false, C87_zero_false, C87_search_false, C87_normalize_false, C87_paa_false). Cosine and Sorensen: C108.",
 "C88": "Holds for the interface in double arithmetic with overflow; PAA searches are not part of it.",
 "C89": "For lengths up to 2^26 and products below 2^31: beyond, the band can grow by two at once (C89_grows_false) and the conversion is undefined (C89_converts_false). The rounded band can be one wider than the exact one (C89_exact_false).",
 "C90": "Exact arithmetic; files with fewer than 2^31 lines of fewer than 2^31 numbers. getMatching with its nine arguments.",
 "C91": "Proved for data of less than 2^31 places and less than 2^31 subsequences to group, and for the log exactly: it needs less than 21474840 places of a length. False beyond: C91_load_false (a file of 200000 characters), C91_log_false, C91_total_false (one series of 65537 points).",
 "C92": "Proved for datasets of at most 2^30 places, queries not longer than the longest series, and sessions in which sizes and budgets add up to less than 2^31. The effect of one call on the counter is given exactly (C92_counter_partial). False for longer sessions: the counter is never set back, so repeating a search ends in overflow (C92_repeat_false), twice is enough for budget 2^31-1 (C92_counter_false). For the integers inside the distances see C93.",
 "C93": "Distances proved for series of less than 2^30 points, cascade 715827882; grouping and searching for data of fewer values than that. False from 2^30 points on: twice the length, the divisor of Euclidean and Manhattan distances, overflows for every pair of series (C93_long, C93_long_false).",
 "C94": "Sizes: lines times columns less than 715827882, values up to 2^480, subsequences less than 2^31, logged lengths 5 to 21474839 places. Beyond them see C91_load_false, C91_log_false, C91_total_false, C93_long_false. Any number of threads by C95_run.",
 "C95": "C95_result, C95_groups, C95_run: no condition on sizes. C95_group_partial, absence of overflow: sizes as in C91.",
 "C96": "Sizes as in C94. Missing: computed distances that are different but closer than 1e-9 (operator< is then no order, C26), cosine and Sorensen. C96_longest: a series of 2^31-1 points overflows the counter of lengths.",
 "C111": "Exact arithmetic. Distances equal or at least 1e-9 apart for ksim and ksimBF. The form of ksim with a range and ke is excluded (C55_false). That the lines can be typed at all, i.e. that the program answers, is C111_sim_answers, C111_ksim_answers, C111_ksimBF_answers.",
 "C112": "Double arithmetic as in C88; the sessions of C111. Computed distances equal or at least 1e-9 apart for ksim and ksimBF. That the program answers is C112_sim_answers, C112_ksim_answers, C112_ksimBF_answers, C112_print_answers.",
 "C113": "Double arithmetic as in C88; the sessions of C90. Computed distances equal or at least 1e-9 apart for ksim and ksimbf. No restriction is made on what the other calls of the session are, but that they do not load, unload or normalize that dataset or change its groups.",
 "C114": "Partial because the code falsifies the rest: after a loadGroups that shows an error the dataset is listed as grouped, C114_false; after a group that shows an error its threshold is not initialised (C46). Files that loadGroups has read with an error may name a distance with a tab, so that there is none of these in the session. Numbers are shown without tabs.",
 "C115": "Partial because the code falsifies the rest: the longest line is taken over the whole file, also over lines that load was told to leave out, so that groups of the same series are refused, C115_false. Bytes and compression of the file are not modelled (tokens, C42); exact arithmetic.",
 "C116": "Partial because the code falsifies the rest: saveData writes six digits, so other numbers come back, C116_false. The text of a number (Model/NumberText.lean) is operator<< with the format %g, rounding to nearest even; stod is any function that reads these texts as ReadsNumbers says; numbers between 10^-300 and 10^300, or zero.",
 "C117": "Partial because the code falsifies the rest: print shows sixteen digits, which do not tell all doubles apart, C117_print_false. Rational numbers, hence not the euclidean distance; the text of a number as in C116.",
 "C118": "C118_distance is about warpedValue, the value of warpedDistance without a dropout. C118_kept is over the rationals, hence not the euclidean distance, and has for the chebyshev distance the allowance of C111, half the threshold; the numbers are ordinary (zero, or between 10^-300 and 10^300 in size).",
 "C119": "Partial because the code falsifies the rest: candidates are compared with a tolerance of 1e-9 in every unit, C119_exhaustive_false. C119_normalize and C119_terminal carry all results on normalized data from one unit to the other; C119_sim_partial is the answer on data that is not normalized. C119_groups and C119_place are about two runs on a dataset in two units: the same groups, the same part found by getBestMatch. C119_sim says it of two sessions at the terminal, for files of which all lines are read (the array is as wide as the longest line of the file, read or not). Not shown: the same for getKBestMatches, which compares with the tolerance. Exact arithmetic; not the sorensen and cosine distances, which depend on the zero.",
 "C120": "Euclidean and cosine distances need sqrt to be the true square root before it is rounded (LawfulSqrt). C120_underflow is the negation for the rounding of double near its least number; overflow is not in this model of rounding. Rounding to 53 digits with a power of two is an instance of the hypothesis by C120_binary. In C120_groups half of the threshold is not rounded, which is exact in binary. Not covered: getKBestMatches with the euclidean, manhattan and chebyshev distances, which compares with a tolerance in every unit (C119_exhaustive_false).",
 "C110": "Partial because the code falsifies the rest: the precision of cout stays as TIME_COMMAND or printData left it, C110_false (steady with the timer off and without print, C110_steady_partial); results that were asked for and do not exist are shown as series 0, C110_pad_false; other exceptions are reported as numbers that cannot be converted, C110_message_false; sim with one position is no error, C110_sim_false. The texts of help, the seconds and the progress of grouping are any text.",
 "C109": "Partial because the code falsifies the rest: loading does not discard the kept envelopes, C109_false, C109_kept_false. Series of other lengths: C109_shorter, C109_longer. The bytes and the compression of the file are not modelled.",
 "C108": "The ranges are needed: C108_cosine_false (beyond 2^256 the cosine of a series with itself is 0), C108_sorensen_false (small numbers of both signs). Normalised data: numbers of the array outside the series are assumed to lie between 0 and 1 too (those that loading leaves are 0).",
 "C107": "The limit on the numbers is needed: C102_overflow_false (numbers 2^600 apart). Rounding beyond the limit is as IEEE 754 has it (rounded first as if there were no limit).",
 "C106": "np.arange as numpy computes it: the length is the rounded quotient rounded up, the entries go on with the difference of the first two. C106_included_false: from 0.1 to 0.4 the end is included. C106_extent_last is about the rounding of double over the rationals.",
 "C105": "The scripts as loops over queries and records, without files, logging and timings. C105_last_false, C105_short_false, C105_order_false, C105_k_false, C105_error_false. 4_paa.py prepares block size 3, with which the search never returns normally (C59, C101_never). The errors are computed in exact arithmetic.",
 "C104": "C104_weighted_false: sizes differ, so the loop to the longer size reads outside (undefined behaviour, for all such vectors). C104_jaccard_false: places are compared, not sets. Arithmetic is exact here (the counts are small integers; the quotient is not rounded).",
 "C103": "C103_flat_false: a window of equal numbers may get a positive computed variance and be reported, so C103_near speaks of the windows varied enough and C103_nearest assumes that all are. Overflow: C102_overflow_false.",
 "C102": "C102_cancelled_false: the variance is the difference of two large numbers, so a copy of the query added to 2^27 is passed over. C102_overflow_false: a copy of the query times 2^600 is reported at distance 4. So nearness is among the windows with a computed deviation, for the normalised values as they are computed, and without overflow (with overflow: C107); C102_safe has no such restriction. Queries below six points: C84_kim_false.",
 "C101": "C101_prepare_false: datasets with at most maxCol series read outside an array. C101_uninit: parts that leave a rest read an uninitialised variable, so searches with larger blocks never return (C101_never). Parts that end after the shortest series: C50_long_false.",
 "C100": "C100_range_false: in double a cosine can exceed 1. C100_underflow_false: with underflow it is NaN. C100_overflow_false: with overflow sorensen is NaN. Which alignment the dtw variants use is open as in C99.",
 "C99": "The last sentence of the claim is false: sorensen_dtw is not the least over the alignments (C99_least_false), cosine is largest for the series itself (C99_cosine_self, C99_cosine_false). sorensen violates the triangle inequality (C99_triangle_false).",
 "C98": "Full band and not two single points (C13, C12 are false otherwise). Exact optimality is false in double: C98_optimal_false.",
 "C97": "As C96, and the counter extraTimeSeries must have room (C92_repeat_false says it runs out).",
 "C62": "Any files whose lines reach the first value column (see C17).",
 "C58": "Including the exceptions: same result or same exception.",
 "C59": "False for every block size from two on, if the series have three points or more (C59_false); proved for block size one and series of one length.",
 "C14": "Proved for 8 of 10 distances on all data and for sorensen_dtw/cosine_dtw on zero-free data; false otherwise (C14_diverges, C14_null_pointer).",
}
thms = {}
for f in sorted((top / "lean/Verif/Props").rglob("*.lean")):
    ns = []
    for line in f.read_text().splitlines():
        m = re.match(r"(?:@\[[^\]]*\]\s*)?(?:theorem|lemma)\s+(C\d\d+)_(\S+)", line)
        if m:
            thms.setdefault(m[1], []).append(f"Genex.Props.{m[1]}_{m[2]}")
ids = [json.loads(l)["id"] for l in (top / "properties.jsonl").read_text().splitlines() if l.strip()]
claims = []
for i in ids:
    if i in thms:
        st = "partial" if any(t.endswith("_partial") for t in thms[i]) else "proved"
        claims.append({"property": i, "status": st, "theorems": thms[i], "note": NOTES.get(i, "")})
(top / "MANIFEST.json").write_text(json.dumps({"claims": claims}, indent=1) + "\n")
print(len(claims), "claims;", "missing:", [i for i in ids if i not in thms])
