#!/usr/bin/env python3
"""Writes ../properties.jsonl.  One entry per property; ids are assigned in order and never reused."""
import json, os
P = []
def p(title, statement, quantifier, why, anchors):
    P.append(dict(id="C%02d" % (len(P)+1), title=title, statement=statement, quantifier=quantifier,
                  why_tests_cant=why, anchors=anchors))

# --- distances -------------------------------------------------------------
p("DTW value is the optimum over all banded warping paths",
  "distanceBetween with euclidean_dtw, manhattan_dtw or chebyshev_dtw, on two series with at least two points each, returns the smallest normalised accumulated cost over all monotone alignments that start at both first points, end at both last points, advance by at most one on each side and never pair positions further apart than the warping band; it returns infinity exactly when no such alignment exists.",
  "all pairs of finite-valued series of length >= 2, all warping-band ratios >= 0, the three sum/max based metrics",
  "The set of alignments is exponential in the length; a test compares a handful of hand computed values and cannot exclude a cheaper alignment that the recurrence misses.",
  ["genex/distance/Distance.hpp: warpedDistance", "genex/distance/Distance.cpp: calculateWarpingBandSize", "genex/GenexAPI.cpp: GenexAPI::distanceBetween"])
p("DTW early abandoning never changes an answer",
  "Calling a DTW distance with an early-abandon bound d returns either the same value as with no bound, or infinity, and infinity only if the unbounded value is larger than d.",
  "all pairs of finite-valued series, all bounds, all warping-band ratios >= 0, metrics euclidean/manhattan/chebyshev",
  "The abandon test interacts with band edges and row minima; only a proof covers every bound between consecutive attainable values.",
  ["genex/distance/Distance.hpp: warpedDistance (dropout)"])
p("Pairwise distance equals its textbook formula",
  "distanceBetween with euclidean, manhattan or chebyshev on two series of equal positive length returns root-mean-square difference, mean absolute difference, or maximum absolute difference; series of different lengths are rejected with an exception.",
  "all pairs of finite-valued series", "Real-valued inputs of arbitrary length cannot be enumerated.",
  ["genex/distance/Distance.hpp: pairwiseDistance", "genex/distance/Euclidean.hpp", "genex/distance/Manhattan.hpp", "genex/distance/Chebyshev.hpp"])
p("Pairwise early abandoning never changes an answer",
  "For every registered pairwise distance, calling it with an early-abandon bound d >= 0 returns the unbounded value, or infinity only if the unbounded value is larger than d.",
  "all pairs of equal-length series, all bounds, all five registered metrics",
  "Non-monotone metrics go wrong only on inputs whose prefix is worse than the whole, which hand-picked tests miss.",
  ["genex/distance/Distance.hpp: pairwiseDistance", "genex/distance/Cosine.hpp", "genex/distance/Sorensen.hpp"])
p("Kim lower bound is sound",
  "The endpoint (Kim) bound used for pruning never exceeds the euclidean_dtw distance of the two series.",
  "all pairs of finite-valued series of length >= 1, all band ratios >= 0",
  "Soundness must hold for every pair; a single violation silently drops a true match.",
  ["genex/distance/Distance.cpp: kimLowerBound"])
p("Keogh lower bound is sound in both directions",
  "The envelope (Keogh) bound used for pruning, computed from either series, with any early-stop bound, never exceeds the euclidean_dtw distance of the two series.",
  "all pairs of finite-valued series, also of different lengths, all early-stop bounds, all band ratios >= 0",
  "Soundness must hold for every pair; a single violation silently drops a true match.",
  ["genex/distance/Distance.cpp: keoghLowerBound, crossKeoghLowerBound", "genex/TimeSeries.cpp: generateKeoghLU"])
p("Pruned search distance is exact below the bound",
  "The cascaded distance used by every search on a dataset grouped with euclidean returns the exact euclidean_dtw distance, or infinity only if that distance is larger than the bound; with no bound it is always the exact distance.",
  "all pairs of finite-valued series of length >= 2, all bounds, all band ratios >= 0",
  "Combines three pruning layers with real-valued thresholds; no finite set of inputs exercises all orders of bound and distance.",
  ["genex/distance/Distance.cpp: cascadeDistance", "genex/group/GlobalGroupSpace.cpp: _loadDistance"])
p("Keogh envelopes are the exact sliding-window extrema",
  "The lower and upper envelope cached for a series are, at every position i, the minimum and maximum of the values at positions within the band of i.",
  "all value sequences of positive length and all bands 0 <= r < length",
  "The streaming algorithm keeps two monotone queues that pop at most one element per step; tests cannot cover all up/down patterns.",
  ["genex/lib/trillionDTW.cpp: lower_upper_lemire", "genex/lib/deque.cpp", "genex/TimeSeries.cpp: getKeoghLower, getKeoghUpper"])
p("Envelope computation is memory safe",
  "While computing an envelope the fixed-capacity ring buffers never overflow, never have an element read from or removed from them while empty, and never wrap onto a live element; every output cell is written.",
  "all value sequences (NaN and infinities included), all 0 <= r < length",
  "Overflow depends on the longest run of pending indices over all inputs.",
  ["genex/lib/deque.cpp", "genex/lib/trillionDTW.cpp: lower_upper_lemire"])
p("Pairwise distances are metrics",
  "euclidean, manhattan and chebyshev are non-negative, symmetric, zero exactly on identical series and satisfy the triangle inequality on series of one length.",
  "all triples of finite-valued series of one positive length", "Algebraic laws over the reals.",
  ["genex/distance/Euclidean.hpp", "genex/distance/Manhattan.hpp", "genex/distance/Chebyshev.hpp", "genex/distance/Distance.hpp: pairwiseDistance"])
p("DTW distances are symmetric, zero on equal series, and bounded by the pairwise cost",
  "For euclidean_dtw, manhattan_dtw and chebyshev_dtw the order of the two arguments does not matter, the distance from a series to itself is 0, the distance is never negative, and for equal lengths it never exceeds the pairwise distance of the same metric.",
  "all pairs of finite-valued series, all band ratios >= 0", "Algebraic laws over all inputs.",
  ["genex/distance/Distance.hpp: warpedDistance"])
p("Returned matching is a valid alignment",
  "matchingBetween returns an alignment that starts with the pair of first positions, ends with the pair of last positions and moves by one position on one or both sides at each step.",
  "all pairs of finite-valued series of length >= 1, all band ratios, euclidean/manhattan/chebyshev",
  "Every traceback decision depends on real-valued comparisons of matrix cells, including cells that were never computed.",
  ["genex/distance/Distance.hpp: warpedDistance (traceback)", "genex/GenexAPI.cpp: GenexAPI::matchingBetween"])
p("Returned matching stays in the band and attains the distance",
  "The alignment returned by matchingBetween only pairs positions within the warping band, and its accumulated normalised cost equals the value returned by distanceBetween.",
  "all pairs of finite-valued series of length >= 2, all band ratios >= 0",
  "Depends on values of uncomputed cells next to the band; shows only for band sizes smaller than the series.",
  ["genex/distance/Distance.hpp: warpedDistance (traceback)"])
p("Distance calls always terminate without undefined behaviour",
  "distanceBetween and matchingBetween terminate and read only initialised memory for every registered distance on all finite-valued non-empty series.",
  "all finite-valued non-empty series, all ten registered distances, all band ratios >= 0",
  "Non-termination needs a not-a-number cell in a particular place; tests never use zero-valued starts with ratio metrics.",
  ["genex/distance/Distance.hpp: warpedDistance", "genex/distance/Cosine.hpp", "genex/distance/Sorensen.hpp"])
p("Length traversal visits exactly the comparable lengths",
  "A query of length q on a dataset whose longest series has length N (q <= N) considers each length l in [2,N] at most once, and considers exactly those l for which |l-q| is at most the band of the longer one, i.e. exactly those for which the DTW distance is finite; q itself comes first.",
  "all query lengths q >= 2, all N >= q, all band ratios >= 0",
  "The two-sided walk stops at the first failing length on each side; completeness needs monotonicity of the band for all lengths and ratios.",
  ["genex/group/GlobalGroupSpace.cpp: generateTraverseOrder", "genex/distance/Distance.cpp: calculateWarpingBandSize"])
p("Warping band size is always legal",
  "For a ratio >= 0 and a length >= 1 the band lies between 0 and length-1, grows with the length, and equals length-1 for every ratio >= 1.",
  "all lengths >= 1 and all ratios >= 0", "Unbounded ranges.",
  ["genex/distance/Distance.cpp: calculateWarpingBandSize, setWarpingBandRatio"])
# --- dataset ---------------------------------------------------------------
p("Loading a file yields exactly the numbers in the file",
  "After loadDataset succeeds, series i has as many points as row i has value columns, point j is the parsed value of column startCol (+1 with a name column) + j, names are the name column, and the itemCount equals the number of rows read.",
  "all rectangular or ragged text files in which every row reaches the first value column, all separator sets, startCol >= 0, with or without names",
  "Layout arithmetic with a ragged row length and offsets must be right for all shapes.",
  ["genex/TimeSeriesSet.cpp: loadData", "genex/GenexAPI.cpp: GenexAPI::loadDataset"])
p("Row limit is honoured",
  "loadDataset with a positive maxNumRow reads the first min(maxNumRow, number of lines) lines, and all lines if maxNumRow <= 0.",
  "all files and all values of maxNumRow", "Unbounded ranges.",
  ["genex/TimeSeriesSet.cpp: loadData, _getMaxRowsMaxColumns"])
p("A failed load leaves no trace",
  "If loadDataset throws a GenexException (name in use, file missing, unparsable or out of range value) then the set of loaded datasets, their contents and the dataset count are unchanged, and the name can be used again if it was free.",
  "all API states, all files, all failure points within a file", "The failure can occur at any token of any file in any state.",
  ["genex/GenexAPI.cpp: GenexAPI::loadDataset", "genex/TimeSeriesSet.cpp: loadData"])
p("Reloading a dataset object replaces all of its contents",
  "Calling loadData again on the same TimeSeriesSet object gives the same object state as loading into a fresh object.",
  "all pairs of files", "Needs two loads with different row lengths in a row.",
  ["genex/TimeSeriesSet.cpp: loadData, clearData"])
p("Dataset save/load keeps shape and names",
  "Saving a dataset with saveDataset and loading the file with the same separator gives a dataset with the same series count, lengths and names, whose values are the printed-and-reparsed originals; a second save/load round changes nothing more.",
  "all well-formed datasets whose names are non-empty and free of separator and newline", "All shapes and names.",
  ["genex/TimeSeriesSet.cpp: saveData, loadData"])
p("Subsequence access is exact and bounds-checked",
  "getTimeSeries(i, s, e) returns exactly points s..e-1 of series i when 0 <= s < e <= length(i) and i is valid, the whole series for (-1,-1), and throws otherwise; it never reads outside the data of series i.",
  "all datasets produced by loadDataset, all integer arguments", "All integer triples.",
  ["genex/TimeSeriesSet.cpp: getTimeSeries", "genex/TimeSeries.cpp: operator[]"])
p("Normalisation maps the data onto [0,1] and reports the old range",
  "normalizeDataset returns the true minimum and maximum over all points; afterwards every point x has become (x-min)/(max-min), lies in [0,1], the extremes are attained, and relative order is preserved; constant data becomes all zero.",
  "all well-formed finite-valued datasets with at least one point", "All real data.",
  ["genex/TimeSeriesSet.cpp: normalize"])
p("Normalisation is idempotent",
  "Normalising an already normalised dataset changes no value.",
  "all well-formed finite-valued datasets", "All real data.", ["genex/TimeSeriesSet.cpp: normalize"])
# --- brute force search ----------------------------------------------------
p("Brute force search returns the true k nearest subsequences",
  "getKBestMatchesBruteForce returns min(k, number of subsequences of length >= 2) distinct subsequences with their exact DTW distances, in non-decreasing order, such that no subsequence left out is closer than one returned.",
  "all datasets, queries, k >= 1 and metrics euclidean/manhattan/chebyshev, when distances that differ do so by at least EPS",
  "Top-k selection with heap and early abandoning over an unbounded number of candidates.",
  ["genex/TimeSeriesSet.cpp: getKBestMatchesBruteForce", "genex/TimeSeries.hpp: candidate_time_series_t"])
p("Result ordering is a strict weak order",
  "The order used to sort and heap match results is a strict weak order, as std::sort and the heap algorithms require.",
  "all triples of candidates", "Needs three candidates with near-equal distances.",
  ["genex/TimeSeries.hpp: candidate_time_series_t::operator<"])
# --- grouping --------------------------------------------------------------
p("Grouping partitions all subsequences",
  "After groupDataset every subsequence of every length in the grouped range is a member of exactly one group of its length, groups are never empty, their sizes add up to the number of subsequences, and members are exactly the subsequences the data contain.",
  "all datasets, thresholds, grouping metrics", "Unbounded number of subsequences.",
  ["genex/group/LocalLengthGroupSpace.cpp: generateGroups", "genex/group/Group.cpp: addMember, getMembers"])
p("Group members lie within half the threshold of the representative",
  "Every member of a group is the group's representative itself or has pairwise distance at most threshold/2 from it; any two members are at most threshold apart.",
  "all datasets of finite values, all thresholds >= 0, metrics euclidean/manhattan/chebyshev",
  "Holds at every insertion; depends on early abandoning being exact.",
  ["genex/group/LocalLengthGroupSpace.cpp: generateGroups"])
p("Representatives are separated and members join the nearest earlier representative",
  "Two representatives of the same length are more than threshold/2 apart, and each member was assigned to a nearest one among the representatives existing when it was inserted.",
  "all datasets of finite values, all thresholds, metrics euclidean/manhattan/chebyshev", "All insertion orders.",
  ["genex/group/LocalLengthGroupSpace.cpp: generateGroups"])
p("Group count is consistent",
  "The number returned by groupDataset equals the total number of groups over all lengths.",
  "all datasets, thresholds, metrics, single or multi threaded", "All datasets.",
  ["genex/group/GlobalGroupSpace.cpp: group, groupMultiThreaded, getTotalNumberOfGroups"])
p("Multi-threaded grouping equals single-threaded grouping",
  "groupDataset with any number of threads > 1 yields, under every interleaving of the workers, the same groups and the same count as with one thread.",
  "all datasets, thread counts and schedules", "The number of interleavings is unbounded and tests see only some.",
  ["genex/group/GlobalGroupSpace.cpp: groupMultiThreaded, _group", "genex/lib/ThreadPool.hpp"])
p("Thread pool runs every task exactly once and shuts down",
  "Every task enqueued before the pool is destroyed is executed exactly once; no reachable state is stuck before all tasks are done and all workers have exited.",
  "all task lists, worker counts >= 1 and schedules, including spurious wake-ups", "Concurrency.",
  ["genex/lib/ThreadPool.hpp"])
p("Grouping never crashes",
  "groupDataset on a loaded dataset either returns or throws; it has no undefined behaviour for any clock reading.",
  "all datasets, thresholds, metrics and clock readings", "Depends on wall-clock time since the last log line and on rare values.",
  ["genex/group/LocalLengthGroupSpace.cpp: generateGroups"])
# --- grouped search --------------------------------------------------------
p("Best match is a real subsequence with its exact distance",
  "getBestMatch returns a subsequence of the target dataset of one of the considered lengths together with its exact DTW distance to the query.",
  "all grouped datasets, all queries of length >= 2 not longer than the longest target series", "All data and queries.",
  ["genex/group/GlobalGroupSpace.cpp: getBestMatch", "genex/group/LocalLengthGroupSpace.cpp: getBestGroup", "genex/group/Group.cpp: getBestMatch"])
p("Best match is at least as close as every representative",
  "The distance returned by getBestMatch is at most the DTW distance from the query to every group representative of every considered length, and is the smallest over the members of the group with the nearest representative.",
  "all grouped datasets and queries", "All data and queries; needs pruning soundness.",
  ["genex/group/GlobalGroupSpace.cpp: getBestMatch"])
p("Best match never crashes",
  "getBestMatch on a grouped dataset either returns or throws for every query.",
  "all grouped datasets and queries, including queries longer than the target series and datasets grouped by whole series only", "Rare shapes of query and grouping.",
  ["genex/group/GlobalGroupSpace.cpp: getBestMatch, generateTraverseOrder"])
p("k-best search examines exactly min(ke, available) candidates from the nearest groups",
  "The grouped k-best search collects exactly min(ke, number of members in comparable lengths) subsequences: all members of a set of groups none of which has a representative farther than that of a group left out, trimmed to the best members of the farthest kept group.",
  "all grouped datasets, queries and ke >= 1", "The budgeted heap interacts with group sizes in all orders.",
  ["genex/group/LocalLengthGroupSpace.cpp: interLevelKSim", "genex/group/GlobalGroupSpace.cpp: getKBestMatches"])
p("k-best with exhaustive budget is exact",
  "If ke is at least the number of subsequences of comparable lengths and k at most that number, getKBestMatches returns the k nearest of them with exact distances in non-decreasing order.",
  "all grouped datasets, queries, k, ke", "All data and queries.",
  ["genex/GroupableTimeSeriesSet.cpp: getKBestMatches", "genex/group/GlobalGroupSpace.cpp: getKBestMatches"])
p("k-best never invents results",
  "Every entry returned by getKBestMatches is a subsequence of the target dataset with its exact distance to the query, and at most k entries are returned.",
  "all grouped datasets, queries, 1 <= k <= ke", "Appears only when fewer than k candidates are comparable.",
  ["genex/GroupableTimeSeriesSet.cpp: getKBestMatches"])
p("Grouped search is never better than brute force",
  "The distance returned by getBestMatch is never smaller than the first distance returned by brute force search with the same metric.",
  "all grouped datasets and queries", "Relates two independent search procedures on all inputs.",
  ["genex/group/GlobalGroupSpace.cpp: getBestMatch", "genex/TimeSeriesSet.cpp: getKBestMatchesBruteForce"])
# --- persistence -----------------------------------------------------------
p("Saved groups load back unchanged",
  "Saving the groups of a dataset and loading them into a dataset with the same data gives the same representatives, the same membership, the same sizes, group count, threshold and distance.",
  "all grouped datasets", "All group structures.",
  ["genex/group/Group.hpp: save, load", "genex/group/LocalLengthGroupSpace.hpp: save, load", "genex/group/GlobalGroupSpace.hpp: save, load", "genex/GroupableTimeSeriesSet.hpp: save, load"])
p("Incompatible group files are rejected without damage",
  "Loading a group file whose series count or maximal length differs from the dataset throws and leaves the existing groups as they were.",
  "all datasets and group files", "All combinations.",
  ["genex/GroupableTimeSeriesSet.hpp: load"])
p("A truncated group file is never accepted",
  "If the group file was cut off at any point (a crash during saving), loading it throws instead of silently giving fewer groups or members.",
  "all grouped datasets and all cut points", "All crash points.",
  ["genex/group/GlobalGroupSpace.hpp: load", "genex/group/LocalLengthGroupSpace.hpp: load", "genex/group/Group.hpp: load"])
p("Loaded groups can be saved again",
  "After loadGroups, saveGroups succeeds and writes an equivalent file.",
  "all grouped datasets, including those grouped by whole series only", "Needs save, load, save on a whole-series grouping.",
  ["genex/group/GlobalGroupSpace.hpp: save, load", "genex/group/GlobalGroupSpace.cpp: _getMinLength"])
p("A failed operation does not change the grouping",
  "If groupDataset or loadGroups throws, the dataset reports the same grouping state as before, and searching it afterwards has no undefined behaviour.",
  "all datasets, argument values and failure points", "Needs a failing call followed by a query.",
  ["genex/GroupableTimeSeriesSet.cpp: groupAllLengths", "genex/GroupableTimeSeriesSet.hpp: load"])
# --- API -------------------------------------------------------------------
p("Dataset registry behaves as a map",
  "For every history of API calls the dataset count equals the number of names with a loaded dataset, a loaded name can be queried until it is unloaded, unknown names are rejected, and a call naming one dataset never changes another.",
  "all finite histories of API calls", "All histories.",
  ["genex/GenexAPI.cpp"])
p("No call uses a freed dataset",
  "For every history of API calls no call reads a dataset that has been unloaded.",
  "all finite histories of load, unload, preparePAA and PAA searches", "Needs unload and reload between PAA calls.",
  ["genex/GenexAPI.cpp: unloadDataset, unloadAllDataset, preparePAA, getKBestMatchesPAA", "genex/PAAWrapper.cpp"])
p("Distance lookup is total on the advertised names",
  "Every name listed by getAllDistanceInfo can be used, selects the metric of that name (pairwise, or warped with suffix _dtw), and every other name is rejected with an exception.",
  "all strings", "All strings.",
  ["genex/distance/Distance.cpp: getDistanceFromName, getAllDistanceName"])
# --- PAA -------------------------------------------------------------------
p("PAA gives block means",
  "The piecewise aggregate approximation of a series of length n with block size b has ceil(n/b) points, point i being the mean of the i-th block of b (or the remaining) values.",
  "all finite-valued series and block sizes >= 1", "All lengths and block sizes.",
  ["genex/PAAWrapper.cpp: tsPAA"])
p("Cached PAA of a subsequence equals direct PAA",
  "The approximation assembled from the cached matrix for any subsequence equals the approximation computed directly from that subsequence.",
  "all datasets, block sizes and subsequences", "All offsets modulo the block size and all leftovers.",
  ["genex/PAAWrapper.cpp: getPAA, generatePAAMatrix", "genex/TimeSeries.cpp: average"])
p("Preparing PAA is safe on every dataset",
  "preparePAA on a loaded dataset either succeeds or throws.",
  "all datasets and block sizes", "Depends on the relation between number of series and their length.",
  ["genex/PAAWrapper.cpp: generatePAAMatrix"])
# --- value objects ---------------------------------------------------------
p("Time series equality means equal values",
  "Two time series compare equal only if they have the same length and their values agree up to EPS.",
  "all pairs of subsequences", "Needs two different subsequences of the same stored series.",
  ["genex/TimeSeries.cpp: operator=="])
p("Assigning a time series copies its value",
  "After x = y, x has the length and values of y, y is unchanged, and neither reads outside its buffer.",
  "all pairs of time series, owning or referring, of any lengths", "Depends on ownership and on both lengths.",
  ["genex/TimeSeries.cpp: operator=(const TimeSeries&), operator=(TimeSeries&&)"])
p("Cached envelopes always describe the current values",
  "Whenever the envelope of a series is used for pruning, it is the envelope of the current values for the requested band.",
  "all histories of reads, assignments, additions, normalisation and element writes", "All histories.",
  ["genex/TimeSeries.cpp: getKeoghLower, getKeoghUpper, operator=, operator+=", "genex/TimeSeriesSet.cpp: normalize"])
# --- command line ----------------------------------------------------------
p("Command line k-similarity honours all its arguments",
  "The ksim command passes the given start, end and ke to the search for every documented combination of optional arguments.",
  "all argument lists", "All combinations of optional arguments.",
  ["cli/GenexCLI.cpp"])

# --- added as the model grew ------------------------------------------------
p("A failed save keeps the file",
  "If saveGroups throws, a group file that was at that path before is still there unchanged.",
  "all datasets, grouped or not, and all files", "Depends on the contents of the file before and on the failure point.",
  ["genex/IO.hpp: saveToFile", "genex/GroupableTimeSeriesSet.hpp: save"])
p("Grouping and loading forget the previous groups",
  "The outcome of groupDataset and of loadGroups, and the groups afterwards, depend on the data and the arguments only, not on whether or how the dataset was grouped before.",
  "all datasets, all pairs of earlier groupings, all arguments", "All earlier groupings, including those left behind by failures.",
  ["genex/GroupableTimeSeriesSet.cpp: groupAllLengths, reset", "genex/GroupableTimeSeriesSet.hpp: load"])
p("PAA search with block size one is exhaustive search",
  "After preparing with block size one, a search with the approximation gives the result of exhaustive search on the same data.",
  "all datasets whose series have one length, all queries, metrics and k", "All datasets and queries.",
  ["genex/PAAWrapper.cpp: getKBestMatches, getPAA, generatePAAMatrix", "genex/TimeSeriesSet.cpp: getKBestMatchesBruteForce"])
p("A PAA search on a prepared dataset returns or throws",
  "After a successful preparePAA, getKBestMatchesPAA either returns min(k, number of subsequences) candidates or throws.",
  "all prepared datasets, block sizes, queries and k", "All block sizes and remainders.",
  ["genex/PAAWrapper.cpp: getKBestMatches, getPAA", "genex/TimeSeries.cpp: average"])
p("Objects free what they own, once",
  "For every history of constructing, copying, assigning, moving and destroying time series, each delete[] frees an array that an object allocated and that has not been freed before, and the data of a dataset is never freed by a series.",
  "all finite histories of operations on time series objects", "All histories.",
  ["genex/TimeSeries.cpp: constructors, operator=, destructor"])

p("Calls depend on the datasets they name only",
  "The reply of a call, and what it does to the datasets it names, depend on these datasets and the warping band only: with the same datasets under these names, the same outcomes are possible whatever else is loaded and whatever was called before.",
  "all pairs of histories of API calls that agree on the named datasets", "All pairs of histories.",
  ["genex/GenexAPI.cpp"])
p("A loaded dataset serves the data of its file",
  "From a successful loadDataset until the dataset is normalised or unloaded, getTimeSeries gives the numbers of the file, whatever else is called, including grouping, loading groups, searching and failed calls.",
  "all files, all histories before and after", "All histories.",
  ["genex/GenexAPI.cpp", "genex/TimeSeriesSet.cpp: loadData, getTimeSeries"])

p("Commands do what their help says",
  "Each command line command, given arguments in a form its help text documents, makes exactly the documented call of the interface with exactly those arguments and the documented defaults; argument lists that the help does not document are refused.",
  "all lines of text",
  "The lines, and the combinations of optional arguments, are unbounded in number.",
  ["cli/GenexCLI.cpp"])
p("The command line program survives its users",
  "In every session, of any length and with any lines and files, no line makes the program use an unloaded dataset; the program ends only on quit or exit; and a line that is refused or whose numbers cannot be read changes no dataset.",
  "all sessions",
  "Sessions of any length.",
  ["cli/GenexCLI.cpp", "genex/GenexAPI.cpp"])
p("A distance depends on its arguments only and leaves nothing behind",
  "The value of a distance does not depend on the distances computed before, and a call that passes gNoMatching leaves gNoMatching as it was.",
  "all sequences of calls, all metrics, series and bands", "Sequences of any length; the growth is not visible in any result.",
  ["genex/distance/Distance.hpp: warpedDistance, pairwiseDistance", "genex/distance/Distance.cpp: cascadeDistance, gNoMatching"])
p("A distance deletes what it allocates",
  "In every computation of a distance, each array that init() allocates for an accumulator is deleted exactly once before the call returns.",
  "all metrics with arrays (cosine, sorensen), all series, bands and dropouts", "All shapes of the band and all rows at which a computation is given up.",
  ["genex/distance/Distance.hpp: warpedDistance", "genex/distance/Cosine.hpp", "genex/distance/Sorensen.hpp"])
p("A search does not depend on earlier searches",
  "The result of a similarity search in groups depends on the data, the groups, the warping band and the query only: the envelopes that centroids keep from earlier searches make no difference.",
  "all histories of searches, groupings, loads of groups, normalisations and changes of the band", "All histories; the kept envelopes are not visible.",
  ["genex/TimeSeries.cpp: getKeoghLower, getKeoghUpper, generateKeoghLU", "genex/distance/Distance.cpp: keoghLowerBound, cascadeDistance", "genex/group/Group.cpp: distanceFromCentroid", "genex/group/GlobalGroupSpace.cpp", "genex/group/LocalLengthGroupSpace.cpp", "genex/TimeSeriesSet.cpp: normalize"])
p("DTW changes little when a series changes little",
  "If two series of one length are at ordinary distance d from each other, their DTW distances from any third series differ by at most d in the metric of the grouping (with the factor that comes from the different normalisations of the DTW distance and the ordinary distance).",
  "all series, lengths and bands, for the euclidean, manhattan and chebyshev distances", "All series; the bound that groups are searched by rests on it.",
  ["genex/distance/Distance.hpp: warpedDistance, pairwiseDistance", "genex/distance/Euclidean.hpp", "genex/distance/Manhattan.hpp", "genex/distance/Chebyshev.hpp"])
p("The best match is near the optimum",
  "The distance of the match found by getBestMatch exceeds the least DTW distance from the query to any subsequence of the lengths considered by at most half the threshold of the grouping.",
  "all datasets, groupings, thresholds, bands and queries", "All datasets: the groups that are not searched are never looked at.",
  ["genex/group/GlobalGroupSpace.cpp: getBestMatch", "genex/group/LocalLengthGroupSpace.cpp: getBestMatch, interLevelGetBestGroup", "genex/group/Group.cpp: getBestMatch"])
p("From the file to the answer",
  "After loading a file of numbers, normalizing it or not, grouping it, and any further calls that neither change nor unload it, getBestMatch answers every query with a part of a line of that file (its numbers scaled, if normalized), its true DTW distance for the band now set, and no part of comparable length is nearer by more than half the threshold; exhaustive search answers with the k nearest parts.",
  "all files, all histories of calls, all queries", "All files and histories together.",
  ["genex/GenexAPI.cpp", "genex/TimeSeriesSet.cpp", "genex/GroupableTimeSeriesSet.cpp", "genex/group/GlobalGroupSpace.cpp"])
p("The interface computes the distances and matchings of the numbers it shows",
  "distanceBetween gives the textbook distance, or for a _dtw name the DTW distance, of the numbers that getTimeSeries shows for the two parts, with the band set last by setWarpingBandRatio (0.1 if none was set); parts of unequal lengths and unknown names are rejected; matchingBetween gives an alignment of the two parts whose cost is that distance.",
  "all histories of calls, all parts of loaded datasets, all names", "All histories and series.",
  ["genex/GenexAPI.cpp: distanceBetween, matchingBetween", "genex/distance/Distance.cpp: setWarpingBandRatio, getDistanceFromName"])
p("Giving up early and lower bounds are exact in floating point",
  "With every operation rounded as in double arithmetic: a distance computed with a bound is the distance computed without one, or infinity and the distance is above the bound; the Kim and Keogh bounds are at most the distance; the cascaded distance is the warped distance, or infinity above the bound.",
  "all series of doubles, bands and bounds, for the euclidean, manhattan and chebyshev distances; all roundings that are monotone, odd and idempotent", "All doubles; rounding goes wrong on a few inputs in 2^64.",
  ["genex/distance/Distance.hpp: warpedDistance, pairwiseDistance", "genex/distance/Distance.cpp: kimLowerBound, keoghLowerBound, cascadeDistance", "genex/distance/Euclidean.hpp", "genex/distance/Manhattan.hpp", "genex/distance/Chebyshev.hpp"])
p("The error of the distances in floating point is small",
  "With every operation rounded as in double arithmetic, underflow included (u = 2^-53, t = 2^-537): the computed DTW distance of series of m and n points differs from the DTW distance of the same numbers by at most 12(m+n)u times that distance plus 4t, and is infinite exactly when that is; ordinary distances of n points are off by at most 2(n+4)u times plus 4t.",
  "all series of representable numbers, lengths and bands, for the euclidean, manhattan and chebyshev distances; all roundings with relative error u and absolute error t^2 below that, those of double and of numbers with unbounded exponent among them", "The error grows with the length, and the path chosen in floating point can differ from the best one.",
  ["genex/distance/Distance.hpp: warpedDistance, pairwiseDistance", "genex/distance/Euclidean.hpp", "genex/distance/Manhattan.hpp", "genex/distance/Chebyshev.hpp"])
p("Grouping and searches in floating point",
  "With the distances computed in floating point: grouping still puts every subsequence of each length into exactly one group; getBestMatch and getKBestMatches return parts of the data whose reported distance is the DTW distance up to a relative error e and an absolute error of a few 2^-537 due to underflow, getBestMatch a member of the group whose representative is nearest up to that error; exhaustive search returns k candidates none of which is farther than a candidate left out by more than that error; every member of a group is within half the threshold of the representative up to that error.",
  "all datasets and queries of representable numbers, bands, thresholds; all roundings as in C73, and all e from 12(m+n)u to 1", "A search makes comparisons between many rounded numbers; ties and near ties go either way.",
  ["genex/group/GlobalGroupSpace.cpp", "genex/group/LocalLengthGroupSpace.cpp", "genex/group/Group.cpp", "genex/TimeSeriesSet.cpp: getKBestMatchesBruteForce", "genex/distance/Distance.hpp"])
p("The best match is near the optimum in floating point",
  "With the distances computed in floating point, in grouping and in searching, with relative error at most e: if the part returned by getBestMatch is at DTW distance D from the query and any part of a length considered is at distance E, then (1-e)^2 D is at most (1+e)^2 (E + s) + 16t, where s is half the threshold plus 4t, divided by 1-e (half of that for euclidean) and t is 2^-537, 0 where nothing underflows.",
  "all datasets and queries of representable numbers, groupings, thresholds, bands; all roundings as in C73 and all e from 12(m+n)u to below 1", "Grouping and search choose between distances that differ by less than their errors.",
  ["genex/group/GlobalGroupSpace.cpp: getBestMatch", "genex/group/LocalLengthGroupSpace.cpp: generateGroups, getBestMatch, interLevelGetBestGroup", "genex/group/Group.cpp: getBestMatch", "genex/distance/Distance.hpp"])
p("Groups saved as text and loaded back",
  "saveGroupsOld writes the header, and for each length the groups with their centroids and members, or only the sizes, which add up to the number of subsequences; loadGroupsOld of such a file into a dataset with the same series gives the same groups with the same members and centroids, so that searches give the same as with groups loaded from an archive. Even where digits are lost a match returned is a part of the data with its true distance. Files that are not such, or are for other series, are refused and change nothing.",
  "all groupings, datasets, thresholds and queries; all files", "All groupings; damaged files are unbounded in number.",
  ["genex/GroupableTimeSeriesSet.cpp: saveGroupsOld, loadGroupsOld", "genex/group/GlobalGroupSpace.cpp: saveGroupsOld, loadGroupsOld", "genex/group/LocalLengthGroupSpace.cpp: saveGroupsOld, loadGroupsOld", "genex/group/Group.cpp: saveGroupOld, loadGroupOld", "genex/TimeSeries.cpp: printData"])
p("Sixteen digits are enough for the points of the centroids",
  "A point written with setprecision(digits10 + 1) is read back as the same double; in any case it is read back with a relative error of at most 7e-16 (plus 2^-1074).",
  "all doubles", "There are 2^64 of them; most are read back unchanged.",
  ["genex/TimeSeries.cpp: printData", "genex/group/Group.cpp: saveGroupOld, loadGroupOld"])
p("Normalisation in floating point",
  "With every operation rounded as in double arithmetic, normalize returns the exact minimum and maximum; every value becomes a representable number between 0 and 1 that differs from (x - min)/(max - min) by at most 4u times that plus underflow; the minimum becomes 0 and the maximum 1, equal data become 0, different values stay in order and different; normalising again changes no value.",
  "all datasets of doubles whose range does not overflow; all roundings as in C73 that keep 1", "Values whose difference is lost by rounding are rare in test data.",
  ["genex/TimeSeriesSet.cpp: normalize"])
p("Block means in floating point",
  "With every operation rounded as in double arithmetic, tsPAA gives one representable point per block that differs from the mean of the block by at most (1+u)^b - 1 times the mean of the absolute values plus underflow; a block of equal points has that point as its mean.",
  "all series of doubles whose sums do not overflow, all block sizes; all roundings as in C73", "The error grows with the block size, and cancellation makes it large relative to the mean.",
  ["genex/PAAWrapper.cpp: tsPAA"])
p("Groups as text through the interface",
  "After a file was loaded and grouped, saveGroupsOld gives a text, and loadGroupsOld of this text into a dataset loaded from the same numbers returns the number of groups; getBestMatch then answers every query with a part of a line of the file, its true DTW distance, and near the optimum as with the groups themselves; every other call works on the dataset as well. Saving changes nothing, loading changes neither the series nor any other dataset.",
  "all files, histories of calls, thresholds and queries", "All files and histories together.",
  ["genex/GenexAPI.cpp: saveGroupsOld, loadGroupsOld, getBestMatch, getDatasetInfo"])
p("No memory is lost",
  "At any time the datasets allocated are exactly those loaded, also when loading fails; the destructor of the interface deletes each of them once and leaves none; what was allocated for PAA is deleted with its dataset.",
  "all histories of calls", "A leak shows in no result.",
  ["genex/GenexAPI.cpp: ~GenexAPI, loadDataset, unloadDataset, unloadAllDataset, preparePAA"])
p("The Python module does what its documentation says",
  "A call of a function of the Python module, with positional and keyword arguments bound as its documentation gives the parameters and defaults, performs the documented call of the interface with the values converted to the types of the parameters, and a call performs no other call than that; calls with wrong arguments change nothing; a session of Python calls is a history of calls of the interface; ksim returns fewer than k matches if there are fewer.",
  "all functions of the module, positional and keyword arguments, values, files and states", "The Python module has no tests in the repository; defaults attach to parameters by position at run time.",
  ["pygenex/GENEXBindings.cpp"])
p("The warped distance of the scanning search is exact when it matters",
  "dtw of lib/trillionDTW.cpp, given sums of terms that bound the rows (or columns) of the cost matrix in the band from below, uses only memory it wrote, and its result is the least sum of squared differences over all alignments in the band whenever that least sum or the result is below the bound passed; without terms and bound it is the least sum.",
  "all pairs of series of equal positive length, all bands, terms and bounds up to 1e20", "All series; giving up early goes wrong only for near ties, and a stale cell of the two swapped rows only for some widths.",
  ["genex/lib/trillionDTW.cpp: dtw"])
p("The lower bounds of the scanning search are lower bounds",
  "The bound of Kim and both bounds of Keogh of lib/trillionDTW.cpp, given up at any point and with the points taken in any order, are at most the cost of every alignment in the band of the normalised window with the query; when a bound of Keogh is below the best so far, the array it fills holds for each point a term below every cell of its row (column) in the band.",
  "all windows, queries, means and deviations, bands, orders and best values so far", "All series and all stages of giving up.",
  ["genex/lib/trillionDTW.cpp: lb_kim_hierarchy, lb_keogh_cumulative, lb_keogh_data_cumulative, lower_upper_lemire"])
p("The scanning search finds the nearest window",
  "calculate reads the query and the data from files and reports the first of the windows nearest to the query under DTW after both are standardised, with its distance and the number of points read, whatever the order in which the query is sorted and wherever the chunks end; it uses no memory out of bounds or not written, and ends.",
  "all data and query files, query lengths and bands", "Chunks have 100000 points and windows that cross their borders are taken from two of them; pruning goes wrong only for near ties.",
  ["genex/lib/trillionDTW.cpp: calculate", "genex/lib/util.cpp: Index::comp, Index::diff"])
p("The metric object made on first use by several threads",
  "When several threads call a distance, the object behind the static pointer is made on first use without a data race; no thread ever uses null or an object that was not made, at most one object is made for each thread, no thread waits for another, and each ends.",
  "all numbers of threads, calls and uses; all interleavings of their steps", "A race shows only in some schedules, and the harmful ones are rare.",
  ["genex/distance/Distance.hpp: pairwiseDistance, warpedDistance", "genex/group/GlobalGroupSpace.cpp: groupMultiThreaded"])
p("Finite results do not overflow",
  "When every result beyond the greatest double becomes infinite, the distances, alignments, bounds, normalised data and PAA computed, the groups made by any number of threads, and the results of the exhaustive search and of both searches in groups are what they would be were there no greatest double.",
  "all finite data, queries, thresholds, thread counts and histories of grouping", "Overflow needs values that no test uses, and the infinite value spreads through minimum and comparison in ways that depend on the whole cost matrix.",
  ["genex/distance/Euclidean.hpp", "genex/distance/Manhattan.hpp", "genex/distance/Chebyshev.hpp", "genex/distance/Distance.hpp", "genex/TimeSeriesSet.cpp: normalize", "genex/PAAWrapper.cpp: tsPAA"])
p("From the file to the answer in double arithmetic",
  "With every operation of the distances, of grouping, of normalize and of the searches done in IEEE double arithmetic, overflow and underflow included: after a file was loaded, perhaps normalised, and grouped, getBestMatch answers with a part of a line of the data of a comparable length, with its true DTW distance up to a relative error of 12 (n + w) / 2^53 for a query of n points and lines of w columns, and at most a quarter (half, for chebyshev) of the threshold from the optimum, up to the error; it answers every query of two points or more that is not longer than the longest line. getKBestMatches and the exhaustive search return the promised number of distinct parts, nearest first, with distances up to the error, when computed distances are equal or more than 1e-9 apart. normalizeDataset gives numbers in [0, 1] within 4 / 2^53 of the exact ones.",
  "all files of doubles up to 2^480 in size with at most 2^52 cells, all histories of calls, thresholds, bands and queries; the euclidean, manhattan and chebyshev metrics", "All files and histories together; rounding differs from input to input and decides which group is searched.",
  ["genex/GenexAPI.cpp", "genex/TimeSeriesSet.cpp: loadData, normalize", "genex/GroupableTimeSeriesSet.cpp", "genex/distance/Distance.hpp"])
p("The warping band in double arithmetic",
  "The warping band is the ratio times the length, rounded to a double and then down, and at most length-1; it is the exact fraction of the length or one more, grows with the length by at most one from one length to the next, and its conversion to int is defined. With it the traversal names exactly the comparable lengths, a warped distance is the least cost of an alignment in this band, and getBestMatch answers as C88 says.",
  "all ratios >= 0 and lengths; all files, histories, thresholds and queries", "The rounded product differs from the exact one for few ratios and lengths.",
  ["genex/distance/Distance.cpp: calculateWarpingBandSize", "genex/group/GlobalGroupSpace.cpp: generateTraverseOrder"])
p("The Python module answers as its documentation says",
  "What a function of the Python module returns is the documented object made of the result of the interface: dicts with the documented keys, lists, tuples, numbers, None; an exception of the interface becomes that exception. After loadDataset, normalize or not, and group, sim returns a dict whose index, start and end name a part of a line of the file that getTimeSeries shows, whose dist is the DTW distance from the query, equal to what distance returns for them, and at most a quarter (half, for chebyshev) of the threshold from the optimum; ksim and ksimbf return lists of such dicts, nearest first; normalize returns (min, max) and getTimeSeries then shows the scaled numbers.",
  "all sessions of Python calls, files, queries, thresholds and bands", "The Python module has no tests in the repository, and the answer depends on the file and all calls before.",
  ["pygenex/GENEXBindings.cpp"])
p("No int overflows in loading, access, saving and grouping",
  "With int of 32 bits, overflow being undefined: loadData, getTimeSeries, access to points, saveData, the loops of normalize, and grouping, with its counter, its log of the progress and its total of groups, compute the positions and counts that unbounded integers give.",
  "all files, arguments, datasets, thresholds and clocks", "Overflow needs files or group counts beyond those of any test; the log is written only when grouping takes long.",
  ["genex/TimeSeriesSet.cpp: loadData, getTimeSeries, saveData, normalize", "genex/group/LocalLengthGroupSpace.cpp: generateGroups", "genex/group/GlobalGroupSpace.cpp: group", "genex/group/Group.cpp: addMember"])
p("No int overflows in searching",
  "With int of 32 bits, overflow being undefined: getBestMatch and getKBestMatches, with the order of lengths, the reading of members, the number still to be collected and the global counter extraTimeSeries, answer every query as with unbounded integers, however many searches were made before.",
  "all grouped datasets, queries, bands, budgets, sequences of calls", "The counter overflows only after very many searches or budgets that no test uses.",
  ["genex/group/GlobalGroupSpace.cpp: generateTraverseOrder, getBestMatch, getKBestMatches", "genex/group/LocalLengthGroupSpace.cpp: interLevelKSim", "genex/group/Group.cpp: getBestMatch, intraGroupKSim, getMembers", "genex/TimeSeries.cpp: extraTimeSeries"])
p("No int overflows inside the distances",
  "With int of 32 bits, overflow being undefined: the distances, with the band, the cost matrix, the divisor of the normalisation, the envelopes and their queues, return the value, exception and alignment that unbounded integers give; so do normalize, grouping and the searches that use them, in rounded arithmetic with a greatest number.",
  "all series, bands, thresholds, datasets, groupings, queries, sequences of calls", "The series that overflow have more than a thousand million points.",
  ["genex/distance/Distance.hpp: warpedDistance", "genex/distance/Distance.cpp: kimLowerBound, keoghLowerBound, crossKeoghLowerBound, cascadeDistance", "genex/distance/Euclidean.hpp, Manhattan.hpp: normDTW", "genex/lib/trillionDTW.cpp: lower_upper_lemire", "genex/TimeSeries.cpp: generateKeoghLU"])
p("From the file to the answer on the machine",
  "With every int of 32 bits and every operation on numbers rounded to double and overflowing beyond the greatest, a program that loads a text file, normalises it or not, groups all lengths with one thread and asks for the best match of a part of a series runs without undefined behaviour and without exception, on a file of manageable size. Its answer is a part of the data of a comparable length, the distance reported is its DTW distance up to an explicit error, and for euclidean and chebyshev no comparable part of the data is nearer by more than a quarter or a half of the threshold, up to that error.",
  "all files within the sizes stated, all separators, columns, metrics with triangle inequality and manhattan, thresholds, bands, queries", "It is a statement about all files and all roundings at once.",
  ["genex/GenexAPI.cpp: loadDataset, normalizeDataset, groupDataset, getBestMatch", "genex/TimeSeriesSet.cpp: loadData, normalize", "genex/GroupableTimeSeriesSet.cpp: groupAllLengths, getBestMatch", "genex/group/GlobalGroupSpace.cpp", "genex/distance/Distance.hpp: warpedDistance"])
p("No int overflows in multi-threaded grouping",
  "With int of 32 bits, overflow being undefined, and undefined behaviour of any worker being undefined behaviour of the program: grouping with any number of threads returns, under every interleaving of the workers, if and only if grouping with one thread does, and leaves the same groups and count; a program from the file to the answer (C94) therefore gives the same answer with any number of threads.",
  "all datasets, thresholds, clocks, thread counts and interleavings; all programs of C94", "The number of interleavings is unbounded, and overflow needs data beyond any test.",
  ["genex/group/GlobalGroupSpace.cpp: groupMultiThreaded, _group", "genex/group/LocalLengthGroupSpace.cpp: generateGroups", "genex/lib/ThreadPool.hpp"])
p("The exhaustive search on the machine",
  "With every int of 32 bits and every operation on numbers rounded to double and overflowing beyond the greatest, a program that loads a text file, normalises it or not and searches it exhaustively for the k parts nearest to a part of a series runs without undefined behaviour and without exception. It returns min(k, number of parts) distinct parts of two or more points in order of distance, each with its DTW distance up to an explicit error, and no part left out is nearer by more than that error.",
  "all files within the sizes stated, separators, columns, bands, queries, numbers k, implementations of the heap and of sort", "It is a statement about all files and all roundings at once; the loops overflow for lengths no test has.",
  ["genex/TimeSeriesSet.cpp: getKBestMatchesBruteForce, loadData, normalize", "genex/GenexAPI.cpp: loadDataset, normalizeDataset, getKBestMatchesBruteForce"])
p("From the file to the k best matches on the machine",
  "With every int of 32 bits and every operation on numbers rounded to double and overflowing beyond the greatest, a program that loads a text file, normalises it or not, groups all lengths and asks for k matches among h members runs without undefined behaviour and without exception. It returns min(k, number of comparable parts) distinct comparable parts in order of distance, each with its DTW distance up to an explicit error, padded to k entries; if all may be examined no part left out is nearer by more than that error.",
  "all files within the sizes stated, separators, columns, thresholds, bands, queries, k, h, values of the counter of left out members", "It is a statement about all files and all roundings at once.",
  ["genex/GenexAPI.cpp: loadDataset, normalizeDataset, groupDataset, getKBestMatches", "genex/GroupableTimeSeriesSet.cpp: getKBestMatches", "genex/group/GlobalGroupSpace.cpp: getKBestMatches", "genex/group/Group.cpp: intraGroupKSim"])
p("The alignment returned, in floating point",
  "In rounded arithmetic the pairs returned with a warped distance are an alignment of the two series. With the full band its cost is at most the DTW distance up to a relative error of 36(m+n)u and an absolute error of 11 theta, and is the returned distance up to 24(m+n)u and 7 theta, although rounding can make the trace-back leave the cells the distance was computed from; so is the cost of the answer of matchingBetween with numbers of type double and int.",
  "all series of representable numbers, all roundings, euclidean, manhattan and chebyshev", "The alignments that differ need costs that agree up to the last digit; optimality is about all alignments.",
  ["genex/distance/Distance.hpp: warpedDistance, the trace-back at lines 175-213", "genex/GenexAPI.cpp: matchingBetween"])
p("What the sorensen and the cosine distance compute",
  "The sorensen distance of two series of one length without negative values, not both zero, is the sum of |x - y| over the sum of x + y, lies in [0, 1], is symmetric and is 0 only for equal series. The cosine distance of two nonzero series is the cosine of their angle; with a zero series it is NaN. On positive data sorensen_dtw, and on data without zeros cosine_dtw, is the same quotient along an alignment in the band, infinity if there is none, and a positive series has sorensen_dtw 0 to itself. The value is the least over the alignments, and no other series is nearer than the series itself.",
  "all series, all bands", "The value of a quotient along an unknown alignment, the range and the extreme cases are about all series.",
  ["genex/distance/Sorensen.hpp: reduce, norm, normDTW", "genex/distance/Cosine.hpp: reduce, norm, normDTW", "genex/distance/Distance.hpp: pairwiseDistance, warpedDistance"])
p("The sorensen and the cosine distance in floating point",
  "In rounded arithmetic the sorensen distance of two series of n representable numbers without negative values, not all zero, is finite, lies in [0, 1], is exactly symmetric, is exactly 0 for equal series, and is Sorensen's dissimilarity up to a relative error of 6(n+1)u and an absolute one of theta^2. The cosine distance of nonzero series is the cosine up to 22(n+1)u and lies in [-1, 1]. Along some alignment in the band the same holds of sorensen_dtw on positive data and of cosine_dtw on data whose squares do not underflow, with m+n for n+1; infinity if there is no alignment in the band.",
  "all series of representable numbers, all roundings with error u and underflow theta, all bands", "An error bound is about all series; values beyond 1 need sums that agree up to the last digit.",
  ["genex/distance/Sorensen.hpp: reduce, norm, normDTW", "genex/distance/Cosine.hpp: reduce, norm, normDTW", "genex/distance/Distance.hpp: pairwiseDistance, warpedDistance"])
p("Piecewise aggregate approximation on the machine",
  "With 32-bit ints and any arithmetic, if the dataset has at most 2^31 - 1 places: preparing the PAA matrix succeeds or throws a GenexException; after it succeeded, the approximation of a part of a series assembled from the matrix is bit for bit the one computed from the part itself, and consists of the computed means of the blocks. In double arithmetic each point is the mean of its block up to a relative error of about c * 2^-53 for blocks of c points. A PAA search with blocks of one point returns what the exhaustive search returns.",
  "all datasets of countable size, all block sizes, all parts, any rounding", "Rounding could differ between two ways of adding the same block, and positions overflow for sizes no test has.",
  ["genex/PAAWrapper.cpp: generatePAAMatrix, getPAA, tsPAA, getKBestMatchesPAA", "genex/TimeSeries.cpp: average"])
p("The search by scanning in floating point",
  "Whatever the operations on numbers give (rounded, infinite or NaN), the scanning search on a well-formed data file of less than 2^31 numbers and a query of at least three points uses no memory outside its arrays and none that was not written, overflows no counter, scans every point and reports location 0 or the location of a window, except that sorting the query may convert to int what cannot be converted. With results rounded to double and no overflow, a query of 6 to 100000 points with a computed deviation gets a window whose cost is the least among the windows with a computed deviation up to one part in 2^34, costs being the least rounded costs of alignments in the band of the normalised windows, and the distance is the rounded root of that cost. So pruning by the three bounds and giving up early lose nothing more than rounding does.",
  "all data, queries, bands, chunk sizes, sort orders, all roundings with a relative error and underflow; for safety any operations at all", "Rounded bounds can exceed the rounded distance they bound; how far is about all windows and all bounds.",
  ["genex/lib/trillionDTW.cpp: calculate, dtw, lb_kim_hierarchy, lb_keogh_cumulative, lb_keogh_data_cumulative", "genex/lib/trillionDTW.cpp: lower_upper_lemire"])
p("The window found by scanning in floating point, and the exact distances",
  "Let the data and a query of 6 to 100000 points be numbers of type double, at most M in absolute value, and let the variance of the query and of every window be at least M^2/2^32 + 2^-1071 over tau, with tau at most 1/4; nothing overflows. Then the scanning search reports a window; the exact DTW distance between this window and the query, both exactly standardised, exceeds that of no other window by more than 32 tau m, and the distance reported is this exact distance up to 15 tau m. If only the query and one window are varied enough, the distance reported exceeds the exact distance of no such window by more than 17 tau m. The computed deviation of such a window is positive and its points are normalised correctly up to 4 tau sqrt m.",
  "all data, queries, bands, chunk sizes, all roundings with a relative error and underflow", "The error of running sums over a chunk, of the difference of two means and of all alignments is about all data; a test has no exact distances to compare with.",
  ["genex/lib/trillionDTW.cpp: calculate, the running sums ex and ex2, mean and std", "genex/lib/trillionDTW.cpp: dtw"])
p("Comparing two result lists in the experiment code",
  "computeJaccard never reads outside its vectors; for vectors not both empty it is the number of places at which the two distances differ by less than 1e-9, over the number of all results less that number; it lies between 0 and 1, does not depend on the order of its arguments, and is 1 exactly if the vectors have one size and agree at every place; for two empty vectors it is NaN. It is not the Jaccard index of the two sets of results: sorted lists with half of their distances in common can get 0. computeWeightedJaccard reads outside a vector whenever the sizes differ; for one size it lies between 0 and 1 and is 1 exactly on agreement. printResults prints four fields for each result, from which the fields can be read back.",
  "all result vectors, all distances including infinite ones and NaN", "No command calls these functions, and no test does; the out-of-range read needs vectors of two sizes.",
  ["cli/GenexCLI.cpp: computeJaccard", "cli/GenexCLI.cpp: computeWeightedJaccard", "cli/GenexCLI.cpp: printResults"])
p("The experiment scripts",
  "generate_random_queries ends if numbers more than one apart are drawn again and again, and then gives as many queries as asked for, each with a series of the data set, at least two points and an end below the length; so no query contains the last point of a series, and for series of one or two points the loop never ends. The table has nquery rows, the first half from the data set. A negative limit on the number of subsequences does not apply. The number of subsequences recorded is the number of parts of at least two points of series of one length. Data sets are treated in order of that number; one whose own name ends in _out is left out, and without data sets the script ends with an exception. A run of a method only appends records, one for each query of the table without one, with the answer to it; a second run and a dry run change nothing, and a run taken up after an exception or a kill ends with the records of one uninterrupted run; but the number of matches is not recorded, so asking for another number keeps the old answers. The error is the mean difference of the distances: below epsilon it bounds each difference by k epsilon if no distance found is below the least possible at its place; otherwise differences cancel, and it is not relative. The errors recorded are those up to the first small one.",
  "all random draws, tables, answers, interruptions and records", "Termination depends on the draws; interruptions can come anywhere.",
  ["scripts/common.py: generate_random_queries, get_queries, check_subseq_range, get_dataset_order, compute_rel_error", "scripts/1_extract_info.py", "scripts/3_brute_force.py: run_brute_force", "scripts/4_paa.py: run_paa", "scripts/5_genex.py: run_genex"])
p("Thresholds, extents and progress in the scripts",
  "From one tenth to another (each as the nearest double, below 1000) the grouping script uses exactly the doubles nearest to the tenths in between, from the first on; the last one is excluded or included, and from 0.1 to 0.4 it is included. The extents of the searches of one query grow; there are 1000, and the last is the whole number of subsequences. What the grouping script has recorded after a run is what was recorded before and what it grouped, nothing twice; it groups only what was asked for and not yet recorded, or all when starting over; after a run without exception everything asked for is recorded and another run groups nothing; after an exception or a kill the next run goes on so that both together group and record what one run would have; a dry run does nothing.",
  "all tenths, all roundings with a small relative error, all lists of parameters, interruptions and records", "The length of a numpy range in floating point depends on the two ends; interruptions can come anywhere.",
  ["scripts/2_generate_groups.py: group_dataset, exclude, progress", "scripts/5_genex.py: run_genex, the loop over ke_ratio"])
p("Overflow in the search by scanning",
  "In an arithmetic whose results are infinite beyond a greatest number X, the search by scanning gives the same report as in one without such a limit, if the numbers of the data and the query are at most M with 64 EPOCH^2 (M+1)^2 <= X, the query has a deviation and its points are normalised to numbers up to X/2; windows without a deviation, whose points are normalised to infinities or no numbers, are no exception. With IEEE doubles, overflow included, and numbers up to 2^490: the window reported costs at most as much as every other window that has a deviation, but for one part in 2^34; and if query and windows are varied enough, it is the nearest one by exact distances up to 32 tau m, its distance right up to 15 tau m.",
  "all roundings with a small relative error, all limits, data of any length up to 2^31 without unreadable entries, all queries with a deviation, lengths, bands and orders of the sorting", "An overflow in one of the bounds or in one cell of the table turns up only for few windows, and whether it changes the outcome depends on all later comparisons.",
  ["genex/lib/trillionDTW.cpp: calculate, lb_kim_hierarchy, lb_keogh_cumulative, lb_keogh_data_cumulative, dtw"])
p("Overflow with all five metrics",
  "In an arithmetic whose results are infinite beyond a greatest number, every distance and every alignment of points between lo and B is what it would be without that limit, for all five metrics, if the sums that many such points can make, and for the cosine the product of two such sums and the quotient by the smallest divisor, stay below the limit, and for Sorensen's distance lo is not negative. So are the groups made with any number of threads, and what the exhaustive search and both searches in groups return. A file with values in the range gives data in the range; after normalisation they lie between 0 and 1. With IEEE doubles, numbers up to 2^200 and up to 2^53 points are in range.",
  "all roundings, limits, ranges, metrics, series of any length with room, all datasets, groups, thresholds, numbers of threads, queries and bounds", "The products of sums in the cosine overflow long before any distance of the other metrics does, and a quotient overflows by a small divisor; tests use data near 1.",
  ["genex/distance/Cosine.hpp: reduce, norm, normDTW", "genex/distance/Sorensen.hpp: reduce, norm, normDTW", "genex/distance/Distance.hpp: pairwiseDistance, warpedDistance"])
p("A single series in an archive",
  "The values of a series saved to an archive and loaded into a series of the same length, owning or part of a dataset, are its values; no other object and no other array changes, and what follows in the archive is left for the next. A shorter series takes the first values, a longer one ends with an error and has taken those that were there. The envelopes of the series loaded into are those of its new values.",
  "all states of the objects and arrays, all series, all values including infinities, all contents of the archive", "The test saves one view and loads it into a fresh series of the right length, which keeps no envelope.",
  ["genex/TimeSeries.hpp: serialize", "genex/IO.hpp: saveToFile, loadFromFile"])
p("What the command line program prints",
  "The lines printed for `sim`, `ksim` and `ksimBF` are, in order, the series, positions and distances of the answer, and those for `distance` and `print` the number and the points; read back, the distances are those of the answer to the digits shown and are in order. The number of digits shown does not depend on what was typed before, and only `timer` turns the timer on or off. Whatever fails is reported by a line starting with `Error!` that says what failed. The program ends with its input; at the end of input it asks again until the answer is yes, no or empty.",
  "all sessions, all lines, all answers of the library, all ways of showing numbers without line breaks", "There is no test of the command line program; the digits depend on earlier commands, and the wrong lines appear only when fewer series exist than were asked for.",
  ["cli/GenexCLI.cpp: TIME_COMMAND, commands, processLine, wantToQuitByEOF, main", "genex/TimeSeries.cpp: printData"])
p("From the lines typed to the text on the screen",
  "Whatever else was typed before and between: after `load`, `normalize` or not, and `group` lines that showed no error, and with that dataset not touched since, the text shown by `sim` names one part of one line of the file with its DTW distance, and no part of comparable length is nearer by more than a quarter (euclidean) or half (chebyshev) of the threshold typed. The lines shown by `ksim` are such parts, as many as asked for or as exist, none twice, nearest first, and with none nearer left out if the candidates do not exceed `ke`; those of `ksimBF` are the nearest of all parts. `normalize` of a dataset with some number answers without an error and scales its numbers to [0, 1]; `print` shows the numbers asked for. The band is always a tenth.",
  "all sessions of the command line program, all files, queries, ways of showing numbers; `ksim` in all forms but the one with a range and `ke`", "Nothing tests the path from a typed line to the text; a session may have any lines in between.",
  ["cli/GenexCLI.cpp: commands, processLine, main", "genex/GenexAPI.cpp: loadDataset, groupDataset, getBestMatch, getKBestMatches, getKBestMatchesBruteForce"])
p("From the lines typed to the text on the screen, in double arithmetic",
  "The same as for exact numbers, with every operation of the library rounded to a double and infinite beyond the greatest double: after `load`, `normalize` or not, and `group` lines that showed no error, the number shown by `sim` is the DTW distance of the part it names up to a relative error of 12 (n + W) / 2^53 for a query of n points and lines of up to W columns, and the guarantee about nearer parts holds up to that error; so do those of `ksim` and `ksimBF`. The program answers each of them. `normalize` leaves numbers in [0, 1] within 4 / 2^53 of the exact ones; `print` shows the numbers asked for.",
  "all sessions of the command line program, all files of doubles up to 2^480 with at most 2^52 cells, all queries, all ways of showing numbers; `ksim` in all forms but the one with a range and `ke`", "Rounding errors add up along the alignments and through normalisation; a test compares one printed number with a tolerance of its author's choice.",
  ["cli/GenexCLI.cpp: commands, processLine, main", "genex/GenexAPI.cpp: loadDataset, normalizeDataset, groupDataset, getBestMatch, getKBestMatches, getKBestMatchesBruteForce", "genex/distance/Distance.hpp: warpedDistance"])
p("The answers of the Python module, in double arithmetic",
  "With every operation of the library rounded to a double and infinite beyond the greatest double: whatever calls were made before and between, on a dataset loaded from a file, normalized or not, and grouped, with no exception, `sim` returns a dictionary that names one part of one line, which `getTimeSeries` with these numbers shows, with its DTW distance up to a relative error of 12 (n + W) / 2^53; no part of comparable length is nearer by more than a quarter (euclidean) or half (chebyshev) of the threshold and that error. `ksim` and `ksimbf` return lists of such parts, as many as asked for or as exist, none twice, nearest first, and with none nearer left out up to the error. `normalize` returns the least and the greatest number and leaves numbers in [0, 1] within 4 / 2^53 of the exact ones.",
  "all sessions of the Python module, all files of doubles up to 2^480 with at most 2^52 cells, all queries, thresholds, band ratios that are not negative", "The Python tests compare with one recorded answer; rounding errors add up along the alignments and through normalisation.",
  ["pygenex/GENEXBindings.cpp: sim, ksim, ksimbf, normalize, getTimeSeries", "genex/GenexAPI.cpp: loadDataset, normalizeDataset, groupDataset, getBestMatch, getKBestMatches, getKBestMatchesBruteForce", "genex/distance/Distance.hpp: warpedDistance"])
p("What `list` shows",
  "After any session at the terminal `list dataset` shows as many rows as its first line says, in the ascending order of the names. The row of a name says what the lines typed before and the texts after them say: there is one iff the last `load` or `unload` of that name without an error was a `load`; it says `Normalized` iff a `normalize` without an error came after that; it says `Grouped` with the distance and the threshold of the last `group` or `loadGroups` of that name since, and `Not grouped` if there was none. A `load`, `unload` or `normalize` that shows an error changes nothing of it. `list dataset` shows a table whenever no `group` and no `loadGroups` has shown an error. `list distance` shows the ten names of distances.",
  "all sessions of the command line program without tabs in what is typed, all files, all names, exact, rounded, overflowing and 32-bit arithmetic", "No test runs the command line program; the state that `list` shows depends on the whole session.",
  ["cli/GenexCLI.cpp: list, processLine", "genex/GenexAPI.cpp: getAllDatasetInfo, getAllDistanceName", "genex/GroupableTimeSeriesSet.cpp: groupAllLengths, isGrouped, getDistanceName, getThreshold"])
p("Groups kept in a file between sessions",
  "At the terminal, after a file has been loaded, normalized or not, and grouped with no error, `saveGroups` shows no error and leaves a file. In every session in which the same lines of numbers were loaded, under any name and whatever else was typed, `loadGroups` of that file shows no error and the same number of groups, and after it `sim` and `ksim` show what they are guaranteed to show in the session that made the groups; they can be saved again, any number of times. With another number of lines, or another length of the longest, `loadGroups` shows an error.",
  "all pairs and chains of sessions of the command line program, all files, names, thresholds, queries", "A round trip in one test keeps the dataset that was grouped; here the file outlives the session and anything may be typed before and between.",
  ["cli/GenexCLI.cpp: saveGroups, loadGroups", "genex/GenexAPI.cpp: saveGroups, loadGroups", "genex/IO.hpp: saveToFile, loadFromFile", "genex/GroupableTimeSeriesSet.hpp: save, load", "genex/TimeSeriesSet.cpp: _getMaxRowsMaxColumns, loadData"])
p("Datasets kept in a text file between sessions",
  "A number written with `operator<<` reads as the number rounded to the digits of the stream: near, nothing of so many digits is nearer, order is kept, and two numbers have the same text iff they round to the same. A dataset that is saved and loaded again with the same separator has the same names, number and lengths of series, and numbers that agree to six digits; numbers of six digits come back as the double nearest to them. Saving what came back leaves the same file. At the terminal, after a file has been loaded, normalized or not, `save` shows no error and leaves such a file, and every session that loads it without an error has these numbers. The numbers that come back should be those that were saved.",
  "all rational numbers, numbers of digits, datasets of ordinary numbers, names, separators, sessions of the command line program", "No finite set of numbers meets every rounding, exponent and trailing zero; tests that compare to the printed text repeat the rounding of the printer.",
  ["genex/TimeSeriesSet.cpp: saveData, loadData", "cli/GenexCLI.cpp: save, load", "genex/GenexAPI.cpp: saveDataset, loadDataset"])
p("The numbers read on the screen",
  "Reading the texts that `operator<<` puts on the screen as decimal numbers: the number after `sim` is the DTW distance of the part it names up to half a thousandth of it, the numbers after `ksim` are those of the parts named, and do not decrease from line to line, and an infinite distance reads inf; in double arithmetic the error of the computed distance is added. The numbers after `print` are the points asked for, to sixteen digits, and different points are shown as different numbers.",
  "all sessions of the command line program, files of rational numbers, thresholds, queries, with the manhattan and chebyshev distances", "A test compares screen texts to expected texts; that every text reads as a number near the true distance needs the printer for all numbers and the search for all files.",
  ["cli/GenexCLI.cpp: sim, ksim, print", "genex/GenexAPI.cpp: getBestMatch, getKBestMatches, getTimeSeries", "genex/TimeSeries.cpp: printData"])
p("Small changes of the numbers",
  "If no point of two series is moved by more than d, the warped distance computed by the library moves by at most 2d, and stays infinite if it is. If the numbers of a dataset are moved by at most d and are not all the same, the normalized ones move by at most 2d divided by their range. Therefore, if the numbers that were loaded and grouped, and those of the query, differ by at most d from other numbers, the part that `sim` shows at the terminal has, among these other numbers, a DTW distance within 2d of the number shown, and no comparable part is nearer by more than the allowance of the grouping plus 4d; of `ksimBF` each distance is right up to 2d, and no part that is not shown is nearer by more than 4d than one that is. In particular what `sim` shows in a session that loaded a file left by `save` in another session is right of the numbers of that other session, up to about a hundred thousandth of the greatest of them.",
  "all series, bands, amounts; euclidean, manhattan and chebyshev distances; all sessions of the command line program and pairs of them", "A test perturbs one series in one way; the best alignment may change with every perturbation.",
  ["genex/distance/Distance.hpp: warpedDistance", "cli/GenexCLI.cpp: sim, save, load", "genex/GenexAPI.cpp: getBestMatch", "genex/TimeSeriesSet.cpp: saveData, loadData"])
p("The units of the numbers",
  "If all numbers are given in another unit and counted from another zero (x becomes s x + c), the plain and the warped euclidean, manhattan and chebyshev distances are the same distances in that unit, |s| times the old ones. After `normalize` a dataset holds the same numbers whatever the unit was, so that everything after it is the same. Without `normalize` the part that `sim` shows at the terminal is right of the numbers in the other unit, with the threshold in that unit. Grouping with the threshold in that unit gives the same groups, with any numbers of threads, and the search among the groups finds the same part. The results of a search do not depend on the unit.",
  "all series, bands, factors and offsets; all datasets; all sessions of the command line program", "A relation between two runs on different data, for all of them; a test in one unit passes.",
  ["genex/distance/Distance.hpp: pairwiseDistance, warpedDistance", "genex/TimeSeriesSet.cpp: normalize", "genex/TimeSeries.hpp: candidate_time_series_t", "genex/group/LocalLengthGroupSpace.cpp: generateGroups, getBestGroup", "genex/group/GlobalGroupSpace.cpp: group, getBestMatch", "genex/group/Group.cpp: getBestMatch", "cli/GenexCLI.cpp: sim, normalize"])
p("Units that rounding respects",
  "With every operation rounded, if multiplication by s > 0 does not interfere with the rounding (a power of two and rounding to p binary digits, without limits on the exponent), then all numbers multiplied by s give exactly s times the euclidean, manhattan and chebyshev distances, plain, warped and behind the lower bounds, with s times the dropout, and also where the computation is abandoned or NaN and infinities occur; the sorensen and cosine distances stay the same; so do all matchings; `normalize` gives the same numbers and s times the extremes; grouping with s times the threshold gives the same groups, and the search for the best match among them the same part at s times the distance, or the same error; with the sorensen and cosine distances the groups are those of the same threshold and all searches give the same. The rounding of double near its least number respects not even the factor one half.",
  "all roundings, factors they respect, series (special values included), dropouts, bands, datasets", "Equality to the last bit of two computations, for all data; a test would have to meet each rounding and each place where the computation is abandoned.",
  ["genex/distance/Distance.hpp: pairwiseDistance, warpedDistance", "genex/distance/Distance.cpp: kimLowerBound, keoghLowerBound, crossKeoghLowerBound, cascadeDistance", "genex/lib/trillionDTW.cpp: lower_upper_lemire", "genex/distance/Euclidean.hpp", "genex/distance/Manhattan.hpp", "genex/distance/Chebyshev.hpp", "genex/distance/Cosine.hpp", "genex/distance/Sorensen.hpp", "genex/TimeSeriesSet.cpp: normalize", "genex/group/LocalLengthGroupSpace.cpp: generateGroups, getBestGroup", "genex/group/GlobalGroupSpace.cpp: group, getBestMatch", "genex/group/Group.cpp: getBestMatch"])
out = os.path.join(os.path.dirname(os.path.abspath(__file__)), "..", "properties.jsonl")
with open(out, "w") as f:
    for x in P: f.write(json.dumps(x) + "\n")
print(len(P))
