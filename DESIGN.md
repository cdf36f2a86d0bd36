# A machine-checked model of genex

Subject: `ctring/genex` (C++), read as text in `/repo`.  Nothing was compiled or run.
Model and proofs: Lean 4.33.0 with Mathlib, Lake project in `lean/`.

## 1. Trusted base

* The Lean kernel, and the axioms `propext`, `Classical.choice`, `Quot.sound` (the standard ones).
  No own axioms, no `sorry`, no `native_decide`, no `bv_decide`.
* The hand translation from C++ to Lean.  Each model definition cites the file and lines it follows.
* Numbers.  `double` is modelled by `Dbl K` = finite value of an ordered field `K`, `+inf`, `-inf` or `NaN`, with the
  IEEE rules for comparison, `std::min/max`, and for arithmetic on the special values.  Arithmetic on finite values is
  exact in most of the model; the sign of zero is not modelled (the code never divides by
  a negative zero).  Rounding is modelled for the distances and lower bounds (`Model/Rounded.lean`, C72 and later), `normalize` and `tsPAA` (`Model/RoundedData.lean`, C78, C79): each operation is
  followed by `rd`, any function with the laws of `Spec.Rounding`; `roundDouble` (53 digits, ties to even, gradual underflow) is shown
  to have them, and the error bounds of `Spec.FloatOps`.  Assumed there: `pow(x, 2)` is one multiplication (as g++ compiles it), `sqrt` is correctly rounded, nothing is fused.  Overflow is modelled for the same operations (`Model/Overflow.lean`, C87): a rounded result
  beyond the greatest number is infinite, as IEEE has it; C87 says when the theorems about rounding hold with overflow too.  The registry, the command line and the Python module (`Model/Api.lean`, `Model/Cli.lean`, `Model/Py.lean`) are defined over the class `Arith`, so their theorems hold in exact and in double arithmetic (the search by PAA stays exact there; C101 has it in double).  Theorems that only need weak laws are stated for an abstract metric, see section 3.
* The warping band.  The product `length * warpingBandRatio` is taken by the class `BandOps` (`Spec/Band.lean`); every theorem about distances,
  searches and the interface that depends on the band holds for each of its instances: the exact product (the default, used where
  none is named, as in the concrete examples) and the product rounded to a double (`doubleBand`, C89).  The latter is that of the program for lengths up to `2 ^ 26`.  The default ratio, the literal `0.1`, is taken to be exactly a tenth; by `C89_tenth` the double nearest to a tenth gives the same bands.
* `int` is modelled by `Int`/`Nat` without wrap-around, except in `bandInt` (C89), in `Model/Machine.lean` (C91), `Model/MachineSearch.lean` (C92), `Model/MachineDist.lean` (C93), `Model/MachineThreads.lean` (C95), `Model/MachineBrute.lean` (C96), and where said below.
  C91 gives the sizes for which loading, access, saving and grouping are the same with `int` of 32 bits, C92 for the searches in groups,
  C93 for the integers inside the distances, C95 for grouping with threads, C96 for the exhaustive search. C101 for PAA. The archives are not repeated in this way.
* Undefined behaviour (out-of-bounds access, null/dangling pointer, read of an uninitialised variable, division by
  zero on integers) is a distinct outcome `Fault.ub` of a model function, and non-termination of the trace-back loop is
  `Fault.diverge`.  A thrown exception is `Fault.genex` or `Fault.std`.
* `std::sort`, `std::make_heap`, `push_heap`, `pop_heap` are not implemented in the model: a theorem quantifies over every
  implementation that meets the contract in the C++ standard (`Model/StdAlgo.lean`), and the contract is only assumed for
  strict weak orders.  `refAlgos` shows that the contract can be met.
* `std::stod`, `std::stoi`, `operator<<(double)` are parameters (`parse`, `stoi`, `print`); C116 takes for `print` the text that
  the format `%g` gives (`Model/NumberText.lean`; trusted: rounding to nearest even, no locale).  boost's archive is a list of typed
  values (`Tok`): bytes and compression are not modelled, and a truncated file is one cut after any number of values.
* Square roots: euclidean theorems take any field with a lawful square root (`LawfulSqrt`), for example the reals.
* The thread pool is a transition system with an explicit mutex, condition variable and spurious wake-ups.  Trusted: the
  semantics given there to `std::mutex`, `std::condition_variable`, `std::future`, and sequential consistency.  A task runs
  update by update, interleaved with the others (one round of `generateGroups` is one update); tasks of one grouping touch different
  `LocalLengthGroupSpace` objects, which is why a round may be a single step.
* The value left in an uninitialised variable (`PAAWrapper::_getPAA`, `sum`) is a parameter, `none` meaning "reading it is
  undefined behaviour", `some v` meaning "it happens to be `v`".
* `TimeSeries` objects live in a `World`: a heap of buffers and a list of objects.  Copying, moving, assigning and destroying are
  steps; a read of freed or unwritten memory is `ub`.
* The interface (`Model/Api.lean`) is a registry of names over a heap of datasets; a freed object that is used gives the reply
  `dangling`.  The files a call reads are arguments of the call, the files it writes are part of its reply.  The query of a search
  is copied before the search starts (in the code it is a view into a dataset that the search does not change).
* The Python module: how Boost.Python binds arguments (keywords belong to the last parameters of a function; a call without
  keywords and with all arguments is not resolved), converts values and turns exceptions into Python exceptions is as in
  `Model/Py.lean`.
* The scanning search (`Model/Ucr.lean`): arrays are lists of cells with a mark for "not written"; `qsort` gives any rearrangement;
  a file is the numbers up to its end or up to the first word that is no number (there `fscanf` stays for ever); the number of chunks
  that are waited for is a parameter, and the chunk length too (100000 in `calculate`); `int` counters that pass 2^31 are faults.
  `Model/UcrRounded.lean` (C102) is the same with any function applied to each result of an operation on numbers.
* The scripts (`Model/Scripts.lean`, `Model/ScriptGroups.lean`): random numbers are any stream in range, a file of results is the list it
  holds, `numpy.arange` and `round` are as in the model.
* The command line program: boost's tokenizer, `hardware_concurrency` and the conversions are as in `Model/Cli.lean`.  `cout` prints pieces of
  text (`Model/CliOutput.lean`); how a number is shown with a number of digits is a parameter (`Screen`); the text of an exception of the
  standard library is its name; `delete` of what `readline` has allocated with `malloc` (cli/GenexCLI.cpp:795, 832), formally
  undefined, frees it.

## 2. What is not modelled

timing, the texts of `help`, the progress of grouping and what `summary` prints (any text in C110), the prompt and history of the
terminal; memory exhaustion and `bad_alloc`; the bytes of archives; integers given to the
Python module that a double does not hold; the messages and timings of
`calculate` in `lib/trillionDTW.cpp` and what it leaves allocated; executions of the metric object's creation (C86) that are not
sequentially consistent (C++ gives no meaning at all to an execution with a data race, and C86_race_false shows there is one).

## 3. Properties: what is modelled and how it is proved

The specifications are in `Spec/` and do not use the functions they are about.  In particular "the DTW distance" of the search
properties is `Spec.Dtw`: the least cost over all alignments in the band, not the value of the modelled function; `C01_least` says
that the two agree for all lengths.

| id | model | proof |
|----|-------|-------|
| C01 | `warpedDistance` as a loop filling two matrices, generic in the metric | loop invariant: every in-band cell holds the recurrence; recurrence = minimum over lists of cells that form an alignment |
| C02 | same, with `dropout` | each cell is at least one cell of every earlier row (costs only grow) |
| C03, C04 | both `pairwiseDistance` templates, five metrics | induction over the series; counterexamples for sorensen and cosine |
| C05-C07 | `kimLowerBound`, `keoghLowerBound`, `crossKeoghLowerBound`, `cascadeDistance` | every alignment visits each column, and both corners |
| C08, C09 | `lower_upper_lemire` over the ring buffer of `deque.cpp` | ring buffer refines a list; the lists are the strict suffix-extrema of the window |
| C10, C11 | pairwise and warped distances | algebra over ordered fields; transposition of alignments |
| C12-C14 | trace-back loop of `warpedDistance` | step relation; counterexamples for band, 1x1, NaN |
| C15, C16 | `calculateWarpingBandSize`, `generateTraverseOrder` | monotonicity of `h - band h` |
| C17-C22 | `loadData`, `saveData`, `clearData`, `getTimeSeries`, tokenizer | induction over rows and tokens; counterexamples for reload |
| C23, C24 | `normalize` | fold for min/max |
| C25, C26 | `getKBestMatchesBruteForce`, `operator<` | top-k invariant over any heap meeting the contract; cycle counterexample |
| C27-C30 | `generateGroups`, `Group` with its linked member map | refinement of the linked map to lists, invariant over insertions |
| C31, C32 | thread pool as a transition system | invariants over all schedules |
| C33 | `generateGroups` with the clock as input | counterexample: modulus by zero; safety otherwise |
| C34-C40 | `getBestGroup`, `getBestMatch`, `interLevelKSim`, `intraGroupKSim`, `getKBestMatches` | invariants using only the early-abandon contract proved in C02/C07 |
| C41-C45 | `save`/`load` of the three group classes as token streams | round trip by induction; prefix argument for truncation |
| C46, C47 | API state machine with dataset lifetimes | invariant over histories; dangling wrapper counterexample |
| C48 | name table | finite table, all strings |
| C49-C51 | `tsPAA`, `getPAA`, `generatePAAMatrix` | induction over blocks |
| C52-C54 | `TimeSeries` objects over a heap of buffers, envelope cache | separation of buffers; counterexamples |
| C55, C63, C64 | every command of `cli/GenexCLI.cpp`, `processLine`, the loop of `main` | forms in `Spec/Cli.lean` taken from the help texts; case analysis; a session is a history of calls |
| C19, C61, C62 | the interface, `Model/Api.lean` | each call is one of a few effects on registry and heap; induction over histories |
| C56-C58 | `saveToFile`, `loadFromFile`, searches on reloaded groups | as C41-C45 |
| C59 | `getKBestMatchesPAA` | the query is shorter than the stored approximations: no search returns |
| C60 | ownership of buffers by `TimeSeries` objects | invariant over histories of objects |
| C65 | the calls through function pointers with `gNoMatching`, `Model/Scratch.lean` | the trace-back appends; induction over calls |
| C66 | the arrays made by `init()` and deleted by `clean`, `Model/Cells.lean` (an array is named by its cell; one `delete[]` in each of the pairwise templates and in the path for two single points is read off the text) | counting events |
| C67 | the searches of `Model/Group.lean` again, with the envelopes kept by the centroids and the query, `Model/CachedSearch.lean` | simulation: with right envelopes both give the same outcome |
| C68 | `warpedValue` and the three metrics | an optimal path for the one series is a path for the other; its cost changes by the sum over the columns (`Lemmas/Stable.lean`) |
| C69 | `getBestMatch` on a grouped dataset or one with loaded groups | the group of the nearest subsequence has a representative within half the threshold (C30), C68, and the choice of the group is exact (C35) |
| C70 | the interface, `Spec/EndToEnd.lean`: `Loaded` and `Grouped` speak of the calls made and the text of the file only, scaled if it was normalised | C17, C62, C23, C30, C34, C25, C69 put together |
| C71 | the interface, `Spec/Interface.lean`: the numbers shown by `getTimeSeries`, the band read off the history | C03, C01, C12, C13, C48 put together |
| C72 | the distances and bounds with a rounding after each operation, `Model/Rounded.lean` | the proofs of C02, C05-C07 need only that reduction and normalisation are monotone (`Grow`), which rounding preserves; an envelope excess is at most the rounded difference |
| C73 | the same; `Spec.FloatOps` is the relative error `u` with the absolute error `θ²` of underflow, which sums do not have; `Spec.Floats` says that the data are representable | a cell is at most `((1+u)/(1-u))^k` times the cost of any path of `k` steps (induction over the path, the choice of the predecessor costing a factor), plus the underflow of the squares; from below by the path attained; the square root turns `θ²` into `θ` |
| C74 | grouping and searches over the class `Arith` (how a distance is evaluated); `Rounds rd` says that the distances are the rounded ones; `Cand.ltR` is `operator<` with rounding; `Spec/Near.lean` | the proofs of C27, C09, C30-C34 hold for every arithmetic whose distances are total, or have a value; the rounded warped distances have one by C72, and it is near by C73 |
| C75 | the same | C28 generalised to distances whose test for giving up is inexact (`NearEval`, `GNear`): the search for the nearest group still compares correctly up to the error; then C68 and C74 |
| C76 | the text format, `Model/OldFormat.lean`: a file is the list of its words (white space is left out), a `Printer` says which word a number is written as; `>>` on a word of another kind sets the fail bit and leaves 0, later reads leave the variable as it is, and using a variable that was never read is an error of its own | the loaded groups are the groups loaded from the archive with owned centroids (`CopyGS`), and the searches respect that relation |
| C77 | `Spec/Decimal.lean`: rounding to `n` decimal digits and back to 53 binary ones | the printed number is at least as near to the double as the text it came from, and what is as near as a number that rounds to it rounds to it too, unless the spacing changes there |
| C78 | `normalize` with a rounding after each operation, `Model/RoundedData.lean` | subtraction, division and rounding are monotone; the quotient of two numbers with relative error u, rounded, has relative error 4u |
| C79 | `tsPAA` with a rounding after each operation | the running sum of k points has error ((1+u)^(k-1) - 1) times the sum of absolute values; sums of representable numbers do not underflow |
| C80 | the calls `saveGroupsOld`, `loadGroupsOld` of the interface, on histories as in C70 | C76 with C34 and C69 for the groups that would be loaded from an archive |
| C81 | the heap of `Model/Api.lean`, `Api.destroy` | the number of allocated cells is the number of names, for each effect a call can have |
| C82 | the twenty functions of `pygenex/GENEXBindings.cpp` with Boost.Python's binding of arguments, `Model/Py.lean` | the signatures and Python's own binding rule are in `Spec/Py.lean`; binding by both rules is compared for every function |
| C83 | `dtw`, `Model/Ucr.lean`, cell by cell with the two swapped rows | potential along a path (`PathTo.potential`, `PathTo.split`): the best path to the row given up plus the terms of the rest is below every full path |
| C84 | `lb_kim_hierarchy`, `lb_keogh_cumulative`, `lb_keogh_data_cumulative`; envelopes by C08 | Kim: terms of six different frames of cells, disjoint from six points on; Keogh: one term per row or column |
| C85 | `calculate` with reading, chunks, circular array, running sums, pruning and report; nearest window in `Spec/Ucr.lean` | invariants of a point (`PointInv`), a chunk (`ChunkInv`), the best so far (`Best`); every non-flat window costs at most 4m, so the initial 10^20 is never kept |
| C86 | threads that test, make, store and use `static DM* metric` in interleaved steps (`Model/Lazy.lean`); race, null use in `Spec/Race.lean` | invariant over all schedules: who may still make an object; a weight that every step lowers |
| C87 | every operation of the distances, bounds, `normalize`, `tsPAA` followed by rounding and by ±inf beyond the greatest number (`Model/Overflow.lean`); `Spec/Overflow.lean`: the range of the data in which no sum of the metric reaches it | lock-step: each operation in range is the rounded one; grouping and searching carried over from the distances (`Lemmas/ArithCongr.lean`) |
| C88 | the interface (`Api.exec`, C46-C51, C70) is defined for every `Arith`: how a distance and a matching are evaluated and how data is normalised; `doubleArith` is IEEE double arithmetic; `Spec/Double.lean`: histories of calls, the files, and normalised rows | C87 removes overflow for data in the range, C74, C75 and C78 bound the rounding; the registry lemmas of C46 and C70 carry it through any history |
| C89 | `calculateWarpingBandSize` over `BandOps`, `doubleBand`, `bandInt` with the conversion to `int`; `Spec/BandDouble.lean` names the width and the DTW distance in a band of given width | rounding is monotone and fixes integers; if the product stays below `k + 1` and the length is at least `k + 2`, the next is below `k + 2 - 1/(k + 2)`, which rounding does not cross up to `2 ^ 26`; the other theorems at this instance |
| C90 | `Turn`, `outcome`, `toObj`, `candDict` of `Model/Py.lean`; `Spec/PyAnswer.lean` reads the objects by their keys and says what each function has to return for what the interface returned, and which sessions of Python calls load and group a file | a case for every call; a session of Python calls is a history of the calls it makes, and a call that changes a dataset has its name as first argument, so the end-to-end theorems of C70 and C71 apply |
| C91 | `Model/Machine.lean`: loading, `getTimeSeries`, `operator[]`, `saveData`, the cells of `normalize`, and grouping again with every `int` expression checked (`int32`); `Spec/Machine.lean` says which sizes fit | equality with the unchecked functions along their invariants (`Holds`, `Rep`); the exact number of places up to which the log is defined; the total of groups is right or overflows |
| C92 | `Model/MachineSearch.lean`: the order of lengths, reading the members of a group, both searches in groups, again with every `int` expression checked, and the global `extraTimeSeries` passed from call to call | equality with the unchecked searches; the counter after a call computed exactly from the group where the search ends; induction over the calls of a session |
| C93 | `Model/MachineDist.lean`: warped distances, Lemire's envelope with its queues, the lower bounds, the cascade and `normalize` again with every `int` expression checked; `machineArith` puts them into grouping and the searches of C91 and C92 | equality with the unchecked functions along the invariant of the queues; congruence of the checked searches in the arithmetic |
| C94 | `Model/MachineRun.lean`: load, normalise, group with one thread and search in one program, every `int` checked and every number a `double` | composition of C91, C87, C93, C74, C75; the statement is about the lines of the file only |
| C95 | `Model/MachineThreads.lean`: the tasks of `groupMultiThreaded` as updates of `totalTimeSeries`, `counter` and the space, with the integers of C91; a task that is undefined makes the outcome undefined, also in C31 | facts about complete executions of the pool for any tasks; the sum of the futures against the loop of one thread |
| C96 | `Model/MachineBrute.lean`: the three loops of `getKBestMatchesBruteForce` with `int` checked, and a program from the file to its answer | the nested loops visit the coordinates of C25; composition of C91, C93, C87, C74 |
| C97 | `Job.kbestI` in `Model/MachineBrute.lean`: a program from the file to the answer of `getKBestMatches` | composition of C91-C94, C74; `counter_ok` of C92 in rounded arithmetic |
| C98 | nothing new; `warpedDistance` of `Model/Distance.lean` with the rounded metrics, `matchingBetween` of `Model/Api.lean` with the arithmetic of C93 | `back_near`: along the trace-back the cost is at most a factor above the cell; `backStep_min` from the exact proof; with C73, C87, C93 |
| C99 | nothing new; `sorensen`, `cosine` of `Model/Distance.lean` | folds computed as sums; Cauchy and Schwarz by induction; `attain` for distances that only stay finite (`Safe`) |
| C100 | nothing new; `sorensenR`, `cosineR` of `Model/Rounded.lean`, `sorensenW` of `Model/Overflow.lean` | errors of rounded sums of terms of either sign; Cauchy and Schwarz on absolute values; `warped_attain_safe` |
| C101 | `Model/MachinePaa.lean`: all of PAAWrapper.cpp and `TimeSeries::average` with `int` of 32 bits and an arbitrary function applied to each result | the invariant of the block loop with the folded sum; the matrix holds the same fold as the direct computation; lock-step with C96 for the search |
| C102 | `Model/UcrRounded.lean`: all of `calculate` and the functions it calls, with an arbitrary function applied to each result on numbers | for any operations: every cell of every array is written before it is read, by the loop invariants of C83–C85 without the values; for roundings: each bound is at most the rounded cost of any alignment up to (1+u)^k/(1-u)^k, k counting the additions, by two-sided estimates of folds along a path and along any other order |
| C103 | `Model/UcrRounded.lean` as for C102 | the running sums are near the exact ones (each addition and subtraction of the chunk counted), hence the computed variance is near the exact one relative to M²; if that is small against the variance the deviation and every normalised point is near the exact one; the triangle inequality for roots of sums of squares along an alignment carries this over to the least costs, and C102 compares those |
| C104 | `Model/CliExperiment.lean`: `computeJaccard`, `computeWeightedJaccard`, `printResults` (cli/GenexCLI.cpp:607-663) | loops over indices are folds over the zipped lists; numerator and denominator are compared round by round; the printed line is split at the commas |
| C105 | `Model/Scripts.lean`: the functions of scripts/common.py and the loops of 1_extract_info.py, 3_brute_force.py, 4_paa.py, 5_genex.py over a list of records; random numbers are an arbitrary stream; not modelled: files, logging, timings, e-mail | inductions over rounds, queries and records |
| C106 | `Model/ScriptGroups.lean`: `np.arange` and `round` as used by scripts/2_generate_groups.py and 5_genex.py, and the loop of `group_dataset` with `exclude` and `progress`; not modelled: the text `%s %s %.1f` under which progress is kept | errors of the few roundings against the distance of tenths; induction over the parameters |
| C107 | `Model/UcrRounded.lean` with `rndMax`: overflow in the search by scanning | simulation: every value of the run with overflow is that of the run without, infinite where it is beyond the limit; sums bounded by the number of points; costs beyond the limit lose every comparison in both runs |
| C108 | nothing new; `Spec/OverflowAll.lean`: the range of the data for each of the five metrics | lock-step as for C87; the numerator of Sorensen is at most its denominator when points are not negative; the divisor of the cosine is 0 or at least the root of the smallest positive number |
| C109 | `Model/SeriesArchive.lean`: the loop of `TimeSeries::serialize` in both directions, on the objects and arrays of C54 | invariant of the loop: values loaded so far, then the old ones |
| C110 | `Model/CliOutput.lean`: what each command prints, as pieces of text; the precision of `cout` and the timer as state; `wantToQuitByEOF` and the loop of `main` | the text is cut at line breaks and read by a reader that knows the words before the numbers (`Spec/CliOutput.lean`); rounding to digits is monotone |
| C111 | `Model/Cli.lean`, `Model/CliOutput.lean`, `Model/Api.lean` | `Spec/Terminal.lean` speaks of lines and texts only; lines are turned into calls (C55, C63), a text without "Error! " means the call has returned (C110), calls into C70 and C23, and the answers back into text (C110); no command sets the band |
| C112 | as C111, with `doubleArith` | `Spec/TerminalDouble.lean` adds to the sessions of C111 the sizes of the file and the rounding of `normalize`; calls go to C88 instead of C70 |
| C113 | as C90, with `doubleArith` | `Spec/PyDouble.lean` adds to the sessions of C90 the sizes of the file and the rounding of `normalize`; calls go to C88 instead of C70 |
| C114 | `list` of `Model/CliOutput.lean` (cli/GenexCLI.cpp:172-213) in the sessions of C111 | `Spec/Listing.lean` reads the rows back from the text (columns between tabs without the blanks at their ends) and says by induction over the session what a row should say; any arithmetic whose `normalize` sets the mark (`C114_marks`: all four) |
| C115 | sessions of C111 joined by the file that `saveGroups` leaves and `loadGroups` reads (cli/GenexCLI.cpp; genex/GroupableTimeSeriesSet.cpp) | `Spec/Archives.lean`: `Archived` is the least set of files left by a session that grouped the rows or restored such a file; `RestoredBy` says nothing of what `loadGroups` has shown |
| C116 | the text of a double (`operator<<`, `%.pg`, `Model/NumberText.lean`), `saveData` and `loadData` with it (genex/TimeSeriesSet.cpp:64-175), sessions joined by the file that `save` leaves (cli/GenexCLI.cpp) | `Spec/NumberText.lean`: `readNumber` reads sign, digits, point, exponent with no reference to the printer; `Spec/DataFiles.lean`: `NamedBy` speaks of the typed lines, `SavesAs` of the file that a typed `save` left |
| C117 | C111 and C112 on a screen that shows numbers as `numText` | `readNumber` of `Spec/NumberText.lean` applied to the words found in the text by `afterWords`, `answersIn` of `Spec/CliOutput.lean` |
| C118 | C111 and C116 when every number is moved a little | `Moved` and `MovedAll` of `Spec/Moved.lean` (point by point at most δ), `Dtw` and `SubOf` of the numbers before the change |
| C119 | the distances, `normalize` and C111 for numbers `x` and `s x + c` | `Converted` of `Spec/Units.lean`; costs of alignments scale one by one, the least and the greatest number are carried along; `C119_groups` and `C119_place` follow grouping and the search in lockstep on both datasets (`SameIn`, `Twin` of `Lemmas/UnitGroups.lean`); `C119_sim` is about two sessions at the terminal, `GroupedWholly` of `Spec/UnitTerminal.lean` |
| C120 | the distances and `normalize` of Model/Rounded for numbers `x` and `s x`, rounding that commutes with `s` | `stretch` and `Respects` of `Spec/BinaryUnits.lean`; the two computations are followed in lockstep through every loop (`DM.Keeps` of `Lemmas/BinaryUnits.lean`, the envelopes in `Lemmas/BinaryCascade.lean`, grouping and `getBestMatch` in `Lemmas/BinaryGroups.lean`) |

## 4. Checking the theorems

`tools/mutate.py` applies one edit at a time to the model in a scratch copy of the last commit, rebuilds and records which theorems
fail (`seeded/LOG.jsonl`; the lists of edits are in `seeded/edits/`).  An edit whose claim is broken while every theorem still
proves is a reason to tighten a theorem.  Entries marked "(equivalent program)" or "(robustness)" break no claim and should survive.

Every theorem depends on a subset of `propext`, `Classical.choice`, `Quot.sound`.

`Ready` (`Spec/Ready.lean`) is the state from which searches are considered: groups made by a grouping that returned or loaded from a
file that such groups were saved to.

**Conformance.**  `Verif/Tests` replays the unit tests of the project (/repo/test, with the files of /repo/datasets/test copied into
`Tests/Data.lean`) on the model, one `#guard` per assertion: distances, lower bound, envelopes, `TimeSeries`, loading, normalising,
groups, searches, archives and the interface.  These are tests of the model and no part of any proof; `mutate.py` leaves them out.
All assertions hold of the model, with these remarks:

* `BOOST_TEST(x, y)` tests `x` only and prints `y`.  The numbers printed that way are wrong in `general_distance` (2.0; the
  distance is sqrt(20)) and in `sorensen_test` (0.3216; the distance is 8.2/28.6), and in `cosine_test` the number is that of ten points
  while five are used.  The model gives the values that the code computes.
* `api_kx_*` and `easy_gwd_dropout` run with the band ratio that an earlier test has left in the global variable.
* The assertions of PAAWrapperTest.cpp are commented out in the repository.  `save_load_groups` is left out (99 rows).
* `time_series_save_and_load` saves a single series, which nothing else in the project does; C109 is about it.

## 5. Disagreements between the wanted property and the code

Each is proved with a witness; the `_partial` theorem of the same property says what does hold.

| property | the code | theorem |
|----------|----------|---------|
| C02, C07 | with one point in the second series and between `w + 2` and `2 w + 1` in the first (`w` half the width of the band), a row of the band without cells leaves `bestSoFar` infinite and the call gives up whatever the bound; for all such series | `C02_column_false`, `C07_column_false`; witnesses `C02_single_point_false`, `C07_single_point_false` |
| C04 | sorensen and cosine compare an unfinished value, which need not be below the final one, with the bound | `C04_sorensen_false`, `C04_cosine_false` |
| C12 | two single points give no matching pair | `C12_single_points_false` |
| C13 | the trace-back leaves a narrow band | `C13_leaves_band` |
| C14 | with NaN costs the trace-back does not end or follows a null pointer | `C14_diverges`, `C14_null_pointer` |
| C20 | a second load keeps the old lengths in front of the new | `C20_reload_false` |
| C26 | the order on candidates has cycles (tolerance 1e-9) | `C26_order_false` |
| C33 | progress logging takes a modulus by zero on small datasets; an infinite threshold with undefined distances reads an uninitialised index | `C33_clock_false`, `C33_threshold_false` |
| C36, C37 | queries longer than every series index past the vector of lengths; after grouping whole series only, shorter queries follow a null pointer | `C36_long_false`, `C36_whole_false`, `C37_long_query_false` |
| C39 | missing results are padded with empty entries | `C39_false` |
| C38 | of two distances closer than 1e-9 the larger may come first or be the only one returned, with any budget | `C38_close_false` |
| C40 | distances closer than 1e-9 count as equal in one search and not in the other | `C40_false` |
| C44 | whole-series groups, once loaded, cannot be saved again | `C44_false` |
| C45 | an operation that throws has already dropped the old groups | `C45_group_false`, `C45_load_false` |
| C46 | after a grouping that threw, the overview reads an uninitialised threshold | `C46_query_false` |
| C47 | a PAA wrapper outlives its dataset (`unloadDataset` tests `==` instead of `!=`; `unloadAllDataset` forgets the wrappers) | `C47_false`, `C47_search_false`, `C47_all_false` |
| C49 | the empty series has a PAA of one point | `C49_empty_false` |
| C50 | `sum` is not initialised; parts past the shortest series are wrong | `C50_uninit`, `C50_long_false` |
| C51 | the lengths are indexed by column instead of row | `C51_false` |
| C52 | parts of one stored series always compare equal; NaN equals everything | `C52_false`, `C52_nan_false` |
| C53 | copy assignment from an owner of another length, self-assignment | `C53_shorter_false`, `C53_longer_false`, `C53_self_false` |
| C54 | cached envelopes are not discarded by assignment, writes, normalisation | `C54_false`, `C54_*_false` |
| C55 | `ksim` with a range and `ke` ignores the range | `C55_false` |
| C56 | saving a dataset without groups empties the file first | `C56_false` |
| C59 | PAA searches with blocks of two or more, on series of three or more points, read an uninitialised variable; no search returns | `C59_false` |
| C63 | `distance` defaults to euclidean_dtw, its help says euclidean; `ksimBF` ignores a fifth argument | `C63_distance_false`, `C63_bf_false` |
| C65 | `computeMatching` is computed and not used: every DTW computation appends its path to the global `gNoMatching` and reverses it | `C65_grows_false`, `C65_unbounded_false` |
| C66 | the loop that deletes the arrays of the cost matrix starts at 1 in both directions | `C66_false` |
| C67 | normalising a grouped dataset leaves the envelopes of the old data with the centroids; later searches give up the nearest group | `C67_false` |
| C68, C69 | a DTW path visits one point of a series up to `2w+1` times, but the sum of differences is divided by the length only: with manhattan the match can be farther from the optimum than half the threshold | `C68_manhattan_false`, `C69_manhattan_false` |
| C71 | as C12 and C13, through the interface; and `matchingBetween` with a name of fewer than three characters throws `std::out_of_range` | `C71_single_points_false`, `C71_narrow_false`, `C71_short_name` |
| C72 | pairwise euclidean distance: the bound is squared and multiplied by the length with rounding, so a series at exactly the bound is given up; a rounded DTW is neither the least rounded cost nor symmetric | `C72_euclidean_false`, `C72_optimal_false`, `C72_symmetric_false` |
| C76 | `loadGroupsOld` reads the threshold into a local variable and drops it, and `getKBestMatches` then reads the uninitialised one; the end of the file and words of the wrong kind are not noticed; the largest length is read and not compared; sizes-only files have the same header | `C76_threshold_false`, `C76_ksearch_false`, `C76_truncated_false`, `C76_sizes_false`, `C76_infinite_false`, `C76_lengths_false` |
| C77 | `digits10 + 1` is 16, a double takes 17 (`max_digits10`) | `C77_sum_false`, `C77_power_false` |
| C78 | two points 2^-53 of the range apart can become equal | `C78_strict_false` |
| C79 | the mean of ten times 0.1 is not 0.1 | `C79_constant_false` |
| C80 | after `loadGroupsOld` the threshold is not set: `getDatasetInfo`, `getAllDatasetInfo`, `getKBestMatches`, saving read it | `C80_info_false` |
| C81 | `unloadDataset` deletes the PAA object only if there is none (`==` for `!=`); `unloadAllDataset` does not look at them | `C81_wrapper_false` |
| C82 | `getMatching` has two keywords for defaults, and Boost.Python gives them to the last two parameters, `end2` and `distanceName`: calls with fewer than nine arguments fail, or take the wrong ones; required parameters cannot be named; `ksim` always returns `k` entries, filled with distance 0 | `C82_matching_false`, `C82_required_false`, `C82_ksim_false` |
| C84 | the bound of Kim takes the third point from the front and from the back; with five points or fewer the same cell can be counted twice; with two points it reads `q[2]` | `C84_kim_false`, `C84_kim_two_points_false` |
| C85 | for the same reason the nearest window can be missed with five points | `C85_five_points_false` |
| C85 | a constant query gives NaN, converted to `int` by the comparison; the comparison cuts off fractions and is no order, as `qsort` needs (only the speed suffers) | `C85_flat_query_false`, `C85_order_false` |
| C85 | constant windows give NaN bounds and are dropped; if no window is left, location 0 and distance 1e10 are printed as if found; of data shorter than the query `m - 1` points are said to be scanned | `C85_flat_window_false`, `C85_no_window_false` |
| C85 | the length passed is not checked against the query file, the chunk, or the band: uninitialised memory, no search at all, writes outside | `C85_short_query_false`, `C85_long_query_false`, `C85_wide_band_false`, `C85_two_points_false` |
| C85 | `fscanf(...) != EOF` is true for ever at a word that is no number | `C85_no_number_false` |
| C86 | two grouping threads that call a distance for the first time race on `static DM* metric`; each may make an object, and all but the last are lost | `C86_race_false`, `C86_leak_false` |
| C87 | beyond the range: a distance is inf though representable; a cell of the cost matrix without a finite neighbour is taken for the start, so DTW of series far apart is 0 and searches return the farther series; `normalize` gives NaN when max - min overflows; the mean of two equal numbers is inf | `C87_infinite_false`, `C87_zero_false`, `C87_search_false`, `C87_normalize_false`, `C87_paa_false` |
| C89 | the stored ratio 0.7 is less than seven tenths, but the band for 10 points is 7, not 6 | `C89_exact_false` |
| C89 | from length 536870921 to the next the band can grow by two, so the traversal could stop too early | `C89_grows_false` |
| C89 | a ratio times a length of 2^31 or more (a ratio such as 1e9) is converted to `int` with undefined result | `C89_converts_false` |
| C91 | lines times columns, the counter of places times 100 in the log, and the total of groups are `int`: a file with 65536 lines of which one has 32768 values, the log for 21474840 places or more of one length, 2^31 groups (one series of 65537 points) overflow | `C91_load_false`, `C91_log_false`, `C91_total_false` |
| C92 | `extraTimeSeries` (genex/TimeSeries.cpp:14) is counted up for every member of the last group and down by what is missing, and is never read or set back: repeated searches overflow it | `C92_repeat_false`, `C92_counter_false` |
| C93 | `2 * max(length)` (genex/distance/Euclidean.hpp:36, Manhattan.hpp:37) is an `int`: every warped Euclidean or Manhattan distance and the cascade are undefined from 2^30 points on | `C93_long`, `C93_long_false` |
| C96 | `intervalLength++` (genex/TimeSeriesSet.cpp:312) overflows after the length 2^31 - 1 | `C96_longest` |
| C98 | the trace-back looks for the neighbour with the least normalised cost, not for the one used: costs that the division makes equal lead to an alignment that is not optimal | `C98_optimal_false` |
| C99 | the cosine "distance" (genex/distance/Cosine.hpp:28-31) is the cosine itself, largest for equal series: searches with it return the most dissimilar parts | `C99_cosine_self`, `C99_cosine_false` |
| C99 | the DTW recursion keeps the prefix with the least quotient: sorensen_dtw and cosine_dtw are not the least over the alignments | `C99_least_false` |
| C100 | in `double` the cosine of two series can exceed 1 (by rounding), and is NaN if the squares underflow; sorensen is NaN if the sums overflow | `C100_range_false`, `C100_underflow_false`, `C100_overflow_false` |
| C101 | as C50, C51 and C59: `generatePAAMatrix` reads outside the lengths if there are at most `maxCol` series; a rest is added to an uninitialised variable | `C101_prepare_false`, `C101_uninit`, `C101_never` |
| C102 | the variance is computed as ex2/m − mean², which rounding makes zero or negative for data far from 0: a copy of the query is passed over; squares that overflow give an infinite deviation, every point is then normalised to 0 | `C102_cancelled_false`, `C102_overflow_false` |
| C103 | the variance of a constant window is rounding noise, which may be positive: the window is then reported although its deviation is 0 | `C103_flat_false` |
| C104 | `computeWeightedJaccard` runs its loop to the larger of the two sizes and reads outside the other vector; `computeJaccard` compares the results place by place, so lists with half of their distances in common can get 0 | `C104_weighted_false`, `C104_jaccard_false` |
| C105 | no query contains the last point of its series; with series of one or two points the generation of queries never ends; a data set named `..._out` is left out; results for another number of matches are taken for those asked for; the error called relative is a mean difference in which differences cancel | `C105_last_false`, `C105_short_false`, `C105_order_false`, `C105_k_false`, `C105_error_false` |
| C106 | the thresholds from 0.1 to 0.4 include 0.4, those from 0.1 to 0.6 do not include 0.6: the length of the range is computed in floating point | `C106_included_false` |
| C108 | the cosine multiplies the two sums of squares before taking the root, so beyond 2^256 the cosine of a series with itself is 0; Sorensen of numbers of both signs divides by a sum that can be as small as the smallest double, and is inf | `C108_cosine_false`, `C108_sorensen_false` |
| C109 | loading a series does not discard the envelopes it keeps, so that its lower bounds are those of the values it had | `C109_false`, `C109_kept_false` |
| C110 | the digits of a distance depend on whether a search was timed or a series printed before | `C110_false` |
| C110 | asked for more series than there are, `ksim` says that series 0 from 0 to 0 is at the distance 0 | `C110_pad_false` |
| C110 | every `logic_error` is reported as a value that cannot be converted to a number | `C110_message_false` |
| C110 | `sim` with a first position and no last one prints no error | `C110_sim_false` |
| C114 | `loadGroups` of a file that names an unknown distance shows an error and leaves the dataset, without groups, listed as grouped with that distance | `C114_false` |
| C115 | the longest line is taken over all lines of the file, so that groups saved for the same series are refused if `load` has left out a longer line (genex/TimeSeriesSet.cpp:43-62, 78-85) | `C115_false` |
| C116 | `saveData` writes numbers with the six digits of a fresh stream, so that a dataset that is saved and loaded is another one (genex/TimeSeriesSet.cpp:165) | `C116_false` |
| C116 | `saveData` writes names as they are, so that a name with the separator in it comes back as a shorter name and a further point of the series, without an error (genex/TimeSeriesSet.cpp:162) | `C116_names_false` |
| C116 | `save` takes any character as separator, also `.`, a digit or a sign, and then other numbers come back (genex/TimeSeriesSet.cpp:152-165) | `C116_separator_false` |
| C117 | `printData` sets a precision of `digits10 + 1` = 16, so that `print` can show two different doubles as the same number (genex/TimeSeries.cpp:229) | `C117_print_false` |
| C118 | numbers that are all the same become 0 by `normalize`, but if one of them is moved ever so little it becomes 0 or 1 (genex/TimeSeriesSet.cpp: `normalize`) | `C118_constant_false` |
| C119 | distances less than 1e-9 apart count as equal whatever the unit, so that in a large unit the exhaustive search returns another series than the one asked for, which is in the dataset (genex/TimeSeries.hpp:13, 212-226) | `C119_exhaustive_false` |
