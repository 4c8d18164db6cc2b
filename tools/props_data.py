S = "rubin_sim/maf/slicers/"
B = "rubin_sim/maf/metric_bundles/"
V = "rubin_sim/sim_archive/"
MO = "rubin_sim/moving_objects/"

p("C01", "OneDSlicer slices hold exactly the visits of their bin",
  "After OneDSlicer.setup_slicer on any visit table and any bin edges, slice i (as yielded by iterating the slicer) contains the index of a visit exactly when bins[i] <= value < bins[i+1]; indices are distinct and are valid row numbers.",
  "every list of column values, every edge list (sorted or not), every slice number, every argsort tie order",
  "The data values, number of rows, number of bins, duplicates and tie order are unbounded; tests check a handful of seeded arrays.",
  [S + "one_d_slicer.py:OneDSlicer.setup_slicer", S + "base_slicer.py:BaseSlicer.__iter__"],
  "List model of argsort (any sorting permutation), searchsorted and slicing; membership equivalence proved for all inputs.", "planned")

p("C02", "OneDSlicer slices are disjoint and jointly cover [first edge, last edge)",
  "With non-decreasing edges, every visit whose value lies in [bins[0], bins[-1]) is yielded in exactly one slice, and no other visit is yielded at all; hence the per-slice counts add up to the number of such visits.",
  "every list of column values, every non-decreasing edge list with at least two edges",
  "Partition statements quantify over all rows and all pairs of slices simultaneously.",
  [S + "one_d_slicer.py:OneDSlicer.setup_slicer"],
  "Derived from C01 plus order facts on sorted lists; count statement by permutation of concatenated slices.", "planned")

p("C03", "OneDSlicer last bin: documented closed, implemented half-open",
  "The class promises 'all but the last bin are half-open, the last one is [a, b]'; a visit whose value equals the last edge should be in the last slice. The code drops it, also when the edges were derived from the data maximum.",
  "every column and edge list; the failing case is value == last edge",
  "Which values are lost depends on exact equality with the last edge; random floats in tests never hit it.",
  [S + "one_d_slicer.py:OneDSlicer", S + "one_d_slicer.py:OneDSlicer.setup_slicer"],
  "Negation with an explicit witness and a general theorem that a value equal to the last edge is in no slice; the claim for values below the last edge is kept as _partial.", "planned")

p("C04", "NDSlicer slices partition the visits by bin tuple",
  "NDSlicer yields one slice per tuple of bins, the number of slices is the product of the bin counts, and each visit whose value is at least the first edge in every dimension is yielded in exactly one slice, namely the tuple of bins containing it (the last bin of a dimension being unbounded above).",
  "every number of dimensions, every column, every edge list per dimension, every argsort tie order",
  "Number of dimensions and of bins per dimension is unbounded; tests use three fixed dimensions.",
  [S + "nd_slicer.py:NDSlicer.setup_slicer"],
  "itertools.product modelled on lists; per-dimension lemma + induction on dimensions.", "planned")

p("C05", "MovieSlicer: cumulative slices only grow, and the last one is everything",
  "In cumulative mode slice i contains exactly the visits with value < bins[i+1] (all visits for the last slice), so slices form an increasing chain; in non-cumulative mode every visit at or above the first edge is in exactly one slice.",
  "every column, every sorted edge list, both modes",
  "Monotonicity is over all pairs of slices and all data sets.",
  [S + "movie_slicer.py:MovieSlicer.setup_slicer"],
  "Same argsort/searchsorted model with the final left index set to the data length.", "planned")

p("C06", "TimeIntervalSlicer slices match their advertised time window",
  "The slice with slice point (mjd, duration) should contain exactly the visits with mjd <= t < mjd + duration. The code numbers visits with 1-based digitize ids but slice points from 0, so each slice holds the visits of the previous window and the last window's visits are in no slice.",
  "every visit table, every interval length dividing a day, every slice number",
  "Off-by-one placement is invisible to the upstream test, which only reconstructs from the same off-by-one ids.",
  [S + "time_interval_slicers.py:TimeIntervalSlicer.setup_slicer"],
  "Model digitize/groupby; prove what slice i holds (previous window), prove the documented claim false by witness, keep the exactly-once statement for all but the last window as _partial.", "planned")

p("C07", "BlockIntervalSlicer blocks are the maximal runs of visits with one note and no long gap",
  "Every visit is in exactly one block; blocks are contiguous runs of the time-sorted visits; two time-consecutive visits share a block exactly when their notes agree and the second starts within the gap tolerance after the end of the first.",
  "every visit table (any length, notes, durations, tie order)",
  "Block structure is a property of entire sequences of visits of arbitrary length.",
  [S + "time_interval_slicers.py:BlockIntervalSlicer.setup_slicer"],
  "cumsum/shift/groupby modelled on the sorted list; induction along the list.", "planned")

p("C08", "VisitIntervalSlicer pairs each slice with its own visit",
  "Slice i yields one visit, and its slice point must carry that visit's mjd and duration. The code sorts the indices but not the slice points, so this holds only for time-sorted input.",
  "every visit table, every slice number",
  "Needs all orders of the input rows; test data is sorted.",
  [S + "time_interval_slicers.py:VisitIntervalSlicer.setup_slicer"],
  "Counterexample for unsorted data; _partial theorem under sorted input with strictly increasing times.", "planned")

p("C09", "Slicing each visit exactly once: VisitIntervalSlicer and UniSlicer",
  "Iterating a VisitIntervalSlicer yields every visit exactly once; iterating a UniSlicer yields a single slice with all visits.",
  "every visit table", "Quantifies over all row counts and orders.",
  [S + "time_interval_slicers.py:VisitIntervalSlicer", S + "uni_slicer.py:UniSlicer.setup_slicer"],
  "Permutation argument.", "planned")

p("C10", "Iterating a slicer visits each slice once, in order, and can be restarted",
  "Iterating yields exactly _slice_sim_data(0..nslice-1) in order then stops, and starting a new iteration (even in the middle of another) restarts from the first slice.",
  "every nslice, every interleaving of iter() and next() calls",
  "Interleavings of calls are unbounded histories.",
  [S + "base_slicer.py:BaseSlicer.__iter__", S + "base_slicer.py:BaseSlicer.__next__"],
  "State machine with iter/next operations; induction over operation histories.", "planned")

p("C11", "Metric caching is transparent",
  "Running bundles with a caching slicer gives the same metric values and masks as running without a cache, whenever a metric's result depends only on the set of visits in the slice.",
  "every sequence of slices, every cache size, every eviction pattern, every set-determined metric",
  "Cache hits, LRU evictions and re-insertions depend on the whole history of slices.",
  [B + "metric_bundle_group.py:MetricBundleGroup._run_compatible"],
  "Operational model of the OrderedDict LRU loop; invariant: cached slice ids hold the value of their key; refinement to the uncached run by induction on slices.", "planned")

p("C12", "Every slice ends up either masked or holding its metric value",
  "After a run, slice i is masked exactly when it had no visits or the metric returned its bad value; otherwise it is unmasked and holds metric(visits of slice i).",
  "every number of slices/bundles, every metric, every visit assignment",
  "Whole-run postcondition over all slices and bundles.",
  [B + "metric_bundle_group.py:MetricBundleGroup._run_compatible", B + "metric_bundle.py:MetricBundle._setup_metric_values"],
  "Same loop model; postcondition by induction over the slices.", "planned")

p("C13", "Bundles run together are pairwise compatible",
  "Every bundle of the current constraint must be run in a group, and any two bundles of one group must be compatible (same constraint, slicer and maps, no conflicting stackers). The grouping code appends a bundle even after finding an incompatible member and may put it in several groups.",
  "every list of bundles and every compatibility relation",
  "Depends on all orders in which bundles were added.",
  [B + "metric_bundle_group.py:MetricBundleGroup._find_compatible_lists", B + "metric_bundle_group.py:MetricBundleGroup._check_compatible"],
  "Model the double loop with its fallthrough; prove coverage, and first-member compatibility; refute pairwise compatibility and uniqueness by witness.", "planned")

p("C14", "A bundle knows every database column it needs",
  "The dependency search of MetricBundle terminates, and the resulting db_cols plus the columns produced by stacker_list contain every column required by metric, slicer, given stackers and added default stackers, transitively.",
  "every column registry and stacker dependency graph (also cyclic)",
  "Dependency graphs are unbounded and may contain cycles.",
  [B + "metric_bundle.py:MetricBundle._find_req_cols", "rubin_sim/maf/stackers/get_col_info.py:ColInfo.get_data_source"],
  "Worklist loop with a termination measure (stacker classes not yet added); closure invariant.", "planned")

p("C15", "Stackers run after the stackers they depend on",
  "When stackers of a bundle are run in stacker_list order, every column a stacker needs should already be present. Default stackers discovered as dependencies are appended after their dependants, so this fails.",
  "every registry and every bundle", "Order over arbitrary dependency chains.",
  [B + "metric_bundle.py:MetricBundle._find_req_cols", B + "metric_bundle_group.py:MetricBundleGroup._run_compatible"],
  "Witness chain of two stackers violating the order; _partial for dependency depth one.", "planned")

p("C16", "Running a stacker keeps existing data",
  "BaseStacker.run never drops or renames a column, keeps rows and their order, only changes columns the stacker declares, leaves an empty table untouched, and does not recompute when all its columns are already present (unless overridden).",
  "every table and every stacker", "All tables, all column sets.",
  ["rubin_sim/maf/stackers/base_stacker.py:BaseStacker.run", "rubin_sim/maf/stackers/base_stacker.py:BaseStacker._add_stacker_cols"],
  "Table as list of named columns; theorem about column names, untouched columns and idempotence.", "planned")

p("C17", "Reduce functions and summary statistics see only unmasked values",
  "reduce_metric keeps the mask, applies the reducer exactly to unmasked slices, and additionally masks slices whose reduced value is the bad value; compute_summary_stats evaluates each summary metric on exactly the unmasked values, in order, and reports the slicer's bad value when there are none.",
  "every masked metric array and every reduce function",
  "All masks and array lengths.",
  [B + "metric_bundle.py:MetricBundle.reduce_metric", B + "metric_bundle.py:MetricBundle.compute_summary_stats"],
  "List-of-option model with refinement to the mathematical spec.", "planned")

p("C18", "ResultsDb keeps one row per metric identity and stable metric ids",
  "For any history of operations, no two metric rows share (metric name, slicer name, run name, info label, constraint); metric ids are unique; recording the same identity again returns the same id and changes nothing.",
  "every finite history of ResultsDb operations",
  "Invariant over histories of unbounded length.",
  ["rubin_sim/maf/db/results_db.py:ResultsDb.update_metric"],
  "State machine with all update operations; invariant by induction over the history.", "planned")

p("C19", "ResultsDb display rows are one-to-one with metrics",
  "For any history, each metric id has at most one display row; with overwrite the row is the latest one submitted, without overwrite it is the first one.",
  "every finite history", "Invariant over histories.",
  ["rubin_sim/maf/db/results_db.py:ResultsDb.update_display"],
  "Same state machine.", "planned")

p("C20", "ResultsDb plot rows: overwrite replaces, otherwise appends",
  "After update_plot with overwrite=True the (metric, plot type) pair has exactly one plot row, naming the file just given; with overwrite=False (the default) the row is added and no earlier one is lost; rows of other pairs never change.",
  "every finite history", "Invariant over histories.",
  ["rubin_sim/maf/db/results_db.py:ResultsDb.update_plot"],
  "Same state machine.", "planned")

p("C21", "Summary statistics are stored despite a temporarily locked database",
  "update_summary_stat should store every (name, value) pair of a summary table when each insertion succeeds within the allowed retries. The retry counter is shared by all values of one call, so after enough lock failures later values are silently dropped.",
  "every table of summary values and every pattern of lock failures",
  "Failure schedules are unbounded and nondeterministic.",
  ["rubin_sim/maf/db/results_db.py:ResultsDb.update_summary_stat"],
  "Explicit failure schedule as input; witness for the loss; _partial: nothing is lost if total failures stay below the limit, and stored rows are never duplicated or altered.", "planned")

p("C22", "TrackingDb keeps one current entry per MAF directory",
  "For any history of add_run/delRun, run ids are unique and each maf directory has at most one entry, holding the values of the latest add_run for it under the id of its first registration; an explicit id that is taken is refused without changing anything.",
  "every finite history", "Invariant over histories.",
  ["rubin_sim/maf/db/tracking_db.py:TrackingDb.add_run", "rubin_sim/maf/db/tracking_db.py:TrackingDb.delRun"],
  "State machine, invariant by induction.", "planned")

p("C23", "Archive tags behave as a set",
  "For any history of tag/untag by one client, is_tagged(u,t) holds exactly when the last successful tag/untag for (u,t) was a tag; there is at most one row per (u,t); untagging an absent tag fails and changes nothing.",
  "every finite history of tag and untag calls", "Histories of unbounded length.",
  [V + "vseqmetadata.py:VisitSequenceArchiveMetadata.tag", V + "vseqmetadata.py:VisitSequenceArchiveMetadata.untag"],
  "Table model with the guard-then-insert code; refinement to a set. The two-client interleaving gets its own property.", "planned")

p("C24", "Concurrent taggers may duplicate a tag row",
  "If two clients tag the same sequence concurrently, is_tagged must still be true afterwards and one untag must remove the tag completely; the at-most-one-row property however fails because check and insert are separate transactions and the table has no uniqueness constraint.",
  "every interleaving of check/insert steps of any number of clients", "All schedules.",
  [V + "vseqmetadata.py:VisitSequenceArchiveMetadata.tag", "sql/make_vseqmeta.sql:tags"],
  "Interleaving semantics with atomic check and insert steps; safety for every schedule; witness schedule for duplicates.", "planned")

p("C25", "Registered archive files: one per type, updated only on request",
  "For any history of register_file calls there is at most one entry per (sequence, file type); registering an existing type without update fails and changes nothing; with update the latest hash and url are stored; 'visits' is always refused.",
  "every finite history", "Histories of unbounded length.",
  [V + "vseqmetadata.py:VisitSequenceArchiveMetadata.register_file", V + "vseqmetadata.py:VisitSequenceArchiveMetadata.get_file_url"],
  "State machine.", "planned")

p("C26", "Archive integrity: stored bytes match the registered hash",
  "After any history of add_file calls (including failing ones), the bytes stored at a registered url should hash to the registered sha256. add_file writes before it checks, and file names of different types share a directory, so both a refused call and a name clash break this.",
  "every finite history of add_file calls, including failures part-way", "All histories and crash points between write and registration.",
  [V + "vseqarchive.py:add_file", V + "vseqmetadata.py:VisitSequenceArchiveMetadata.register_file"],
  "Joint state (file store, metadata); two witnesses for violations; _partial invariant when the update flag is set and basenames determine the type.", "planned")

p("C27", "record_conda_env requires both hash and listing, or neither",
  "Calling record_conda_env with exactly one of hash and listing should raise ValueError; the chained comparison in the guard can never be true, so a lone listing is silently ignored and a lone hash trips an assertion.",
  "every combination of arguments and every table content", "The documented error is unreachable; a test would need to know that.",
  [V + "vseqmetadata.py:VisitSequenceArchiveMetadata.record_conda_env"],
  "Model Python's chained comparison; prove the guard never fires, and what happens instead; environments are stored at most once.", "planned")

p("C28", "sims_on_nights returns exactly the matching simulations",
  "With a non-empty tag list the result contains exactly the simulations of the telescope that cover both nights, carry all tags and are no older than the limit; with an empty tag list the query text is malformed and the call fails.",
  "every archive content and every argument combination", "All database contents.",
  [V + "vseqmetadata.py:VisitSequenceArchiveMetadata.sims_on_nights"],
  "Relational model of the query.", "planned")

p("C29", "Simulation export followed by import keeps the simulated dates",
  "Importing the YAML produced by sim_metadata_yaml should restore label, telescope, scheduler version, tags and first/last dates. Export writes 'simulation_dates', import reads 'simulated_dates', so dates are always lost.",
  "every recorded simulation", "Round trip over all records.",
  [V + "vseqmetadata.py:VisitSequenceArchiveMetadata.sim_metadata_yaml", V + "vseqmetadata.py:VisitSequenceArchiveMetadata.import_sim_from_yaml"],
  "Finite-map YAML model; theorem that label/telescope/version/tags survive (_partial) and that dates never do.", "planned")

p("C30", "(creation day, daily id) identifies a simulation",
  "At any time, distinct simulations have distinct (creation day_obs, daily id), where the day runs from noon to noon UTC, ids of a day are 1..n, and get_sim_uuid returns the simulation with that pair or fails. Recording further simulations with later creation times keeps existing pairs; recording one with an earlier creation time renumbers.",
  "every archive content and every sequence of additions", "Histories and ties.",
  ["sql/make_vseqmeta.sql:simulations_extra", V + "vseqmetadata.py:VisitSequenceArchiveMetadata.get_sim_uuid"],
  "ROW_NUMBER over a partition modelled as rank in a sorted list; stability theorem; witness for renumbering.", "planned")

p("C31", "select_latest_prenight_sim picks the newest eligible simulation",
  "The result is a simulation carrying all requested tags whose age in whole days does not exceed the limit and such that no other eligible one is newer; None is returned exactly when there is no eligible one.",
  "every index table, tag set and age limit", "All tables and orderings incl. ties.",
  [V + "prenightindex.py:select_latest_prenight_sim"],
  "Fold model; maximality by induction over rows.", "planned")

p("C32", "chebeval evaluates the Chebyshev series",
  "chebeval(x, p, interval) returns sum_n p[n] T_n(x*) with x* the rescaled coordinate, both with and without velocity, for odd and even numbers of coefficients.",
  "every coefficient list, every x, every interval with distinct ends", "All degrees; the loop is unrolled two terms at a time with an odd/even special case.",
  [MO + "chebyshev_utils.py:chebeval"],
  "Loop modelled over an arbitrary field; invariant relating loop variables to Mathlib's Polynomial.Chebyshev.T.", "planned")

p("C33", "chebeval's velocity is the derivative of its value",
  "The returned velocity equals the exact derivative with respect to x of the returned value as a function of x.",
  "every coefficient list, every x, every interval with distinct ends", "All degrees and points.",
  [MO + "chebyshev_utils.py:chebeval"],
  "Same invariant with Chebyshev derivatives, then chain rule for the affine rescaling.", "planned")

p("C34", "chebfit reproduces the endpoints exactly",
  "The coefficients returned by chebfit evaluate (with chebeval on the same interval) to exactly the given x values and, with velocities, derivatives at both ends of the interval, for all samples; the linear system is always solvable for admissible sizes, and neighbouring segments built from a common end sample join in value and velocity.",
  "every sample vector, every number of points and coefficients for which the linear system is solvable", "All sizes and data.",
  [MO + "chebyshev_utils.py:chebfit", MO + "chebyshev_utils.py:make_cheb_matrix_only_x", MO + "chebyshev_utils.py:make_cheb_matrix"],
  "Matrix model over a field with block structure; constraint rows of C1*C1inv*C2 = C2.", "planned")

p("C35", "ChebyValues attributes each value to the right object",
  "get_ephemerides should return in row i, at every time, the value of object obj_id[i]. Rows are filled by position among matching segments, so a missing segment of one object shifts the values of later objects.",
  "every segment table, every set of times", "All tables and times.",
  [MO + "cheby_values.py:ChebyValues.get_ephemerides"],
  "Model of the loop; witness with a gap; _partial theorem when every time matches one segment per object in the same object order.", "planned")

p("C36", "Chebyshev segments tile the time span",
  "calc_segments produces consecutive segments [s_k, s_{k+1}] starting at t_start with no gap or overlap, and stops exactly at t_end when the length divides the span.",
  "every start, span, segment length with length*n = span", "Any number of segments.",
  [MO + "cheby_fits.py:ChebyFits.calc_segments", MO + "cheby_fits.py:ChebyFits._round_length"],
  "Loop over exact decimals (integers scaled by 10^-n).", "planned")

p("C37", "Sanitised names are safe and stable",
  "name_sanitize terminates, its result contains none of the replaced characters and no double underscore, and sanitising twice changes nothing; distinct names may collide.",
  "every string", "All strings, all replacement interactions.",
  ["rubin_sim/maf/utils/output_utils.py:name_sanitize"],
  "Character-list model of the replace chain and the while loop with termination proof.", "planned")

p("C38", "optimal_bins stays within its limits",
  "optimal_bins returns a number of bins between nbin_min and nbin_max whenever it computes one, and nbin_max when the data are empty or degenerate.",
  "every data array and limits nbin_min <= nbin_max", "All data.",
  ["rubin_sim/maf/utils/maf_utils.py:optimal_bins"],
  "Real-number model of the branch structure with the Freedman-Diaconis width abstracted.", "planned")

p("C39", "dayobs_to_date decodes every YYYYMMDD integer",
  "For every valid calendar date d, decoding the integer 10000*y+100*m+d gives back d, decoding the ISO string gives d, and invalid integers are rejected.",
  "every integer and every date", "All integers.",
  [V + "util.py:dayobs_to_date"],
  "Div/mod model with a calendar validity predicate; round trip by arithmetic.", "planned")

p("C40", "Day-of-observation conventions agree",
  "The day_obs computed from an MJD when grouping nightly statistics, when recording simulation dates and when converting a timestamp is the same calendar day: the UTC date of the instant minus twelve hours.",
  "every time instant", "All instants, including boundaries.",
  [V + "vseqarchive.py:compute_nightly_stats", V + "sim_archive.py:make_sim_data_dir", V + "util.py:dayobs_to_date"],
  "Rational MJD model with floor arithmetic.", "planned")

p("C41", "Angle metrics ignore where zero degrees lies",
  "FullRangeAngle gives the length of the smallest arc containing all angles, so it is between 0 and 360 degrees and unchanged when all angles are rotated together.",
  "every non-empty list of angles and every rotation", "All lists and rotations, including wraparound.",
  ["rubin_sim/maf/metrics/simple_metrics.py:_rotate_angles", "rubin_sim/maf/metrics/simple_metrics.py:FullRangeAngleMetric"],
  "Rational turn model of the sort/gap code.", "planned")

p("C42", "Threshold counting metrics agree with counting",
  "CountExplim, CountSubset, CountRatio, FracAbove, FracBelow, CountBeyondThreshold return the number or fraction of visits satisfying the documented condition; fractions lie in [0,1] and FracAbove+FracBelow>=1.",
  "every visit list and thresholds", "All data; CountBeyondThreshold with two limits fails on more than one visit.",
  ["rubin_sim/maf/metrics/simple_metrics.py:CountBeyondThreshold", "rubin_sim/maf/metrics/simple_metrics.py:FracAboveMetric"],
  "List model; refutation for the two-limit case.", "planned")

p("C43", "TimeIntervalSlicer does not report empty intervals as empty",
  "The runner masks a slice when the indexed visit table has length 0. For an interval without visits TimeIntervalSlicer returns the index [[]], whose indexed table has length 1, so the slice is never masked and the metric is run on it; this happens for the first slice of every table.",
  "every visit table, every interval length, every slice number",
  "Whether an interval is empty depends on the whole table; the upstream test never checks masks.",
  [S + "time_interval_slicers.py:TimeIntervalSlicer.setup_slicer", B + "metric_bundle_group.py:MetricBundleGroup._run_compatible"],
  "Same model as C06 with numpy fancy-index shape (flat or nested).", "planned")

G = "rubin_sim/maf/stackers/"
p("C44", "A bundle group's results do not depend on earlier groups",
  "MetricBundleGroup runs groups one after another on the same visit table. The values a group computes should be those it would compute on a fresh table. A column written by a stacker of an earlier group is reused instead of recomputed, so two stackers writing the same column differently leak between groups.",
  "every table, every list of stackers of the earlier and the later group",
  "Depends on every earlier group and the order in which groups run.",
  [B + "metric_bundle_group.py:MetricBundleGroup._run_compatible", G + "base_stacker.py:BaseStacker.run"],
  "State model of stackers acting on the shared table; isolation proved when no column is shared; witness otherwise.", "planned")

p("C45", "Hour angles are normalised",
  "For every sidereal time and right ascension in [0,360] degrees HourAngleStacker returns an hour angle between -12 and 12 hours that is congruent to (LST-RA)/15 modulo 24 hours.",
  "every sidereal time and right ascension", "Continuous ranges and wraparound boundaries.",
  [G + "general_stackers.py:HourAngleStacker._run"],
  "Ordered-field model of the two np.where corrections.", "planned")

p("C46", "ParallacticAngleStacker changes more than it declares",
  "Running ParallacticAngleStacker on a table without hour angle adds an undeclared HA column, and on a table that already has an HA column it uses the values found there, whatever they are; so the result is not a function of the columns the stacker declares as required.",
  "every table", "All tables with or without HA column.",
  [G + "general_stackers.py:ParallacticAngleStacker._run"],
  "Table model of the nested stacker call.", "planned")

p("C47", "OverheadStacker accounts for all elapsed time",
  "The first overhead is NaN; the overhead of a later visit is the time from the end of the previous visit to its own end minus its exposure time, or NaN when the night changed in between or the value exceeds max_gap; over a stretch without NaN, overheads and exposure times add up to the elapsed time.",
  "every visit list and gap limit", "Any number of visits.",
  [G + "general_stackers.py:OverheadStacker._run"],
  "Index specification and telescoping sum by induction.", "planned")

p("C48", "SaturationStacker marks the visit that cannot saturate",
  "A visit whose sky background alone exceeds saturation should be given NaN and no other visit should change. The index used is relative to the filter subset but applied to the whole table, so the wrong row is overwritten.",
  "every visit table and filter assignment", "Depends on the interleaving of filters.",
  [G + "general_stackers.py:SaturationStacker._run"],
  "Index model; proved when every visit is in one filter, refuted by a two-filter witness.", "planned")

p("C49", "NFollowStacker counts the telescopes that can follow up",
  "The number stored for a visit should be the number of listed telescopes that can see the target below the airmass limit at some time step. Latitude and longitude are passed in swapped order, so the count is for other places on Earth.",
  "every telescope list, time steps, visit", "All geometries.",
  [G + "n_follow_stacker.py:NFollowStacker._run", G + "coord_stackers.py:ra_dec2_alt_az"],
  "Counting theorem with the argument order of the code, plus a witness that it differs from the intended order.", "planned")

p("C50", "NoteRootStacker keeps the part before the first comma",
  "The stored note root is the longest prefix of the note without a comma, cut at the fixed storage width of the column.",
  "every note string", "All strings.",
  [G + "general_stackers.py:NoteRootStacker._run"],
  "Character-list model of split(',')[0] and of numpy fixed-width storage.", "planned")

R = "rubin_sim/maf/db/"
p("C51", "update_summary_stat never updates",
  "The documentation says the call adds a row to or updates a row in the summary table. It only adds: after n calls for the same metric and name there are n rows, so re-running an analysis into the same database accumulates old values.",
  "every database content and every sequence of calls", "Histories of unbounded length.",
  [R + "results_db.py:ResultsDb.update_summary_stat"],
  "Row count theorem for any number of calls; refutation of the documented update.", "planned")

p("C52", "Standardised summary names",
  "build_summary_name should give names without commas or outer blanks that tell statistics apart. Names have no outer blanks; the comma removal has no effect; the statistics Identity, Id, Count and none share one name, as do UniSlicer and no slicer.",
  "every metric, label, slicer and statistic name", "All strings.",
  [R + "results_db.py:ResultsDb.build_summary_name"],
  "Character-list model; collisions for all metrics, witness for commas, strip lemma.", "planned")

p("C53", "Updating a tracked run survives a crash",
  "If the process dies while add_run updates an existing directory, the directory should keep its old or its new entry. The deletion is committed before the insertion, so a crash in between loses the entry and its id; other entries are untouched and repeating the call registers the directory again, possibly under another id.",
  "every history and a crash at the commit boundary", "Crash points.",
  [R + "tracking_db.py:TrackingDb.add_run"],
  "Two-commit model; general loss theorem; recovery theorem as _partial.", "planned")

p("C54", "Importing simulation metadata keeps the creation time",
  "Importing the YAML of an exported simulation should restore its creation time. The 'creation_time' key is never read: two exports that differ only there import alike, and unless the label ends in a time the database uses the time of the import.",
  "every recorded simulation and every way of reading times from labels", "Round trip over all records.",
  [V + "vseqmetadata.py:VisitSequenceArchiveMetadata.import_sim_from_yaml", V + "vseqmetadata.py:VisitSequenceArchiveMetadata.sim_metadata_yaml"],
  "Same YAML model as C29; the import of an export in closed form.", "planned")

p("C55", "Looking up a simulation by day and daily id in the prenight indexes",
  "With a list of telescopes, the simulation with the given creation day and daily id should be found when one telescope's index has it. A missing index becomes a DataFrame without columns, and the search fails with AttributeError even if another telescope has the simulation.",
  "every list of index tables, present or missing", "All tables, orders and failure combinations.",
  [V + "prenightindex.py:_get_sim_uuid_from_metadata_index", V + "prenightindex.py:get_prenight_index"],
  "Loop over telescopes; a missing index always fails the search; exact result when all indexes are present (_partial).", "planned")

p("C56", "Recording a simulation is atomic",
  "A failing record_simulation_metadata call should leave nothing behind. The row is inserted in one transaction and completed in a second one, so when the second fails an incomplete simulation stays; a call that returns has recorded exactly one complete simulation.",
  "every table content and every failure of the second transaction", "Crash points.",
  [V + "vseqmetadata.py:VisitSequenceArchiveMetadata.record_simulation_metadata"],
  "Two-step model with a failure flag.", "planned")

p("C57", "Visit sequence urls can be read back, whatever the table",
  "After set_visitseq_url on a recorded sequence get_visitseq_url returns that url, whichever of the inherited tables the sequence was recorded in; every other sequence is unchanged; for an unknown uuid both calls fail.",
  "every table content with distinct uuids", "All contents of the inherited tables.",
  [V + "vseqmetadata.py:VisitSequenceArchiveMetadata.set_visitseq_url", V + "vseqmetadata.py:VisitSequenceArchiveMetadata.get_visitseq_url", "sql/make_vseqmeta.sql:visitseq"],
  "Rows labelled with their own table; queries on the parent table see all rows.", "planned")

p("C58", "Position-only fits are least-squares optimal",
  "Among all coefficient vectors of the same size whose series takes the given values at both ends, the one returned by chebfit without velocities has the strictly smallest sum of squared residuals at the sample points; samples of a series of that size give back its coefficients.",
  "every sample vector, all admissible sizes, all competing coefficient vectors", "Optimality over an infinite set of competitors.",
  [MO + "chebyshev_utils.py:chebfit", MO + "chebyshev_utils.py:make_cheb_matrix_only_x"],
  "Lagrange conditions from the block system; Pythagoras; uniqueness from the number of roots.", "planned")

p("C59", "Right ascensions are made continuous",
  "three_sixty_to_neg turns wrapped right ascensions of a track spanning less than 90 degrees into values that differ from the continuous track by one common number of full turns; the bound is sharp.",
  "every list of angles and turns with pairwise differences below 90 degrees", "All tracks, including ones across zero.",
  [MO + "cheby_fits.py:three_sixty_to_neg"],
  "Ordered-field model; case split on whether the turns of the track differ.", "planned")

p("C60", "get_ephemerides checks the objects it returns",
  "get_ephemerides ends with a check that the objects in the result are the ones asked for. The labels are written into the caller's own array, so the check compares the array with itself and can never fail: unknown objects give rows of zeros, and the caller's list may end up naming other objects.",
  "every table, object list and times", "All tables and histories of label overwriting.",
  [MO + "cheby_values.py:ChebyValues.get_ephemerides"],
  "Aliasing made explicit in the model; the error is unreachable.", "planned")

p("C61", "Times outside all segments give NaN",
  "Without extrapolation, times outside the range of the segments give NaN for every object. A time inside the overall range that no segment covers gives zero instead, indistinguishable from a value.",
  "every table and time", "All tables and times.",
  [MO + "cheby_values.py:ChebyValues.get_ephemerides"],
  "Case analysis of the segment choice using minimum and maximum of the ranges.", "planned")

p("C62", "Segment lengths divide the time span",
  "_round_length documents a length that fits into the span an integer number of times, to last decimal accuracy. The tolerance is ten units of the last decimal, so a returned length leaves a remainder of at most ten units, and any length up to eleven units is accepted unchanged whether or not it divides the span.",
  "every span, initial length and rounding", "All spans and lengths; search loop.",
  [MO + "cheby_fits.py:ChebyFits._round_length"],
  "Loop model in units of the last decimal.", "planned")

U = "rubin_sim/maf/utils/maf_utils.py:"
SM = "rubin_sim/maf/metrics/simple_metrics.py:"

p("C63", "percentile_clipping keeps the requested share of the data",
  "percentile_clipping documents that 'percentile' percent of the data lie between the returned limits. False for small samples (of two values at 95 percent none is kept); for every sample all but 2*ceil((n-1)(1-p)/2) values are kept, limits lie between minimum and maximum and are ordered.",
  "every data array and percentile", "All data and sizes.",
  [U + "percentile_clipping"],
  "np.percentile with linear interpolation over an ordered field; counting values below a percentile by rank.", "planned")

p("C64", "Archived simulations record every night they cover",
  "The first and last simulated dates stored by make_sim_data_dir should contain the night of every time in the simulated range. They do when taken from the visits. When sim_start_mjd and sim_duration are given, the last date is that of start + duration - 1: for a duration of n-1 days and a part of a night (the length of n nights) the last night is always missing, and for a single night the last date lies before the first.",
  "every start, duration and visit time", "All instants, including boundaries.",
  [V + "sim_archive.py:make_sim_data_dir"],
  "Rational MJDs with floor arithmetic, compared to the day of observation of every visit.", "planned")

p("C65", "Fetching visits for nights selects exactly the visits of those nights",
  "Filtering by comparing the ISO strings of day_obs keeps exactly the visits whose day lies between the given days, for dates written YYYY-MM-DD; a first day written as YYYYMMDD selects no visit of that year or earlier, without an error.",
  "every pair of valid dates and every visit list", "String order against calendar order for all dates.",
  [V + "sim_archive.py:fetch_sim_for_nights"],
  "Lexicographic order of digit strings equals date order, by two-digit blocks.", "planned")

p("C66", "Fetching visits twice gives the same result",
  "Repeating fetch_sim_for_nights with the same arguments should give the same columns. The function appends to the caller's stackers list or keyword arguments, so the second call adds a column; a non-empty tuple of stackers always fails an assertion.",
  "every argument and number of repetitions", "Histories of calls sharing mutable arguments.",
  [V + "sim_archive.py:fetch_sim_for_nights"],
  "Caller's list as state threaded through calls.", "planned")

p("C67", "The latest prenight simulation covers the requested nights",
  "find_latest_prenight_sim_for_nights returns a simulation that is eligible (tags, age) and covers all requested nights, no newer eligible one does, and it fails only if there is none.",
  "every archive table, tags and nights", "All tables and ties.",
  [V + "sim_archive.py:find_latest_prenight_sim_for_nights"],
  "Filter-and-sort model against an existential specification.", "planned")

p("C68", "Prenight simulations start on the requested day",
  "compute_sim_start_and_end should start the simulation in the night of the given day. For days before the start of the almanac the index is negative and wraps to the end of the table, giving nights years later; for days within the almanac the start is right.",
  "every day and almanac", "All days, including outside of the table.",
  ["rubin_sim/sim_archive/prenight.py:compute_sim_start_and_end"],
  "Python indexing with negative indices made explicit.", "planned")

p("C69", "RmsAngle ignores where zero degrees lies",
  "The scatter of a set of directions should not depend on the origin of angles. If several largest gaps are equal the last one is cut, which depends on the origin: the directions 0, 10, 120, 240 change their scatter when all are turned by 120 degrees. If the smallest arc is unique the scatter is unchanged.",
  "every list of angles within a turn and every rotation", "All lists and rotations, including ties.",
  [SM + "_rotate_angles", SM + "RmsAngleMetric"],
  "Same model as C41; unique arc start determines the rotated list.", "planned")

p("C70", "Outlier counts obey Chebyshev's bound",
  "NoutliersNsigma with n sigma reports at most N/n^2 of N visits, on either side and also when all values agree.",
  "every non-empty list of values and every n", "All data.",
  [SM + "NoutliersNsigmaMetric"],
  "Sum of squares bound over an ordered field, standard deviation characterised by its square.", "planned")

p("C71", "Coadded depth adds inverse variances",
  "Coaddm5 of one visit is its depth, of n equal visits m + 1.25 log10 n; it does not depend on the order, coadding the depths of any grouping gives the same as coadding the visits, more visits are strictly deeper, and the result is between the deepest visit and that plus 1.25 log10 n. If visits exist but none in the chosen filter, the result is minus infinity, not the bad value.",
  "every non-empty list of depths and every grouping", "All lists and groupings.",
  [SM + "Coaddm5Metric"],
  "Real logarithms and powers.", "planned")

p("C72", "Angular spread is a measure of spread",
  "AngularSpread is between 0 and 1, zero exactly when all angles are one direction, and unchanged by turning all angles or shifting any by whole periods.",
  "every list of angles, period and rotation", "All lists.",
  [SM + "AngularSpreadMetric"],
  "Unit vectors as complex numbers; equality case of the triangle inequality.", "planned")

p("C73", "The mean angle turns with the angles",
  "MeanAngle is in [0, 360); turning all angles turns the mean by the same amount unless the mean unit vector is shorter than 0.1, when the mean is 180 degrees; equal angles are their own mean.",
  "every list of angles and rotation", "All lists and rotations, including wraparound.",
  [SM + "MeanAngleMetric"],
  "Argument of the mean of complex unit vectors, in the circle group.", "planned")

p("C74", "Each distinct stacker of a group is run once",
  "The stackers run for a group of bundles come from those bundles, in the order of first appearance; every stacker of every bundle equals one that is run, and no two that are run are equal.",
  "every list of bundles with any stackers, under any reflexive equality", "All stacker lists and equality relations.",
  [B + "metric_bundle_group.py:MetricBundleGroup._run_compatible"],
  "Invariant of the loop that collects the stackers.", "planned")

ME_ = "rubin_sim/maf/metrics/"
TM = ME_ + "technical_metrics.py:"

p("C75", "Filter changes are counted as runs",
  "NChanges is one less than the number of runs of equal states in time order: zero exactly when all visits have one state, at least one per further state, less than the number of visits, and independent of the order of the rows if the times are distinct.",
  "every list of visits with any states", "All lists.",
  [TM + "NChangesMetric"], "Destuttered list of states; induction over the list.", "planned")

p("C76", "The minimum time between states is between changes",
  "MinTimeBetweenStates should give the least time between two changes and the bad value if there are no two changes. The time from the first visit to the first change is taken as well, so a change shortly after the start of the data sets the value; likewise NStateChangesFasterThan counts that change. The value is right if some two changes are no further apart than the first visit and the first change.",
  "every list of visits", "All lists of visits, including those with a single change.",
  [TM + "MinTimeBetweenStatesMetric", TM + "NStateChangesFasterThanMetric"], "Differences of change times.", "planned")

p("C77", "The maximum of changes is over all intervals",
  "MaxStateChangesWithin is the largest number of changes in any closed interval of the given length, although only intervals that begin at a change are tried.",
  "every list of visits, every interval length, every interval", "Infinitely many intervals.",
  [TM + "MaxStateChangesWithinMetric"], "searchsorted as a count; intervals moved to the next change.", "planned")

p("C78", "Pairs are mutual",
  "PairFraction should give the fraction of visits with another visit between the minimum and maximum gap away. Forward gaps are taken in [min, max), backward gaps in (min, max], so of two visits exactly the minimum or maximum gap apart one counts and the other does not. It is right if no two visits are exactly so far apart; it always is in [0, 1] and independent of the order.",
  "every list of times and gaps", "All times, including exact ties.",
  [ME_ + "visit_groups_metric.py:PairFractionMetric"], "searchsorted as a count.", "planned")

p("C79", "The open shutter fraction is a fraction",
  "OpenShutterFraction is in [0, 1] if exposures are part of visits. BruteOSF should be too, but the last exposure counts while the time after it does not: two visits can give 3/2 and one visit divides by zero. The exposures but the last fit into the time if gaps are below the limit.",
  "every list of visits", "All lists of visits.",
  [TM + "OpenShutterFractionMetric", TM + "BruteOSFMetric"], "Sums over an ordered field; telescoping differences.", "planned")

VG = ME_ + "visit_groups_metric.py:VisitGroupsMetric"

p("C80", "A night counts its grouped visits",
  "VisitGroups documents that visits within the time window of another count, that two visits closer than the minimum count as one and a half if a third is within the window, and as nothing if there is none. In code a night of exactly two visits always counts two, whatever the gap; and close visits between good gaps count more than whole visits: four visits can count 4.5. In a night of three or more visits the whole visits are those with a good gap before or after; without close visits the value is the number of visits with another one within the window; it never exceeds one and a half times the visits. Nights come in increasing order.",
  "every list of visits", "All lists of times within a night.",
  [VG + ".run"], "Loop over consecutive gaps as a left to right recursion; index form of the specification.", "planned")

p("C81", "Window maxima are over all windows",
  "NVisitsInWindow and NNightsInWindow are the largest number of visits and nights in any window of the given number of nights, although only windows that begin at a night with data are tried.",
  "every metric value and every window position", "Infinitely many windows.",
  [VG + ".reduce_n_visits_in_window", VG + ".reduce_n_nights_in_window"], "Every window is contained in one that starts at its first night.", "planned")

p("C82", "Lunations with groups are counted in sequence",
  "NLunations is the number of thirty-night periods that hold a group. MaxSeqLunations should be the longest sequence of consecutive ones; if the window is shorter than a lunation, a night that begins no group before the group's own first night ends the sequence. With a window of thirty nights or more, the default, it is the longest sequence.",
  "every metric value, window and thresholds", "All histories of nights.",
  [VG + ".reduce_n_lunations", VG + ".reduce_max_seq_lunations"], "Invariant of the run length loop.", "planned")

TG = ME_ + "tgaps.py:"
CM = ME_ + "cadence_metrics.py:"

p("C83", "Gaps are those of all pairs or of neighbours",
  "With all_gaps, Tgaps and TgapsPercent use the differences of all n(n-1)/2 pairs of visits, otherwise those of neighbours in time; the histogram counts each gap between the first and last edge once, and the percentage is in [0, 100]. Nightgaps should do the same for nights, but with all_gaps it raises an exception if all visits are in one night; with two nights all gaps are at least one.",
  "every list of times or nights and all bins", "All lists and bins.",
  [TG + "TgapsMetric", TG + "TgapsPercentMetric", TG + "NightgapsMetric"], "np.roll and np.histogram modelled; permutation with the list of pair differences.", "planned")

p("C84", "A sampled time scale is found",
  "GapsMetric documents that visits between half and three halves of the time scale apart count as a sample. A positive value does mean that two visits are so far apart; but the visits are first put into bins, and two visits exactly a time scale apart count nothing.",
  "every list of times and time scale", "All lists; position of visits relative to the bins.",
  [TG + "GapsMetric"], "Bins of np.arange with exact arithmetic.", "planned")

p("C85", "Time within and between nights adds up",
  "For nights that do not decrease with time: NightTimespan uses, for every night with at least two visits, the time from its first to its last visit; IntraNightGaps uses the gaps between neighbours of one night and InterNightGaps those between neighbours of different nights, and together they make up the time from first to last visit.",
  "every list of visits in order of time", "All lists of visits.",
  [TG + "NightTimespanMetric", CM + "IntraNightGapsMetric", CM + "InterNightGapsMetric"], "searchsorted on the nights; induction along the list.", "planned")

p("C86", "A template is an earlier visit at least as good",
  "TemplateExists is the fraction of visits that come after some visit of the same or better seeing.",
  "every list of visits in order of time", "All lists of seeing values.",
  [CM + "TemplateExistsMetric"], "Running minimum characterised by existence of an earlier value.", "planned")

p("C87", "Uniformity is measured from zero to one",
  "Uniformity is zero exactly if visit i of n comes i/n of the survey length after the first. It should never exceed one, but the second date is subtracted from all, so it can: a first visit and two at the end of the survey give 4/3; within the survey it is at most 2. GeneralUniformity should be zero for evenly spaced values, but divides by the maximum instead of the range; it is right if the minimum is zero.",
  "every list of values, survey length and limits", "All lists of values.",
  [CM + "UniformityMetric", CM + "GeneralUniformityMetric"], "Maximum of absolute values over an ordered field.", "planned")

VM = ME_ + "vector_metrics.py:"
AM = ME_ + "area_summary_metrics.py:"
SU = ME_ + "summary_metrics.py:"
SE = ME_ + "season_metrics.py:"
SC = ME_ + "string_count_metric.py:"

p("C88", "Accumulated values are those up to the bin edge",
  "AccumulateMetric should give for each bin the function accumulated over the visits up to the end of the bin. It takes one visit more until the last visit is reached, and is bad for all bins if there is only one visit; the last bins are right.",
  "every list of visits, bins and accumulated function", "All lists of visits; position of edges.",
  [VM + "AccumulateMetric", VM + "AccumulateCountMetric"], "Running folds and searchsorted; general statement of the value given.", "planned")

p("C89", "Accumulated uniformity",
  "AccumulateUniformity gives for each bin the largest difference so far between the visits made and those due in an even survey, as a fraction of all visits: it is between zero and one and never decreases.",
  "every list of nights and bins", "All lists of nights and bins.",
  [VM + "AccumulateUniformityMetric"], "Prefix sums of the histogram; running maximum.", "planned")

p("C90", "The area summary is the best value reached on an area",
  "If the values cover the wanted area, AreaSummary with decreasing gives the largest value that at least this area reaches or exceeds, and without it the smallest that at least this area does not exceed. Otherwise the worst value is given without warning.",
  "every map of values, with or without missing ones, and every area", "All maps; ties and missing values.",
  [AM + "AreaSummaryMetric"], "Counting of values in a sorted list; ceil.", "planned")

p("C91", "FONv and FOArea are two sides of one statement",
  "The minimum of FONv for an area is at least v exactly if FOArea for v visits gives at least that area. FONv is bad exactly if the data do not cover the area, its median is not below its minimum; FOArea is bad, not zero, where no pixel has enough visits.",
  "every list of visit numbers, area and number of visits", "All lists.",
  [SU + "FONv", SU + "FOArea"], "Galois connection between count and order statistic.", "planned")

p("C92", "Area thresholds and footprint fractions",
  "AreaThreshold is the area of the pixels with a value strictly within the limits; a missing limit does not restrict. Without limits it counts also pixels without a value. FootprintFraction is between zero and one, one exactly if all of the footprint has the required visits and zero if none has.",
  "every map, limits and footprint", "All maps and limits.",
  [AM + "AreaThresholdMetric", SU + "FootprintFractionMetric"], "Counting.", "planned")

p("C93", "Season edges separate the seasons",
  "find_season_edges gives for each season in order the first and last position of its visits; each visit is in exactly one season; SeasonLength uses the time from first to last visit of a season and CampaignLength the number of seasons. Visits of exactly the minimum exposure time do not count.",
  "every list of visits in order of time", "All lists of visits.",
  [SE + "find_season_edges", SE + "SeasonLengthMetric", SE + "CampaignLengthMetric"], "searchsorted on both sides characterised by positions.", "planned")

p("C94", "The campaign frequency is a mean of separations",
  "MeanCampaignFrequency is the mean over the seasons of the mean separation of their nights. It should not be below the smallest separation, but a season with only one night counts as zero; it holds if each season has two nights.",
  "every list of visits in order of time", "All lists of visits.",
  [SE + "MeanCampaignFrequencyMetric"], "Telescoping sums; slices of seasons as filters.", "planned")

p("C95", "Numbers at the end of strings are clipped",
  "With clip_end, a comma, a space and digits at the end of a string are removed, and nothing else is changed.",
  "every string", "All strings, such as with several separators.",
  [SC + "StringCountMetric"], "str.split and join modelled; induction on the string.", "planned")

p("C96", "Each string is counted",
  "StringCount gives for each string its number, together the number of rows, or percentages that add up to a hundred. It raises an exception exactly if there are both empty strings and the string 'blank', the name used for them.",
  "every list of strings", "All lists of strings.",
  [SC + "StringCountMetric"], "Counter as list; injectivity of the labels.", "planned")

p("C97", "String counts can be reduced",
  "The reduce functions made by StringCount should work on the values of all slices. They do exactly if all slices have the same strings, otherwise an exception is raised; with one slice they give the counts.",
  "every list of slices", "All sets of strings.",
  [SC + "StringCountMetric", SC + "Keylookerupper"], "State kept over the slices.", "planned")

p("C98", "Pairs of visits are counted",
  "PairMetric documents the number of pairs of visits within a time range. It counts pairs of time bins: never more than the pairs of different times, if three halves of a bin are allowed for at both ends, and some if there is a pair within the range by as much; the number can be less than documented.",
  "every list of times, range and bin size", "All lists of times; position in the bins.",
  [ME_ + "pair_metric.py:PairMetric"], "Injection from bin pairs to pairs of visits.", "planned")

MM = ME_ + "mo_metrics.py:"

p("C99", "Numbers of observations and nights of a moving object agree",
  "NObs counts the observations at or above the SNR limit (or visible), NNights the nights with one, and NObsNoSingles the observations in nights with more than one; NObsNoSingles plus the nights with exactly one is NObs, and all three do not increase with the limit. Negative night numbers make NObsNoSingles raise an exception.",
  "every list of observations and limit", "All lists and limits.",
  [MM + "NObsMetric", MM + "NObsNoSinglesMetric", MM + "NNightsMetric"], "np.bincount modelled; induction on the list.", "planned")

p("C100", "The observational arc is the longest time span",
  "ObsArc is the largest difference in time of two visible observations, zero if there are none, and does not increase with the SNR limit.",
  "every list of observations and limit", "All lists.",
  [MM + "ObsArcMetric"], "Maximum and minimum of the visible times.", "planned")

p("C101", "The chance of seeing activity is the fraction of time windows with observations",
  "ActivityOverTime should be the fraction of the windows of the survey in which the object is seen. The count of windows is divided by the number of edges, which is one more, so that it is always below one even if the object is seen in every window.",
  "every list of observations, window and survey length", "All lists and windows.",
  [MM + "ActivityOverTimeMetric"], "np.histogram modelled; number of filled bins.", "planned")

p("C102", "Activity over the period uses the mean anomaly",
  "ActivityOverPeriod should give the fraction of bins of mean anomaly, over the full circle, in which the object is seen. If the time of perihelion is known, the phase lacks the factor 2 pi, so that only the bins up to one radian can be filled. With anomalies over the whole circle the value is the fraction of bins.",
  "every orbit and list of observations", "All orbits and lists.",
  [MM + "ActivityOverPeriodMetric"], "Modulo over an ordered field; number of filled bins.", "planned")

p("C103", "MagicDiscovery counts windows with enough observations",
  "MagicDiscovery counts the nights with a visible observation from which on a window has enough visible observations. This holds for rows in the order of nights; otherwise the value depends on the order of the rows.",
  "every list of observations, number and window", "All lists and orders.",
  [MM + "MagicDiscoveryMetric"], "searchsorted on shifted nights as a count.", "planned")

p("C104", "Trailed observations are found",
  "HighVelocity counts the visible observations fast enough for the trail to be at least psf_factor times the seeing; a larger factor never gives more. HighVelocityNights gives a time of the first night with enough such observations, but it is the time of the first row of that night, even if it is not visible or not fast.",
  "every list of observations and factor", "All lists.",
  [MM + "HighVelocityMetric", MM + "HighVelocityNightsMetric"], "First night by searchsorted on counts per night.", "planned")

p("C105", "Colour flags of asteroids grow with the bands",
  "ColorAsteroid gives 4 for all bands, 3 for all but u, 2 for four of grizy, 1 for g and (r or i) and (z or y), else 0. More bands or more observations never lower it, and one or more needs three bands with more than weight_det observations each.",
  "every set of bands and list of observations", "All sets and lists.",
  [MM + "ColorAsteroidMetric"], "Case analysis on six bands; sums of weights of at most one.", "planned")

p("C106", "Light-curve flags grow with the observations",
  "LightcurveColorOuter is the number of bands with a light curve, plus one if there is such a band and another band has enough observations for a colour. More observations or a lower limit never lower it.",
  "every list of observations, bands and numbers", "All lists; a band moving from colour to light curve.",
  [MM + "LightcurveColorOuterMetric"], "Count over bands; monotony by comparing the two lists of bands.", "planned")

p("C107", "Instantaneous colours need close pairs",
  "InstantaneousColorOuter should give one only if there are enough pairs of observations in the two bands within the time span. It counts, for each observation in the second band, whether the last one in the first band is close before it; an observation before all those of the first band counts too, however long before.",
  "every list of observations", "All lists in order of time.",
  [MM + "InstantaneousColorOuterMetric"], "searchsorted with index -1 wrapping to the last entry.", "planned")

p("C108", "Light-curve inversion needs a wide range of longitude",
  "LightcurveInversionAsteroid gives one only if in some band there are at least weight_det observations, with phase angles over five degrees and ecliptic longitudes over 90 degrees. The longitudes are compared as numbers, so that an arc of a few degrees around zero counts.",
  "every list of observations", "All lists; longitudes on a circle.",
  [MM + "LightcurveInversionAsteroidMetric"], "Median and range as order statistics; longitudes modulo 360.", "planned")

p("C109", "KnownObjects gives the first discovery",
  "KnownObjects gives the earliest time of an observation, within the elongation and magnitude limits of its period of years, whose random number is within the efficiency of the period, and badval if there is none.",
  "every list of observations, random numbers and limits", "All lists and draws; four periods.",
  [MM + "KnownObjectsMetric"], "Loop over the periods with first hit; order of the periods.", "planned")

p("C110", "Tracklets are found in every night that has one",
  "The Discovery metric should count the nights in which n_obs_per_night visible observations are within t_max and span at least t_min. Every night counted has such observations; but only all observations of the night and runs of n_obs_per_night neighbours are tried, so that others are missed. None is missed if observations are at least t_min apart. A night with one observation never counts.",
  "every list of observations in order of time and all limits", "All lists.",
  [MM + "DiscoveryMetric"], "np.roll modelled; runs of neighbours; embedding of sublists.", "planned")

p("C111", "Discovery chances are counted by nights",
  "For observations in order of time, N_Chances is the number of nights with a tracklet such that from that night to the one t_window later there are n_nights_per_window nights with one; badval is returned exactly if there are fewer such nights in all.",
  "every list of observations in order of time and all limits", "All lists and windows; wrap-around of np.roll.",
  [MM + "DiscoveryMetric", MM + "DiscoveryNChancesMetric"], "Strictly increasing nights; entries that wrap are negative.", "planned")

p("C112", "The order of the rows does not matter for discovery",
  "Discovery sorts the rows by time. For rows in order of time DiscoveryTime and the like take the first visible observation of the first chance. For other orders positions in the sorted and the unsorted rows are mixed up: the number of chances depends on the order of the rows, and the time can be that of another night.",
  "every list of observations and its order by time", "All orders.",
  [MM + "DiscoveryMetric", MM + "DiscoveryTimeMetric", MM + "DiscoveryDistanceMetric", MM + "DiscoveryRadecMetric"], "Permutation as a list of positions.", "planned")

p("C113", "N_Obs is the number of observations of the first track",
  "DiscoveryNObs should be the number of visible observations from the first to the last night of the first chance. It is always one less.",
  "every list of observations in order of time", "All lists.",
  [MM + "DiscoveryNObsMetric"], "Positions as counts of earlier rows.", "planned")

p("C114", "MaxGap is the longest time without visits",
  "MaxGap is the difference in time of two visits without a visit in between, and no such difference is larger; there is no value exactly if there are fewer than two visits.",
  "every list of times", "All lists.",
  [TG + "MaxGapMetric"], "Neighbours of the sorted list.", "planned")

MS_ = ME_ + "mo_summary_metrics.py:"
p("C115", "Integration over H is a weighted mean",
  "integrate_over_h gives at each H the mean of the metric values up to there, weighted by the numbers of objects; it does not change if the numbers are scaled, lies between bounds of the values, and does not increase with H if the values do not.",
  "every list of values and every list of positive weights of its length", "All lengths and weights.",
  [MS_ + "integrate_over_h"], "Cumulative sums as finite sums.", "planned")

p("C116", "The power-law index is used for the completeness",
  "MoCompleteness with cumulative=True should weight by a power law of the given hindex. The index given is ignored: 0.33 is always used. power_law_dndh itself is positive, grows by 10^(hindex d) per step d, and its normalisation does not matter for the integrated values.",
  "every index and every increasing list of H", "All indices.",
  [MS_ + "MoCompletenessMetric", MS_ + "power_law_dndh"], "Real powers; keyword with another capitalisation.", "planned")

p("C117", "Completeness is the fraction of objects at the threshold",
  "For cloned H, the completeness at each H is the fraction of all objects with a value not below the threshold, masked ones counting as not found; it is between zero and one, and does not increase with the threshold nor decrease with the values. For a threshold not above zero masked objects count as found.",
  "every list of values, masked or not, and threshold", "All populations.",
  [MS_ + "MoCompletenessMetric"], "Masked values as none.", "planned")

p("C118", "Completeness for objects with their own H",
  "When each object has its own H, the completeness in bins of H should be that of the objects of the bin. The metric values are put into the bins, not the H values, so that a value outside the range of H counts nowhere. The bins have equal width, but for a small range of H they do not reach its end.",
  "every list of values and H", "All populations and bins.",
  [MS_ + "MoCompletenessMetric"], "Histogram of the wrong array, for all values.", "planned")

p("C119", "Completeness with time",
  "The completeness at a time is the fraction of objects found by then; it is zero at the first time and does not decrease, also after integration over H. Objects found before the first time are never counted.",
  "every increasing list of times and every discovery time", "All times.",
  [MS_ + "MoCompletenessAtTimeMetric"], "Cumulative histogram as a count.", "planned")

p("C120", "A summary metric gives the same each time it is run",
  "MoCompletenessAtTime uses the H nearest to hval, or the middle one if none is given. It stores this in hval, so that a second run with other H values uses the one of the first. If neither hval nor metric_name is given, as documented, it cannot be made.",
  "every list of H and every sequence of two runs", "State kept between runs.",
  [MS_ + "MoCompletenessAtTimeMetric"], "The new hval is part of the result.", "planned")

p("C121", "Values at a given H are interpolated",
  "ValueAtH has a value exactly if h_mark is in the range of H and the values are one-dimensional. It is the metric value at the H values and on the line between neighbours; it is monotone if the metric is. MeanValueAtH is the same for a single object. TotalNumberSSO at one of the H values is the sum of the values times the numbers of objects up to it, and does not decrease with h_mark.",
  "every increasing list of H, values and h_mark", "All real arguments.",
  [MS_ + "ValueAtHMetric", MS_ + "MeanValueAtHMetric", MS_ + "TotalNumberSSO"], "np.interp by recursion over the points.", "planned")

PU = "rubin_sim/phot_utils/"
p("C122", "Resampling conserves flux",
  "spectres gives, at each new wavelength whose cell lies within the old cells, the mean of the piecewise constant old spectrum over the new cell, and the fill value elsewhere. Hence the integral over the new cells is the integral of the spectrum over their union, values stay between bounds of the old ones, a constant spectrum stays constant, resampling to the same grid changes nothing, and the result is linear in the fluxes.",
  "every pair of increasing grids of at least two wavelengths and all fluxes", "All grids and their relative positions.",
  [PU + "spectral_resampling.py:spectres", PU + "spectral_resampling.py:make_bins"], "Running indices as a state machine, refined to a sum of overlaps.", "planned")

p("C123", "A spectrum that spans the new grid has values everywhere",
  "If the old wavelengths reach from below the first to above the last new wavelength, as checked for the warning, no new flux should be NaN. This fails if the first or last new cell sticks out, as for a coarse new grid. It also fails for decreasing wavelengths.",
  "every pair of grids", "All grids.",
  [PU + "spectral_resampling.py:spectres", PU + "sed.py:Sed.resample_sed"], "Condition on the edges of the cells instead of the centres.", "planned")

p("C124", "Flux through a bandpass is a weighted mean",
  "phi has integral one, is proportional to the throughput over the wavelength and not negative. calc_flux lies between bounds of the spectrum, gives c for a constant spectrum c, is linear in the spectrum, and does not depend on the scale of the throughput. The spectrum is taken at the wavelengths of the bandpass, up to 1e-10.",
  "every bandpass with throughputs at least zero, every spectrum covering it", "All spectra and throughputs.",
  [PU + "bandpass.py:Bandpass.sb_tophi", PU + "sed.py:Sed.calc_flux", PU + "sed.py:Sed.resample_sed"], "Trapezoid rule by recursion.", "planned")

p("C125", "many_flux_calc agrees with calc_flux",
  "The flux by many_flux_calc should be that of calc_flux. It is larger by half of both end terms, so that they agree if the throughput vanishes at both ends of the grid.",
  "every uniform grid, throughput and spectrum", "All grids.",
  [PU + "sed.py:Sed.many_flux_calc", PU + "sed.py:Sed.calc_flux"], "Sum against trapezoid rule on a uniform grid.", "planned")

p("C126", "Counts are fixed by the flux",
  "Sources of the same flux, hence magnitude, through a bandpass should give the same counts. Counts are a sum and the flux uses the trapezoid rule, so that this fails unless the throughput vanishes at both ends; then calc_adu is calc_flux times a factor of bandpass and camera.",
  "every uniform grid, throughput and pair of spectra", "All spectra.",
  [PU + "sed.py:Sed.calc_adu", PU + "sed.py:Sed.calc_flux"], "Same comparison of sums.", "planned")

p("C127", "calc_ergs is the integral over the bandpass",
  "calc_ergs should be the trapezoid rule for flambda times throughput. It uses the first step for all intervals, which is right for uniform grids only.",
  "every bandpass and spectrum", "All grids.",
  [PU + "sed.py:Sed.calc_ergs"], "Sum of pairs against trapezoid rule.", "planned")

p("C128", "The two kinds of flux of a Sed never disagree",
  "After any sequence of calls of methods that change a Sed, also if they raise an exception, fnu is unset or equals flambda wavelen^2 / c. Counts, fluxes and magnitudes are calculated from an fnu that agrees with the present flambda.",
  "every sequence of method calls with positive wavelengths", "All sequences of calls.",
  [PU + "sed.py:Sed"], "State machine and invariant.", "planned")

p("C129", "Redshift stretches wavelengths by 1 + z",
  "redshift_sed multiplies wavelengths by 1 + z, and with dimming keeps flux times wavelength; a redshift by -z undoes one by z. For negative z wavelengths are divided by 1 - z, which is not multiplication by 1 + z.",
  "every spectrum and redshift above -1", "All spectra and redshifts.",
  [PU + "sed.py:Sed.redshift_sed"], "Direct calculation.", "planned")

SN_ = PU + "signaltonoise.py:"
p("C130", "Magnitudes and fluxes are inverse to each other",
  "flux_from_mag and mag_from_flux undo each other, a hundred times the flux is five magnitudes, and a brighter source has a smaller magnitude. A spectrum scaled by calc_flux_norm for a magnitude has this magnitude in the bandpass. A flat spectrum of 3631 Jy has magnitude zero in every bandpass.",
  "every flux, magnitude, spectrum and bandpass whose cells the spectrum covers", "All real arguments and all spectra.",
  [PU + "sed.py:Sed.flux_from_mag", PU + "sed.py:Sed.mag_from_flux", PU + "sed.py:Sed.calc_mag", PU + "sed.py:Sed.calc_flux_norm", PU + "sed.py:Sed.multiply_flux_norm"], "Logarithms over the reals and linearity of calc_flux.", "planned")

p("C131", "The magnitude of a spectrum does not depend on how the Sed was set up",
  "A flat spectrum of 3631 Jy has magnitude zero for a new Sed. After clear_sed the zeropoint is -8.9 instead of -2.5 log10 3631, so that all magnitudes are lower by a constant between 0 and 0.001.",
  "every bandpass covered by the spectrum", "Constants compared exactly.",
  [PU + "sed.py:Sed.clear_sed", PU + "sed.py:Sed.__init__"], "Bounds of the logarithm by powers of ten.", "planned")

p("C132", "Signal to noise scales with exposures and not with units",
  "The signal to noise ratio of calc_snr_sed grows with the root of the number of exposures and does not depend on the gain. The noise of the sky does not depend on the plate scale. The two conversions of FWHM are inverse to each other.",
  "every source, sky, bandpass and camera", "All spectra and parameters.",
  [SN_ + "calc_snr_sed", SN_ + "calc_total_non_source_noise_sq", SN_ + "calc_neff", SN_ + "fwhm_eff2_fwhm_geom", SN_ + "fwhm_geom2_fwhm_eff"], "Counts are linear in each parameter.", "planned")

p("C133", "calc_m5 is the magnitude of a five sigma detection",
  "A flat source of magnitude calc_m5 should have a signal to noise ratio of five. This holds for gain 1. The gain is not squared in one term, so that the ratio is above five for gain above 1 and below five for gain below 1, and m5 depends on the gain, though the ratio does not.",
  "every sky, pair of bandpasses and camera", "All spectra and parameters.",
  [SN_ + "calc_m5", SN_ + "calc_snr_sed"], "Quadratic equation for the counts.", "planned")

p("C134", "scale_sky_m5 gives a sky with the limiting magnitude",
  "With the sky scaled by scale_sky_m5, a flat source of magnitude m5 has signal to noise ratio five. calc_m5 of the scaled sky should be m5, which holds for gain 1 only. For a faint m5 the scaled sky is negative, without an error.",
  "every m5, sky, pair of bandpasses and camera", "All spectra and parameters.",
  [SN_ + "scale_sky_m5", SN_ + "calc_sky_counts_per_pixel_for_m5"], "Inverse of the noise formula.", "planned")

p("C135", "Signal to noise from m5",
  "calc_gamma is below 0.04, and at least zero if the source at m5 has enough counts. calc_snr_m5 is five at m5 for each gamma, and decreases with magnitude for gamma from 0 to 0.04; for negative gamma faint sources have no value. With the gamma of the same camera and m5 of a five sigma source it agrees with calc_snr_sed for flat sources.",
  "every magnitude, m5, gamma and camera", "All real arguments.",
  [SN_ + "calc_gamma", SN_ + "calc_snr_m5"], "Flux ratio as a power of ten.", "planned")

p("C136", "Magnitude errors",
  "The error of mag_error_from_snr is the shift in magnitude by one sigma of the flux; it is positive and decreases with snr. calc_mag_error_m5 and calc_mag_error_sed are at least the systematic error and at least the photometric error, and at most their sum.",
  "every signal to noise ratio and systematic error", "All real arguments.",
  [SN_ + "mag_error_from_snr", SN_ + "calc_mag_error_m5", SN_ + "calc_mag_error_sed"], "Root of a sum of squares.", "planned")

p("C137", "Astrometric error",
  "calc_astrometric_error at m5 for one visit has random part fwhm / 5. The error is above the floor, grows with magnitude, and the square of its random part is inversely proportional to the number of visits.",
  "every magnitude, m5, fwhm, positive number of visits and floor", "All real arguments.",
  [SN_ + "calc_astrometric_error"], "Monotone steps.", "planned")

p("C138", "The zeropoint is the magnitude of one count per second",
  "A source of magnitude calc_zp_t gives one count in the whole visit. The documented one count per second is given only if the visit takes one second; the zeropoint grows by 2.5 log10 of the factor of exposure time.",
  "every bandpass and camera", "All cameras.",
  [PU + "bandpass.py:Bandpass.calc_zp_t"], "Linearity of counts.", "planned")

p("C139", "Predicted zeropoints",
  "predicted_zeropoint at airmass 1 and one second is its table value, is lower for larger airmass, and grows by 2.5 log10 of the factor of exposure time.",
  "every airmass, band and exposure time", "All real arguments.",
  [PU + "predicted_zeropoints.py:predicted_zeropoint"], "Sign of the table of coefficients.", "planned")

p("C140", "Dust dims every wavelength of the extinction law",
  "setup_ccm_ab and setup_o_donnell_ab followed by add_dust should dim every wavelength from 91 to 3333 nm. For r_v from 1 to 8 exactly these are dimmed, apart from the wavelength 1000/5.9 nm, which lies in a hole of the law; for r_v of 10 the far ultraviolet is brightened. The extinction at 1.82 inverse microns is a_v.",
  "every wavelength, positive a_v and r_v from 1 to 8", "All real wavelengths and parameters; polynomials of the tenth degree.",
  [PU + "sed.py:Sed.setup_ccm_ab", PU + "sed.py:Sed.setup_o_donnell_ab", PU + "sed.py:Sed.add_dust"], "Positivity of polynomials by Bernstein certificates.", "planned")

p("C141", "Dust acts by magnitudes",
  "add_dust multiplies the flux by 10^(-0.4 A) with the extinction A in magnitudes. Two layers of dust act as one of the sum, no dust changes nothing, and dust of opposite sign undoes it.",
  "every spectrum, extinction and r_v", "All spectra and parameters.",
  [PU + "sed.py:Sed.add_dust"], "Exponential of a sum.", "planned")

p("C142", "add_dust rejects contradictory parameters",
  "a_v, ebv and r_v can be given in three ways that agree. Contradictory values should be rejected; this holds if r_v is not 3.1. For r_v of 3.1, also if given explicitly, another r_v is used.",
  "every a_v, ebv and r_v", "All real parameters.",
  [PU + "sed.py:Sed.add_dust"], "Case distinction.", "planned")

p("C143", "Extinction of DustValues",
  "The stored value for a bandpass lies between the extinctions at its wavelengths and is positive for bandpasses from 170 to 3330 nm. Multiplied by ebv it should be the extinction for ebv; for a reference other than ref_ebv = 1 the stored value is not divided by it.",
  "every bandpass with steps up to 1 nm at its ends and r_v from 1 to 8", "All bandpasses.",
  [PU + "photometric_parameters.py:DustValues.__init__"], "Bounds of calc_flux.", "planned")

p("C144", "read_throughput reads what is in the file",
  "After read_throughput the bandpass has the points of the file, in order of wavelength, each once, whatever the order of the rows. It raises exactly if two rows have the same wavelength.",
  "every list of rows", "All files.",
  [PU + "bandpass.py:Bandpass.read_throughput"], "Sorting.", "planned")

p("C145", "Resampled bandpasses follow the old ones",
  "resample_bandpass interpolates linearly: it agrees with the old values at its nodes, is zero outside, and stays in the range of the old values. On its own uniform grid nothing changes. Both ends are part of the new grid if the width is a whole number of steps.",
  "every curve and grid", "All curves and grids.",
  [PU + "bandpass.py:Bandpass.resample_bandpass"], "Induction over the nodes.", "planned")

p("C146", "read_throughput_list multiplies the components",
  "The throughput of a list of components is at each wavelength the product of their throughputs. It does not depend on their order, lies between 0 and 1, and a further component does not raise it.",
  "every list of components that overlap the grid", "All lists of curves.",
  [PU + "bandpass.py:Bandpass.read_throughput_list"], "Fold over components.", "planned")

p("C147", "multiply_throughputs multiplies at equal wavelengths",
  "multiply_throughputs should give at each wavelength of the bandpass the product with the other curve at this wavelength. This holds on uniform grids; on others the other curve is taken at other wavelengths.",
  "every pair of curves", "All curves.",
  [PU + "bandpass.py:Bandpass.multiply_throughputs"], "The grid is built from the first step.", "planned")

p("C148", "imsim_bandpass has a single wavelength",
  "imsim_bandpass should have throughput 1 at one wavelength of the grid, the nearest to the one asked for, and 0 elsewhere. There is at most one, and it is the nearest; if the one asked for is in the middle of two, there is none.",
  "every wavelength and uniform grid", "All grids.",
  [PU + "bandpass.py:Bandpass.imsim_bandpass"], "Distances of grid points.", "planned")

p("C149", "Effective wavelengths lie in the bandpass",
  "Both values of calc_eff_wavelen lie between the smallest and the largest wavelength, and the one by phi is at most the one by throughput.",
  "every non-negative throughput", "All curves.",
  [PU + "bandpass.py:Bandpass.calc_eff_wavelen"], "Cauchy-Schwarz for sums.", "planned")

p("C150", "read_sed_flambda gives the contents of the file",
  "Every read, by a name with or without .gz and with or without cache_sed, gives the contents of the file. This holds while no file changes. A file that changes after it was read with cache_sed is given with its old contents, even with cache_sed=False.",
  "every sequence of reads and changes of files", "All sequences.",
  [PU + "sed.py:Sed.read_sed_flambda", PU + "sed.py:cache_LSST_seds"], "Invariant of the caches.", "planned")

p("C151", "renormalize_sed gives the value asked for",
  "renormalize_sed should scale the spectrum so that its value at lambdanorm, or its mean over the gap, is normvalue. This holds for normflux flambda if wavelen_step is given. With the default wavelen_step it always raises AttributeError, and for normflux fnu it always raises; multiply_sed raises without wavelen_step too.",
  "every spectrum, wavelength, value and gap", "All spectra.",
  [PU + "sed.py:Sed.renormalize_sed", PU + "sed.py:Sed.multiply_sed"], "Interpolation is linear in the values.", "planned")

p("C152", "Written spectra can be read again",
  "The wavelengths of a file written by write_sed are off by at most 0.005 nm and increase if the steps are at least 0.01 nm. For steps below 0.005 nm they need not. With print_fnu the loop raises after two lines for three or more wavelengths.",
  "every grid of wavelengths", "All grids.",
  [PU + "sed.py:Sed.write_sed"], "Rounding.", "planned")

p("C153", "Defaults of PhotometricParameters",
  "Each parameter is the one given, or the default of the bandpass, which is that of any without bandpass. Defaults differ between bandpasses only in sigma_sys. For another bandpass the constructor raises if any of the nine parameters is missing, though a comment says that the values of any are used.",
  "every bandpass and set of parameters given", "All combinations.",
  [PU + "photometric_parameters.py:PhotometricParameters.__init__", PU + "photometric_parameters.py:DefaultPhotometricParameters"], "Case distinction.", "planned")

p("C154", "Apparent magnitudes shift with H",
  "Changing the H of an object by d changes every apparent magnitude of AppMagStacker and of CometAppMagStacker by d. A comet is brighter than its nucleus and than its coma, by the sum of the two fluxes.",
  "every observation, H and d", "All real values.",
  [G + "mo_stackers.py:AppMagStacker._run", G + "mo_stackers.py:CometAppMagStacker._run"], "Rules for powers and logarithms.", "planned")

p("C155", "The coma has the magnitude of its Afrho",
  "The coma should have the flux F_sun * Afrho * rho / (2 rh delta)^2 with all lengths in the same unit. The distance is in metres, the other lengths in cm: the coma is 10 magnitudes too bright.",
  "every observation and comet", "All real values.",
  [G + "mo_stackers.py:CometAppMagStacker._run"], "The factor of the unit.", "planned")

p("C156", "Comet types",
  "CometAppMagStacker takes short, oort, mbc or a dict. A dict with the documented keys k and afrho1_const should be accepted; it raises, the key read is Afrho1_const.",
  "every dict", "All dicts.",
  [G + "mo_stackers.py:CometAppMagStacker.__init__"], "Case distinction.", "planned")

p("C157", "Signal to noise of moving objects",
  "The SNR of SNRStacker is 5 at m5 and falls with magnitude. It should be that of calc_snr_m5; it is so at m5 only. Elsewhere it is the SNR of a magnitude 1.25 times as far from m5.",
  "every magnitude, m5 and gamma from 0 to 0.04", "All real values.",
  [G + "mo_stackers.py:SNRStacker._run"], "Powers of ten.", "planned")

p("C158", "Visibility of moving objects",
  "vis is 0 or 1, an observation is visible with probability 1/2 at m5 and a fainter magnitude is never more visible for the same random number. Random numbers are used in order over all calls. So a brighter H need not be visible in all observations in which a fainter H is.",
  "every sequence of calls and stream of random numbers", "All sequences.",
  [G + "mo_stackers.py:SNRStacker._run"], "Induction over calls.", "planned")

p("C159", "Ecliptic coordinates of observations",
  "EclStacker gives a latitude from -90 to 90 and a longitude from 0 to 360 degrees whose unit vector is that of ra and dec rotated by the obliquity. The equinox has longitude 0 and the ecliptic pole latitude 90.",
  "every ra and dec", "All real angles.",
  [G + "mo_stackers.py:EclStacker._run"], "Polar form of the rotated vector.", "planned")

p("C160", "Phase functions",
  "phase__log_linear dims by slope magnitudes per degree. phase_hg is 1 at opposition, positive, and falls with the phase angle below 180 degrees for G from 0 to 1.",
  "every phase angle and G from 0 to 1", "All real values.",
  [G + "mo_phase.py:phase__log_linear", G + "mo_phase.py:phase_hg"], "Monotonicity of exp and tan.", "planned")

p("C161", "Effective exposure times add up",
  "t_eff is the time in fiducial conditions that gives the depth of the visit, and 1 per second if normed. The t_eff of coadded visits is the sum of theirs.",
  "every depth and list of visits", "All real depths.",
  [G + "teff_stacker.py:compute_teff", G + "sn_stacker.py:CoaddStacker.m5_coadd"], "Powers of ten.", "planned")

p("C162", "Coadded depths",
  "m5_coadd adds inverse variances. It does not depend on the order, is deeper than each visit if there are two or more, by 1.25 log n for n equal visits, and coadding coadds gives the coadd of all.",
  "every list of depths", "All lists.",
  [G + "sn_stacker.py:CoaddStacker.m5_coadd"], "Powers of ten.", "planned")

p("C163", "CoaddStacker has one row per field, band and night",
  "The result should have one row for each position, band and night, and the total exposures and times should stay the same. This holds if different positions are at least 1e-5 apart. Visits closer than this are counted in the row of each position.",
  "every list of visits", "All lists.",
  [G + "sn_stacker.py:CoaddStacker._run", G + "sn_stacker.py:CoaddStacker.fill"], "Sums over groups.", "planned")

p("C164", "Altitude and azimuth",
  "ra_dec2_alt_az gives the altitude and the azimuth, from north over east, of the direction. wrap_ra gives the same angle from 0 to 2 pi.",
  "every direction, latitude and hour angle", "All angles.",
  [G + "coord_stackers.py:ra_dec2_alt_az", G + "coord_stackers.py:wrap_ra"], "Spherical trigonometry.", "planned")

p("C165", "Units of galactic coordinates",
  "GalacticStacker should give degrees for degrees=True, as its units say; it always gives radians.",
  "every position", "All positions.",
  [G + "coord_stackers.py:GalacticStacker._run"], "Case distinction.", "planned")

p("C166", "Normalised airmass is at least 1",
  "The normairmass of a visit above the horizon is at least 1, and 1 on the meridian only.",
  "every declination, latitude and hour angle", "All angles.",
  [G + "general_stackers.py:NormAirmassStacker._run"], "Addition formula.", "planned")

p("C167", "Optimal depth",
  "m5_optimal is at least the depth, and equal only at the smallest airmass. The sky should stay the same with the moon up and in twilight. It does with the moon up; the altitude of the sun in degrees is compared with radians, so in twilight it does not.",
  "every visit", "All real values.",
  [G + "m5_optimal_stacker.py:M5OptimalStacker._run"], "Signs of the terms.", "planned")

p("C168", "Columns of M5OptimalStacker",
  "cols_req should have all columns that the stacker reads. The depth is missing.",
  "the default columns", "A fixed list, but with an effect on every query.",
  [G + "m5_optimal_stacker.py:M5OptimalStacker.__init__"], "Lists.", "planned")

p("C169", "Largest distance of NEOs",
  "MaxGeoDist should be the distance up to which the object is seen, so that deeper visits do not have smaller ones. It is the first distance at which it is too faint, and 0 if it is seen at all distances, so for the deepest visits it is smallest.",
  "every visit and list of distances", "All lists.",
  [G + "neo_dist_stacker.py:NEODistStacker._run"], "Minimum of a filtered list.", "planned")

p("C170", "Positions of NEOs",
  "NEOHelioX and NEOHelioY are at distance MaxGeoDist from the earth at (0, 1), R is the distance from the sun, and alpha the angle between sun and earth. X is flipped for azimuths above the limit, whatever the azimuth of the sun; for azimuths from 0 to 360 degrees the limit is pi.",
  "every elongation, distance and azimuth", "All real values.",
  [G + "neo_dist_stacker.py:NEODistStacker._run"], "Law of cosines.", "planned")

p("C171", "Area labels",
  "A visit gets the label of the area exactly if the mean of the footprint over its healpixels reaches the threshold, so always for the whole sky. Visits without healpixels get NULL.",
  "every footprint, threshold and visit", "All footprints.",
  [G + "label_stackers.py:WFDlabelStacker._run"], "Case distinction.", "planned")

p("C172", "Labels of deep drilling fields",
  "Visits of a deep drilling field should have a label unique to the field. This holds for names of at most 15 characters that do not end in u. Longer ones are cut, and a name that ends in u is merged with what follows.",
  "every note", "All strings.",
  [G + "label_stackers.py:WFDlabelStacker.define_ddname", G + "label_stackers.py:WFDlabelStacker._run"], "Induction over the name.", "planned")

p("C173", "Refraction offsets and moments",
  "The offsets of DcrStacker have the size of the band times tan z along the parallactic angle. The moments of Dcr2Stacker add up to dcr_var, are those of a line in this direction, and at 45 degrees the total is the value of the band.",
  "every zenith distance and parallactic angle", "All angles.",
  [G + "general_stackers.py:DcrStacker._run", G + "general_stackers.py:Dcr2Stacker._run"], "Trigonometry.", "planned")

p("C174", "Dcr2Stacker uses the stackers given",
  "A zstacker and a pastacker given to Dcr2Stacker should be used. With a zstacker it raises AttributeError when run.",
  "every stacker", "All stackers.",
  [G + "general_stackers.py:Dcr2Stacker.__init__"], "Case distinction.", "planned")

p("C175", "What set_orbits stores",
  "A data frame is accepted exactly if it is not empty, has one of the formats COM, KEP and CAR with all its elements, and its epochs are between 1800 and 2200; all given columns are stored, with H = 20, g = 0.15 and ids 0, 1, ... where they are missing. Only the first epoch is checked.",
  "every data frame of orbits", "Frames with any columns and any number of rows.",
  [MO + "orbits.py:Orbits.set_orbits"], "Case distinction over the columns.", "planned")

p("C176", "set_orbits changes nothing else",
  "When a frame is refused the object stays as it was; the frame of the caller is not changed, so it can be used again with the same outcome. Only the orbits stay; the format of the object can change, the frame of the caller loses FORMAT, and it can then be refused or give other spectra.",
  "every object and data frame", "Sequences of calls.",
  [MO + "orbits.py:Orbits.set_orbits"], "State after each exit.", "planned")

p("C177", "Comparison of orbits",
  "Two Orbits are equal exactly if they have the same orbits. Objects with the same orbits are equal; but only formats and ids are compared, one orbit equals many with its id, and new objects raise KeyError.",
  "every pair of objects", "All pairs.",
  [MO + "orbits.py:Orbits.__eq__"], "First turn of the loop.", "planned")

p("C178", "Items of Orbits",
  "o[i] has row i and the format of o, and iterating gives all items in order. It is refused for frames that have a column of another format as well, or rows with odd epochs.",
  "every object and index", "All objects.",
  [MO + "orbits.py:Orbits.__getitem__", MO + "orbits.py:Orbits.__iter__"], "From C175.", "planned")

p("C179", "Spectra of orbits",
  "assign_sed gives each object C.dat or S.dat: S below 2 au, C from 4 au, and between them C with probability a/2 - 1, by its own axis and its own random number. The seed given should fix the result; it is ignored once numbers were drawn.",
  "every frame and random stream", "All streams.",
  [MO + "orbits.py:Orbits.assign_sed"], "Inequalities.", "planned")

p("C180", "Header of orbit files",
  "read_orbits skips the lines before the first one with a number in its fourth column and takes the names from the last of them. This should hold for every delimiter; lines are always split at blanks, so with commas no orbits are read.",
  "every file", "Files with any lines.",
  [MO + "orbits.py:Orbits.read_orbits"], "Induction over the lines.", "planned")

p("C181", "Names of columns in orbit files",
  "read_orbits gives each column its standard name, and refuses two columns for one quantity. S3MID and objid(int) are not recognised because of a missing comma.",
  "every list of columns", "All lists.",
  [MO + "orbits.py:Orbits.read_orbits"], "Induction over the groups of names.", "planned")

p("C182", "Negative inclinations",
  "Orbits with negative inclinations should be refused with ValueError. With ids they are read, and without ids there is a KeyError.",
  "every frame", "All frames.",
  [MO + "orbits.py:Orbits.read_orbits"], "Case distinction.", "planned")

p("C183", "update_orbits",
  "update_orbits replaces the elements and keeps ids, spectra and magnitudes. H and g are not kept when the new frame lacks them.",
  "every object and new frame", "All frames.",
  [MO + "orbits.py:Orbits.update_orbits"], "From C175.", "planned")

p("C184", "Times of rough positions",
  "DirectObs has, for each visit, a rough position at a time that is not before the visit and less than one step after it.",
  "every range of times and step", "All real times and steps.",
  [MO + "direct_obs.py:DirectObs.run"], "Floor, ceiling and sorted search.", "planned")

p("C185", "Rows of DirectObs",
  "The output has, for each object in order, one row for each visit that its rough position is near to and that has its exact position in the field of view, in the order of the visits. All values of the row are those of this object and this visit, and no pair occurs twice.",
  "every list of objects and visits", "All lists and ephemerides.",
  [MO + "direct_obs.py:DirectObs.run"], "Induction over the objects; indices of indices.", "planned")

p("C186", "DirectObs finds all observations",
  "Every visit that has an object in the field of view is found. It is if the object moves by at most rough_tol - r_fov in one step; the rough cut leaves out the size of the field, so that with a tolerance smaller than the field even objects at rest are lost.",
  "every motion and visit", "All motions.",
  [MO + "direct_obs.py:DirectObs.run", MO + "base_obs.py:BaseObs._sso_in_circle_fov"], "Triangle inequality.", "planned")

p("C187", "Positions computed before",
  "With positions computed before, the one at the nearest time is used for each visit, they are used exactly if their times enclose those of the visits, and the tolerance bounds the moves to the neighbouring times.",
  "every sorted list of times", "All lists.",
  [MO + "direct_obs.py:DirectObs.run"], "Sorted search.", "planned")

p("C188", "Footprints",
  "An object is in the field exactly if it is within the footprint, whatever the unit of the visits and wherever on the sky. The circle is the same in both units; the rectangle ignores obs_degrees and loses objects across zero right ascension. An unknown footprint is used as a circle, but the info lacks its radius.",
  "every position, field and footprint", "All real coordinates.",
  [MO + "base_obs.py:BaseObs._sso_in_circle_fov", MO + "base_obs.py:BaseObs._sso_in_rectangle_fov", MO + "base_obs.py:BaseObs.sso_in_fov"], "Real inequalities.", "planned")

p("C189", "Trailing losses",
  "The losses are not negative, zero at rest, and grow with velocity, exposure time and better seeing. The detection loss should be greater than the SNR loss; it is so only if the trail is longer than about 0.7 times the seeing.",
  "every velocity, seeing and exposure time", "All real values.",
  [MO + "base_obs.py:BaseObs.calc_trailing_losses"], "Monotone functions.", "planned")

p("C190", "Ephemerides",
  "ephs[i][j] belongs to object i and time j by object, and to time i and object j by time, also for the velocity, which is made from the two rates. Modes and types are read without regard to case, others are refused. An error of OpenOrb should be an exception; for basic ephemerides it is ignored.",
  "every result of OpenOrb, mode and type", "All results.",
  [MO + "ooephemerides.py:PyOrbEphemerides.generate_ephemerides", MO + "ooephemerides.py:PyOrbEphemerides._convert_oorb_basic_ephs", MO + "ooephemerides.py:PyOrbEphemerides._convert_oorb_full_ephs"], "Swapped axes.", "planned")

p("C191", "Full ephemerides in DirectObs",
  "The ephemerides of either type can be written to the output. Those of type full cannot, unless a visit column has the name of one of theirs.",
  "every list of visit columns", "All lists of columns.",
  [MO + "direct_obs.py:DirectObs.run"], "Lists of names.", "planned")

p("C192", "Orbits for OpenOrb",
  "The elements packed for OpenOrb give back the orbit, with its number and type; exactly the formats KEP, COM and CAR can be packed.",
  "every orbit and format", "All real elements.",
  [MO + "ooephemerides.py:PyOrbEphemerides._convert_to_oorb_elem", MO + "ooephemerides.py:PyOrbEphemerides.convert_from_oorb_elem"], "Case distinction.", "planned")

p("C193", "Colours of observations",
  "Each row gets the colour of its spectrum in its band; there is an error exactly if one of them is not known.",
  "every list of rows and colours", "All lists.",
  [MO + "direct_obs.py:DirectObs.run"], "Invariant of the loops.", "planned")

p("C194", "Slices of spatial slicers",
  "The slice at a position has each visit within the radius of it on the sky (and in the camera footprint, if that is used) exactly once, and no other visit, wherever on the sky; visits in degrees and in radians give the same slices, and whole turns of the longitude do not matter.",
  "every position, radius up to 180 degrees and list of visits", "All real positions.",
  [S + "base_spatial_slicer.py:BaseSpatialSlicer.setup_slicer", S + "base_spatial_slicer.py:BaseSpatialSlicer._treexyz", S + "base_spatial_slicer.py:BaseSpatialSlicer._set_rad"], "Chord and angle.", "planned")

p("C195", "Slice points",
  "In the slice point given to a metric, each key has the value of that slice, or the value common to all slices. Common arrays with as many entries as there are slices are cut to one entry.",
  "every dictionary of slice points", "All values and shapes.",
  [S + "base_spatial_slicer.py:BaseSpatialSlicer.setup_slicer", S + "user_points_slicer.py:UserPointsSlicer.__init__"], "Induction over the keys.", "planned")

p("C196", "Subsets of pixels",
  "A loop over a HealpixSubsetSlicer gives the pixels of the subset in order, whatever was done before; in the subset, slices, information, metric values and masks are those of the full slicer, and outside all is masked. The subsets of a circle and of the wide-fast-deep area have exactly the pixels they should.",
  "every subset, list of visits and metric", "All subsets.",
  [S + "healpix_subset_slicer.py:HealpixSubsetSlicer.__next__", S + "healpix_subset_slicer.py:HealpixSubsetSlicer.setup_slicer", S + "healpix_subset_slicer.py:make_circle_subset_slicer", S + "healpix_subset_slicer.py:make_wfd_subset_slicer"], "Iteration invariant.", "planned")

p("C197", "Masks of subsets with several numbers per slice",
  "The metric values of a slice outside the subset are masked and the others are not, also if the metric gives several numbers per slice. That is false: the mask is laid along the wrong axis.",
  "every mask and number of values", "All masks.",
  [B + "metric_bundle.py:MetricBundle._setup_metric_values"], "Arithmetic of indices.", "planned")

p("C198", "Points of the user",
  "UserPointsSlicer refuses lists of coordinates of different lengths; otherwise slice i is at point i, in radians.",
  "every pair of coordinates", "All lists and numbers.",
  [S + "user_points_slicer.py:UserPointsSlicer.__init__"], "Case distinction.", "planned")

p("C199", "Comparison of spatial slicers",
  "Equal slicers have equal slices, a slicer is equal to itself, and comparison is symmetric. The unit of the visits and the camera are not compared, and with points of the user comparison is not symmetric.",
  "every pair of spatial slicers", "All slicers.",
  [S + "healpix_slicer.py:HealpixSlicer.__eq__", S + "healpix_subset_slicer.py:HealpixSubsetSlicer.__eq__", S + "user_points_slicer.py:UserPointsSlicer.__eq__"], "Case distinction.", "planned")

p("C200", "Metric files",
  "A file of metric values gives back values, masks, slice points, number of slices and shape, and a slicer with the parameters of the one written. Parameters that are not in slicer_init come back with their defaults, points of the user come back in radians, moving object slicers come back with all defaults, and the fill value can be replaced by another one.",
  "every slicer class, parameter and array", "All parameters.",
  [S + "base_slicer.py:BaseSlicer.write_data", S + "base_slicer.py:BaseSlicer.read_data", B + "metric_bundle.py:MetricBundle.read"], "Round trip over all classes.", "planned")

p("C201", "JSON of metric values",
  "The JSON form has one row for each unmasked value with its position in degrees, and for bins one row for each bin and a closing row with the last edge. Integers, said to be accepted, are refused; bins without a mask fail; and the call for a bundle always fails.",
  "every array, mask and slicer", "All arrays.",
  [S + "base_slicer.py:BaseSlicer.output_json", B + "metric_bundle.py:MetricBundle.output_json"], "Rows against indices.", "planned")

p("C202", "Moving object slicer",
  "The slices are the orbits in order, each with exactly the observations of that object and with the H values of the range or the H of the orbit; each observation of a known object is in exactly one slice. nslice is the number of values. Equal slicers have equal slices, except for a range that equals the list of the H of the orbits.",
  "every list of orbits, observations and H values", "All lists.",
  [S + "mo_slicer.py:MoObjSlicer._slice_obs", S + "mo_slicer.py:MoObjSlicer.__next__", S + "mo_slicer.py:MoObjSlicer.read_orbits", S + "mo_slicer.py:MoObjSlicer.__eq__"], "Iteration invariant.", "planned")

p("C203", "Compatible moving object bundles",
  "The lists of compatible bundles are the keys in order, all bundles of a list are compatible, and a new list begins only with a bundle that is not compatible with the list before. Bundles are compatible exactly if constraint and slicer agree and no stackers of the same class differ.",
  "every list of bundles", "All lists.",
  [B + "mo_metric_bundle.py:MoMetricBundleGroup._find_compatible", B + "mo_metric_bundle.py:MoMetricBundleGroup._check_compatible"], "Invariant of the loop.", "planned")

p("C204", "Values of moving object bundles",
  "After run_all the value of each bundle for each object and H value is the metric of the observations that meet its constraint, with the columns of the stackers, whatever the order of the constraints. It is masked exactly if there are no observations or the value is bad; the values of a child come from the same table and the value of its parent, and are masked exactly if the parent is masked or they are bad.",
  "every group of bundles, objects and H values", "All states of the loops.",
  [B + "mo_metric_bundle.py:MoMetricBundleGroup._run_compatible", B + "mo_metric_bundle.py:MoMetricBundleGroup.run_constraint", B + "mo_metric_bundle.py:MoMetricBundleGroup.run_all"], "Cell by cell invariant.", "planned")

p("C205", "Independence of moving object bundles",
  "A bundle in a group has the values it has alone, and the value for an H value does not depend on the other H values. The first is false if bundles have different stackers, as all stackers of the group are run for each bundle.",
  "every group of bundles", "All groups.",
  [B + "mo_metric_bundle.py:MoMetricBundleGroup._run_compatible"], "Refinement to a single bundle.", "planned")

p("C206", "Labels and children of moving object bundles",
  "The label of a bundle, if not given, tells the observations and the constraint. That is false: it never tells the observations, so that files of different observations have the same name. Summary metrics go to the children if there are any.",
  "every observation file and constraint", "All names.",
  [B + "mo_metric_bundle.py:MoMetricBundle._build_metadata", B + "mo_metric_bundle.py:MoMetricBundle.set_child_bundles"], "Strings.", "planned")

p("C207", "Equality of stackers",
  "Stackers of the same class are equal exactly if they are configured in the same way. That is so for new stackers without public methods; a stacker that was run is not equal to a new one, though the new one is equal to it, and stackers with public methods are never equal.",
  "every pair of stackers", "All attributes.",
  [G + "base_stacker.py:BaseStacker.__eq__", G + "base_stacker.py:BaseStacker._add_stacker_cols"], "Lists of attributes.", "planned")

TM_ = ME_ + "transient_metrics.py:"
p("C208", "Start of the survey of transients",
  "TransientMetric with a given survey_start begins its light curves there. That is false: with a given start there is no result at all, whatever the visits.",
  "every set of parameters and visits", "All parameters.",
  [TM_ + "TransientMetric.run"], "Stated as it is.", "planned")

p("C209", "Transients that are counted",
  "The light curve of TransientMetric rises to the peak of its filter in the given time and then declines with the given slopes. With one criterion at a time, the detected transients are exactly those seen by at least one visit, by the given number of visits before the peak, or in each section of the light curve in the given number of filters.",
  "every list of visits and set of parameters", "All visits and parameters.",
  [TM_ + "TransientMetric.run", TM_ + "TransientMetric.light_curve"], "The in-place loops against a predicate on visits.", "planned")

p("C210", "All criteria for transients",
  "A transient is counted if and only if it meets all the criteria. Those that do are counted; but others are too, as a second filter makes up for visits missing before the peak, and visits that do not see the object count as samples.",
  "every list of visits and set of parameters", "All visits and parameters.",
  [TM_ + "TransientMetric.run"], "Case distinction on the scores.", "planned")

p("C211", "Fraction of transients detected",
  "The result of TransientMetric is a fraction, at most one. That holds for one phase without visits after the end of the last whole light curve, and is false otherwise.",
  "every list of visits and set of parameters", "All visits and parameters.",
  [TM_ + "TransientMetric.run"], "Counting.", "planned")

p("C212", "Phases of transients",
  "With several phases, the visits that are taken together see the same transient. That is so for the first phase; in the others, visits of two successive transients are taken together.",
  "every visit and phase", "All visits and phases.",
  [TM_ + "TransientMetric.run"], "Floors.", "planned")

p("C213", "Phase gaps",
  "PhaseGapMetric with several periods gives evenly spaced periods from the least to the largest, and for each the length of the longest arc of phase without visits, where phases are taken modulo one; it is at most one and at least one over the number of visits.",
  "every list of times and range of periods", "All times and periods.",
  [ME_ + "phase_gap_metric.py:PhaseGapMetric.run"], "Sorted phases against arcs of the circle.", "planned")

p("C214", "Mean phase gap",
  "The mean gap is the mean over the periods looked at, for any number of periods. That is false: with equal limits there is one period, but the mean is over n_periods gaps of which the others are zero, and with one period and different limits all is NaN.",
  "every list of times and period", "All times and periods.",
  [ME_ + "phase_gap_metric.py:PhaseGapMetric.run", ME_ + "phase_gap_metric.py:PhaseGapMetric.reduce_mean_gap"], "Stated as it is.", "planned")

p("C215", "Kuiper statistic",
  "KuiperMetric gives the largest excess of the part of the angles in an arc over the part of the circle, less one angle. It does not depend on where angles are counted from, is at least zero, and zero exactly if the angles are evenly spread. That one means that all angles are the same is false: it is never one, and a single angle gives zero.",
  "every list of angles", "All lists and arcs.",
  [ME_ + "kuiper_metrics.py:KuiperMetric.run"], "Ranks against arcs.", "planned")

p("C216", "Cumulative number of visits",
  "CumulativeMetric gives the number of visits up to each night. That is so for nights with visits and after the last; between visits it is up to one more, and before the first it is one.",
  "every list of nights and point", "All nights.",
  [ME_ + "cumulative_metric.py:CumulativeMetric.run"], "Induction along the interpolation.", "planned")

p("C217", "Years covered",
  "YearCoverageMetric with its default bins gives the number of the ten years with a visit.",
  "every list of nights", "All nights.",
  [ME_ + "coverage_metric.py:YearCoverageMetric.run", ME_ + "coverage_metric.py:YearCoverageMetric.__init__"], "Bins.", "planned")

p("C218", "Uniformity of rapid revisits",
  "RapidRevisitUniformityMetric is zero exactly if the differences in the interval are evenly spread from the shortest on, and compares values scaled to lie from 0 to 1, so that it is at most one. The last is false; it is less than two.",
  "every list of times and interval", "All times.",
  [CM + "RapidRevisitUniformityMetric.run"], "Order statistics.", "planned")

p("C219", "Revisits",
  "NRevisitsMetric counts the visits that come within the given time of an earlier one; as a fraction it is less than one, and one half if all visits come in pairs. RapidRevisitMetric is one exactly if enough visits have the given times to the visits before.",
  "every list of times", "All times.",
  [CM + "NRevisitsMetric.run", CM + "RapidRevisitMetric.run"], "Induction over sorted times.", "planned")

p("C220", "Gaps and age",
  "The gaps of VisitGapMetric add up to the time from the first to the last visit. AgeMetric gives the time since the most recent visit as of a given time, masked above the limit. That holds without later visits; with one the age is negative.",
  "every list of times", "All times.",
  [CM + "VisitGapMetric.run", ME_ + "schedview_metrics.py:AgeMetric.run"], "Telescoping sum.", "planned")

CAL = ME_ + "calibration_metrics.py:"

p("C221", "Signal to noise and astrometric precision",
  "m52snr gives 5 for a star at the limiting magnitude for every gamma, is the same for gamma None and for its default, and increases with depth. astrom_precision is at least the floor and the noise, at most their sum, and decreases with better seeing and more signal.",
  "every magnitude, depth, gamma, seeing and floor", "All reals.",
  ["rubin_sim/maf/utils/astrometry_utils.py:m52snr", "rubin_sim/maf/utils/astrometry_utils.py:astrom_precision"], "Monotone functions.", "planned")

p("C222", "Uncertainty of a slope",
  "The square of sigma_slope is the least variance of any unbiased linear estimate of the slope from data with the given errors. It is NaN exactly if all points have the same x, and one more point never makes it larger.",
  "every list of points and errors", "A minimum over all estimates.",
  ["rubin_sim/maf/utils/astrometry_utils.py:sigma_slope"], "Gauss-Markov.", "planned")

p("C223", "Parallax uncertainty",
  "ParallaxMetric gives in mas the standard deviation of the best linear unbiased estimate of the parallax from both coordinates of all visits; infinite exactly without any parallax factor. Normalised, its square is the mean of the squared parallax factors with weights by precision, at most one, and one exactly if all factors are full.",
  "every list of visits", "A minimum over all estimates.",
  [CAL + "ParallaxMetric.run", CAL + "ParallaxMetric._final_sigma"], "Gauss-Markov.", "planned")

p("C224", "Proper motion uncertainty",
  "ProperMotionMetric gives in mas per year the standard deviation of the best slope from visits in filters with at least two visits. Normalised, it compares with visits that are half at the start and half at the end of the baseline, which is the best case, so it is at most one for visits within the baseline. The last holds for equal errors, and is false in general: the best dates are given out in the order of the data, and the value depends on that order.",
  "every list of visits and baseline", "All dates and errors.",
  [CAL + "ProperMotionMetric.run"], "Convexity in each date.", "planned")

p("C225", "Parallax coverage",
  "ParallaxCoverageMetric gives a value from zero to one, zero exactly if all visits have the same parallax factors. With theta_range the value is kept exactly if the angles of the bright visits cover the range, also around the circle. The last is false: visits 0.1 apart pass for a range of 0.5, and visits 2 apart do not for a range of 1. Without bright visits there is an exception.",
  "every list of visits and range", "All angles.",
  [CAL + "ParallaxCoverageMetric.run", CAL + "ParallaxCoverageMetric._theta_check", CAL + "ParallaxCoverageMetric._weighted_r"], "Weighted means; the remainder is taken modulo 2, then times pi.", "planned")

p("C226", "Degeneracy of parallax and refraction",
  "ParallaxDcrDegenMetric gives minus the correlation of the two signals, between -1 and 1, zero exactly if they are orthogonal. The calibration metrics ask for the columns that they read. The last is false for this metric: its filter column is missing.",
  "every list of visits", "All visits.",
  [CAL + "ParallaxDcrDegenMetric.run", CAL + "ParallaxDcrDegenMetric.__init__", CAL + "ParallaxMetric.__init__", CAL + "ProperMotionMetric.__init__", CAL + "ParallaxCoverageMetric.__init__"], "Inverse of the normal matrix.", "planned")

p("C227", "Precision of refraction",
  "DcrPrecisionMetric gives the standard deviation of the refraction amplitude: one over the square root of the sum of tan(zenith distance)^2/error^2 over the visits in ugrizy. The parallactic angle has no effect.",
  "every list of visits", "All visits.",
  [ME_ + "dcr_metric.py:DcrPrecisionMetric.run"], "Pythagoras.", "planned")

p("C228", "Visits to reach the best depth",
  "OptimalM5Metric gives the number of visits of median depth to add to reach the depth on the meridian, negative for spare visits. Its other forms have the same sign. SnrWeightedMetric does not depend on the magnitude of the star, and is between the least and greatest value.",
  "every list of visits", "All depths.",
  [ME_ + "optimal_m5_metric.py:OptimalM5Metric.run", ME_ + "snr_weight.py:SnrWeightedMetric.run"], "Sums of weights.", "planned")

p("C229", "Distance of visits",
  "RadiusObsMetric gives the angle between the slice point and the pointing, in the unit it names. The value is the angle in degrees from 0 to 180; that the unit is right is false, it names radians.",
  "every pair of positions", "All positions.",
  [CAL + "RadiusObsMetric.run", CAL + "RadiusObsMetric.__init__"], "Spherical cosine formula.", "planned")

p("C230", "Depth after dust",
  "ExgalM5 gives the depth of the visits, each corrected for the dust in its band; the bad value exactly without visits; deeper with more visits. False for visits in several bands: all are corrected with the filter of the first, so the order of the visits matters.",
  "every list of visits, reddening and dust law", "All depths and orders.",
  [ME_ + "exgal_m5.py:ExgalM5.run"], "Shift of a coadded depth.", "planned")

p("C231", "Cuts for weak lensing",
  "ExgalM5WithCuts gives the depth exactly where dust is low, visits in enough filters exist, the band has visits and it is deep enough. WeakLensingNvisits counts the visits longer than the limit there. RIZDetectionCoaddExposureTime gives the exposure time in the detection bands and excludes places where a band is missing. The last is false (min_bands has no effect), and visits of exactly the limit are not counted.",
  "every list of visits and limits", "All combinations of cuts.",
  [ME_ + "weak_lensing_systematics_metric.py:ExgalM5WithCuts.run", ME_ + "weak_lensing_systematics_metric.py:WeakLensingNvisits.run", ME_ + "weak_lensing_systematics_metric.py:RIZDetectionCoaddExposureTime.run"], "Case analysis.", "planned")

p("C232", "Linear model of depths",
  "SingleLinearMultibandModelMetric gives the linear combination of the depths less their means, the bad value for missing or cut depths. False with the default means: for two bands or more an exception is raised at every slice point that passes the first cuts. With a bad value of -666 and a mean a missing depth gives another number. It holds without means and cuts, or for one band.",
  "every model, list of visits and cut", "All models.",
  [ME_ + "uniformity_metrics.py:SingleLinearMultibandModelMetric.run"], "Induction over the bands.", "planned")

p("C233", "Nested linear models of depths",
  "NestedLinearMultibandModelMetric gives for each model the linear combination of six depths, NaN if a depth is missing or cut. Bands that a model does not use are ignored, and each band has its own mean. The last two are false: a band without visits gives NaN for all models; the mean of u is subtracted in all bands, another mean raises an exception. MultibandExgalM5 gives the six depths.",
  "every list of models, visits and cuts", "All models.",
  [ME_ + "uniformity_metrics.py:NestedLinearMultibandModelMetric.run", ME_ + "uniformity_metrics.py:MultibandExgalM5.run"], "Induction over the models.", "planned")

p("C234", "Exposure time of three bands",
  "NestedRIZExptimeExgalM5Metric gives the depth with cuts and the exposure time in r, i and z. The last is false: only i is counted.",
  "every list of visits", "All visits.",
  [ME_ + "uniformity_metrics.py:NestedRIZExptimeExgalM5Metric.run"], "Case analysis.", "planned")

p("C235", "Scaled galaxy and light curve counts",
  "NgalScaleMetric gives no galaxies where dust is high or depth is low, and otherwise a number from the median seeing; visits in other filters are ignored. NlcPointsMetric counts for each visit that is deep enough the stars of the filter, if the filter has at least the demanded number. False are: that other filters are ignored, and the demanded number (one more is needed).",
  "every list of visits", "All visits.",
  [ME_ + "scaling_metrics.py:NgalScaleMetric.run", ME_ + "scaling_metrics.py:NlcPointsMetric.run"], "Exchange of sums.", "planned")

p("C236", "When a template is made",
  "TemplateTime makes a template at the n-th visit, in time, that qualifies, from the first n visits that qualify; it is bad exactly if fewer qualify. A visit qualifies if its seeing is at most the scaled limit or the percentile, and its depth at least the scaled limit or the percentile. The visits with a template are those of later nights, and with the visits up to the template they are at most all visits. A template of fewer images is not later.",
  "every list of visits, limit and percentile", "All visits and limits.",
  [ME_ + "incremental_template_metric.py:TemplateTime.run"], "Induction over the visits.", "planned")

p("C237", "Depth and seeing of templates",
  "The flux limit of a template adds inverse variances of its images; the square of the seeing is the mean of squares weighted by inverse variance, so it is between the best and the worst; the variance of a difference image is the sum of both, so it is shallower than the visit and the template.",
  "every nonempty list of images", "All depths.",
  [ME_ + "incremental_template_metric.py:TemplateTime.run"], "Powers of ten.", "planned")

p("C238", "Limits for templates",
  "At the zenith, for a band at 500 nm, the limits of seeing and depth are those that are given; elsewhere they are looser for bands that are not redder. Images that are better than both percentiles always qualify.",
  "every declination, latitude and limit", "All positions.",
  [ME_ + "incremental_template_metric.py:TemplateTime.run"], "Monotonicity.", "planned")

p("C239", "Time lag of quasars",
  "AgnTimeLagMetric uses visits in g and r only if they are deeper than the cutoffs. This is false: depths, dust and cutoffs have no effect. The value for the mean is the lag over the mean gap times (1+z), bad below the threshold; fewer than two visits are bad; the logarithm does not change which values are bad; for the common divisor the value is infinite if all gaps round to zero.",
  "every list of visits with positive times", "All visits.",
  [ME_ + "agn_time_lag_metric.py:AgnTimeLagMetric.run"], "Telescoping sum.", "planned")

p("C240", "Total power",
  "TotalPowerMetric gives the sum of (2l+1) C_l over the multipoles from lmin to lmax, both included, so neighbouring ranges add; the flags remove the monopole and the dipole. The flag of the monopole is false: it has no effect.",
  "every spectrum and range", "All spectra.",
  [ME_ + "cosmology_summary_metrics.py:TotalPowerMetric.run"], "Sums over ranges.", "planned")

p("C241", "Bias of sigma8",
  "TomographicClusteringSigma8biasMetric fits the square of sigma8 by least squares to the powers of the bins, with the given error: any other value has a greater chi square, by the square of the difference over the error. Without spurious power the bias is zero; with it the bias is positive, converted or not; with c times the sky the error is smaller by the root of c. The spurious power has the same multipoles as the model, and all of the sky is a fraction of one. The last two are false.",
  "every list of bins with positive spectra", "All bins and spectra.",
  [ME_ + "cosmology_summary_metrics.py:TomographicClusteringSigma8biasMetric.run"], "Completing the square.", "planned")

p("C242", "Simple figure of merit",
  "StaticProbesFoMEmulatorMetricSimple gives a figure of merit in years 1, 3, 6 and 10 for maps with a positive value, from a grid that increases in area. This is false: there is an exception in each of these cases, and a bad value in all others; the areas of year 6 do not increase.",
  "every map, year and bad value", "All maps.",
  [ME_ + "cosmology_summary_metrics.py:StaticProbesFoMEmulatorMetricSimple.run"], "Case analysis.", "planned")

p("C243", "Bias of mean redshifts",
  "MultibandMeanzBiasMetric takes for each year the model of that year. This is false: it takes that of the next year, and fails for year ten, the default. It gives one pair of ratios for each bin, of year one and of year ten, in proportion 3 to 13; the sum of the latter over the bins is the sum of the bias of all bands and bins over the requirement.",
  "every list of bands and bins", "All bands.",
  [ME_ + "cosmology_summary_metrics.py:MultibandMeanzBiasMetric.run"], "The line fit keeps the sum.", "planned")

p("C244", "Stripes",
  "The statistic of stripes compares the relative scatter in the north and in the south, with positive values only; it does not depend on the unit, and exchange of north and south inverts one plus it. Other regions are an error. There are no stripes if its size is less than 0.7 over the root of the year, in particular for uniform maps. The last is false.",
  "every map and year", "All maps.",
  [ME_ + "cosmology_summary_metrics.py:get_stats_by_region", ME_ + "cosmology_summary_metrics.py:stripiness_test_statistic", ME_ + "cosmology_summary_metrics.py:UniformAreaFoMFractionMetric.run"], "Medians and scaling.", "planned")

p("C245", "Uniform area",
  "UniformAreaFoMFractionMetric gives one without stripes, and otherwise the figure of merit of the better of two regions over that of all, at most one if no region is better than the whole. Pixels above the cut have the labels of the clusters in order, the others none; the fractions of two labels add to one. The two regions are disjoint. The last is false for pixels below the cut.",
  "every map, clustering and figure of merit", "All maps.",
  [ME_ + "cosmology_summary_metrics.py:UniformAreaFoMFractionMetric.run"], "Induction over the pixels.", "planned")

p("C246", "Dropouts can be counted",
  "Objects of UDropoutsNumbersShallowestDepth and UDropoutsArea can be made. This is false, for any keywords.",
  "every list of keywords", "All keywords.",
  [ME_ + "cosmology_summary_metrics.py:UDropoutsNumbersShallowestDepth.__init__", ME_ + "cosmology_summary_metrics.py:UDropoutsArea.__init__"], "Case analysis.", "planned")

SC_ = "rubin_sim/selfcal/"

p("C247", "Cleaning of observations",
  "LsqrSolver.clean_data ends, and keeps the greatest part of the observations in which each star and each patch has at least two observations, whatever the order of equal keys in the sorts. This is false for a single observation, which is kept.",
  "every list of observations and every sort", "The loop runs any number of times.",
  [SC_ + "solver.py:LsqrSolver.clean_data"], "Induction over the size; the result is the greatest closed part.", "planned")

p("C248", "Numbers of stars and patches",
  "After cleaning, the rows are the observations that are kept, with patches numbered from 0 and stars from 1 in increasing order; the columns of the matrix are that of the patch, among the first, and that of the star, among the others, inside its shape.",
  "every list of observations", "All lists.",
  [SC_ + "solver.py:LsqrSolver.clean_data", SC_ + "solver.py:LsqrSolver.solve_matrix"], "Slices of sorted columns.", "planned")

p("C249", "Zero points and magnitudes",
  "The tables that LsqrSolver.return_solution gives hold each patch and star that is kept once, in increasing order, and minimise the residuals of the observations that are kept, weighted with the errors, over all zero points and magnitudes. A shift of all zero points against all magnitudes does not matter; without noise, if all observations are linked, the solution is the truth up to one shift. If nothing is kept there is an exception.",
  "every list of observations, for a solver that gives a least squares solution", "All lists.",
  [SC_ + "solver.py:LsqrSolver.solve_matrix", SC_ + "solver.py:LsqrSolver.return_solution"], "Refinement of the matrix to the sum of squares.", "planned")

p("C250", "Patches",
  "Stars nearer than the radius are in the square of patches, whatever the rotation of the camera; patches are cells of equal width, and two stars are on the same patch exactly if they are in the same visit and cell. In generate_catalog stars of different visits are on different patches. The last is false for a radius greater than the default.",
  "every position, rotation and radius", "All real positions.",
  [SC_ + "star_tools.py:stars_project", SC_ + "star_tools.py:assign_patches", SC_ + "generate_catalog.py:generate_catalog"], "Trigonometry and mixed radix digits.", "planned")

p("C251", "Observed magnitudes",
  "generate_catalog adds all offsets to the magnitude; each offset is made from the ones before it. The square of the error is that of the noise and the floor; fainter stars have greater errors. NoOffset changes nothing. False are: NoOffset, which is an exception, and offsets with the same key, which replace each other. Without offsets there is no catalog; without visits there is an exception.",
  "every list of offsets, stars and visits", "All lists.",
  [SC_ + "offsets.py:NoOffset", SC_ + "offsets.py:OffsetSNR.calc_mag_errors", SC_ + "generate_catalog.py:generate_catalog"], "Induction over the offsets.", "planned")

SAT_ = "rubin_sim/satellite_constellations/"

p("C252", "Orbital elements as text",
  "The two lines made from orbital elements have 69 characters each, hold the number of the satellite, the epoch, the inclination, the node, the mean anomaly and the mean motion in the columns of the format, and end with their checksum, for numbers of at most five digits.",
  "every number, epoch and elements within the columns", "All elements.",
  [SAT_ + "sat_utils.py:tle_from_orbital_parameters"], "Lengths of decimal texts.", "planned")

p("C253", "Constellations are complete",
  "create_constellation makes for each group of the lists the product of planes and satellites per plane, at distinct places with equal distances, numbered from 8000 without gaps; the presets have 4408, 29988 and 6372 satellites, all with numbers of five digits. Mean motion follows Kepler's third law and decreases with altitude.",
  "every list of groups and random numbers", "All groups.",
  [SAT_ + "sat_utils.py:create_constellation", SAT_ + "sat_utils.py:satellite_mean_motion", SAT_ + "sat_utils.py:starlink_tles_v1", SAT_ + "sat_utils.py:starlink_tles_v2", SAT_ + "sat_utils.py:oneweb_tles"], "Induction over groups and places.", "planned")

p("C254", "Visible satellites and maps",
  "A satellite is visible exactly if it is in the light and at or above the altitude limit. The map counts in each pixel exactly these satellites. The basis function is never positive, and uses exactly the maps from now until the end of the forecast; without any it is zero.",
  "every list of positions, times and maps", "All positions and times.",
  [SAT_ + "sat_utils.py:Constellation.update_mjd", SAT_ + "model_observatory.py:ModelObservatory._update_satellite_maps", SAT_ + "basis_function.py:SatelliteAvoidBasisFunction"], "Induction over the satellites.", "planned")

p("C255", "Maps of the night",
  "After each change of time the observatory has the maps of the night. It has the resolution asked for. Both are false in general: there are no maps in a first night of number -1, and the resolution is ignored.",
  "every sequence of times", "All sequences.",
  [SAT_ + "model_observatory.py:ModelObservatory.mjd"], "Invariant of the sequence.", "planned")

p("C256", "Streaks in visits",
  "check_pointings gives for each visit the number and the summed length of the streaks of the satellites that are above the limit and in the light at one end at least and near to the pointing; there are no streaks exactly if the length is zero. This holds for visits of any length. The last is false: visits of less than half the time step never have streaks.",
  "every list of satellites and visits", "All satellites and visits.",
  [SAT_ + "sat_utils.py:Constellation.check_pointings"], "Induction over the crossings.", "planned")

MAP_ = "rubin_sim/maf/maps/"

p("C257", "Dust values do not depend on earlier calls",
  "eb_vhp returns the value of the file of the resolution and directory of this call, whatever was called before: that of the pixel, of the nearest pixel or interpolated; DustMap uses the resolution and pixels of a healpix slicer. The map is read once for calls of the same resolution. The last is false: each call reads the file.",
  "every sequence of calls and every file", "All histories of the attributes of the function.",
  [MAP_ + "ebv_hp.py:eb_vhp", MAP_ + "dust_map.py:DustMap.run"], "State machine of the attributes.", "planned")

p("C258", "The file of the map with distances",
  "ebv_3d_hp returns the row of the file that this call asks for, in ring order and in the resolution of the file, whatever was called before. It is false: after a first map was read all calls use it, whatever file they name, and a repeated call for a file of other resolution looks at another pixel. It holds if all calls ask for the same file with its resolution.",
  "every sequence of calls and every file", "All histories of the attributes of the function.",
  [MAP_ + "ebv_3d_hp.py:ebv_3d_hp"], "Invariant of the attributes.", "planned")

p("C259", "Distance of a change of magnitude",
  "get_x_at_nearest_y gives the first of the nearest values. distance_at_dmag gives the greater of this distance and of that which with the extinction at the end of the map makes exactly the change, so that beyond the map the change is exact. One slice point and all slice points give the same. The last is false for extinctions that decrease.",
  "every list of distances and extinctions", "All real numbers.",
  [MAP_ + "ebv_3d_hp.py:get_x_at_nearest_y", MAP_ + "dust_map_3d.py:DustMap3D.distance_at_dmag"], "Induction over the list.", "planned")

p("C260", "Keys of the priority maps",
  "gp_priority_map_keys_to_components gives back the filter and the science map of gp_priority_map_components_to_keys, for all names without a colon and without the text in front; with a colon it is an exception.",
  "every pair of names", "All texts.",
  [MAP_ + "galactic_plane_priority_maps.py:gp_priority_map_components_to_keys", MAP_ + "galactic_plane_priority_maps.py:gp_priority_map_keys_to_components"], "Induction over the text.", "planned")

p("C261", "Priority maps of the galactic plane",
  "The first call of galplane_priority_map gives for each filter and science map the value of the file of the filter. The class uses the directory that it is given, and a call after missing files succeeds once they are there. Both are false: the class reads the standard directory when it is made, later directories are ignored, and after missing files all calls are exceptions.",
  "every sequence of calls and every file", "All histories of the attributes of the function.",
  [MAP_ + "galactic_plane_priority_maps.py:galplane_priority_map", MAP_ + "galactic_plane_priority_maps.py:GalacticPlanePriorityMap"], "State machine of the attributes.", "planned")

p("C262", "Maps of bundles and groups",
  "A bundle has the given maps first and then each map that its metric needs. A group runs maps of all keys, no two with the same keys. Each map of the bundles is run and a single map can be given. Both are false: maps with the same keys but other parameters or another class are left out, and a single map is an exception. StellarDensityMap gives each slice point the row of its pixel.",
  "every list of maps", "All lists of bundles.",
  [MAP_ + "base_map.py:BaseMap.__eq__", "rubin_sim/maf/metric_bundles/metric_bundle.py:MetricBundle", "rubin_sim/maf/metric_bundles/metric_bundle_group.py:MetricBundleGroup", MAP_ + "stellar_density_map.py:StellarDensityMap.run"], "Induction over the list.", "planned")

p("C263", "Registries of classes",
  "A metric class is found under its name: its own name inside of the package, otherwise with the package of its module in front. For maps, stackers and slicers a second definition of a name is an exception, and each class is found; base classes are left out. False in two ways: two modules of a package with metrics of the same name leave only the last, and BaseMap is in the registry of maps.",
  "every sequence of definitions of classes", "All sequences of definitions.",
  [ME_ + "base_metric.py:MetricRegistry", MAP_ + "base_map.py:MapsRegistry", "rubin_sim/maf/stackers/base_stacker.py:StackerRegistry", "rubin_sim/maf/slicers/base_slicer.py:SlicerRegistry"], "Induction over the definitions.", "planned")

p("C264", "Sources and units of columns",
  "ColInfo gives for a column the last stacker that adds it and its unit. The registry of columns has exactly the columns of all metrics since it was cleared, each either of the database or with its stacker. False for stackers with fewer units than columns: the columns without units have no source.",
  "every list of stackers and every sequence of metrics", "All sequences.",
  ["rubin_sim/maf/stackers/get_col_info.py:ColInfo", ME_ + "base_metric.py:ColRegistry"], "Invariant of the registry.", "planned")

p("C265", "Names, types and units of metrics",
  "A given name, type or unit is used. Otherwise metrics of one class with different columns have different names, the type is object if there are reduce functions and float otherwise, and the units are those of the columns. Names are unique and each metric can be made. The last two are false: classes whose names differ by the word Metric have the same names, and columns with the unit None are an exception.",
  "every class and list of columns", "All texts.",
  [ME_ + "base_metric.py:BaseMetric.__init__"], "Induction over the columns.", "planned")

p("C266", "Reduce functions of a metric",
  "Each function with reduce_ in front of its name is found under the rest of its name, has its place in the alphabetical list of methods, and makes a bundle with the name of the metric and of the function. This holds for all functions with reduce in front. The last is false: without the underscore one function can replace another, and reduce_ within a name is an exception.",
  "every list of methods", "All names of methods.",
  [ME_ + "base_metric.py:BaseMetric.__init__", "rubin_sim/maf/metric_bundles/metric_bundle.py:MetricBundle.reduce_metric"], "Induction over the methods.", "planned")

p("C267", "Reading reduced metrics",
  "read_all restores the files of a group, with the reduced metrics. It is false: it succeeds exactly if no file of a reduced metric is there, and then gives the files of the metrics that are there; file names of functions without the underscore differ. The order of the time scales of GalPlaneVisitIntervalsTimescaleMetric is that of the list; for GalPlaneSeasonGapsTimescaleMetric it is alphabetical.",
  "every group and every set of files", "All groups.",
  ["rubin_sim/maf/metric_bundles/metric_bundle_group.py:MetricBundleGroup.read_all", ME_ + "galplane_time_sampling_metrics.py:GalPlaneSeasonGapsTimescaleMetric"], "Induction over the bundles.", "planned")

p("C268", "Footprint of the galactic plane",
  "A point is left out exactly if its priority does not exceed the threshold of the science map. Otherwise the metric gives the number of visits in the filters that are deep enough for their filter, the sum of the priorities of their filters, and the priority of the point. The function of a time scale gives the priority exactly if there are enough visits for two in each interval of the season in ten years; more visits or longer time scales never lower it.",
  "every map, filter list and set of visits", "All sets of visits and all priorities.",
  [ME_ + "galactic_plane_metrics.py:GalPlaneFootprintMetric", ME_ + "galactic_plane_metrics.py:galplane_nvisits_thresholds"], "Exchange of the sums over filters and visits.", "planned")

p("C269", "Exposure time per filter in the galactic plane",
  "The value of a filter is its share of the exposure time over its share of the priority; weighted with those shares the values add up to one, and only proportions of times matter. Without any time all are zero. A filter in which nothing is expected gives one, and the functions of all six filters work with each filter list. The last two are false: such a filter is masked, and a function of a filter not in the list is an exception.",
  "every map, filter list and set of visits", "All sets of visits and all priorities.",
  [ME_ + "galactic_plane_metrics.py:GalPlaneTimePerFilterMetric"], "Algebra of the sums.", "planned")

p("C270", "Visit intervals in the galactic plane",
  "The value of a time scale is the mean of a weight of the intervals between successive visits that are deep enough: above zero, at most one, and one exactly if no interval is longer than the time scale. It rises with the time scale, and does not depend on the order of visits or the origin of time. A visit more between others does not lower it. The last is false: the mean can fall.",
  "every list of visits and time scales", "All real times.",
  [ME_ + "galplane_time_sampling_metrics.py:GalPlaneVisitIntervalsTimescaleMetric", ME_ + "galplane_time_sampling_metrics.py:calc_interval_decay"], "Properties of the exponential, induction over the intervals.", "planned")

p("C271", "Season gaps in the galactic plane",
  "The gaps are those between successive visits of different seasons; the value of a time scale is above zero, at most one, and one exactly if each gap is within the expected gap or the time scale. There is none exactly if all visits are in one season. Visits below mag_limit do not count, the metric names the maps it needs, and the data are left as they are. The last three are false: the limit is not used, no map is named, and the times are sorted in place without the other columns.",
  "every list of visits and time scales", "All real times and monotone seasons.",
  [ME_ + "galplane_time_sampling_metrics.py:GalPlaneSeasonGapsTimescaleMetric"], "From the theorem of the edges of seasons.", "planned")

SB_ = "rubin_sim/skybrightness/"
p("C272", "Weights of the sky templates",
  "The weights of the grid points to the right and left of a point add up to one; within the grid the weighted value is that of the straight line between the neighbours, exact at grid points and within the bounds of the values. Out of the grid a component gives nothing. Points off the grid use the grid point at the edge. The last is false: below the grid the line through the first and the last grid point is followed.",
  "every increasing grid, table and point", "All grids and points of an ordered field.",
  [SB_ + "interp_components.py:BaseSingleInterp._indx_and_weights", SB_ + "interp_components.py:BaseSingleInterp._weighting"], "The place of a point in a sorted list, then algebra.", "planned")

p("C273", "Sky templates in two dimensions",
  "Airglow is interpolated in solar flux and then in airmass, for a table in this order, and is zero out of either range. The weights of the neighbouring pixels of the zodiacal light, without those not in the map, add up to one; with all pixels in the map the result is the mean of the interpolations in airmass with these weights.",
  "every grid and table", "All grids, tables and points.",
  [SB_ + "interp_components.py:Airglow._weighting", SB_ + "interp_components.py:ZodiacalInterp._weighting"], "From C272.", "planned")

p("C274", "Spectra and magnitudes of the sky templates",
  "The magnitude of the flux that is made of an interpolated magnitude is that magnitude. At grid points the spectrum is the stored one, and it is between the stored ones elsewhere. The last two are false: the stored value one becomes zero, and a flux of zero is taken for one in its neighbourhood.",
  "every increasing grid and table of spectra", "All real spectra.",
  [SB_ + "interp_components.py:BaseSingleInterp.interp_spec", SB_ + "interp_components.py:BaseSingleInterp.interp_mag"], "Properties of the logarithm, from C272.", "planned")

p("C275", "Twilight and identifiers",
  "Twilight is positive, rises with the sun, is the same on both sides of the sun and never darker towards the sun; with the dark sky it is the function of the zenith at the zenith. id2intid numbers identifiers by their order, and intid2id takes the numbers back, whatever the sort does with equal identifiers.",
  "every fit, point and list of identifiers", "All real points and all lists.",
  [SB_ + "twilight_func.py:twilight_func", SB_ + "interp_components.py:id2intid", SB_ + "interp_components.py:intid2id"], "Monotonicity of powers; induction over the keys.", "planned")

p("C276", "Angles of the sky model",
  "wrap_ra gives the angle in [0, 2 pi) that differs by full turns; the azimuth relative to the moon is in [0, pi] with the cosine of the difference, whichever comes first; airmass and altitude are inverse to each other. set_params in degrees is set_params of the same angles in radians. The last is false for moon_targ_sep, which uses the azimuth of the moon in degrees as if in radians.",
  "every angle and parameter", "All real angles.",
  [SB_ + "utils.py:wrap_ra", SB_ + "sky_model.py:calc_az_rel_moon", SB_ + "sky_model.py:SkyModel.set_params"], "Floor and periodicity of the cosine.", "planned")

p("C277", "Sum of the components of the sky",
  "At points in the range of airmass the sky is the sum of the components that are on, elsewhere not a number; components can be turned off and on between calls; with a limit of at most 2.5 points where a component is empty have no sky. Turning on a component that was off at construction is an exception. The last is false with points out of range: the wrong points are emptied.",
  "every list of points, components and switches", "All lists; the components are arbitrary functions.",
  [SB_ + "sky_model.py:SkyModel._interp_sky"], "Induction over the components with the mask and the sums as state.", "planned")

p("C278", "State and magnitudes of the sky model",
  "After a successful call the spectra and magnitudes returned are those of the points of that call. The magnitude of the sum of components does not depend on the constant of the conversion, is that of the template for one component, falls with every further component and shifts with the templates. The first is false for set_params: with no point in range the old spectra are returned, and on a new object with mags=False the magnitudes are an exception.",
  "every sequence of calls and list of magnitudes", "All states and real magnitudes.",
  [SB_ + "sky_model.py:SkyModel.set_params", SB_ + "sky_model.py:SkyModel.set_ra_dec_mjd", SB_ + "sky_model.py:SkyModel.return_wave_spec", SB_ + "sky_model.py:SkyModel.return_mags"], "State machine; properties of the logarithm.", "planned")

p("C279", "Times of the pre-computed sky",
  "The times kept by generate_sky are increasing and among those asked for, with the last and every third. Each time that is left out is between neighbouring times kept that are less than timestep_max apart, and its map agrees with the interpolation within dm wherever there are numbers; neighbours kept that are not neighbours in the list are less than timestep_max apart. A map can be had from its neighbours at each pixel with a number: this is false, as pixels without a number at a neighbour are not compared.",
  "every increasing list of times, maps and tolerances", "All lists of times; the maps are arbitrary.",
  [SB_ + "generate_hdf5.py:generate_sky"], "Invariant over the loop: the last five times contain all those between the last two kept.", "planned")

RC_ = "rubin_sim/maf/run_comparison/"

p("C280", "Normalised tables of metrics",
  "normalize_metric_summaries keeps the runs and metrics in their order and gives for each the ratio to the baseline, the inverse ratio, or one plus or minus the difference for magnitudes; the baseline of several runs is the median of their numbers; the name for the reference is never that of a run; an unknown baseline is an exception. normalize_for_radar gives the same values. Above one is an improvement. The last two are false: below zero the ratio is reversed, and reversing a column that is not in magnitudes changes nothing.",
  "every table, baseline and set of flags", "All tables over an ordered field.",
  [RC_ + "summary_plots.py:normalize_metric_summaries", RC_ + "radar_plot.py:normalize_for_radar"], "Lookup in the table with the added row; pigeonhole for the fresh name.", "planned")

p("C281", "Selection of runs and metrics",
  "get_metric_summaries returns exactly the runs and metrics of the summary that are asked for by name or by family, in the order of the summary without repetition if that order is asked for, and everything if nothing is asked for; a run that is not there is left out in the order of the summary and an exception in that of families. Each run is there once: this is false in the order of families.",
  "every summary, list of runs, families and metrics", "All lists.",
  [RC_ + "archive.py:get_metric_summaries"], "Induction over the removal of missing metrics.", "planned")

p("C282", "Runs of families",
  "The tables of get_family_runs and get_runs have the same content: a run is listed with a family exactly if the family has it. Each run has one row: this is false for a run with different descriptions in two families.",
  "every set of families", "All lists of families and runs.",
  [RC_ + "archive.py:get_family_runs", RC_ + "archive.py:get_runs"], "Membership in the flattened and grouped lists.", "planned")

p("C283", "Gathering of summaries",
  "combine_result_dbs gives for each run and name the last number among the rows of the databases, in the order of the directories. A directory without a database is an exception. Names of metrics have single blanks and are different for different metrics: both are false, for metrics with two empty parts and for metrics with the same words.",
  "every list of databases", "All lists of rows.",
  [RC_ + "gather_summaries.py:combine_result_dbs", RC_ + "summary_plots.py:plot_run_metric"], "Induction over the rows.", "planned")

MTR_ = "rubin_sim/maf/metrics/"

p("C284", "Errors from crowding",
  "The crowding error of each bin of magnitude is the best seeing times the root of the summed squared fluxes of all stars that are as faint or fainter, over the flux; it is in proportion to the seeing. At a single magnitude it is the linear interpolation of the errors of the bins, equal to that of the bin at a bin, and an exception outside of the bins.",
  "every luminosity function and seeing", "All lists of magnitudes and counts; real numbers.",
  [MTR_ + "crowding_metric.py:_comp_crowd_error", MTR_ + "crowding_metric.py:CrowdingMagUncertMetric"], "Sums from the end of a list; scaling of the interpolation.", "planned")

p("C285", "Limits from crowding and numbers of stars",
  "The error of each bin up to the limit of CrowdingM5Metric is below the one given, and better seeing never makes the limit brighter; more visits never lower the number of stars of NstarsMetric. StarDensityMetric does not fall with the magnitude and is the bad value outside of the map. The limit is the last bin below the error, and the limit from depth has the error given: both are false; the first is a bin early, at the second the error is 1.19 times as large.",
  "every luminosity function, list of visits and threshold", "All lists; real numbers.",
  [MTR_ + "crowding_metric.py:CrowdingM5Metric.run", MTR_ + "crowding_metric.py:NstarsMetric.run", MTR_ + "star_density.py:StarDensityMetric.run"], "First index above a threshold, monotone interpolation and coadded depth.", "planned")

p("C286", "Nights with a colour and a slope",
  "ColorSlopeMetric counts the nights whose visits above the depths given have two visits in different filters at most color_length apart in time, and two in one filter at least slope_length apart. The columns are those given to the metric: this is false, the check always reads the default names.",
  "every list of visits", "All lists of visits over an ordered field.",
  [MTR_ + "color_slope_metrics.py:CheckColorSlope", MTR_ + "color_slope_metrics.py:ColorSlopeMetric.run"], "Least and greatest elements of the gaps; grouping by night.", "planned")

p("C287", "Pairs of nights with a colour and a slope",
  "ColorSlope2NightMetric counts the pairs of nights n, n+1 whose visits have a colour and a slope. Visits of one night count once: this is false, the night is in two pairs.",
  "every list of visits", "All lists of visits.",
  [MTR_ + "color_slope_metrics.py:ColorSlope2NightMetric.run"], "Floor and ceiling of half of the night number the pairs from even and odd nights.", "planned")

p("C288", "Vendors and uses",
  "ChipVendorMetric gives 1 or 2 if all chips are of that vendor and 3 if there are both; no use known to UseMetric is the start of another, and the use of a visit is the only one that its note starts with. The metric can be run on slices: this is false, arrays are an exception; without chips the vendor is 3.",
  "every list of chips and note", "All strings.",
  [MTR_ + "chip_vendor_metric.py:ChipVendorMetric", MTR_ + "use_metrics.py:UseMetric"], "Prefixes of one string are comparable.", "planned")

p("C289", "Cadence of SNCadenceMetric",
  "The cadence is the number of days over the number of visits, and zero for visits in one day; the metric reads only the columns it declares. Both are false: the visits of the last day are not counted, and the columns filter, fieldRA and fieldDec are read but not declared.",
  "every list of times", "All lists of times.",
  [MTR_ + "sn_cadence_metric.py:SNCadenceMetric"], "The counts of the bins add up.", "planned")

WB_ = "rubin_sim/maf/web/"

p("C290", "Selection of metrics on the page",
  "The metrics shown are exactly those whose group and subgroup or whose id is asked for, each once; the value of the form stands for its group and subgroup; the table of groups has each group and subgroup of the metrics once; old and new names of plots find each other; names keep the order of the metrics.",
  "every table of metrics and request", "Names come from the user, with any characters; a test has a few.",
  [WB_ + "maf_run_results.py:MafRunResults.convert_select_to_metrics", WB_ + "maf_run_results.py:MafRunResults.metrics_in_subgroup", WB_ + "maf_run_results.py:MafRunResults.metrics_with_plot_type", WB_ + "maf_run_results.py:MafRunResults.unique_metric_names", WB_ + "maf_run_results.py:MafRunResults.metric_info"], "Membership in filtered lists; splitting at underscores.", "planned")

p("C291", "Order of statistics and plots",
  "Statistics and plots are shown all and once: first those with a fixed place in the order of places, then the others; each statistic has the first of its values; every table fraction that occurs has a place, and places are all different.",
  "every list of names, values and plots", "Names are those of the user's metrics; a test has one list.",
  [WB_ + "maf_run_results.py:MafRunResults.order_stat_names", WB_ + "maf_run_results.py:MafRunResults.all_stat_names", WB_ + "maf_run_results.py:MafRunResults.stat_dict", WB_ + "maf_run_results.py:MafRunResults.plot_dict", WB_ + "maf_run_results.py:MafRunResults.__init__"], "Induction over the order with erasure from the names.", "planned")

p("C292", "Layout of sky maps",
  "Sky maps are laid out in full rows of three. If no filter has two plots, each filter's plot is at its place in ugrizy, with a gap if there is none, and the plots without filter follow; otherwise there is a place for each metric in the order of display. Every plot is shown, once, and nothing else.",
  "every list of plots", "Files can match several filters or none; a test has the usual six.",
  [WB_ + "maf_run_results.py:MafRunResults.order_plots"], "Cases of the layout, membership in the shown plots.", "planned")

p("C293", "Tracked runs are up to date",
  "Over any sequence of requests, with a database whose time changes whenever its rows do, a request for a run gives the results of the directory of its row in the present database, read at this or an earlier request; results are read once as long as the database does not change; a run that is not there is an exception; rows are always those of the time that is kept.",
  "every sequence of changes and requests", "Interleavings of changes with requests are unbounded; a test makes one request.",
  [WB_ + "maf_tracking.py:MafTracking.__init__", WB_ + "maf_tracking.py:MafTracking._check_db", WB_ + "maf_tracking.py:MafTracking.sort_runs", WB_ + "maf_tracking.py:MafTracking.get_run"], "Invariant over the requests: rows are of the time kept and pages of the rows.", "planned")

MU_ = "rubin_sim/maf/utils/"

p("C294", "Reading of a simulation",
  "get_sim_data gives exactly the rows of the table that meet the condition, in the columns asked for, after the stackers in their order; a warning is raised if there are none. Without a table it is the observations or the summary of an old file, or an exception; a full query overrides condition, columns and table; URLs are read with lsst.resources.",
  "every table, columns, condition and stackers", "Columns and conditions are the user's; the query is made by concatenation of strings.",
  [MU_ + "opsim_utils.py:get_sim_data"], "A reader of queries gives back the parts of the query; the database answers by parts.", "planned")

p("C295", "Benchmarks scale with the length of the run",
  "The benchmark numbers of visits in each filter are those of ten years times the length over ten, rounded down; a longer run has no fewer; the total is the sum of the filters.",
  "every length of run", "The length is a real number; a test has ten years.",
  [MU_ + "opsim_utils.py:scale_benchmarks"], "Floor of the scaled numbers.", "planned")

p("C296", "Coadded depth from numbers of visits",
  "The depth of each filter is that of the coaddition of its visits of the single depth; it grows with the visits, by 2.5 magnitudes for a hundred times as many; filters of both arguments must match.",
  "every number of visits and depth", "Real arguments; no visits is a case of its own.",
  [MU_ + "opsim_utils.py:calc_coadded_depth"], "Logarithm of the product, compared with the coadded depth of a list.", "planned")

p("C297", "Blocks of visits of the hourglass",
  "The blocks of the hourglass cover all visits in order, each once; in a block all visits are in one filter and no two that follow each other are more than two minutes apart; between two blocks the filter changes or there is such a gap.",
  "every list of visits sorted by time", "Any number of blocks; a test has a handful.",
  ["rubin_sim/maf/metrics/hourglass_metric.py:HourglassMetric.run"], "Induction over the sorted breaks.", "planned")

p("C298", "Midnights of the hourglass",
  "Each time is given the nearest midnight, also before the first and after the last; midnights with the same tenth of a day are one, every midnight has one kept within a tenth of a day, those farther apart are not merged, and repeats are not kept.",
  "every list of midnights and time", "The index before the first wraps around to the last.",
  ["rubin_sim/maf/metrics/hourglass_metric.py:HourglassMetric.run", "rubin_sim/maf/metrics/hourglass_metric.py:nearest_val"], "Cases of the place in the sorted list.", "planned")

BT_ = "rubin_sim/maf/batches/"

p("C299", "Conditions of the batches",
  "The condition that filter_list makes for a band selects exactly the visits of the band that meet the extra condition, whatever it is, and that of all bands those that meet it, so that counts over bands add up; two conditions in brackets mean both; so do the conditions for adjacent bands and of the glance; an empty condition is like none.",
  "every extra condition and table of visits", "Conditions are the user's, with any and, or, not and brackets; a test has a simple one.",
  [BT_ + "common.py:filter_list", BT_ + "time_batch.py:intraNight", BT_ + "glance_batch.py:glanceBatch", BT_ + "metadata_batch.py:firstYearMetadata", BT_ + "skycoverage.py:eastWestBias"], "A reader of conditions with precedence; induction over its depth for what follows a condition.", "planned")

p("C300", "Years of the hourglass and of weak lensing",
  "Each night is in exactly one year of the hourglass, which have 365 or 366 nights; the years of weak lensing are cumulative.",
  "every night and number of years", "All nights; a test has one year.",
  [BT_ + "hourglass_batch.py:hourglassPlots", BT_ + "science_radar_batch.py:science_radar_batch"], "Integer arithmetic of 365.25 times the year.", "planned")

p("C301", "Names and labels of the batches",
  "Labels are combined with a blank, and no label changes nothing; with an empty replacement the name of a metric is without its column; fractions of a population have one metric for each threshold, named by the threshold or by the name at its place.",
  "every label, name, column and threshold", "Names are the user's.",
  [BT_ + "common.py:combine_info_labels", BT_ + "common.py:standard_metrics", BT_ + "common.py:extended_metrics", BT_ + "common.py:standard_angle_metrics", BT_ + "common.py:fraction_population_at_threshold"], "Lemmas on rstrip, induction over the thresholds.", "planned")

p("C302", "Captions and labels in loops",
  "The caption of each filter has the label of that filter; visits of a subset can be asked for with a condition and no label.",
  "every list of labels", "The caption is changed from one filter to the next.",
  [BT_ + "time_batch.py:intraNight", BT_ + "visitdepth_batch.py:nvisitsPerSubset"], "Induction over the filters.", "planned")

PLT_ = "rubin_sim/maf/plots/"
CB_ = "rubin_sim/maf/maf_contrib/"

p("C303", "Triplets of visits",
  "TripletMetric gives the number of triples of visits in which the second follows the first, and the third the second, after more than DelMin and less than DelMax, with intervals whose ratio is within the limits; order and origin of time do not matter and wider limits lose no triplet.",
  "every list of times and limits", "Triples of any visits of any cadence, also unsorted.",
  [CB_ + "triplet_metric.py:TripletMetric.run"], "Sums over three nested loops as the size of a set of triples of indices.", "planned")

p("C304", "Triplets in one band",
  "TripletBandMetric counts, for each band, the triples of visits in this band that follow each other within the limits and whose intervals are similar; the sum over bands is the number of all such triples in one band. Evenly spaced visits are similar.",
  "every list of visits and limits", "Triples of any visits; the ratio is a quotient that must not divide by zero.",
  [CB_ + "triplet_metric.py:TripletBandMetric.run", CB_ + "triplet_metric.py:TripletBandMetric.reduce_bandall"], "As before, with the ratio without division.", "planned")

p("C305", "Visits in the windows of another survey",
  "NumObsInSurveyTimeOverlapMetric gives the number of visits within the windows; IntervalsBetweenObsMetric the mean of the intervals between visits that follow each other in one window, never across windows.",
  "every list of windows and times", "Windows may overlap, touch or hold no or one visit.",
  [CB_ + "num_obs_in_survey_time_overlap_metric.py:NumObsInSurveyTimeOverlapMetric.run", CB_ + "intervals_between_obs_metric.py:IntervalsBetweenObsMetric.run"], "Exchange of the sums over windows and visits; neighbours of a sorted list.", "planned")

p("C306", "Gaps between visits of two filters",
  "For a pair of filters the gaps are those of all pairs of visits, one of each filter and, if the filters differ, no more than the last edge of the bins apart; the order of the filters does not matter. With allgaps false they are those to the nearest visits in the other filter, before and after.",
  "every list of visits and pair of filters", "All cadences, with ties and filters that are not observed.",
  [CB_ + "filter_pair_t_gaps_metric.py:FilterPairTGapsMetric._get_d_t"], "Count of the flattened matrix as the size of a set of pairs.", "planned")

p("C307", "Figure of merit of the gaps",
  "The figure of merit of a pair of filters is the number of gaps in the bins over the standard deviation of the clipped histogram, pairs without gaps do not count, and it is finite.",
  "every histogram and clip", "Histograms of all shapes; a flat one has no deviation.",
  [CB_ + "filter_pair_t_gaps_metric.py:FilterPairTGapsMetric.run"], "The variance is zero for flat lists only.", "planned")

p("C308", "Gamma-ray bursts found",
  "The fraction for a filter is the number of bursts of which enough is seen in this filter, over the number of bursts for which the survey has time; that for any filter is of bursts found in n_filters filters. All phases count, a burst that is too faint is not found, and the start of the survey can be given.",
  "every list of visits, phases, drawn magnitudes and limits", "Bursts are drawn at random; cadences of all kinds.",
  [CB_ + "grb_transient_metric.py:GRBTransientMetric.run", CB_ + "grb_transient_metric.py:GRBTransientMetric.light_curve"], "Invariant of the counters over light curves, filters and phases.", "planned")

p("C309", "Averages over filters of gamma-ray bursts",
  "reduce_band1_filt_avg is the average over the filters of the fraction found in this filter.",
  "all fractions", "The dictionary has an entry more than there are filters.",
  [CB_ + "grb_transient_metric.py:GRBTransientMetric.reduce_band1_filt_avg"], "Arithmetic.", "planned")

p("C310", "Star counts by shells",
  "starcount cuts the cone between two distances into shells of equal volume that fill it, evaluates the density once inside each shell, at the distance that halves its volume, and so gives a positive number no larger than the volume times the largest density.",
  "all distances and directions", "Cube roots of all distances; the fifty shells of every cone.",
  [CB_ + "star_counts/starcount.py:starcount", CB_ + "star_counts/starcount.py:star_vols", CB_ + "star_counts/coords.py:eq_gal3"], "Cubes of the edges are evenly spaced; sums of lists of equal numbers.", "planned")

p("C311", "Fractions of stars by mass",
  "IMF is the integral of the mass function between two masses, adds up over adjoining ranges and is positive; the fractions of the mass bins between m1 and m2 sum to one.",
  "all positive masses", "An integral, for all ranges.",
  [CB_ + "star_counts/starcount_bymass.py:IMF", CB_ + "star_counts/starcount_bymass.py:starcount_bymass"], "The integral of a power; telescoping sum.", "planned")

p("C312", "Density of stars",
  "The density of stars is positive everywhere; each disc has the local density at the position of the sun, thins out outwards and away from a height of -25 pc, and is symmetric about it. The bulge and a flattened halo are added to the discs.",
  "all positions", "All positions of a continuous model.",
  [CB_ + "star_counts/stellardensity.py:stellardensity", CB_ + "star_counts/stellardensity.py:diskprofile"], "Monotonicity of the exponential.", "planned")

p("C313", "Errors of magnitudes of stars",
  "mag_error grows with the magnitude, stays above the systematic error of 0.005 and has a random part of 0.2 at the five-sigma depth, for every depth given; exactly one magnitude has an error of 0.03 and noise_calc solves for it; get_distance inverts the distance modulus.",
  "all magnitudes, bands and limits", "Continuous functions; a solver stops wherever the function it is given lets it.",
  [CB_ + "star_counts/starcount_bymass.py:mag_error", CB_ + "star_counts/starcount_bymass.py:noise_calc", CB_ + "star_counts/starcount_bymass.py:get_distance"], "Real analysis of the formulas.", "planned")

p("C314", "Galactic coordinates of star counts",
  "eq_gal turns a root of its equations into a latitude from -90 to 90 and a longitude from 0 to 360 that solve them too, eq_gal2 can give every longitude, and gal_cyn gives cylindrical coordinates about the galactic centre, 8000 pc away.",
  "all directions and distances", "All directions; a comparison of an angle in the wrong unit is right for most.",
  [CB_ + "star_counts/coords.py:eq_gal", CB_ + "star_counts/coords.py:eq_gal2", CB_ + "star_counts/coords.py:gal_cyn"], "Trigonometric identities and the range of the remainder.", "planned")

p("C315", "Spectral types and absolute magnitudes",
  "A heavier star is of an earlier type and a later type is fainter in every band; both functions meet their tables at the entries and keep the end values beyond them, the band chooses the magnitude, and a lighter star is seen no further than a heavier one.",
  "all masses and types", "Continuous interpolation, also outside of the tables.",
  [CB_ + "star_counts/spec_type.py:spec_type", CB_ + "star_counts/abs_mag.py:abs_mag", CB_ + "star_counts/starcount_bymass.py:dist_calc"], "Monotone interpolation between the nodes.", "planned")

p("C316", "Amplification by a lens",
  "The amplification is above one, symmetric about the peak and falling away from it, larger for smaller impact parameters, and 3/sqrt(5) at the peak for an impact parameter of one without blending; an event is brighter than its star at every visit.",
  "all times and parameters", "Continuous functions of five parameters.",
  [CB_ + "microlensing_metric.py:microlensing_amplification", CB_ + "microlensing_metric.py:MicrolensingMetric.run"], "Monotonicity of 1 + 4 / (w (w + 4)).", "planned")

p("C317", "Events with magnitudes of their own",
  "An event for which source and blend fluxes are given is brightest at its peak.",
  "all times and parameters", "All parameters; the size of the effect is small for long events.",
  [CB_ + "microlensing_metric.py:microlensing_amplification_fsfb", CB_ + "microlensing_metric.py:MicrolensingMetric.run"], "Monotonicity of the logarithm, twice.", "planned")

p("C318", "The time of most information",
  "info_peak_before_t0 is the time before the peak at which a visit says most about the crossing time, for a constant signal-to-noise ratio.",
  "all impact parameters and crossing times", "A maximum over all times.",
  [CB_ + "microlensing_metric.py:info_peak_before_t0"], "An inequality between polynomials at the root of a quadratic.", "planned")

p("C319", "Coefficients of the Fisher matrix",
  "coefficients_pspl gives the derivatives of the flux by te, u0 and t0, and coefficients_fsfb those by the fluxes; the first entry, whose variance is taken as that of te, is that by te.",
  "all times and parameters", "Derivatives of long formulas.",
  [CB_ + "microlensing_metric.py:coefficients_pspl", CB_ + "microlensing_metric.py:coefficients_fsfb"], "Chain rule.", "planned")

p("C320", "The Fisher matrix",
  "The matrix is symmetric and positive semidefinite, that of more visits is the sum, each entry is the sum over visits of products of derivatives over squared errors, for the event and for the fluxes of each filter, and all visits in all filters count.",
  "every list of visits and parameters", "Any number of visits and filters.",
  [CB_ + "microlensing_metric.py:fisher_matrix", CB_ + "microlensing_metric.py:MicrolensingMetric.run"], "Sums of squares; the loops with the variables they leave behind.", "planned")

p("C321", "Detected microlensing events",
  "An event is detected only if pts_needed points of its light curve are above the five-sigma depth before the peak, and with detect=True after it as well; with detect=True no other events are detected than without.",
  "every list of visits", "All cadences; pairs of visits are compared.",
  [CB_ + "microlensing_metric.py:MicrolensingMetric.run"], "Count of the matrix of differences as the size of a set of pairs.", "planned")

p("C322", "Number of points and times of an event",
  "Npts is the number of points within two crossing times of the peak, and visits are timed from the start of the survey as the peaks are.",
  "every list of visits", "All cadences.",
  [CB_ + "microlensing_metric.py:MicrolensingMetric.run"], "Counts of filtered lists.", "planned")

p("C323", "Draw of the pixels of events",
  "Stated as it is: generate_microlensing_slicer draws for each event the pixel before the one whose share of the weights holds the random number, the first pixel for its own share as well, so that the last pixel of the sorted map, the densest, is never drawn.",
  "every map of densities and every random number", "Random draws; each pixel has a small share.",
  [CB_ + "microlensing_metric.py:generate_microlensing_slicer"], "Search in cumulative sums.", "planned")

p("C324", "Detected tidal disruption events",
  "pre_peak is one if the event is seen in pts_needed visits before the peak; some_color if it is seen before the peak, in three filters within ten days of it and in two filters after it; some_color_pu if near the peak and after it u and another filter are among them. More visits lose no event.",
  "every list of visits", "All cadences and light curves.",
  [CB_ + "tdes_pop_metric.py:TdePopMetric._pre_peak_detect", CB_ + "tdes_pop_metric.py:TdePopMetric._some_color_detect", CB_ + "tdes_pop_metric.py:TdePopMetric._some_color_pu_detect"], "Sizes of lists without repetitions as the existence of different filters.", "planned")

p("C325", "Quality of tidal disruption events",
  "The score of an event is zero if and only if it fails the criterion, and one for an event seen every other night.",
  "every list of visits and range of times", "All cadences.",
  [CB_ + "tdes_pop_metric.py:TdePopMetricQuality._some_color_pnum_detect", CB_ + "tdes_pop_metric.py:TdePopMetricQuality._some_color_pu_pnum_detect"], "Count of the visits that meet the criterion.", "planned")

p("C326", "Detected kilonovae",
  "A kilonova is not seen outside of the times of its light curve, has the magnitude of the file with extinction and distance modulus at its times, and counts as detected if it is seen as often as needed, in two filters, or four times in red or in blue filters, up to thirty days after the merger.",
  "every list of visits and light curve", "All cadences and light curves.",
  [CB_ + "kne_metrics.py:KnLc.interp", CB_ + "kne_metrics.py:KNePopMetric.run", CB_ + "kne_metrics.py:KNePopMetric._multi_detect", CB_ + "kne_metrics.py:KNePopMetric._multi_color_detect", CB_ + "kne_metrics.py:KNePopMetric._red_color_detect", CB_ + "kne_metrics.py:KNePopMetric._blue_color_detect"], "Counts of filtered lists.", "planned")

p("C327", "Kilonovae by their rate of change",
  "A kilonova passes if and only if it is seen as often as needed, over min_dt, and in some band between the extremes of its magnitude fades or rises as fast as the limits, significantly and over more than min_dt; the order of the bands does not matter, one that passes in red or blue bands passes in all, and more visits lose none.",
  "every list of detections and limits", "All cadences; the bands are met in the order of a set.",
  [CB_ + "kne_metrics.py:KNePopMetric._ztfrest_simple"], "Folds for the extremes; the largest and smallest rate.", "planned")

p("C328", "Presto triplets",
  "The presto criterion is three detections in two filters, one of them twice. Of the two in one filter the nearer to the other is taken for the colour, within the first limit, and the change of magnitude is the earlier minus the later.",
  "every list of detections and every triplet", "All cadences.",
  [CB_ + "presto_color_kne_pop_metric.py:PrestoColorKNePopMetric._presto_color_detect", CB_ + "presto_color_kne_pop_metric.py:PrestoColorKNePopMetric._get_score"], "Pigeonhole; case analysis of the swap.", "planned")

p("C329", "Presto scores and tables",
  "The S score is one if and only if a triplet is rarer than the threshold, the P score is the largest one minus a rate; the table is that of the file given for the region; the populations of the two regions share no event and leave none out.",
  "every list of rates, every sequence of calls, all latitudes", "A table kept between calls; rates of all triplets.",
  [CB_ + "presto_color_kne_pop_metric.py:PrestoColorKNePopMetric._get_score", CB_ + "presto_color_kne_pop_metric.py:_load_hash", CB_ + "presto_color_kne_pop_metric.py:generate_presto_pop_slicer"], "Invariant of the table kept; fold of the scores.", "planned")

p("C330", "Populations of kilonovae",
  "Distances are between the limits with the share of a power law, indices are those of files, and the seed determines the population.",
  "all draws and limits", "Random draws; a state shared by the process.",
  [CB_ + "kne_metrics.py:generate_kn_pop_slicer", CB_ + "presto_color_kne_pop_metric.py:generate_presto_pop_slicer"], "Inverse of the distribution function; the state as an input.", "planned")

p("C331", "Files of kilonovae by parameters",
  "get_kne_filename returns the files that have one of the sets of parameters, each once, and all files without parameters.",
  "every list of files and parameters", "All sets of parameters, also overlapping ones.",
  [CB_ + "kne_metrics.py:get_kne_filename"], "Two nested loops as a list of repetitions.", "planned")

p("C332", "Light curves of outbursts",
  "An outburst rises until the root of the product of its rise and decay times and then decays, has its amplitude there and nowhere else, so peaks six magnitudes above the absolute magnitude within its duration, and has magnitude 99 outside of it.",
  "all times and parameters", "Continuous functions of random parameters.",
  [CB_ + "xrb_metrics.py:XrbLc.fred", CB_ + "xrb_metrics.py:XrbLc.lightcurve", CB_ + "xrb_metrics.py:XrbLc.outburst_params"], "Completion of the square in the exponent.", "planned")

p("C333", "Duration of outbursts",
  "An outburst has faded to its star when its duration is over.",
  "all rise and decay times", "Random parameters.",
  [CB_ + "xrb_metrics.py:XrbLc.outburst_params", CB_ + "xrb_metrics.py:XrbLc.lightcurve"], "Bound of the flux at the end.", "planned")

p("C334", "Visible duration of outbursts",
  "detectable_duration gives the first and the last of the times at which the outburst is bright enough in some filter, nothing if it never is, and it is bright enough in some filter all the time between; possible_to_detect says whether there is any.",
  "all parameters, distances and extinctions", "Six filters and ten thousand times for each of many outbursts.",
  [CB_ + "xrb_metrics.py:XrbLc.detectable_duration", CB_ + "xrb_metrics.py:XRBPopMetric._possible_to_detect"], "Invariant of the loop over filters; unimodal light curve.", "planned")

p("C335", "Detected outbursts",
  "Only visits during the outburst count; ever_detect needs pts_needed of them, early_detect pts_early within t_early days of the start; the mean time between detections is the mean of the gaps between them, and the bad value for fewer than two.",
  "every list of visits", "All cadences.",
  [CB_ + "xrb_metrics.py:XRBPopMetric.run", CB_ + "xrb_metrics.py:XRBPopMetric._early_detect", CB_ + "xrb_metrics.py:XRBPopMetric._ever_detect", CB_ + "xrb_metrics.py:XRBPopMetric._mean_time_between_detections", CB_ + "xrb_metrics.py:XRBPopMetric.reduce_mean_time_between_detections"], "Telescoping sum of the gaps.", "planned")

p("C336", "Populations of outbursts",
  "Every outburst has a rise time above 0.3 days, and the seed determines the population.",
  "all draws", "Random draws from three generators.",
  [CB_ + "xrb_metrics.py:XrbLc.outburst_params", CB_ + "xrb_metrics.py:generate_xrb_pop_slicer"], "Assignment by a mask and by its complement.", "planned")

p("C337", "Density of young stars",
  "The density along a line of sight is positive away from the Sun, symmetric about the plane and about the centre of the galaxy, falls with the height above the plane and away from the direction of the centre, and is the same for two longitudes that are the same direction.",
  "all directions and distances", "A function of three real numbers.",
  [CB_ + "young_stellar_objects_metric.py:StarDensity.__call__"], "Monotonicity of exponent and root.", "planned")

p("C338", "Counts of young stars",
  "Beyond the limit of latitude the metric gives zero; within it, the distance or the count of stars out to the least of the distances in the filters. A larger distance has more stars, the count is in proportion to the area, and bounded by the cube of the distance.",
  "all slice points and distances", "An integral over the line of sight.",
  [CB_ + "young_stellar_objects_metric.py:NYoungStarsMetric.run", CB_ + "young_stellar_objects_metric.py:StarDensity.__call__"], "Integrals of positive continuous functions.", "planned")

p("C339", "Distance of young stars",
  "A star is within the distance that is returned if and only if it has the signal to noise asked for in every filter; without visits in one of the filters the distance and the count are zero; another visit does not lessen the depth.",
  "all lists of visits, magnitudes and extinctions", "All cadences and stars.",
  [CB_ + "young_stellar_objects_metric.py:NYoungStarsMetric.run"], "Inverse of the distance modulus; minimum over filters.", "planned")

p("C340", "Light curves of periodic stars",
  "A periodic star repeats after its period and stays within the amplitude of the mean of the filter; every visit has the mean of its own filter; the phase is in days; the mean of a filter without visits has no effect; with a filter other than ugrizy there is no light curve.",
  "all parameters and visits", "Real parameters and lists of visits.",
  [CB_ + "periodic_star_metric.py:PeriodicStar.__call__"], "Periodicity of the sine.", "planned")

p("C341", "Recovery of periodic stars",
  "The metric gives the share of the realisations of the noise whose fit has period and amplitude within the fractional tolerances and the mean within mag_tol in n_bands of the filters with visits, badval for fewer than nine visits; wider tolerances recover no fewer, and with visits in fewer than n_bands filters none is recovered. The slice point is optional.",
  "all visits, tolerances and fits", "The fits are of random noise.",
  [CB_ + "periodic_star_metric.py:PeriodicStarMetric.run"], "Sum of indicators as the size of a set.", "planned")

p("C342", "Recovery on short baselines",
  "PeriodicStarModulationMetric gives the mean over the intervals of the share of the realisations that are recovered, so one if every fit finds the true parameters.",
  "all visits, intervals and fits", "The fits are of random noise.",
  [CB_ + "periodic_star_modulation_metric.py:PeriodicStarModulationMetric.run"], "Invariant of the loop over the intervals.", "planned")

p("C343", "Intervals of short baselines",
  "The light curve is evaluated in pieces of time_interval days: every visit is in exactly one.",
  "all times and intervals", "Times at ends of intervals.",
  [CB_ + "periodic_star_modulation_metric.py:PeriodicStarModulationMetric.run"], "Floor of the quotient.", "planned")

p("C344", "Spectral window function",
  "PeriodicMetric gives the largest value and the mean of the window function over the frequencies other than zero; the purity is between zero and two, and zero if the visits are apart by whole periods of one of the frequencies.",
  "all lists of times", "Thirty thousand frequencies for all cadences.",
  [CB_ + "periodic_metric.py:PeriodicMetric.run", CB_ + "periodic_metric.py:PeriodicMetric.reduce_peak"], "The value at zero is the largest, so sorting puts it last.", "planned")

p("C345", "Depth of variability",
  "VarDepth gives for every list of visits a magnitude of the grid from 16 to the mean depth, where the interpolated difference of the thresholds is nearest to zero, or 15 if there are not two magnitudes with thresholds; thresholds are computed until the first difference below zero.",
  "all mean depths and thresholds", "Random noise.",
  [CB_ + "var_depth_metric.py:VarDepth.run"], "Invariant of the loop; argmin.", "planned")

p("C346", "Surface brightness limit of a visit",
  "The surface brightness that is returned reaches the signal to noise nsigma over the area, and where the limiting cases are close it is too optimistic by 0.38 magnitudes at most.",
  "all positive areas, times, read noises, pixels and thresholds, and all magnitudes", "An inequality between real functions.",
  [MTR_ + "surfb_metric.py:surface_brightness_limit_approx"], "Logarithms of the counts; squares of the ratios.", "planned")

p("C347", "Surface brightness of a set of visits",
  "The metric adds the limits of the visits of one filter like depths, more visits never lower it, and for more than one filter an exception is raised; zero points and extinctions given by the user are used; the visits with a saturated sky are counted.",
  "all lists of visits and options", "Lists of any length and all combinations of options.",
  [MTR_ + "surfb_metric.py:SurfaceBrightLimitMetric.run", MTR_ + "surfb_metric.py:SurfaceBrightLimitMetric.__init__", MTR_ + "sky_sat_metric.py:SkySaturationMetric.run"], "Sums of powers; case distinction.", "planned")

p("C348", "Quasar counts",
  "The table is made cumulative in magnitude and redshift, so that at the nodes of the spline the metric is the area of the pixel times the quasars between the limits of redshift and between saturation and depth; the default limit of the redshift is the lesser of 6.7 and that at which the Lyman break is at the effective wavelength, 6.7 for i, z and y. Over the cut of the extinction the value is badval.",
  "all tables, limits and slices", "Sums over tables of any size.",
  [MTR_ + "qso_number_counts_metric.py:QSONumberCountsMetric.__init__", MTR_ + "qso_number_counts_metric.py:QSONumberCountsMetric.run"], "Double sums over intervals.", "planned")

p("C349", "Structure function of active galaxies",
  "Each pair of visits that are bright enough is counted once in the bin of its distance in time, or each pair of neighbours; the value is between twice the median squared error and twice its sum with ten times the scatter, and does not depend on the order of the visits; the weights default to a flat set with sum one and can be given; with fewer than two visits the value is badval.",
  "all lists of visits, bins and weights", "All cadences and options.",
  [MTR_ + "agnstructure.py:SFUncertMetric.__init__", MTR_ + "agnstructure.py:SFUncertMetric.run"], "Permutations of the lists of gaps; bounds of weighted sums.", "planned")

p("C350", "Distances of brown dwarfs",
  "The metric finds the distance at which the parallax of the object has the signal to noise asked for: the ratio at a distance combines all visits in the filters of the object, falls with the distance and grows with visits, and the value lies between the distances where the goal is reached and where it is not, and grows with visits; badval where the goal is not reached. The colours are a dictionary for every type. Pixels with one distance make the volume of the ball.",
  "all lists of visits, grids of distances and magnitudes", "Real functions, grids of any size.",
  [MTR_ + "brown_dwarf_metric.py:bd_colors", MTR_ + "brown_dwarf_metric.py:BDParallaxMetric.run", MTR_ + "brown_dwarf_metric.py:VolumeSumMetric.run"], "Monotone sums; interpolation on a monotone grid.", "planned")

p("C351", "Times of a night",
  "Sun and Moon are placed every twenty minutes from thirty minutes before the first visit to at least thirty and less than fifty minutes after the last, and every visit is between two of these times.",
  "all lists of times", "Lists of any length.",
  [MTR_ + "night_pointing_metric.py:NightPointingMetric.run"], "Lengths of ranges.", "planned")

p("C352", "Detection of periodic stars",
  "The value is the number of the stars that are told from constant ones, between zero and the number of stars. A star without variation, and one that is aliased in every filter, is never detected; a detection needs a chi squared over the degrees of freedom; without more visits than three plus the number of filters none is detected.",
  "all visits, stars and levels up to one", "All cadences and stars.",
  [MTR_ + "periodic_detect_metric.py:PeriodicDetectMetric.run"], "Weighted means of constants; periodicity of the sine.", "planned")

p("C353", "Season numbers of the supernova metric",
  "A visit belongs to the season one plus the number of gaps longer than season_gap before it: visits in order of time, the first in season one, a new season exactly at each long gap.",
  "all lists of times and gaps", "Lists of any length.",
  [MTR_ + "sn_n_sn_metric.py:SNNSNMetric.getseason"], "Induction over the list of long gaps.", "planned")

p("C354", "Nightly coaddition of the supernova metric",
  "Coaddition gives one row for each filter and night with a visit; exposures, visit time and exposure time are conserved; the depth is that of the visits taken together, and a visit alone in its night and filter keeps its depth.",
  "all lists of visits", "Sums over groups of any size and real depths.",
  [MTR_ + "sn_n_sn_metric.py:SNNSNMetric.coadd"], "Sums over the keys; convexity of the exponential.", "planned")

p("C355", "Season length against redshift",
  "The days of maximum between T0_min and T0_max are those for which the season holds all phases from min_rf_phase_qual to max_rf_phase_qual; a redshift is used for a season exactly if this window is min_duration long, that is, for seasons of 60 + 45 (1 + z) days; smaller redshifts and longer seasons are used as well.",
  "all seasons and redshifts", "Real inequalities.",
  [MTR_ + "sn_n_sn_metric.py:SNNSNMetric.get_season_info", MTR_ + "sn_n_sn_metric.py:SNNSNMetric.season_info"], "Linear inequalities.", "planned")

p("C356", "Simulated days of maximum",
  "The days of maximum go from T0_min to T0_max, both included, in equal steps of daymax_step; windows of ten days or less are marked with -1.",
  "all windows and steps", "All real windows.",
  [MTR_ + "sn_n_sn_metric.py:SNNSNMetric.calc_daymax"], "Floor and linspace.", "planned")

p("C357", "Epochs of a light curve",
  "The number of epochs before or after the maximum is the number of different nights with a point.",
  "all lists of nights", "Lists of any length and masks.",
  [MTR_ + "sn_n_sn_metric.py:SNNSNMetric.get_epochs", MTR_ + "sn_n_sn_metric.py:SNNSNMetric.sn_effi"], "Steps of sorted lists.", "planned")

p("C358", "Selection efficiency of supernovae",
  "A supernova is selected exactly if it has enough points at phases up to -5 and from 20 on, enough nights before and after the maximum and a variance of the colour of at most sigma_c squared; the efficiency is the fraction of the supernovae with a point of the least signal to noise that are selected, between zero and one, with the binomial error.",
  "all light curves and cuts", "Light curves of any length.",
  [MTR_ + "sn_n_sn_metric.py:SNNSNMetric.sn_effi", MTR_ + "sn_n_sn_metric.py:SNNSNMetric.efficiencies", MTR_ + "sn_n_sn_metric.py:SNNSNMetric.step_efficiencies"], "Filters of lists; real inequalities.", "planned")

p("C359", "Redshift limit of a season",
  "The limit is the redshift up to which the share zlim_coeff of the supernovae lies, by linear interpolation between neighbouring redshifts of the study; -1 if no supernova is expected.",
  "all numbers of supernovae, redshifts and shares below one", "Cumulative sums of any length.",
  [MTR_ + "sn_n_sn_metric.py:SNNSNMetric.zlim_or_nsn", MTR_ + "sn_n_sn_metric.py:SNNSNMetric.zlim"], "Induction along the points of the interpolation.", "planned")

p("C360", "Number of supernovae",
  "The number for a season is the sum over the bins of redshift up to the limit of efficiency times expected number; it is not negative and not more than the expected number; the metric adds it over the seasons with a positive limit, takes the median limit, and gives badval without such a season.",
  "all efficiencies, durations, rates and seasons", "Sums of any length.",
  [MTR_ + "sn_n_sn_metric.py:SNNSNMetric.get_nsn", MTR_ + "sn_n_sn_metric.py:SNNSNMetric.nsn", MTR_ + "sn_n_sn_metric.py:SNNSNMetric.run"], "Sums over bins; filters.", "planned")

p("C361", "Expected number of supernovae",
  "For each bin from zmin to zmax the number is rate times area times comoving volume of the bin times duration in years over 1 + z; it is not negative and grows with the area; the bins reach zmax; the edges of the season take (1 + z) (max_rf_phase - min_rf_phase) days, never below zero; bins can be given.",
  "all bins, rates, durations, volumes and areas", "Arrays of any length.",
  [MU_ + "sn_n_sn_utils.py:SnRate.__call__", MTR_ + "sn_n_sn_metric.py:SNNSNMetric.nsn_from_rate"], "Entries of the arrays.", "planned")

p("C362", "Rates of supernovae",
  "The rates are positive and grow with the redshift, those of Ripoche and Dilday up to redshift one; the error of Perrett is the propagated one; the three names of the documentation are known.",
  "all redshifts and names", "Real powers.",
  [MU_ + "sn_n_sn_utils.py:SnRate.perrett_rate", MU_ + "sn_n_sn_utils.py:SnRate.ripoche_rate", MU_ + "sn_n_sn_utils.py:SnRate.dilday_rate", MU_ + "sn_n_sn_utils.py:SnRate.sn_rate"], "Monotonicity of powers.", "planned")

p("C363", "Variance of the colour",
  "var_color is the last diagonal entry of the inverse of the symmetric Fisher matrix; the metric, which inverts one matrix for all supernovae, gives each the variance it has alone, and raises exactly if one of the Fisher matrices has no inverse.",
  "all Fisher matrices and numbers of supernovae", "Matrices of any size.",
  [MU_ + "sn_n_sn_utils.py:CovColor.var_color", MU_ + "sn_n_sn_utils.py:CovColor.det", MTR_ + "sn_n_sn_metric.py:SNNSNMetric.sigma_s_nparams"], "Adjugate; determinant of block-diagonal matrices.", "planned")

p("C364", "Cached reference files",
  "Whatever was asked for before, load_sne_cached gives the data of the file it is asked for, and reads a file exactly if the call before was for another one.",
  "all sequences of calls", "Executions of any length.",
  [MU_ + "sn_n_sn_utils.py:load_sne_cached"], "Invariant of the cache.", "planned")

p("C365", "Points of a light curve",
  "A visit gives a point exactly if its rest-frame phase and wavelength are in range and the flux is positive; flux, phase, redshift, day of maximum and visit columns of a row of the table belong to the same supernova and visit.",
  "all visits, supernovae and flags", "Arrays of any size.",
  [MU_ + "sn_n_sn_utils.py:LcfastNew.process_band", MU_ + "sn_n_sn_utils.py:LcfastNew.get_flag", MU_ + "sn_n_sn_utils.py:LcfastNew.tarray"], "Induction over rows of the masked arrays.", "planned")

p("C366", "Lensed supernovae",
  "The number follows the documented formula, adds over the seasons with enough visits and filters deep enough after dust, and is zero where nothing was seen deep enough.",
  "all visits, seasons and depths", "Lists of any length.",
  [MTR_ + "sn_sl_metric.py:SNSLMetric.n_lensed", MTR_ + "sn_sl_metric.py:SNSLMetric.run"], "Case distinction; sums of options.", "planned")

p("C367", "Bundles of a plot handler",
  "set_metric_bundles keeps each bundle it is given, once; it raises for no bundle and for bundles whose slicers have different names, and only then; bundles of different bands given in the order of the bands stay in order, and bundles in any other order are put into the order of the bands. The last is false: z after y stays there, and two bundles of the first band are exchanged.",
  "all lists of bundles and file roots", "Lists of any length and all file roots.",
  [PLT_ + "plot_handler.py:PlotHandler.set_metric_bundles"], "Induction over the insertions.", "planned")

p("C368", "Precedence of plot options",
  "An option of a plot comes from the user, else from the bundle, else from the defaults of the plotter, else from what was set before, and else is made by the handler; after several plots an option is the one set latest, so that options of one plot stay for the next; a single dictionary is used for all bundles, a list that is too short is an exception. False for the labels of the axes: the labels made by the handler replace those set before.",
  "all dictionaries, keys and sequences of plots", "All sequences of calls of one handler.",
  [PLT_ + "plot_handler.py:PlotHandler.set_plot_dicts"], "Lookup in the updated dictionaries; induction over the calls.", "planned")

p("C369", "Conflicts of plot options",
  "After the check the dictionaries of one subplot agree on limits and titles, and everything else is as it was. Options on which the bundles agree stay, and of different limits of the colours the widest are used. The last two are false: a pair of limits of an axis is a conflict with itself and is dropped, even for one bundle, and different limits of the colours are all dropped.",
  "all lists of dictionaries", "All combinations of dictionaries and keys.",
  [PLT_ + "plot_handler.py:PlotHandler._check_plot_dicts"], "Induction over the keys.", "planned")

p("C370", "Place of a joint plot on the page",
  "A joint plot is not before any of its metrics and at most one place after the last, in the group of its bundles if that is one, else among the comparisons. It comes after all its metrics whatever the order of the bundles: false.",
  "all lists of places and groups", "Lists of any length.",
  [PLT_ + "plot_handler.py:PlotHandler._build_display_dict"], "Induction over the bundles.", "planned")

p("C371", "Joint label of several bundles",
  "Different labels can be joined, and each phrase of each label is in the joint label. Both are false: a label all of whose phrases are in the others is an exception, and of several phrases of its own one is kept. The exception is exactly this case; with one phrase of its own for each label nothing is lost.",
  "all labels", "All sets of labels.",
  [PLT_ + "plot_handler.py:PlotHandler._combine_metadata"], "Membership in the parts.", "planned")

p("C372", "Joint name of several metrics",
  "The joint name is determined by the names of the metrics; metrics that differ in the band have the bands in the order ugrizy in its place; a single name stays. The first is false unless the names differ in bands only: sets of words are joined in any order, and the name of the file with them.",
  "all names and all orders of sets", "Python sets of strings are read in an order that changes from run to run.",
  [PLT_ + "plot_handler.py:PlotHandler._combine_metric_names"], "Independence of the order of the set.", "planned")

p("C373", "Colours of several bundles",
  "A bundle has its own colour, else the colour of the band in its constraint. False for constraints of the form band = 'g': colours are random.",
  "all bundles and constraints", "All constraints.",
  [PLT_ + "plot_handler.py:PlotHandler._build_colors"], "Pieces of the constraint.", "planned")

p("C374", "What a plot draws and saves",
  "Exactly the bundles with values that are not masked are drawn; a file is saved, and a row added to the database, exactly if one is; a plotter for numbers draws nothing if one bundle has objects for values.",
  "all lists of bundles", "Lists of any length.",
  [PLT_ + "plot_handler.py:PlotHandler.plot", PLT_ + "plot_handler.py:PlotHandler.save_fig"], "Filter over the bundles.", "planned")

p("C375", "Zero point and norm of a plot",
  "The value drawn is the distance from the zero point in units of the norm; without them it is the value.",
  "all values", "All numbers of a field.",
  [PLT_ + "plot_handler.py:apply_zp_norm"], "Field arithmetic.", "planned")

p("C376", "Limits of the colours",
  "set_color_lims keeps the limits of the user; without them there is always a range, all data are within it if nothing is clipped, and the limits are the smallest and the largest value unless there is one value only, which is put in the middle; without data the limits are 0 and 1. There is a range if the user gives one limit: false, the limits can be the wrong way round.",
  "all data and limits", "All lists of numbers.",
  [PLT_ + "spatial_plotters.py:set_color_lims"], "Least and greatest elements of a list.", "planned")

p("C377", "Bins of a histogram of given width",
  "The edges begin at the lower limit and are the width apart, the last one is within half a width of the upper limit; a range of less than half a width has four edges around it. The bins of a cumulative histogram cover the full range of the data: false, values up to half a width beyond the last edge are left out, unless the range is a whole number of bins.",
  "all ranges and widths", "All numbers of an ordered field.",
  [PLT_ + "spatial_plotters.py:BaseHistogram"], "Bounds of the ceiling.", "planned")

p("C378", "Longitude on a map of the sky",
  "The longitude at which a point is drawn is the only number within half a turn of the centre which differs from the distance to the centre, positive to the west, by whole turns; so it does not depend on how the right ascension is wrapped.",
  "all angles", "All angles and turns.",
  [PLT_ + "spatial_plotters.py:BaseSkyMap"], "Bounds of the floor.", "planned")

p("C379", "Visits in singles, pairs and triples",
  "VisitPairsHist has a bar for each number of visits per night, whose height is the number of visits in such nights, so that the bars add up to all visits. False whenever there is a visit: the nights with the largest number of visits are left out; the bars and these nights add up to all visits.",
  "all lists of numbers of visits", "Lists of any length.",
  [PLT_ + "two_d_plotters.py:VisitPairsHist"], "Counting by induction.", "planned")

p("C380", "Plots leave the values as they are",
  "A plot does not change the bundle it draws. False for TwoDMap with a colour minimum: the values below it are masked in the bundle, nothing else is changed, and a later plot with a lower minimum does not show them; true without a minimum.",
  "all values, masks and minima", "All lists of values.",
  [PLT_ + "two_d_plotters.py:TwoDMap", PLT_ + "plot_handler.py:PlotHandler.plot"], "Induction over the values.", "planned")

p("C381", "Plots of one axis of several",
  "OneDSubsetData draws at each bin of the axis the sum of the values of the slices in it. For the slicer of the package it is an exception. With the attribute in place: right if the numbers of bins read the same from both ends; otherwise false, for two dimensions with an exception and for more silently; the values drawn always add up to the sum of all.",
  "all numbers of bins and dimensions and all values", "Any number of dimensions.",
  [PLT_ + "nd_plotters.py:OneDSubsetData", S + "nd_slicer.py:NDSlicer"], "Sums over the product of the bins.", "planned")

p("C382", "Plots of two axes of several",
  "TwoDSubsetData draws at each pair of bins the sum of the values of the slices in both. With the attribute of C381 in place: right if the y axis is before the x axis and the numbers of bins read the same from both ends; with the x axis first the axes are exchanged.",
  "all numbers of bins and dimensions and all values", "Any number of dimensions.",
  [PLT_ + "nd_plotters.py:TwoDSubsetData", S + "nd_slicer.py:NDSlicer"], "Sums over the product of the bins.", "planned")

p("C383", "Orbit plots with the default options, stated as it is",
  "MetricVsOrbit raises a KeyError for whatever options of the user without both keys hwidth and hval, since its defaults are spelled otherwise; for objects with their own H it needs hvals besides hval if that is not None.",
  "all options of the user", "All sets of keys.",
  [PLT_ + "mo_plotters.py:MetricVsOrbit"], "Membership of keys.", "planned")

p("C384", "Bins of H",
  "For a range of H of at least one magnitude each object is in the bin of the equal part of the range in which its H is, the objects of the largest H alone in the last one, so objects in one bin are at most one step apart. False for a smaller range: all objects from half a magnitude above the smallest H on are put together.",
  "all ranges, numbers of bins and values of H", "All numbers of an ordered field.",
  [PLT_ + "mo_plotters.py:MetricVsH"], "Counting the edges of a grid.", "planned")

p("C385", "Diameter for H and albedo",
  "The diameter is inverse to the square root of the albedo, falls by ten for five magnitudes, and is between 1342 and 1343 km for H = 0 and an albedo of one.",
  "all H and positive albedos", "All real numbers.",
  [PLT_ + "mo_plotters.py:MetricVsH"], "Powers and logarithms over the reals.", "planned")

p("C386", "Cumulative area against number of visits",
  "For each value of the metric the curve of FOPlot has a point whose height is the area where the metric is at least as large; every point is between the area where the metric is larger and the area where it is at least as large.",
  "all lists of values with repeats", "Lists of any length.",
  [PLT_ + "special_plotters.py:FOPlot"], "Counting in the sorted list.", "planned")

p("C387", "Summed histograms",
  "SummaryHistogram with the sum draws for each bin the sum over the sky; the bins add up to the sum of everything, and the cumulative histogram at a bin is the sum of the bins up to it, at the last one the sum of everything.",
  "all lists of histograms", "Lists of any length.",
  [PLT_ + "special_plotters.py:SummaryHistogram"], "Exchange of sums.", "planned")

p("C388", "Luminosity of simulated dwarfs",
  "The stars of a simulated dwarf have the total magnitude that goes with the requested magnitude in B at every distance, with the colour of the file; _sum_luminosity is the total magnitude of the stars, whichever bin comes first; the distance modulus is zero at ten parsecs and grows by five for each factor of ten.",
  "all luminosity functions, magnitudes and distances", "All real numbers and lists.",
  [CB_ + "lv_dwarfs/lv_dwarfs_metrics.py:make__fake_old_galaxy_lf", CB_ + "lv_dwarfs/lv_dwarfs_metrics.py:_sum_luminosity"], "Powers and logarithms over the reals.", "planned")

p("C389", "Limit of detected dwarfs",
  "Whatever the draws, the dwarf whose magnitude is returned is the first one that is not detected, or the last; all brighter ones are detected in both bands; the flag is the band with fewer stars. There is a limit whenever the two brightest dwarfs are detected: false, it is lost if no star of the next one is seen.",
  "all draws of the random generator", "All draws.",
  [CB_ + "lv_dwarfs/lv_dwarfs_metrics.py:_dwarf_sblimit"], "Invariant of the loop.", "planned")

p("C390", "Stars needed to detect a dwarf",
  "The number of stars needed is the significance times the fluctuation of the stars and galaxies in the background down to the depth in i. False: the depth is set under another name, the stars are always counted to 25. Given the densities the number is right, and largest where there are no counts of galaxies.",
  "all densities, depths and fractions", "All real numbers.",
  [CB_ + "lv_dwarfs/lv_dwarfs_metrics.py:LVDwarfsMetric.run", MTR_ + "star_density.py:StarDensityMetric"], "Attributes of the inner metric; arithmetic.", "planned")

p("C391", "Limit of the distance of dwarfs",
  "The limit may be given as a number, in Mpc, or a quantity. False: a number is an exception at the first point, and the unit of a quantity is not used; true for quantities in Mpc.",
  "all limits", "All numbers and units.",
  [CB_ + "lv_dwarfs/lv_dwarfs_metrics.py:LVDwarfsMetric"], "Cases.", "planned")

p("C392", "Counts of galaxies in redshift bins",
  "The counts for all redshifts are the sum of those of the bins at each magnitude; bands are converted to i with colours of 0.4; an unknown bin is all redshifts; the law of the book is 46 per square arcminute and magnitude at 25. The totals of the bins add up to the total: false, as totals below one in a square degree are dropped; true if none is.",
  "all power laws, bands and magnitudes", "All real numbers.",
  [CB_ + "lss_obs_strategy/galaxy_counts_metric_extended.py:GalaxyCountsMetricExtended"], "Sums over the bins.", "planned")

p("C393", "Magnitudes of typical stars",
  "stellar_mags gives magnitudes with the colours of the table for the type and the given magnitude in r; exactly the ten types of the table are known, others are an exception; from O to M the first four colours are redder.",
  "all types and magnitudes", "All names and numbers.",
  [MU_ + "stellar_mags.py:stellar_mags"], "Lookup and arithmetic.", "planned")

p("C394", "Start of the survey for transients of a table",
  "Without a start of the survey the first visit at each point is used. False: the first visit of the first point is used for all points; the length of the survey is the longest of what was given and the spans of all points so far.",
  "all sequences of points", "All sequences of points of a run.",
  [CB_ + "transient_ascii_sed_metric.py:TransientAsciiSEDMetric.setup_run_metric_variables"], "Invariant over the points.", "planned")

p("C395", "Phases of transients of a table",
  "Phases are within the duration, the shifts divide it evenly, the transients of the first shift are numbered from zero wherever the survey starts. Visits with one number see the same transient: true without a shift, where the converse holds as well; false with one, as the numbers are not shifted.",
  "all visits, starts and shifts", "All numbers of an ordered field.",
  [CB_ + "transient_ascii_sed_metric.py:TransientAsciiSEDMetric.setup_phase_shift_dependent_variables", CB_ + "transient_ascii_sed_metric.py:TransientAsciiSEDMetric.initialize_phase_loop_variables"], "Bounds of the floor.", "planned")

p("C396", "Detection of transients of a table",
  "A transient is detected if and only if enough of its detections are before the given time, there is one in each section of the light curve, and there are enough bands, and the bands are close enough in time; the result is the number of such transients over all shifts.",
  "all visits, thresholds and light curves", "Lists of any length.",
  [CB_ + "transient_ascii_sed_metric.py:TransientAsciiSEDMetric.evaluate_all_detection_criteria", CB_ + "transient_ascii_sed_metric.py:TransientAsciiSEDMetric.run"], "Counting; induction over the shifts.", "planned")

p("C397", "Bands within a given time",
  "With filter_time a transient passes if and only if there are detections in enough bands within this time. False: the last detection is never used, so that as many detections as bands never pass; what passes has enough bands without the last detection, and these are enough.",
  "all lists of detections in order of time", "Lists of any length.",
  [CB_ + "transient_ascii_sed_metric.py:TransientAsciiSEDMetric.evaluate_filter_in_time_detection_criteria"], "Slices of the sorted list.", "planned")

p("C398", "Thresholds of transients of a table",
  "Visits in bands without a threshold are not used. False: they are an exception, exactly if there is one; the others are detections if they reach the threshold of their band.",
  "all visits and thresholds", "Lists of any length.",
  [CB_ + "transient_ascii_sed_metric.py:TransientAsciiSEDMetric.evaluate_snr_thresholds"], "Induction over the visits.", "planned")

p("C399", "Where make_lsst_obs writes",
  "The observations are written to out_dir/run__orbits_obs.npz, as the help says. False: the directory is joined twice, so for every directory that is relative and not the current one the file is out_dir/out_dir/...; true for directories from the root and for the current one.",
  "all directories and file names", "All strings as paths.",
  ["rubin_sim/moving_objects/make_lsst_obs.py:setup_args", "rubin_sim/moving_objects/make_lsst_obs.py:make_lsst_obs"], "Normal form of paths.", "planned")

p("C400", "The script of generate_ss works together",
  "In each line of the script for a run the options of the three programs are known, the observations are read from the file that the first one writes, and the fractions from the directory of the metrics. Each line is for the run of its file: false, names with the word tracking are dropped from the names but not from the files; true if there are none.",
  "all lists of files, populations and directories of data", "All strings.",
  ["rubin_sim/maf/generate_ss.py:generate_ss", "rubin_sim/moving_objects/make_lsst_obs.py:make_lsst_obs", "rubin_sim/maf/run_moving_calc.py:run_moving_calc", "rubin_sim/maf/run_moving_fractions.py:run_moving_fractions"], "Composition of the models of the programs.", "planned")

p("C401", "Populations of generate_ss",
  "A script for a population is written exactly for the eight populations with orbits, or if there are no runs; every type that it gives has defaults of its own.",
  "all names of populations", "All strings.",
  ["rubin_sim/maf/generate_ss.py:generate_ss"], "Lookup.", "planned")

p("C402", "Split populations of generate_ss, stated as they are",
  "The metrics of a part of a population are never calculated: the command has the option --run_name, which run_moving_calc does not know. The file of observations that it names is never the one that make_lsst_obs writes. The directory for the metrics is the one in which run_moving_join looks, for parts named by population and number.",
  "all runs, populations and parts", "All strings.",
  ["rubin_sim/maf/generate_ss.py:generate_ss", "rubin_sim/maf/run_moving_join.py:run_moving_join"], "Composition of the models of the programs.", "planned")

p("C403", "Inputs of run_moving_calc",
  "The file of the simulation is optional. False: without it the program always ends with an exception. With it, the metrics are calculated exactly if orbits and observations are given and the options known.",
  "all command lines", "All options.",
  ["rubin_sim/maf/run_moving_calc.py:run_moving_calc"], "Cases.", "planned")

p("C404", "H values and populations of run_moving_calc",
  "The H values are those by whole steps from h_min that are less than a step after h_max, so n + 1 values ending at h_max if the step divides the range; values on the command line replace the defaults. Every object type has defaults with a positive step and the mark within the range, and a batch to characterise it; names starting with granvik, L7 or OCC are NEO, TNO and LPC. A characterization is known exactly if it is inner or outer in any case.",
  "all types and H values", "All rationals and strings.",
  ["rubin_sim/maf/run_moving_calc.py:run_moving_calc", "rubin_sim/maf/batches/moving_objects_batch.py:ss_population_defaults"], "Length and entries of arange.", "planned")

p("C405", "Joining the parts of a population",
  "The files that are left out by run_moving_join are exactly the raw discovery files. combine_subsets gives the sums of the values that are not masked, with their masks. False: it always ends with an exception (the bundle has no plotDict); the sums it has found before are right, but never masked; bundles with other orbits pass the check of the slicers if the H values are the same. With orbits given by a path from the root the base directory has no effect.",
  "all bundles and names", "All lists.",
  ["rubin_sim/maf/run_moving_join.py:run_moving_join", "rubin_sim/maf/batches/moving_objects_batch.py:combine_subsets"], "Fold over the parts.", "planned")

p("C406", "Times and files of run_moving_fractions",
  "The completeness is calculated at six times a year from the start to the end of the last year, both included. The files read are those with the metadata before the ending of the name, all of them a subset of those without. Without files there is an exception; without metadata the names of the figures have the word None.",
  "all numbers of years, times and names", "All naturals, rationals and strings.",
  ["rubin_sim/maf/run_moving_fractions.py:run_moving_fractions"], "Entries of arange.", "planned")

p("C407", "H marks of the summaries",
  "For the completeness each bundle has the mark that is given, or its own, or the median of its H values. For the fractions likewise for each bundle, two brighter and not below the lowest H. False for the second: the mark of the first bundle is kept for all others, raised to their lowest H and never lowered; a mark of None in the dict is an exception. True for one bundle.",
  "all dicts of bundles", "All lists of bundles.",
  ["rubin_sim/maf/batches/moving_objects_batch.py:run_completeness_summary", "rubin_sim/maf/batches/moving_objects_batch.py:run_fraction_summary"], "Invariant of the loop.", "planned")

p("C408", "Which metrics have a completeness",
  "run_completeness_summary makes bundles exactly for the metrics of discovery with times, numbers of chances or Magic in the name, and those with HighVelocity.",
  "all names of metrics", "All strings.",
  ["rubin_sim/maf/batches/moving_objects_batch.py:run_completeness_summary"], "Cases.", "planned")

p("C409", "Directories in the tracking database",
  "add_run_to_database records the path from the database to the directory of the results, if that is a directory. False: the path from the directory above the database is used from the current directory; with the default database of show_maf, whatever the directory, another one is looked at, so there is an exception or another directory is recorded. True for a database in the current directory or just below it that is given from there.",
  "all current directories, databases and directories of results", "All lists of names.",
  ["rubin_sim/maf/db/tracking_db.py:add_run_to_database", "rubin_sim/maf/show_maf.py:show_maf"], "Relative paths and their meaning.", "planned")

p("C410", "Directories in the web pages",
  "The pages of a run show the results in the recorded directory. False: the path is used from the current directory; for results below the database it is the right one exactly in the directory of the database.",
  "all directories", "All lists of names.",
  ["rubin_sim/maf/web/maf_tracking.py:MafTracking.get_run", "rubin_sim/maf/db/tracking_db.py:TrackingDb.add_run"], "Relative paths and their meaning.", "planned")

p("C411", "Pages of show_maf",
  "A directory given to show_maf is opened immediately. False: the page of the lowest id is opened, never that of a new directory if there are other runs; true for the first one. The page with the data of a metric always ends with an exception.",
  "all tracking databases", "All lists of rows.",
  ["rubin_sim/maf/show_maf.py:show_maf", "rubin_sim/maf/show_maf.py:DataHandler"], "Ids of the database; minimum.", "planned")

p("C412", "Names of runs in the tracking database",
  "For a file named a_vV_10yrs*.db the comment is the version V and a with spaces; the group is the directory of the file, and a file without directory is an exception.",
  "all names", "All strings.",
  ["rubin_sim/maf/make_fbs_tracking_db.py:make_fbs_tracking_db"], "Splitting of strings.", "planned")

p("C413", "Versions in the tracking database",
  "make_fbs_tracking_db records for each directory the version in its results. False: results without rows get the version of the directory before, also of another run, or an exception if they are the first; true if all results have rows. add_run_to_database records what is given, else the first row.",
  "all directories and rows", "All lists.",
  ["rubin_sim/maf/make_fbs_tracking_db.py:make_fbs_tracking_db", "rubin_sim/maf/db/tracking_db.py:add_run_to_database"], "Invariant of the loop.", "planned")

p("C414", "Batches for all files of a directory",
  "The files that are used are exactly the visible .db files without the word trackingDb (for the metadata: but for two names). Each has its results in a directory of its own and is recorded under its name. False: files with more than one .db in the name may share a directory and remove each other's results; a file given with a directory is recorded without it. True for names with one .db.",
  "all directories and file names", "All lists of strings.",
  ["rubin_sim/maf/scimaf_dir.py:scimaf_dir", "rubin_sim/maf/glance_dir.py:glance_dir", "rubin_sim/maf/ddf_dir.py:ddf_dir", "rubin_sim/maf/metadata_dir.py:metadata_dir"], "Fold over the files.", "planned")

p("C415", "Sets of data",
  "The data for tests are the seven sets that the documentation names, with the versions of all data; each file is named after its set. The baseline is a visible file of its directory that ends with 10yrs.db, with an exception exactly if there is none.",
  "all directories", "All lists of names.",
  ["rubin_sim/data/rs_download_data.py:rs_download_testing", "rubin_sim/data/rs_download_data.py:data_dict", "rubin_sim/data/rs_download_data.py:get_baseline"], "Lookup.", "planned")

p("C416", "Detection rate of faint supernovae",
  "The metric gives the part of the days on which the supernovae of the survey are not fainter than those of a regular cadence, close to 1 for regular cadences. False: with the columns that it asks for it always raises, and with the column filter it raises just if one of the seasons asked for has five visits over ten days, so for no visits at all there is another value than 0 or None. The rate itself is between 0 and 1, and 1 if the survey is never below the fakes.",
  "all visits, columns and seasons asked for", "All lists of visits; the exceptions come from names.",
  ["rubin_sim/maf/metrics/sn_snr_metric.py:SNSNRMetric.run", "rubin_sim/maf/metrics/sn_snr_metric.py:SNSNRMetric.gen_fakes", "rubin_sim/maf/metrics/sn_snr_metric.py:SNSNRMetric.detection_rate"], "Exceptions as values through the whole chain.", "planned")

p("C417", "Seasons of the signal to noise metric",
  "A season has a row just if it has five visits: first and last visit, the time between them and the mean gap. Seasons begin at least 20 days after the end of the one before, otherwise they are as before, and only those longer than 30 days are kept. False for one season alone: it is kept whatever its length.",
  "all visits and lists of seasons", "All lists.",
  ["rubin_sim/maf/metrics/sn_snr_metric.py:SNSNRMetric.season_info", "rubin_sim/maf/metrics/sn_snr_metric.py:SNSNRMetric.check_seasons"], "Induction over the seasons.", "planned")

p("C418", "Days of maximum",
  "The supernovae of a season are at their maximum on its first day and all days after it up to ten days before its end; each belongs to the season its day is in, with the length, cadence and first day of that season. The last is false if the seasons are not in the order of their numbers.",
  "all lists of seasons one after the other", "All lists.",
  ["rubin_sim/maf/metrics/sn_snr_metric.py:SNSNRMetric.snr_slice", "rubin_sim/maf/metrics/sn_snr_metric.py:SNSNRMetric.get_season"], "arange as a set; places in sorted lists.", "planned")

p("C419", "Signal to noise of a light curve",
  "The square of the signal to noise is the sum of the squares of those of the visits from 20 days before the maximum, at rest, to 10 days after it; more visits never lower it, their order does not matter, and one visit with the flux of the depth gives five.",
  "all redshifts, light curves and visits", "All real numbers.",
  ["rubin_sim/maf/metrics/sn_snr_metric.py:SNSNRMetric.snr_slice"], "Sums of squares.", "planned")

p("C420", "Fake observations",
  "make_fake gives for each season and band visits from the first day on, at the cadence of the band, up to less than one cadence after the end, in the order of time, and nothing else; with the mean gap of a season there are as many as in the season, and the depth is that of all exposures together.",
  "all configurations", "All lists of seasons and bands.",
  ["rubin_sim/maf/utils/sn_utils.py:GenerateFakeObservations.make_fake", "rubin_sim/maf/utils/sn_utils.py:GenerateFakeObservations.m5_coadd", "rubin_sim/maf/metrics/sn_snr_metric.py:SNSNRMetric.gen_fakes"], "Membership and permutations.", "planned")

p("C421", "Limits for supernovae",
  "The limit of a redshift is the product of depth and root of the cadence for which visits with this cadence have, in the mean square over the possible first days, the signal to noise asked for. Redshifts without positive flux in the band have none. Of the points of several files those of the last are used, stated as it is.",
  "all light curves, redshifts and signal to noise", "All real numbers.",
  ["rubin_sim/maf/utils/sn_utils.py:Lims.get_lims", "rubin_sim/maf/utils/sn_utils.py:Lims.mesh", "rubin_sim/maf/utils/sn_utils.py:Lims.interp"], "Sums of squares by residues.", "planned")

p("C422", "Number of a new simulation",
  "A new simulation of a day gets the number after the largest one there is, 1 on a new day, and so a directory of its own; those that are added one after the other have numbers one after the other. False for two programs at once: the directory is only made after the look, and both get the same one.",
  "all contents of the directory of a day, numbers of simulations added and the interleavings of two programs", "All lists of names, and executions.",
  ["rubin_sim/sim_archive/prototype.py:_next_sim_date_and_index", "rubin_sim/sim_archive/prototype.py:transfer_archive_dir"], "Maximum of a list; induction on the number of simulations; two programs as a state machine.", "planned")

p("C423", "Transfer of a simulation into the archive",
  "The transfer succeeds just if the metadata and all files in them are in the directory, and then these and nothing else are in the archive, as they were. If it fails, there are no metadata in the archive, so that no reader finds a simulation without its files. The last is false if the metadata list a file for themselves, as those of exported simulations do.",
  "all directories and lists of files in the metadata", "All lists; a failure at each place.",
  ["rubin_sim/sim_archive/prototype.py:transfer_archive_dir", "rubin_sim/sim_archive/prototype.py:export_sim_to_prototype_sim_archive"], "Induction over the files.", "planned")

p("C424", "Check of an archived simulation",
  "The check tells for each file whether its hash is that in the metadata, and raises if a file or a hash is missing. What make_sim_data_dir made and was transferred passes it, and a file with another hash does not. False: it raises for each exported simulation, whose metadata have no hashes, and a supplied file with the name of the metadata is overwritten and fails.",
  "all files, hashes and directories", "All contents.",
  ["rubin_sim/sim_archive/prototype.py:check_opsim_archive_resource", "rubin_sim/sim_archive/sim_archive.py:make_sim_data_dir", "rubin_sim/sim_archive/prototype.py:export_sim_to_prototype_sim_archive"], "Invariant of the files that are collected; composition with the transfer.", "planned")

p("C425", "Files of a simulation",
  "All supplied files and the visits are in the directory, each under its type. True if names and types differ; false for two files of one name, of which only the last is there. The command line gives each file its name for type, so that the scheduler is not under scheduler.",
  "all supplied files", "All lists of names.",
  ["rubin_sim/sim_archive/sim_archive.py:make_sim_data_dir", "rubin_sim/sim_archive/prototype.py:make_sim_archive_cli"], "Dictionaries with order; last write wins.", "planned")

p("C426", "Reading the archived metadata",
  "Without a compilation the metadata that are read are those of the simulations added in the given number of nights up to the latest one, no others, in the order of the days and each once. With a compilation and verification the result is the same whatever is missing from the compilation, and the simulations reported are those that are only in the compilation.",
  "all archives, compilations and windows of nights", "All lists of simulations.",
  ["rubin_sim/sim_archive/prototype.py:read_archived_sim_metadata"], "Lookup in the result; order by induction over the days.", "planned")

p("C427", "Compiled metadata as a cache",
  "Reading the archive with the compilation gives what reading without it gives, whenever simulations are added, days go by and compilations are made, anew or by appending, also if one fails. True for windows in the last N nights if all compilations are over at least N nights; false for compilations over fewer nights. What is added gets a new URI and changes no other simulation.",
  "all executions: additions, days and compilations", "All histories of the archive.",
  ["rubin_sim/sim_archive/prototype.py:compile_sim_metadata", "rubin_sim/sim_archive/prototype.py:read_archived_sim_metadata"], "State machine; invariant by induction: the compilation is that of a day with all simulations before that day.", "planned")

p("C428", "Tables of a compilation",
  "What is compiled into tables is what is read from them. True if each simulation has both dates and all files have the same keys. In general simulations without dates get NaN, files get NaN for the keys of others, and empty lists are gone. The compilation raises just if a simulation has only one date, or there is no file, no sim_runner_kwargs or no tag at all; so one simulation made with a start and no duration stops all compilations.",
  "all metadata", "All dictionaries.",
  ["rubin_sim/sim_archive/prototype.py:compile_sim_metadata", "rubin_sim/sim_archive/prototype.py:read_sim_metadata_from_hdf", "rubin_sim/sim_archive/sim_archive.py:make_sim_data_dir"], "Tables as lists of rows; union of the columns.", "planned")

p("C429", "Verification of a compilation",
  "No difference is reported just if each value in the archive has an equal one in the compilation and each key in the compilation is in the archive; a value of the archive is reported under its simulation and key just if it has no equal one.",
  "all pairs of metadata and comparisons", "All dictionaries.",
  ["rubin_sim/sim_archive/prototype.py:verify_compiled_sim_metadata"], "Membership in the concatenation.", "planned")

p("C430", "Most recent simulation for nights",
  "The simulation that is found covers the nights, is of the telescope and has the tags, and is the most recent one; None just if there is none. The first is true, the most recent only among those of one day: over several days it is one with the highest number of its day, so the third of yesterday comes before the first of today. A simulation without simulated_dates, as all exported ones, or one that covers the nights and has no tags, makes the search raise.",
  "all simulations in the order they are read, nights, tags and telescopes", "All lists.",
  ["rubin_sim/sim_archive/prototype.py:find_latest_prenight_sim_for_nights", "rubin_sim/sim_archive/prototype.py:export_sim_to_prototype_sim_archive"], "Invariant of the loop over the simulations.", "planned")

p("C431", "Visits of the most recent simulation",
  "If no simulation fits, there are no visits: None, an empty table or a count of 0. False: there is a TypeError; the count is given only with a simulation, and is the number of its visits. For a day more than one day ahead fetch_obsloctap_visits raises whatever is in the archive.",
  "all archives, days and times", "All archives.",
  ["rubin_sim/sim_archive/prototype.py:fetch_sim_for_nights", "rubin_sim/sim_archive/prototype.py:fetch_obsloctap_visits", "rubin_sim/sim_archive/prototype.py:fetch_sim_stats_for_night"], "Exceptions as values; the empty window.", "planned")

p("C432", "Anomalous overheads keep to the minimum",
  "If slew, visit and exposure times are given, the overhead with the offset is at least min_overhead whatever is drawn, and without slew scatter the offset is the larger of what is drawn and what gives the minimum. If one of the times is missing there is a warning and no minimum.",
  "all parameters, observations and random numbers", "All real numbers that may be drawn.",
  ["rubin_sim/sim_archive/prenight.py:AnomalousOverheadFunc.__call__"], "Linear arithmetic over the cases.", "planned")

p("C433", "Scatter of the slew",
  "With a scale or a positive location the part of the slew is the slew time times the number drawn, and the slew never takes negative time. False: a location other than zero is said to move the centre, but a negative one without a scale does nothing. An ObservationArray, which is in the annotation, is an AssertionError.",
  "all parameters, observations and random numbers", "All real numbers.",
  ["rubin_sim/sim_archive/prenight.py:AnomalousOverheadFunc.__call__"], "Linear arithmetic over the cases.", "planned")

p("C434", "Results of prenight simulations from the command line",
  "The results of run_prenight_sim are in the directory that is given, and other directories are as they were. False without --results, which is the default: the program ends with an AssertionError after the simulation, and the temporary directory with the results is gone. Anomalous overheads are used just if a scale is not zero.",
  "all directories and arguments", "All states of the disk.",
  ["rubin_sim/sim_archive/prenight.py:run_prenight_sim_cli", "rubin_sim/sim_archive/sim_archive.py:make_sim_data_dir"], "Disk as a dictionary; temporary directories are removed with their objects.", "planned")

p("C435", "Running and archiving a simulation",
  "drive_sim archives the scheduler as it was before the simulation, and refuses to record rewards that are not kept before it runs anything. False: the caller never gets the archived directory, because of a misspelt keyword, and if that were accepted the directory would be gone on return. Not to record rewards that are kept is an IndexError.",
  "all schedulers, simulators and arguments", "All functions as simulators.",
  ["rubin_sim/sim_archive/sim_archive.py:drive_sim", "rubin_sim/sim_archive/sim_archive.py:make_sim_data_dir"], "Disk as a dictionary; cases of the exceptions.", "planned")

p("C436", "Schedulers from configuration files",
  "A configuration with a scheduler, or with a function get_scheduler, gives the scheduler and its nside. True of the first. False of the second: the missing attribute is an AttributeError, which is not the NameError that is caught, so the function is never used.",
  "all modules", "All contents of a module.",
  ["rubin_sim/sim_archive/make_snapshot.py:get_scheduler_from_config"], "Cases of the attributes.", "planned")

p("C437", "Choice of the scheduler for a snapshot",
  "A repository that is not empty is used with its reference and script, else a local script, else the example; the visits of the database are added if one is named and has any. A repository without a script is a ValueError.",
  "all arguments and contents of files", "All combinations of arguments, repositories and databases.",
  ["rubin_sim/sim_archive/make_snapshot.py:get_scheduler", "rubin_sim/sim_archive/make_snapshot.py:get_scheduler_instance_from_repo"], "Independent choice of the source; equivalence.", "planned")

p("C438", "Reading a saved scheduler",
  "The programs that take a scheduler file read what scheduler_snapshot saved. The compression is that of the extension. True for files without one of its extensions; false for each file with one: it is read without decompression.",
  "all file names and schedulers", "All strings.",
  ["rubin_sim/sim_archive/make_snapshot.py:save_scheduler", "rubin_sim/sim_archive/make_snapshot.py:make_ideal_model_observatory_cli", "rubin_sim/sim_archive/prenight.py:run_prenight_sim_cli"], "Suffixes of lists; lookup in a dictionary of files.", "planned")

p("C439", "Conversion of an opsim database to HDF5",
  "The file at the path that is returned has the tables of the database and nothing else, whatever was there. True if there is a table; a database without tables leaves the old file, or none.",
  "all databases and old files", "All lists of tables.",
  ["rubin_sim/sim_archive/util.py:opsimdb_to_hdf5"], "Induction over the tables.", "planned")

p("C440", "Conversion of HDF5 to an opsim database",
  "A database that is converted to HDF5 and back to a new file has the same tables, in whatever order the store gives its keys. A table that is in the target already is an error, and no table of the target is lost, though some of the store may have been added; so with the default paths, where the target is the original, the way back always fails.",
  "all databases, stores and orders of keys", "All lists of tables.",
  ["rubin_sim/sim_archive/util.py:hdf5_to_opsimdb", "rubin_sim/sim_archive/util.py:opsimdb_to_hdf5"], "Induction over the tables; permutations.", "planned")

p("C441", "Versions of conda packages",
  "The packages are those in the files that can be read, the last of each name, in the order of the names, with the environment under conda_env; nothing without an environment. Within a process all calls give what the first one gave.",
  "all contents of conda-meta and sequences of calls", "All lists of files and calls.",
  ["rubin_sim/sim_archive/conda_packages.py:get_conda_packages"], "Lookup after a fold; sorting; induction over the calls.", "planned")

p("C442", "Connections of a metadata archive object",
  "Any number of queries and readings of tables can be made with one VisitSequenceArchiveMetadata: a call succeeds exactly if fewer than five connections are kept by earlier calls. False with insertions of nightly statistics, each of which keeps a connection for good: after five (four with a reading) every call is a PoolError.",
  "all sequences of calls", "All sequences of calls of any length.",
  ["rubin_sim/sim_archive/vseqmetadata.py:VisitSequenceArchiveMetadata.query", "rubin_sim/sim_archive/vseqmetadata.py:VisitSequenceArchiveMetadata.pd_read_sql", "rubin_sim/sim_archive/vseqmetadata.py:VisitSequenceArchiveMetadata.insert_nightly_stats"], "State machine of the pool; invariant by induction on the calls.", "planned")

p("C443", "Where the parameters of the connection come from",
  "Database, host, user and port are what the caller gives, else what the environment says, else the value of the module, and other parameters are passed on. False: the dictionary of the caller is not left alone, so one that is used again keeps what the environment said the first time.",
  "all dictionaries and environments", "All dictionaries.",
  ["rubin_sim/sim_archive/vseqmetadata.py:VisitSequenceArchiveMetadata.__init__"], "Lookups after insertions.", "planned")

p("C444", "Nightly statistics of visits",
  "compute_nightly_stats gives one row for each night with visits and each column. A night is from noon to noon (UTC), by obs_start_mjd if there is one. Count, mean, smallest and largest are those of the values on the night that are not missing, the percentiles are in order between them, and over the nights the counts add up to the visits with a value.",
  "all visits and columns", "All tables with values missing anywhere.",
  ["rubin_sim/sim_archive/vseqarchive.py:compute_nightly_stats"], "Groups by distinct days; percentiles of the sorted values.", "planned")

p("C445", "Nightly statistics in the database",
  "Statistics of a sequence that has none are inserted completely and returned as they are; those of other sequences stay. An insertion with a row for a night and value that is there already is an error that changes nothing, and there are never two such rows.",
  "all tables and rows", "All states of the table.",
  ["rubin_sim/sim_archive/vseqmetadata.py:VisitSequenceArchiveMetadata.insert_nightly_stats", "rubin_sim/sim_archive/vseqmetadata.py:VisitSequenceArchiveMetadata.query_nightly_stats"], "Primary key as uniqueness; invariant.", "planned")

p("C446", "Mixed sequences are recorded in two steps",
  "record_mixed_metadata adds one row with the dates and parents and leaves others alone. False: it is not one transaction. With a date that cannot be read the call fails and leaves a row without dates and parents.",
  "all tables, dates and parents", "All tables.",
  ["rubin_sim/sim_archive/vseqmetadata.py:VisitSequenceArchiveMetadata.record_mixed_metadata"], "The row is committed before the dates are converted.", "planned")

p("C447", "Updating metadata from the command line",
  "A hash given to update-visitseq-metadata as the digits that are printed is stored as the hash; an update changes that field of that sequence and nothing else, and one that fails (no such sequence or field, no hexadecimal digits) changes nothing.",
  "all hashes, sequences, fields and values", "All sequences of bytes of any length.",
  ["rubin_sim/sim_archive/vseqarchive.py:update_visitseq_metadata", "rubin_sim/sim_archive/vseqmetadata.py:VisitSequenceArchiveMetadata.update_visitseq_metadata"], "Induction on the bytes.", "planned")

p("C448", "Metadata of simulations in the prototype archive",
  "metadata_yaml_from_prototype gives the time of creation of the metadata, else of the label, else one on the date of the simulation in the order of the indexes, and each file has its URL or its name in the directory; nothing else changes. False in effect: the import that uses it ignores the time, so a simulation whose label has no time is recorded as made at the time of the import.",
  "all metadata, dates and indexes", "All metadata files.",
  ["rubin_sim/sim_archive/vseqmetadata.py:metadata_yaml_from_prototype", "rubin_sim/sim_archive/vseqmetadata.py:VisitSequenceArchiveMetadata.import_sim_from_yaml"], "Lookups after insertions; composition with the import.", "planned")

p("C449", "Visits come back from the archive",
  "A database of visits that is archived can be retrieved as a database with the same tables, other files as they are. A destination that is there is not overwritten. False for a database with a suffix that is not known, which is archived as it is and cannot be retrieved as a database.",
  "all databases, files and suffixes", "All databases with any tables.",
  ["rubin_sim/sim_archive/vseqarchive.py:add_file", "rubin_sim/sim_archive/vseqarchive.py:get_file"], "Composition of the two conversions.", "planned")

p("C450", "Nights of the observation schedule",
  "fetch_obsloctap_visits takes the first night that begins after the reference and as many nights as asked for; with a day_obs in the almanac the first is this day. Simulations up to a day before it are considered. For a day two or more days ahead no simulation that exists is considered unless an age is given.",
  "all almanacs in which the sun sets in the second half of the day (UTC), all times and numbers of nights", "All real times.",
  ["rubin_sim/sim_archive/sim_archive.py:fetch_obsloctap_visits"], "Minimum of a filtered list; floors.", "planned")

p("C451", "Visits of a night in the latest simulation",
  "fetch_sim_stats_for_night reports the number of visits on the night. False: without recorded statistics it is the number of values in the first column, which is less if one is missing, and a night without visits is a KeyError. Without a simulation there is an exception, where an empty dictionary is documented. Recorded statistics are kept.",
  "all simulations, statistics and visits", "All tables with values missing anywhere.",
  ["rubin_sim/sim_archive/sim_archive.py:fetch_sim_stats_for_night"], "Composition with the nightly statistics.", "planned")

p("C452", "Names of microlensing results",
  "parse_t_e_run_types reads the name of the run, the type of the metric and the shortest and longest crossing time back from a name run_MicrolensingMetric_type_tE_min_max..., and refuses (IndexError) a name without MicrolensingMetric. False for every run: one with MicrolensingMetric in its own name is read wrongly.",
  "all runs, types and crossing times", "All names of any length.",
  ["rubin_sim/maf/run_comparison/microlensing_compare.py:parse_t_e_run_types", "rubin_sim/maf/metric_bundles/metric_bundle.py:MetricBundle._build_file_root"], "Splitting at a word that does not begin with its own end.", "planned")

p("C453", "Ranges of crossing times in the comparison",
  "If both limits grow from bin to bin, the ranges of plot_fom and plot_compare are the bins of the runs and a run is in the range of its own bin and no other. False for bins that lie in one another: runs are in no range, and a range has limits that no run has; of bins that begin together there is only one range.",
  "all runs and bins", "All lists of runs.",
  ["rubin_sim/maf/run_comparison/microlensing_compare.py:plot_fom", "rubin_sim/maf/run_comparison/microlensing_compare.py:plot_compare"], "np.unique of sorted limits.", "planned")

p("C454", "What the figure of merit plot shows",
  "A series of plot_fom has the runs of its range and type, in the order of their names. If the figure is drawn, every run of type detect, Npts or Fisher is in it exactly once, in the panel of its type and with the label of its bin. False for every set of results: the figure is refused (IndexError) exactly when some bin has no run of one of the three types, as with the bins of the science radar batch.",
  "all runs, names and types", "All sets of results.",
  ["rubin_sim/maf/run_comparison/microlensing_compare.py:plot_fom", "rubin_sim/maf/batches/science_radar_batch.py:science_radar_batch"], "Disjoint series; an empty index array has floats.", "planned")

p("C455", "Comparison matrices of microlensing results",
  "The cells of detected_fisher_comparison, fisher_npts_comparison and detected_npts_comparison are the numbers of events that pass and do not pass the two criteria, except for events that meet a limit exactly. False as documented: an event with exactly the required number of points (or uncertainty) is in no cell, so the cells do not add up to the events.",
  "all events and limits", "All lists of events.",
  ["rubin_sim/maf/run_comparison/microlensing_compare.py:detected_fisher_comparison", "rubin_sim/maf/run_comparison/microlensing_compare.py:fisher_npts_comparison", "rubin_sim/maf/run_comparison/microlensing_compare.py:detected_npts_comparison"], "Counts of disjoint events.", "planned")

p("C456", "The required number of points in the comparison",
  "The matrices that plot_compare labels with the required number of points are those for this number. Holds for ten points. False for others: the number is only in the label, the matrix is always for more than ten points.",
  "all events and numbers of points", "All events.",
  ["rubin_sim/maf/run_comparison/microlensing_compare.py:plot_compare"], "The default of the comparisons is used.", "planned")

p("C457", "Results of one microlensing metric",
  "get_results is the fraction of events detected, the mean number of points, or the fraction of events with an uncertainty below the limit, over all events. With zeros for the events without visits this holds for the first two. False for the third: the mask is not looked at, so events without visits count as characterized if the number under the mask is below the limit.",
  "all events and masks", "All result files.",
  ["rubin_sim/maf/run_comparison/microlensing_compare.py:get_results", "rubin_sim/maf/run_comparison/microlensing_compare.py:microlensing_fom"], "Counts with arbitrary values under the mask.", "planned")

p("C458", "Reading the results of microlensing runs",
  "get_results_dbs gives the databases of a folder that have metrics. False: it calls getAllMetricIds, which ResultsDb does not have, so any folder with a result is an AttributeError; only for an empty folder is there a result.",
  "all folders", "All lists of files.",
  ["rubin_sim/maf/run_comparison/microlensing_compare.py:get_results_dbs", "rubin_sim/maf/db/results_db.py:ResultsDb"], "The list of methods of ResultsDb.", "planned")

p("C459", "Nights with more than a number of filters", "NightsWithNFiltersMetric gives the number of different nights on which more than n_filters different filters were used, whatever the order of the visits. (Documented for the argument as the minimum set of filters, which would count nights with exactly that many.)", "for all visits and all n_filters", "Tests use one order of a few visits; the count is over every night and every set of filters.", ["rubin_sim/maf/maf_contrib/example_new_metrics.py:NightsWithNFiltersMetric.run"], "Finset cardinalities.", "planned")
p("C460", "Stars are matched to their solutions", "The matching of identifiers in the uniformity metric finds every solution whose identifier is among the stars, once and in order, no other, and pairs it with a star of the same identifier; it never indexes outside the stars, also when an identifier is larger than all of them.", "for all arrays of identifiers and every order of ties in the sort", "The out of range case depends on the largest identifier; tests have a few arrays.", ["rubin_sim/maf/maf_contrib/selfcal_uniformity_metric.py:_match"], "Position of the first element not smaller, by induction on the sorted list.", "planned")
p("C461", "Uniformity of the self calibration", "The results do not depend on the zero point of the solution; the pixels that count are those with a star; outlier_frac_full is the fraction of pixels that are outliers and outlier_frac_highglat the fraction of the pixels at high latitudes that are; the columns that are read are among those that the metric asks for.", "for all solutions, pixelizations, limits and choices of high latitudes", "One run of the self calibration takes minutes; no test covers the results.", ["rubin_sim/maf/maf_contrib/selfcal_uniformity_metric.py:PhotometricSelfCalUniformityMetric.run", "rubin_sim/maf/maf_contrib/selfcal_uniformity_metric.py:PhotometricSelfCalUniformityMetric.__init__"], "Median of shifted values; counting.", "planned")
p("C462", "Galaxy counts with and without a slicer agree", "galaxy_counts_with_pixel_calibration gives, for a coadded depth, what GalaxyCountsMetricExtended gives at a place with that depth; counts are not negative and places shallower than one magnitude have none.", "for all depths, bands, redshift bins, options, tables of power laws and integration rules", "The two copies of the formulas are compared for every option, which tests do not run.", ["rubin_sim/maf/maf_contrib/lss_obs_strategy/galaxy_counts_with_pixel_calibration.py:galaxy_counts_with_pixel_calibration", "rubin_sim/maf/maf_contrib/lss_obs_strategy/galaxy_counts_metric_extended.py:GalaxyCountsMetricExtended.run"], "Unfold both and split on the options.", "planned")
p("C463", "Galaxies in the extragalactic footprint", "DepthLimitedNumGalMetric gives the number of galaxies from the visits in its band where the place passes the cuts on dust, number of filters and depth, and its bad value elsewhere.", "for all visits, cuts, extinctions, counts and bad values", "Depends on which of four cuts fails and on the bad value of an inner metric.", ["rubin_sim/maf/maf_contrib/depth_limited_num_gal_metric.py:DepthLimitedNumGalMetric.run"], "By the properties of ExgalM5WithCuts.", "planned")
p("C464", "Normalization of a spectrum to a magnitude", "get_imsim_flux_norm gives the one positive factor by which a spectrum must be multiplied so that its magnitude in the imsim bandpass is the wanted one, and raises RuntimeError exactly if the spectrum does not cover the wavelength of the bandpass.", "for all spectra with positive flux there, wavelengths, zero points and magnitudes", "Inverse of a real function over all spectra.", ["rubin_sim/phot_utils/sed_utils.py:get_imsim_flux_norm"], "Interpolation is linear in the flux; logarithms.", "planned")
p("C465", "Column dictionaries and the observations that are read", "col_map_dict finds the dictionaries whatever the case of their names, the default is FBS, and other names raise ValueError; read_observations works with each of them, asks once for each needed column, each column of the caller, the solar elongation and the identifier, raises KeyError if a key is missing, and changes the caller's dictionary only by adding rotSkyPos.", "for all names, dictionaries and lists of columns", "All dictionaries a caller can make, including those with missing keys.", ["rubin_sim/maf/batches/col_map_dict.py:col_map_dict", "rubin_sim/moving_objects/utils.py:read_observations"], "Case split over the tables; induction over keys.", "planned")
p("C466", "Star count metrics", "As it is: StarCountMetric.run calls the module starcount instead of its function, so that it raises TypeError for all data; StarCountMassMetric.run takes the third and fourth column of the first visit for its position, whatever they are, so that its result depends on the order of the columns.", "for all data and all count functions", "A failure for every input and a dependence on the order of columns; there is no test of either metric.", ["rubin_sim/maf/maf_contrib/star_count_metric.py:StarCountMetric.run", "rubin_sim/maf/maf_contrib/star_count_mass_metric.py:StarCountMassMetric.run", "rubin_sim/maf/maf_contrib/star_counts/__init__.py:__all__"], "Resolution of the imported name.", "planned")

p("C467", "Visible time of a field, fast version", "calculate_lsst_field_visibility_fast gives the sampled dates between start and end at which the field is at least at the minimum altitude and the sun not above its limit, in order, and the sampling interval times their number as the visible time; stricter limits never give more time, and the time is at most that between start and end. The last part is false: an always visible field gets one interval more.", "for all altitudes of field and sun as functions of time, all dates, limits and rates", "The claims are about every function of time and every sampling rate.", ["rubin_sim/maf/maf_contrib/calculate_lsst_field_visibility_astropy.py:calculate_lsst_field_visibility_fast"], "Membership in the filtered samples; ceiling of the number of samples.", "planned")
p("C468", "Visible time of a field per night", "calculate_lsst_field_visibility gives one entry for each date, which is the number of hours of the samples at which the sun is below its limit and the field high enough, and the sum of the entries is 24 times the total. False: if the sun is never below the limit on one of the dates it raises ValueError instead of giving zero.", "for all altitudes of field and sun as functions of time, all dates, limits and rates", "Needs dates without night; tests use none.", ["rubin_sim/maf/maf_contrib/calculate_lsst_field_visibility_astropy.py:calculate_lsst_field_visibility"], "Induction over the dates.", "planned")
p("C469", "Merged sky templates", "The magnitude that merged_spec writes is that of the sum of the fluxes of the components with a magnitude, whatever zero point is used on the way; it is not fainter than any component, a single component keeps its magnitude, and two equal ones are brighter by 2.5 log 2.", "for all magnitudes and zero points", "An identity of real functions.", ["rubin_sim/skybrightness/data/ESO_Spectra/eso_tools.py:merged_spec"], "Powers and logarithms.", "planned")
p("C470", "Templates split over files", "The files that a table of templates is split into hold together all rows in order, and their sizes differ by at most one; loading them sorted by name gives the table back for the five files of the moon and the three of the zodiacal light. (It would not for eleven.)", "for all tables", "For every length of the table, also those not divisible by the number of files.", ["rubin_sim/skybrightness/data/ESO_Spectra/eso_tools.py:generate_moon", "rubin_sim/skybrightness/data/ESO_Spectra/eso_tools.py:generate_zodi", "rubin_sim/skybrightness/interp_components.py:load_spec_files", "rubin_sim/skybrightness/interp_components.py:BaseSingleInterp.__init__"], "Telescoping of cuts; a sorted list is not changed by sorting.", "planned")
p("C471", "Index of a template", "The reader of the zodiacal light takes row (airmass index) * (number of pixels) + pixel and that of the moon row (separation index) * pixels * altitudes + (altitude index) * pixels + (pixel index): in the sorted tables these are the templates for those values.", "for all grids with increasing values, whatever sorting is used", "For every grid, not only that of the files that are shipped.", ["rubin_sim/skybrightness/data/ESO_Spectra/eso_tools.py:generate_moon", "rubin_sim/skybrightness/data/ESO_Spectra/eso_tools.py:generate_zodi", "rubin_sim/skybrightness/interp_components.py:ZodiacalInterp._weighting", "rubin_sim/skybrightness/interp_components.py:MoonInterp._weighting"], "The sorted permutation is unique; positions in a product.", "planned")
p("C472", "Regenerated templates and their readers", "As it is: a table of the airglow as generate_airglow writes it cannot be read, because its column is solar_flux and the reader wants solarFlux, and those of all other components can; the zodiacal light that is found at an ecliptic latitude is the one that was computed for the opposite latitude.", "for all components and latitudes", "The generator needs an external program, so that no test regenerates a table.", ["rubin_sim/skybrightness/data/ESO_Spectra/eso_tools.py:generate_airglow", "rubin_sim/skybrightness/data/ESO_Spectra/eso_tools.py:generate_zodi", "rubin_sim/skybrightness/interp_components.py:Airglow.__init__", "rubin_sim/skybrightness/interp_components.py:ZodiacalInterp._weighting"], "Comparison of field names; algebra.", "planned")
p("C473", "Measured sky brightnesses", "all_sky_db gives the observations in the filter on the date, each with its star, and the time of that date or None; diode_sky_db gives the measurements strictly within a day of the time, and if clean only those with three positive values. False: the argument of all_sky_db is documented as a date, but is the number of a date in the database. diode_sky_db without an address raises TypeError unless a variable of an older package is set.", "for all contents of the tables", "For every database; tests have no such file.", ["rubin_sim/skybrightness/allsky_db.py:all_sky_db", "rubin_sim/skybrightness/allsky_db.py:diode_sky_db"], "Membership in a join.", "planned")
p("C474", "Images at a point", "If the radius of HealpixSDSSSlicer is at least the distance from the first corner of an image to any of its points, the images at a slice point are exactly those that contain it, each once; with any radius none is given that does not contain it.", "for all images, points, radii and orders in which the tree gives the neighbours", "The tree gives neighbours in any order.", ["rubin_sim/maf/slicers/healpix_sdss_slicer.py:HealpixSDSSSlicer.setup_slicer"], "Loop equals filter.", "planned")

p("C475", "Night and hours by the clock", "_compute_hours_after_midnight gives the night that began at the last noon and the hours from its midnight, from -12 to 12: the time is the midnight at the end of the night's day plus the hours, which determine each other; within a night later times have larger hours.", "for all times", "For all real times, in particular those at and next to noon.", ["rubin_sim/maf/plots/hg_plotters.py:_compute_hours_after_midnight"], "Characterisation of floor.", "planned")
p("C476", "Night and hours by the sun", "_compute_hours_after_solar_midnight gives hours from mean solar midnight, from -12 to 12, and the night in which the time is. The second part is false: the night is by the clock, so between the noon of the clock and that of the sun the time is drawn in the row before or after its own.", "for all times, longitudes and time zones", "Fails only for times in a short interval about noon; otherwise holds for all.", ["rubin_sim/maf/plots/hg_plotters.py:_compute_hours_after_solar_midnight"], "Uniqueness of the wrapped angle.", "planned")
p("C477", "Rows of a month", "In the plot of a month a block is on the row of the day of the month in whose evening its night began; each block is in exactly one month. False at the edges: the month is cut at noon UTC and not noon of the clock, so that a block between the two is on a row outside of the axis; one at noon UTC of the first day is in no month.", "for all months, times and time zones", "Fails only for times between two noons on one day of the month.", ["rubin_sim/maf/plots/hg_plotters.py:GeneralHourglassPlot._plot_dates", "rubin_sim/maf/plots/hg_plotters.py:GeneralHourglassPlot._plot_month", "rubin_sim/maf/plots/hg_plotters.py:GeneralHourglassPlot._plot_value_bars"], "Floor and inequalities.", "planned")
p("C478", "Colours of values and the colour bar", "The colour of a block is the place of its value between the limits of the colour bar, in every month of a year. False without limits: each month has its own and the bar is that of the last month, or there is none if that month is empty; a month in which all values are equal is an error, also with limits.", "for all values and limits", "Any number of values and months.", ["rubin_sim/maf/plots/hg_plotters.py:GeneralHourglassPlot._map_colors", "rubin_sim/maf/plots/hg_plotters.py:YearHourglassPlot._plot"], "Induction over the months.", "planned")
p("C479", "Colours of categories", "If there are enough colours every category has one, that is the assigned one if there is one, not gray, and different from those of the others; with too few colours it is an IndexError, and a gray one that is assigned is a KeyError. In a year assigned colours are the same in each month. False for others: their colours differ from month to month, although the legend has that of the last month.", "for all colour maps of different colours, categories and assignments of different colours", "For every set of categories and every assignment.", ["rubin_sim/maf/plots/hg_plotters.py:_assign_category_colors", "rubin_sim/maf/plots/hg_plotters.py:CategoricalHourglassPlotMixin._map_colors"], "Invariant of the three loops: colours in use are different and not free.", "planned")
p("C480", "Legend", "With legend_elements the legend has those of them that exist, in that order, with the handle of the axes or else the coloured patch; without, every label once.", "for all patches, handles and lists of elements", "Any collision of labels.", ["rubin_sim/maf/plots/hg_plotters.py:GeneralHourglassPlot._add_figure_legend"], "Lookup in a dictionary that is updated in a loop.", "planned")
p("C481", "Lines that do not wrap", "The transits and moon rise and set are drawn as lines that together have all points in order; the hours along each do not decrease, and there are just as many lines as that needs: one more than the number of times the hours decrease.", "for all lists of hours", "For every pattern of wrapping.", ["rubin_sim/maf/plots/hg_plotters.py:_astron_hourglass"], "Labels are sorted; splitting a sorted list by labels.", "planned")
p("C482", "Times of transit", "For a body whose hour angle grows by 360 r degrees in a day, 0 < r < 2, _compute_coord_transit_mjds moves the time by at most half a day and leaves the hour angle times 1 - r; after the three steps of the moon it is the third power of 1 - r times that at the beginning, at most 180 degrees times that power.", "for all hour angles, rates and times", "Convergence for every starting time, also near the wrap.", ["rubin_sim/maf/plots/hg_plotters.py:_compute_coord_transit_mjds", "rubin_sim/maf/plots/hg_plotters.py:_compute_moon_transit_mjds"], "The wrapped angle is unique.", "planned")
p("C483", "Lines and bars on the same row", "The lines of twilight and transits for a night are on the row of its bars. False unless the axis begins at one half, the default for months: with another y_min they are shifted by the difference.", "for all lower limits, reference dates and nights", "For every lower limit.", ["rubin_sim/maf/plots/hg_plotters.py:GeneralHourglassPlot._plot_one_axis", "rubin_sim/maf/plots/hg_plotters.py:_astron_hourglass"], "Algebra.", "planned")
p("C484", "Plots for a range of dates", "As it is: GeneralHourglassPlot and RangeHourglassPlot always end in an error (the labels are added with one argument too many), month and year plots do not for that reason.", "for all data", "Whatever happens while the data are drawn.", ["rubin_sim/maf/plots/hg_plotters.py:GeneralHourglassPlot._plot", "rubin_sim/maf/plots/hg_plotters.py:RangeHourglassPlot._plot", "rubin_sim/maf/plots/hg_plotters.py:GeneralHourglassPlot._add_axis_labels"], "Cases.", "planned")

p("C485", "Stackers, summary metrics and plotters of a bundle", "A MetricBundle takes one stacker, summary metric or plotter or a list of them, and anything else in the list is a ValueError; None in a list of stackers is passed over; without summary metrics it has the Identity for the UniSlicer and none for others, and without plotters those of the slicer. False for one plotter that is not in a list: it is a TypeError.", "for all arguments", "Lists of any length with wrong items anywhere.", ["rubin_sim/maf/metric_bundles/metric_bundle.py:MetricBundle.set_summary_metrics", "rubin_sim/maf/metric_bundles/metric_bundle.py:MetricBundle.set_plot_funcs", "rubin_sim/maf/metric_bundles/metric_bundle.py:MetricBundle.__init__"], "Induction over the list.", "planned")
p("C486", "Plot dictionary", "An entry of the plot dictionary is that of the last call that had one; a zero point that is not finite and a norm of zero are never in it, whatever the calls (an earlier good value is removed with them). A reduced bundle has all entries of its parent unless others are given. False, as the comment says: except for title and labels of the axes.", "for all sequences of calls", "Any number of calls with any dictionaries.", ["rubin_sim/maf/metric_bundles/metric_bundle.py:MetricBundle.set_plot_dict", "rubin_sim/maf/metric_bundles/metric_bundle.py:MetricBundle.reduce_metric"], "Lookup in an updated dictionary; invariant of the calls.", "planned")
p("C487", "Display dictionary and caption", "An entry of the display dictionary is that of the last call that had one, else the default; after any calls there are group, subgroup, order and a caption that is not None. A caption that is made has the comment, or else name, slicer and constraint, and the zero point and norm of the plots. False after a change of the plot dictionary: the caption stays. False for a zero point of None, which set_plot_dict allows for: it is a TypeError. A reduced bundle has the caption of its parent, and the order of its function unless another is given.", "for all sequences of calls", "Any number of calls with any dictionaries.", ["rubin_sim/maf/metric_bundles/metric_bundle.py:MetricBundle.set_display_dict", "rubin_sim/maf/metric_bundles/metric_bundle.py:MetricBundle.reduce_metric"], "Induction over the calls.", "planned")
p("C488", "Label from the constraint", "A label that is given is the label; otherwise it is made of the characters of the constraint, without equal signs and quotes and without blanks at the ends; that of the selection of a band is the band. False: that it has no double blanks; and that bundles of different constraints have different files: equal signs make no difference, so <= and < have the same.", "for all constraints", "For every text.", ["rubin_sim/maf/metric_bundles/metric_bundle.py:MetricBundle._build_metadata", "rubin_sim/maf/metric_bundles/metric_bundle.py:MetricBundle._build_file_root"], "Removal of a character is a filter; separators in patterns.", "planned")
p("C489", "Bundles written and read", "MetricBundle.read of what write wrote gives the name of the metric, run, constraint, values, summary values, the label with the comment, the plot dictionary and the display dictionary, and the root of the name of the file (with the suffix). False for the units of the metric, which are read only if they are in the plot dictionary.", "for all bundles, comments and suffixes", "For every bundle.", ["rubin_sim/maf/metric_bundles/metric_bundle.py:MetricBundle.write", "rubin_sim/maf/metric_bundles/metric_bundle.py:MetricBundle.read"], "Composition.", "planned")
p("C490", "File in the results database", "write with a results database makes a row that names the file that was written. True without a suffix and if there was no row of the same metric; false with a suffix, and if there was one, as after set_display_dict with the database, it stays and names none.", "for all databases and bundles", "For every state of the database.", ["rubin_sim/maf/metric_bundles/metric_bundle.py:MetricBundle.write", "rubin_sim/maf/metric_bundles/metric_bundle.py:MetricBundle.write_db", "rubin_sim/maf/metric_bundles/metric_bundle.py:MetricBundle.set_display_dict"], "From the model of update_metric.", "planned")
p("C491", "Plots of a bundle", "MetricBundle.plot makes a figure for each type of the plotters of the bundle, which is that of the last plotter of the type. False for a plotter that is given: AttributeError.", "for all lists of plotters", "Any number of plotters of equal types.", ["rubin_sim/maf/metric_bundles/metric_bundle.py:MetricBundle.plot"], "Induction over the plotters.", "planned")
p("C492", "Bundles that are run for a constraint", "set_current selects the bundles with the constraint (None is the empty one) and the columns that any of them needs; run_all runs each bundle once, and the reduced bundles that are made on the way are not run.", "for all groups and constraints", "Any number of bundles, constraints and reduce functions.", ["rubin_sim/maf/metric_bundles/metric_bundle_group.py:MetricBundleGroup.set_current", "rubin_sim/maf/metric_bundles/metric_bundle_group.py:MetricBundleGroup.run_all"], "Induction over the constraints with an invariant of the dictionary.", "planned")
p("C493", "Reduced bundles in the group", "After reduce_current each reduced bundle is in the group and among the current ones, under its name, or the root of its file if the name is that of a bundle in the group, and the others stay. False for two bundles whose metrics have the same name (on different slicers): only the last of the two reduced bundles is kept.", "for all groups and reduce functions", "Any number of bundles.", ["rubin_sim/maf/metric_bundles/metric_bundle_group.py:MetricBundleGroup.reduce_current"], "Lookup in an updated dictionary.", "planned")
p("C494", "Plots of a group", "plot_current plots every bundle except those for which there is a ValueError, which is a warning; another error ends it and the bundles after it are not plotted.", "for all lists of bundles and errors", "Any order of errors.", ["rubin_sim/maf/metric_bundles/metric_bundle_group.py:MetricBundleGroup.plot_current"], "Induction over the bundles.", "planned")

p("C495", "Points on a circle", "compute_circle_points gives the points of an arc in steps of the bearing, up to its end, with right ascensions that differ from those of the points by whole turns and have no large jumps. True for steps that divide the arc and within one turn on either side; false for other steps, where the last point is past the end, and for more than a turn round a pole, where there is a jump of a turn.", "for all arcs, steps and sequences of right ascensions", "Any number of points; a jump comes only after the first turn.", ["rubin_sim/maf/plots/skyproj_plotters.py:compute_circle_points"], "Induction over the points with the lifted angle as invariant.", "planned")
p("C496", "One projection for each part of a figure", "Plots in the same part of the same figure share one projection, whichever of the two forms names the part and whatever is drawn in between; it has the arguments of the first call, and a call for another class is an AssertionError. Different parts and figures never share one.", "for all sequences of calls", "Any number of calls in any order.", ["rubin_sim/maf/plots/skyproj_plotters.py:SkyprojPlotter._prepare_skyproj"], "Induction over the calls.", "planned")
p("C497", "Values of points on a healpix grid", "For slicers without healpixels the map has in each pixel the reduced values of the points in it that are not masked, and is masked where there are none. True for pixels without masked points; false for others: a masked point takes part with the bad value of the slicer.", "for all points, values and reductions", "For any number of points in a pixel.", ["rubin_sim/maf/plots/skyproj_plotters.py:HpxmapPlotter._transform_to_healpix", "rubin_sim/maf/plots/spatial_plotters.py:HealpixSkyMap.__call__"], "Induction over the points.", "planned")
p("C498", "Scale and limits of the colours of a map", "log_scale makes the scale logarithmic, or is a ValueError if another norm is given; limits from the data or the dictionary that have zero between or at them are not passed to a logarithmic scale, others always are, before those in draw_hpxmap_kwargs; with mask_below only the values above it are drawn. The colour bar is at the right if it is vertical, below if horizontal, and other orientations are refused.", "for all norms, limits and maps", "For every map.", ["rubin_sim/maf/plots/skyproj_plotters.py:HpxmapPlotter.draw", "rubin_sim/maf/plots/skyproj_plotters.py:HpxmapPlotter._compatible_color_limits", "rubin_sim/maf/plots/skyproj_plotters.py:HpxmapPlotter.draw_colorbar"], "Case analysis.", "planned")
p("C499", "Files from before version 1.0", "Reading such a file gives each saved argument of the slicer under its new name (the columns of the position from spatialkey1 and spatialkey2 first), the others as they were, and the header with the new names; a single argument that the class does not have makes it the default slicer, with none of them.", "for all saved dictionaries", "For every combination of old and new names.", ["rubin_sim/maf/slicers/base_slicer.py:BaseSlicer.read_backwards_compatible"], "Lookup after each renaming.", "planned")
p("C500", "Radar plots", "The axes are at even distances over a turn, each at its own angle, the first at the top; the line of a run goes through all its values and closes if there are two or more metrics; the corners of the frame are on the circle; colours are one for each run, and too few are an IndexError.", "for all numbers of metrics and runs", "For any number of axes.", ["rubin_sim/maf/run_comparison/radar_plot.py:_radar_factory", "rubin_sim/maf/run_comparison/radar_plot.py:_unit_poly_verts", "rubin_sim/maf/run_comparison/radar_plot.py:radar"], "Arithmetic of the remainder; injectivity.", "planned")
p("C501", "Plot of binned data", "OneDBinnedData draws over each bin a line at its value, and leaves out masked bins, or draws them at the fill value with filled_data. The y axis starts at zero if that is the least value: true without masked values, false with them. False that the defaults are enough: without a colour it is a KeyError.", "for all bins and values", "For any number of bins.", ["rubin_sim/maf/plots/oned_plotters.py:OneDBinnedData.__call__"], "Induction over the bins.", "planned")
p("C502", "Histogram of the distances of near-Earth objects", "Each cell has the number of objects within the limits of ecliptic latitude whose direction is nearest to that of the cell and which are seen as far as the cell; so there are not more farther out, and each direction is within half a step of a cell. False that the directions are a step apart: the first and the last are half a degree apart and overlap.", "for all objects and grids", "For any number of objects.", ["rubin_sim/maf/plots/neo_distance_plotter.py:NeoDistancePlotter.__call__"], "Induction over the objects.", "planned")
p("C503", "Downloads of runs", "After download_runs every run has its file; without clobber files that exist are not changed, otherwise the file has what is at the address of the run, and other files stay. A directory that does not exist is a FileNotFoundError. False that it returns the metadata of the runs: it returns the names of the files.", "for all tables of runs and states of the directory", "Any number of runs, also of the same file.", ["rubin_sim/maf/run_comparison/archive.py:download_runs"], "Induction over the runs.", "planned")
p("C504", "Tables of families", "The table that describe_families shows has the metrics of the subset under their short names, and the path of the file if there are no more than two; a metric that the summary does not have is a KeyError; without a summary there are no metrics. False that without a subset there are none: then all metrics of the summary are in the table.", "for all summaries and subsets", "For every number of metrics.", ["rubin_sim/maf/run_comparison/archive.py:describe_families"], "Case analysis on the number of columns.", "planned")
p("C505", "Plot of families", "The plot of describe_families has the runs of the families and the run to compare with, each once if they differ, and the metrics of the subset that the summary has; a run that the summary does not have is a KeyError. False that the summary may be left out: AttributeError.", "for all lists of runs and metrics", "For every list.", ["rubin_sim/maf/run_comparison/archive.py:describe_families"], "Membership.", "planned")

p("C506", "When bundles share a file name", "Two bundles of the same run, label and slicer have the same file_root exactly if the names of their metrics are the same once made fit for file names between underscores; likewise for labels and runs. make_bundles_dict_from_list keeps every bundle under its file_root in the order given, and raises NameError exactly if two are the same.", "for all names, labels, runs and lists of bundles", "Names are arbitrary text and different texts can give the same file name.", ["rubin_sim/maf/metric_bundles/metric_bundle.py:MetricBundle._build_file_root", "rubin_sim/maf/metric_bundles/metric_bundle_group.py:make_bundles_dict_from_list"], "Merging of underscores splits at an underscore; cancellation.", "planned")
p("C507", "Batches with one bundle per band", "A batch with one bundle per band and metric never fails with NameError if the names of its metrics give different file names: the labels of two bands never do clash, whatever run, metric, condition or label is given. So altazHealpix gives seven bundles and seasons fifteen.", "for all names of runs and metrics, labels, conditions and slicers", "Labels, conditions and names are arbitrary text that is rewritten in the file name.", ["rubin_sim/maf/batches/common.py:filter_list", "rubin_sim/maf/batches/altaz_batch.py:altazHealpix", "rubin_sim/maf/batches/time_batch.py:seasons"], "Ends of the names tell the bands apart.", "planned")
p("C508", "Bundles of the gaps between visits", "timeGaps gives twenty-eight bundles, with no NameError, and the histograms of gaps are in the subgroup asked for. False for the histograms of the single bands, which are in 'Gaps Sampling'; only that of all bands is in the subgroup.", "for all subgroups, labels, conditions, slicers and runs", "State is passed from one pass of the loop to the next.", ["rubin_sim/maf/batches/time_batch.py:timeGaps"], "Induction over the bands.", "planned")
p("C509", "Bundles of metadata", "metadataBasics works for any quantity, condition, label and slicer, with ninety-eight bundles of different file names. False for a UniSlicer, with which there is always a NameError.", "for all quantities, labels, conditions, runs and slicers", "The quantity is part of all names.", ["rubin_sim/maf/batches/metadata_batch.py:metadataBasics"], "Cancellation of common parts; the slicers end the names.", "planned")
p("C510", "Bundles of slews", "slewBasics gives nine bundles (seven without column of distances) of different file names, all under the condition given; the statistics are labelled with the condition. The histograms are labelled 'All visits' whatever the condition, so that batches under different conditions write to the same files.", "for all columns, conditions and runs", "For any two conditions.", ["rubin_sim/maf/batches/slew_batch.py:slewBasics"], "Cases.", "planned")
p("C511", "Bundles of filter changes", "filtersPerNight and filtersWholeSurvey give six bundles each, of different file names also together; the label tells the condition if no label is given. The number of changes in the whole survey is never named 'Total Filter Changes' as setupMetrics provides.", "for all columns, numbers of nights, labels, conditions and runs", "The column is part of the names.", ["rubin_sim/maf/batches/filterchange_batch.py:setupMetrics", "rubin_sim/maf/batches/filterchange_batch.py:filtersPerNight", "rubin_sim/maf/batches/filterchange_batch.py:filtersWholeSurvey"], "Cancellation of common parts.", "planned")
p("C512", "Open shutter, and number of nights", "openshutterFractions gives four bundles of different file names, among them the number of nights with visits and the 'Number of nights from start to finish of survey'. False for the latter: it is one less than the number of nights from the first to the last.", "for all columns, labels, conditions, runs and nights", "For any set of nights.", ["rubin_sim/maf/batches/openshutter_batch.py:openshutterFractions"], "Cardinality of intervals.", "planned")
p("C513", "Summary of light curves", "lightcurve_summary gives the total detected, the numbers of light curves in the footprint and on the sky, and the fractions, which are the total divided by the numbers; the fraction of all is at most that in the footprint and both are between 0 and 1. False without light curves in the footprint: the total is then the bad value, not zero.", "for all values of a metric with any points masked", "For any number of values and masked points.", ["rubin_sim/maf/batches/common.py:lightcurve_summary", "rubin_sim/maf/metric_bundles/metric_bundle.py:MetricBundle.compute_summary_stats"], "Sums over filled values.", "planned")
p("C514", "Summary of microlensing", "microlensing_summary raises an exception for types other than Npts and Fisher; it gives the fraction of events with more than npts_required observations, or with an uncertainty less than the cutoff. False at equality, which is counted in both cases (so named in one). The mean of the uncertainties over all light curves takes those without value as zero.", "for all values, thresholds and types", "For any number of values.", ["rubin_sim/maf/batches/common.py:microlensing_summary"], "Counting.", "planned")

p("C515", "What is in the cache of spectra", "The cache that is generated has exactly the compressed files of the five sub directories of the library that can be read, each under its full path and with its content, however few files there are.", "for all libraries, paths and contents", "Exceptions are passed over file by file, and the report of progress divides by a number that can be zero.", ["rubin_sim/phot_utils/sed.py:_generate_sed_cache"], "Induction over the files.", "planned")
p("C516", "A cache that was just generated is accepted", "_validate_sed_cache accepts a dictionary exactly if there is a compressed spectrum of a star or a galaxy and all of them are in it; so it accepts the cache that was just generated exactly if all of these can be read. False when the data directory is given by a relative path, as paths are joined twice.", "for all libraries, paths and dictionaries", "Depends on how the data directory is written.", ["rubin_sim/phot_utils/sed.py:_validate_sed_cache", "rubin_sim/phot_utils/sed.py:_generate_sed_cache"], "Joining with an absolute path forgets what precedes.", "planned")
p("C517", "When the checks of the cache fail", "If the checks of the cache fail, the cache is set to None and the program goes on, as the comment in cache_lsst_seds says. False: the call always ends with AttributeError, and the cache that was refused stays in place.", "for all libraries that fail the checks", "The branch is only reached with a damaged library.", ["rubin_sim/phot_utils/sed.py:cache_lsst_seds"], "Evaluation of the branch.", "planned")
p("C518", "The cache of spectra is used again", "After the cache was written, the next call uses the file. False if the path of the library has white space: then, and only then, the cache is generated again each time.", "for all paths of the library", "Paths are arbitrary text that is split at white space.", ["rubin_sim/phot_utils/sed.py:cache_lsst_seds", "rubin_sim/phot_utils/sed.py:_generate_sed_cache"], "Splitting at white space gives words without white space.", "planned")
p("C519", "Objects that a pickled cache may name", "SedUnpickler finds ndarray and dtype of numpy and _reconstruct of numpy.core.multiarray, and nothing else: a pickle that names any other object is refused with RuntimeError. As numpy 2 has _reconstruct in numpy._core.multiarray, there the second call of cache_lsst_seds always ends with RuntimeError on the file that the first has written.", "for all modules, names, pickles and libraries", "Security of all possible pickles.", ["rubin_sim/phot_utils/sed.py:SedUnpickler.find_class", "rubin_sim/phot_utils/sed.py:cache_lsst_seds"], "Cases.", "planned")
p("C520", "A library that was updated", "When sims_sed_library is updated a new cache is generated, as the comment in _generate_sed_cache says. False if it is updated in the same directory: what was cached is used whatever the library has become, and the call can end without complaint.", "for all libraries before and after", "Needs two versions of the library.", ["rubin_sim/phot_utils/sed.py:_generate_sed_cache", "rubin_sim/phot_utils/sed.py:cache_lsst_seds"], "The version file has the path only.", "planned")
p("C521", "Limits of the wavelengths in the cache", "With wavelen_min or wavelen_max the cache in memory has the same names, and of each spectrum the samples within the limits, both included, in order and with their multiplicity; the file on disk is not limited.", "for all limits, libraries and spectra", "All spectra and limits.", ["rubin_sim/phot_utils/sed.py:cache_lsst_seds"], "Filtering.", "planned")
p("C522", "Equality of spectra", "Two Sed are equal exactly if name, zeropoint, bad value and the three arrays agree, where values that are not a number agree with each other. False for an empty flux, which equals None from one side only, as one of the conditions is written twice.", "for all spectra", "Three optional arrays with values that are not numbers.", ["rubin_sim/phot_utils/sed.py:Sed.__eq__"], "Cases.", "planned")
p("C523", "A spectrum that was cleared", "A Sed that was cleared and read again is the same as one that was just made and read. False: clear_sed sets the zeropoint to -8.9, which is not -2.5 log10(3631), and keeps the bad value.", "for all spectra and files", "The two numbers differ in the fifth digit.", ["rubin_sim/phot_utils/sed.py:Sed.clear_sed", "rubin_sim/phot_utils/sed.py:Sed.__init__"], "The power 25 of 3631 is odd.", "planned")
p("C524", "Names of stellar templates", "From a name such as km01_7000.fits_g40_7140.gz, with any digits in the four places, read_close__kurucz reads sign and digits of the metallicity, the digits of the surface gravity, and as temperature the digits at its end.", "for all digits and both signs", "All names of that form.", ["rubin_sim/phot_utils/sed.py:read_close__kurucz"], "Splitting at letters that are not digits.", "planned")
p("C525", "The closest template", "The templates that match are those of the least difference in temperature, among these of the least difference in metallicity, and among these of the least difference in surface gravity; there is always one.", "for all tables and parameters", "All tables, with ties.", ["rubin_sim/phot_utils/sed.py:read_close__kurucz"], "Minima of filtered lists.", "planned")
p("C526", "Reading the closest template", "read_close__kurucz returns the closest template. False: the size of a comparison of names with the number 1 is taken, so every call ends with TypeError, or with ValueError if there are no templates. A path of more than 200 characters would not be stored as it is.", "for all tables and parameters", "Every call raises.", ["rubin_sim/phot_utils/sed.py:read_close__kurucz"], "Evaluation.", "planned")
p("C527", "The array of many bandpasses", "setup_phi_array puts all curves onto one grid, from the least wavelength by the first step of the first curve, with zero where a curve is not known. False if the width of the range exceeds a whole number of steps by at most half a step: then, and only then, it raises, as two sizes are computed in different ways.", "for all lists of curves", "Depends on the fraction of a step that is left over.", ["rubin_sim/phot_utils/sed.py:Sed.setup_phi_array", "rubin_sim/phot_utils/bandpass.py:Bandpass.resample_bandpass"], "Properties of the ceiling.", "planned")
p("C528", "Segments of the hourglass plot", "HourglassPlot draws successive pairs of rows, and an odd number of rows is an IndexError. For what HourglassMetric returns it draws one segment for each block of visits, from the first to the last visit of the block.", "for all rows and visits", "All numbers of rows.", ["rubin_sim/maf/plots/hourglass_plotters.py:HourglassPlot.__call__", "rubin_sim/maf/metrics/hourglass_metric.py:HourglassMetric.run"], "Induction two by two.", "planned")

p("C529", "Whose values get_computed_vals reports", "All values that get_computed_vals reports belong to the conditions that were set last. False: set_params leaves the position on the sky, the azimuth relative to the sun and the positions of sun and moon of an earlier call in place, a component that is off leaves its values, and a call that is refused has replaced the position already.", "for all sequences of calls, components and values", "State is kept between calls, and which call wrote which attribute depends on the whole history.", ["rubin_sim/skybrightness/sky_model.py:SkyModel.get_computed_vals", "rubin_sim/skybrightness/sky_model.py:SkyModel.set_params", "rubin_sim/skybrightness/sky_model.py:SkyModel.set_ra_dec_mjd", "rubin_sim/skybrightness/sky_model.py:SkyModel._setup_point_grid"], "The attributes as a state machine; induction over the calls.", "planned")
p("C530", "New magnitudes in the files of the sky model", "recalc_mags rewrites exactly the npz files of its seven directories: spectra, wavelengths and other columns stay, the six magnitudes of a spectrum are those of calc_mag and zero where that raises ValueError, other arrays of the file are lost; a second run changes nothing.", "for all files, spectra and bandpasses", "Overwrites files in place, with exceptions passed over.", ["rubin_sim/skybrightness/utils.py:recalc_mags", "rubin_sim/skybrightness/utils.py:spec2mags"], "By the definition, on lists of files.", "planned")
p("C531", "The entry of the table of rates that is used", "For a triplet with magnitude change and color in the range of the bins and a pair of bands of the table, _enquiry gives the rate of the nearest times and of the bins with the values; outside the range it gives zero. False when the table does not have all pairs of its two grids of times: the nearest ones are chosen apart from each other, and a pair that is not there is an IndexError.", "for all tables, grids and triplets", "Depends on the grid that comes with the table.", ["rubin_sim/maf/maf_contrib/presto_color_kne_pop_metric.py:PrestoColorKNePopMetric._enquiry"], "The last bin below a value in an increasing list.", "planned")
p("C532", "When the presto metric gives scores", "The scores are zero unless there are three detections in the thirty days after the peak, in two bands, two of them in one; then they are the scores of the whole light curve below magnitude 100, not only of those days.", "for all light curves and visits", "Depends on counts in a window.", ["rubin_sim/maf/maf_contrib/presto_color_kne_pop_metric.py:PrestoColorKNePopMetric.run"], "From the characterisation of the criterion.", "planned")
p("C533", "The telescopes for follow up", "find_telescopes returns those of its list that are at least as large as asked for, each at the place of its table: degrees and minutes to the side of the sign. It always returns, and a larger limit gives a part of the list.", "for all sizes", "The sign of a position goes through a division.", ["rubin_sim/maf/stackers/n_follow_stacker.py:find_telescopes"], "Lookup and filter.", "planned")
p("C534", "Tables of metrics that a user makes", "create_metric_subset gives one row for each metric, in order, with the name of the subset, the short names or else the names, and the styles and flags, one for all or one each; it raises exactly if a list has another length.", "for all names, lists and values", "Broadcasting of single values against lists.", ["rubin_sim/maf/run_comparison/archive.py:create_metric_subset"], "Columns as lists.", "planned")
p("C535", "Columns of the descriptions of families", "get_family_descriptions returns the columns of its file, those of the families in their order and then run, brief, filepath and url; a file without one of these is a KeyError.", "for all columns", "Depends on the content of the file.", ["rubin_sim/maf/run_comparison/archive.py:get_family_descriptions"], "Permutation of the columns.", "planned")
p("C536", "The file that gather_summaries writes", "With --to_csv a CSV file, otherwise an hdf5 file; the ending is added to the name; --to_hdf has no effect, also together with --to_csv.", "for all arguments", "An option that is accepted and not used.", ["rubin_sim/maf/run_comparison/gather_summaries.py:gather_summaries"], "By cases.", "planned")
p("C537", "The plot of the pointings of a night", "Every visit is drawn once, at its time and altitude in the color of its band; the tracks of moon and sun have the points above -10 and -20 degrees. A band that is not one of ugrizy is a KeyError.", "for all visits and bands", "The union over the bands has to have every visit once.", ["rubin_sim/maf/plots/night_pointing_plotter.py:NightPointingPlotter.__call__"], "Permutation by bands.", "planned")
p("C538", "Labels of the plot of two arrays", "XyPlotter uses what the metric gives for a key, otherwise what the user gives, otherwise its default.", "for all dictionaries", "Precedence of three dictionaries.", ["rubin_sim/maf/plots/xyplotter.py:XyPlotter.__call__"], "By cases.", "planned")
p("C539", "Time stamps of visits", "ObservationStartTimestampStacker.run returns the visits as they were with the column of time stamps, which is computed unless it is there and not to be replaced; a table of pandas is itself changed, other arguments are not. False for a dictionary of columns: each column comes back as a dictionary from row numbers.", "for all tables, kinds and columns", "Depends on the kind of the argument.", ["rubin_sim/maf/stackers/date_stackers.py:ObservationStartTimestampStacker.run"], "Columns as association lists.", "planned")
p("C540", "The curve of the power spectrum", "HealpixPowerSpectrum draws l(l+1)C/2pi for each multipole above one, or above zero if the dipole is kept, once and in order; if there is none it raises ValueError, and for a map without data it returns no figure.", "for all spectra", "The range depends on an option and on the largest multipole asked for.", ["rubin_sim/maf/plots/spatial_plotters.py:HealpixPowerSpectrum.__call__"], "Filter of a range.", "planned")
p("C541", "Missing values in the test of stripes", "The result of StripinessMetric does not depend on how missing values are marked: masked, not finite, -666 or UNSEEN; all other values are used as they are, and a map of another resolution is refused.", "for all maps and marks", "Four ways to mark a missing value.", ["rubin_sim/maf/metrics/cosmology_summary_metrics.py:StripinessMetric.run"], "Recasting entry by entry.", "planned")
p("C542", "What the figure of merit of static probes depends on", "StaticProbesFoMEmulatorMetric depends on the map only through the number and the median of the depths that are positive: not on their order, nor on pixels without a value or with a value that is not positive.", "for all maps, emulators and areas of pixels", "For all permutations of a map.", ["rubin_sim/maf/maf_contrib/static_probes_fom_summary_metric.py:StaticProbesFoMEmulatorMetric.run"], "Permutation of the good values.", "planned")
p("C543", "The line of the ecliptic on maps", "The points that _plot_ecliptic draws are on the ecliptic. False: the declination is the inclination times the sine of the right ascension, which is right only at equinoxes and solstices; it has the right sign and the right range.", "for all inclinations below a right angle and all right ascensions", "An identity of real functions.", ["rubin_sim/maf/plots/spatial_plotters.py:BaseSkyMap._plot_ecliptic"], "Formulas of half angles.", "planned")
p("C544", "The zone of the galaxy on maps", "The zone that _plot_mw_zone draws has the width given at the center of the galaxy, decreases to zero at the taper length, is zero beyond, and is the same on both sides of the plane and of the center.", "for all widths, lengths and longitudes", "Properties of a real function.", ["rubin_sim/maf/plots/spatial_plotters.py:BaseSkyMap._plot_mw_zone"], "Monotonicity of the cosine.", "planned")
p("C545", "Paths of satellites", "paths_array returns, as documented, one value for each date. False: there is a row for each satellite and a column for each date, the value of that satellite at that date; without satellites it is a ValueError.", "for all satellites and dates", "Shape of arrays that are stacked.", ["rubin_sim/satellite_constellations/sat_utils.py:Constellation.paths_array"], "Rows and columns as lists.", "planned")
p("C546", "What the map of dust in three dimensions adds", "DustMap3D.run sets exactly the names in keynames, which differ for all distances and changes of magnitude; for points of a healpix slicer it uses the resolution of the slicer and does not interpolate.", "for all distances, changes of magnitude and formats", "Names that are built from numbers.", ["rubin_sim/maf/maps/dust_map_3d.py:DustMap3D.run"], "Strings that differ in a letter.", "planned")

p("C547", "The requirement of rapid revisits", "The metric RapidRevisits of rapidRevisitBatch is one exactly for the points with at least 82 revisits after 40 seconds to 30 minutes, 28 of them within 20 minutes, as its comments and caption have it. False: it asks for 82 within 20 minutes, and the shortest time is two thirds of a second.", "for all times of visits in order", "Constants in days and arguments in an order that only a case on the border shows.", ["rubin_sim/maf/batches/srd_batch.py:rapidRevisitBatch", "rubin_sim/maf/metrics/cadence_metrics.py:RapidRevisitMetric"], "Counting of intervals.", "planned")
p("C548", "The area with rapid revisits", "The summary of the area in square degrees is the area of the pixels that meet the requirement. False: it is the fraction of the pixels with visits, times the whole sky; larger whenever a pixel has none.", "for all maps of zeros and ones with and without visits", "Depends on how masked pixels are counted.", ["rubin_sim/maf/batches/srd_batch.py:rapidRevisitBatch"], "Counting of pixels.", "planned")
p("C549", "Percentiles of the uncertainties of parallax and proper motion", "The summaries named 95th percentile are the 95th percentile. False for the proper motion, of which it is the 90th.", "for all maps", "A default that is not the one of the name.", ["rubin_sim/maf/batches/srd_batch.py:astrometryBatch", "rubin_sim/maf/metrics/simple_metrics.py:PercentileMetric"], "By the definition.", "planned")
p("C550", "The parallax with visits in the y band alone", "The metrics for the y band select the visits in y that meet the extra condition. False: the column is always filter, whatever colmap says, and an or in the extra condition lets other bands in.", "for all columns and conditions", "For all conditions, by the grammar of SQL.", ["rubin_sim/maf/batches/srd_batch.py:astrometryBatch"], "The grammar of conditions.", "planned")
p("C551", "The metadata of the first year", "firstYearMetadata selects exactly the visits up to night 365 that meet the extra condition, whatever it is.", "for all conditions and visits", "For all conditions, by the grammar of SQL.", ["rubin_sim/maf/batches/metadata_batch.py:firstYearMetadata"], "The grammar of conditions.", "planned")
p("C552", "The extra condition of the deep fields", "extra_sql of ddfBatch is added to the condition of each metric. False: supernovae, kilonovae, Kuiper belt and weak lensing do not use it.", "for all conditions, bands and fields", "For all conditions and all bundles of the batch.", ["rubin_sim/maf/batches/ddf_batch.py:ddfBatch"], "Every bundle with its condition; the grammar of conditions.", "planned")
p("C553", "The median season length of a deep field", "The median season length, labelled for all bands, is that of the visits in all bands. False: a variable of an earlier loop makes it the y band alone. The other metrics of a field use the band of their label.", "for all fields, bands and visits", "A variable of a loop that is over.", ["rubin_sim/maf/batches/ddf_batch.py:ddfBatch"], "Every bundle with its condition.", "planned")
p("C554", "The conditions of a deep field", "The metrics of a field use only visits with the note of the field that meet the extra condition, in the band. False for all bands with an or in the extra condition: visits of other fields are used.", "for all notes, bands and conditions", "For all conditions, by the grammar of SQL.", ["rubin_sim/maf/batches/ddf_batch.py:ddfBatch"], "The grammar of conditions.", "planned")
p("C555", "The point of the main survey in ddfBatch", "The metrics computed for WFD are those of a point of the main survey. False: the test of the name is never true, so they are those of all visits of the survey.", "for all names of fields", "A test that no name can meet.", ["rubin_sim/maf/batches/ddf_batch.py:ddfBatch"], "By cases on the name.", "planned")
p("C556", "The pixels of a deep field", "The pixels of a field are those within the radius of any of its centers, each once and in order.", "for all centers, radii and numbers of pixels", "For all overlaps of two centers.", ["rubin_sim/maf/batches/ddf_batch.py:ddfBatch"], "Sorting without duplicates.", "planned")
p("C557", "The bundles of the effective time", "tEffMetrics gives total, per night, and sky maps of all and each band, under different names. False: none is per night, and with a UniSlicer for the maps two names are the same and it raises.", "for all runs, conditions, labels and slicers", "Names go through the rules of file names.", ["rubin_sim/maf/batches/visitdepth_batch.py:tEffMetrics"], "The rules of file names.", "planned")
p("C558", "phaseGap", "phaseGap returns its bundles. False: it raises TypeError whatever the arguments.", "for all extra conditions", "The batch has never been run.", ["rubin_sim/maf/batches/time_sci_batch.py:phaseGap", "rubin_sim/maf/metrics/phase_gap_metric.py:PhaseGapMetric"], "By cases.", "planned")
p("C559", "Names of metrics with another name of the column", "With replace_colname the names of extended_metrics are those with the other name of the column in its place. False when the name of the column occurs in the words before it.", "for all names of columns", "Replacement of text is everywhere, not only at the place meant.", ["rubin_sim/maf/batches/common.py:extended_metrics"], "Induction over the text.", "planned")

p("C560", "Comments of a visit sequence", "get_comments gives exactly the comments made on that sequence, one row for each call of comment, with its text, time and author, none when no author was given; comments on other sequences do not matter.", "for all sequences of calls and contents of the table", "For all histories of calls.", ["rubin_sim/sim_archive/vseqmetadata.py:VisitSequenceArchiveMetadata.comment", "rubin_sim/sim_archive/vseqmetadata.py:VisitSequenceArchiveMetadata.get_comments"], "Induction over the calls.", "planned")
p("C561", "Versions of the software of a simulation", "get_software_versions_for_sim gives the rows of that simulation; with a list of packages those of the list, in its order, and packages that were not recorded are left out without an error.", "for all tables, simulations and lists of packages", "For all tables and lists.", ["rubin_sim/sim_archive/vseqmetadata.py:VisitSequenceArchiveMetadata.get_software_versions_for_sim"], "Induction over the list.", "planned")
p("C562", "Indexes of prenights", "get_prenight_index_from_bucket gives the last index that make_prenight_index made for this telescope and night; indexes of other telescopes and nights are never mistaken for it.", "for all sequences of calls, telescopes and nights", "Paths are made from texts: that no two are the same is for all dates.", ["rubin_sim/sim_archive/vseqarchive.py:make_prenight_index", "rubin_sim/sim_archive/prenightindex.py:get_prenight_index_from_bucket"], "Texts of dates are different; induction over the calls.", "planned")
p("C563", "Writing and reading a bandpass", "A bandpass that is written by write_throughput is read as it was by read_throughput. False with a header of more than one line: only its first line is made a comment.", "for all bandpasses, headers and ways to write numbers", "For all texts of headers and all curves.", ["rubin_sim/phot_utils/bandpass.py:Bandpass.write_throughput", "rubin_sim/phot_utils/bandpass.py:Bandpass.read_throughput"], "Lines and words of texts.", "planned")
p("C564", "Cadence, season and campaign of the time delays", "TdcMetric uses the visits deeper than the cut behind the dust; its cadence, season and campaign are those of MeanCampaignFrequencyMetric, SeasonLengthMetric and CampaignLengthMetric for these visits; shallower visits change nothing.", "for all visits, cuts and dust", "Agreement of classes for all data.", ["rubin_sim/maf/metrics/season_metrics.py:TdcMetric", "rubin_sim/maf/metrics/season_metrics.py:MeanCampaignFrequencyMetric"], "By the definitions.", "planned")
p("C565", "Directions of the numbers of the time delays", "The numbers of TdcMetric are positive; a faster cadence does not harm precision and rate, longer seasons harm none of the three, a longer campaign harms neither precision nor accuracy; at the normalisations they are 4, 30 and 0.06.", "for all cadences, seasons and campaigns", "Inequalities between real powers.", ["rubin_sim/maf/metrics/season_metrics.py:TdcMetric"], "Monotonicity of powers.", "planned")
p("C566", "Metrics with a statistic", "metrics_with_summary_stat gives exactly the metrics of the subset that have a statistic of the name, none twice; metrics_with_stats those that have any.", "for all metrics, statistics and names", "For all tables.", ["rubin_sim/maf/web/maf_run_results.py:MafRunResults.metrics_with_summary_stat", "rubin_sim/maf/web/maf_run_results.py:MafRunResults.metrics_with_stats"], "Membership and counts.", "planned")
p("C567", "Names of metrics with their labels", "unique_metric_name_and_info_label gives each pair of name and label once, in the order of the metrics.", "for all metrics", "For all lists.", ["rubin_sim/maf/web/maf_run_results.py:MafRunResults.unique_metric_name_and_info_label"], "Induction over the rows.", "planned")
p("C568", "Noise after the offsets before", "The error of OffsetSNR is that of the magnitude with all offsets before, in any order of them; an offset that dims the star makes it larger.", "for all magnitudes, depths and offsets", "For all lists of offsets, by monotonicity of real functions.", ["rubin_sim/selfcal/offsets.py:OffsetSNR"], "Sums and logarithms.", "planned")
p("C569", "Offsets by clouds", "OffsetClouds gives one offset for each star. False under any clouds: it raises AttributeError.", "for all transparencies and numbers of stars", "For all transparencies.", ["rubin_sim/selfcal/offsets.py:OffsetClouds"], "By cases.", "planned")
p("C570", "Counts of galaxies", "GalaxyCountsMetric gives the number of galaxies at the coadded depth. False: it raises TypeError for all visits and points, because the depth behind the dust needs the point and does not get it.", "for all visits and points", "The metric has never been run.", ["rubin_sim/maf/maf_contrib/lss_metrics.py:GalaxyCountsMetric", "rubin_sim/maf/metrics/exgal_m5.py:ExgalM5"], "By the definition.", "planned")
p("C571", "Magnitudes of X-ray binaries", "lmxb_abs_mags gives one dictionary for each period, in the same order, with the r magnitude of this period and the same colours; a longer period is brighter in every band; each period is between half and one and a half of the one drawn from the catalogue.", "for all draws of random numbers", "For all draws.", ["rubin_sim/maf/maf_contrib/xrb_metrics.py:XrbLc.lmxb_abs_mags"], "Monotonicity of the logarithm.", "planned")

p("C572", "Names of the discovery bundles", "quick_discovery_batch and discovery_batch give 2 and 11 bundles, each named after its criterion and its losses; all thirteen file names are different for every run and population, so that the two dictionaries can be joined; losses other than detection and trailing are a ValueError.", "for all names of runs, populations and constraints", "File names are squeezed texts of arbitrary labels: that none of them ever collide is for all labels.", ["rubin_sim/maf/batches/moving_objects_batch.py:quick_discovery_batch", "rubin_sim/maf/batches/moving_objects_batch.py:discovery_batch"], "No end of a label is an end of another.", "planned")
p("C573", "Wider windows of discovery", "A wider window loses no chance of discovery, whatever the observations and their order; what three pairs in 15 nights find three pairs in 30 nights find.", "for all observations, orders and windows", "Monotonicity over all sets of observations.", ["rubin_sim/maf/batches/moving_objects_batch.py:quick_discovery_batch", "rubin_sim/maf/metrics/mo_metrics.py:DiscoveryMetric"], "Filters of the same list.", "planned")
p("C574", "Stricter criteria of discovery", "A criterion that asks for more finds no more: four pairs in 20 nights at most as many chances as three pairs in 30, and pairs in several nights at most as many as a single pair. False of triplets: three triplets in 30 nights can be found where three pairs are not.", "for all observations in order of time", "Monotonicity over all sets of observations.", ["rubin_sim/maf/batches/moving_objects_batch.py:discovery_batch", "rubin_sim/maf/metrics/mo_metrics.py:DiscoveryMetric"], "Counts of nights in windows.", "planned")
p("C575", "Lower limits of the signal to noise", "An object that is found with a limit of 5 is found with a limit of 4. False: one more faint detection in a night can hide the pair. True if fainter detections are in other nights only.", "for all observations and limits", "For all sets of observations.", ["rubin_sim/maf/batches/moving_objects_batch.py:discovery_batch", "rubin_sim/maf/metrics/mo_metrics.py:DiscoveryMetric"], "Nights stay as they are.", "planned")
p("C576", "Single detections", "The criterion 'Single detection' of discovery_batch finds the objects that are detected at least once. False: it counts the nights with first and last detection five to ninety minutes apart, finds no object seen once a night, and no more than 'Single pair' does.", "for all observations in order of time", "For all sets of observations.", ["rubin_sim/maf/batches/moving_objects_batch.py:discovery_batch", "rubin_sim/maf/metrics/mo_metrics.py:DiscoveryMetric"], "Nights that count, from the properties of the metric.", "planned")
p("C577", "Bundles of characterization", "The batches of characterization give a bundle for each window and bin asked for. False: windows that are the same after rounding to days, like 10.2 and 10.4, are a NameError; the batch is made exactly if no two windows and no two bins round to the same number, so if they are more than one apart.", "for all windows, bins, runs and labels", "For all windows and bins.", ["rubin_sim/maf/batches/moving_objects_batch.py:characterization_inner_batch", "rubin_sim/maf/batches/moving_objects_batch.py:characterization_outer_batch"], "Texts of numbers are different.", "planned")
p("C578", "Curves of the plots of completeness", "plot_completeness draws over time the cumulative curves over time of the two main criteria, against H their differential and their cumulative curves in two plots, and all cumulative curves together in the last plot. False: a run with 'Time' in its name is a KeyError, and the last plot leaves out the curves for high velocities.", "for all sets of curves", "Keys are arbitrary texts that are searched for words.", ["rubin_sim/maf/batches/moving_objects_batch.py:plot_completeness", "rubin_sim/maf/batches/moving_objects_batch.py:run_completeness_summary"], "Words in texts.", "planned")

p("C579", "The Lambert projection keeps areas and does not fold the sky",
  "For `project_lambert` the ring of the plot between the circles of two latitudes has the area of the zone of the unit sphere between them; two points of the sky other than the zenith are at one place of the plot only if they have the same latitude and their longitudes differ by whole turns; longitude zero is straight up; and all points at 10 degrees or more are within the limits of the plot of `LambertSkyMap`.",
  "all longitudes, all latitudes from -90 to 90 degrees",
  "A test compares single points with numbers; equal areas and injectivity concern all pairs of points.",
  ["rubin_sim/maf/plots/spatial_plotters.py:project_lambert", "rubin_sim/maf/plots/spatial_plotters.py:LambertSkyMap"],
  "Half-angle formula for the radius; injectivity of the sine on [-pi/2, pi/2] and of the angle.", "planned")
p("C580", "The bias of the mean redshift is that of the year asked for",
  "`MultibandMeanzBiasMetric(model, year=n)` uses the tables of year n of the tomography model. It does not: it uses the tables of year n + 1 and no others, and with the tables of years 1 to 10, which the package has, the default year=10 is a KeyError.",
  "all models, years, numbers of bins and scatters of depths",
  "Tests run one year of one model; that no other table has any effect is a statement about all models.",
  ["rubin_sim/maf/metrics/cosmology_summary_metrics.py:MultibandMeanzBiasMetric", "rubin_sim/maf/metrics/tomography_models.py"],
  "Congruence of the loop in the one table it reads; the key of year 11 is absent.", "planned")
p("C581", "The bias has one row for each bin, and the fitted line keeps the total",
  "`MultibandMeanzBiasMetric` gives zbins rows; y1ratio times 0.013 is y10ratio times 0.003 in each, and the sum of y10ratio times 0.003 is the sum over bands and bins of the curve of the figure at the mean redshift times |dz/dm| times the scatter of the depth over 0.02. This holds if all bins are nearer than 1.4; bins beyond are left out, and then the result does not fit the array: there is a result only if all bins of the first band are used or exactly one.",
  "all models, curves, years, numbers of bins, bands and scatters",
  "Tests use the tables of the package; which tables make an error and where a fit moves the bias concern all tables.",
  ["rubin_sim/maf/metrics/cosmology_summary_metrics.py:MultibandMeanzBiasMetric"],
  "The residuals of a least-squares line sum to zero; induction over the bands with the length of the total as invariant.", "planned")
p("C582", "The bias is proportional to the scatter of the depths",
  "If the scatter of the depth of all bands is s times as large, both ratios of `MultibandMeanzBiasMetric` are s times as large and errors stay the same errors; with no scatter the ratios are zero.",
  "all factors s, models, curves, years, numbers of bins and bands",
  "A test compares two runs; proportionality is a statement about all factors and all tables.",
  ["rubin_sim/maf/metrics/cosmology_summary_metrics.py:MultibandMeanzBiasMetric"],
  "A least-squares line is linear in the heights; induction over the bands.", "planned")
p("C583", "A mapping is applied to each value",
  "`ApplyMappingMetric` with an array replaces each value by what the mapping has for it, at the same place, and values that the mapping lacks by None; with a single value it gives the same where the mapping has it, and a KeyError where the array has None.",
  "all mappings and all arrays",
  "Tests apply one mapping to one array.",
  ["rubin_sim/maf/metrics/simple_metrics.py:ApplyMappingMetric"],
  "Pointwise; case split on the lookup.", "planned")
p("C584", "The map of Gaia cannot be continued from its own checkpoint (stated as it is)",
  "`create_gaia_density_map.py` saves its state as starDensity, bins, icheck and overMaxMask and on a restart reads star_density, icheck and over_max_mask: a restart is a KeyError.",
  "the one file format",
  "The script needs a database and has no tests.",
  ["rubin_sim/maf/maps/create_gaia_density_map.py"],
  "Evaluation on the two lists of names, which are constants of the code.", "planned")

p("C585", "The mesh of runs and metrics has each value at its place",
  "plot_run_metric_mesh gives each run a column and each metric a row, in the order of the table, with its label, and the cell where they meet the value of the metric of the run; a table and its transpose give the same plot if the names of the axes say which is which; a label is marked as inverse exactly if there is a baseline and the table of metrics says so; the limits of the colours are centred on 1 and as far apart as asked for.",
  "all tables, labels, tables of metrics and normalisations", "Tests check that a plot is made; that values and labels belong together is a statement about all tables.",
  ["rubin_sim/maf/run_comparison/summary_plots.py:plot_run_metric_mesh"], "The position of each label and value through orientation and transposition.", "planned")
p("C586", "Colours, lines and markers of plots with uncertainties",
  "In plot_run_metric_uncert a metric has the line and, unless colours are given, the colour of its style in the table of metrics, else those of its place, repeated as needed, and calls do not affect each other. Partly false: the colours of styles are written into the list of colorcet and stay there for later calls; with a plot for each metric, which is the default, names of lines or markers of more than one letter, as for dashed lines, are a ValueError, and more metrics than colours an IndexError; of a style with a dashed line only the first dash is used.",
  "all lists of colours, lines, markers and styles, and all numbers of metrics", "What one call does to later calls, and what all lists of styles give, cannot be seen from one plot.",
  ["rubin_sim/maf/run_comparison/summary_plots.py:plot_run_metric_uncert"], "Induction over the loop that sets the styles, with positions; a second call from the state after the first.", "planned")
p("C587", "Shading of better and worse values",
  "With a positive shade_fraction plot_run_metric shades green exactly the values of the plot that are at or above 1 + shade_fraction and red exactly those at or below 1 - shade_fraction; otherwise it shades nothing.",
  "all fractions and limits of the axes", "Tests do not look at the regions; the claim is about all values.",
  ["rubin_sim/maf/run_comparison/summary_plots.py:plot_run_metric"], "Case split on the two comparisons.", "planned")
p("C588", "Lines between families",
  "find_family_lines gives for each family of the list the number of runs of the families up to it, for tables as from get_family_runs; a missing family is a KeyError. False of families with one run, which count as many runs as the name of the run has letters.",
  "all tables and lists of families", "A test has families of several runs; the claim is about all tables.",
  ["rubin_sim/maf/run_comparison/summary_plots.py:find_family_lines", "rubin_sim/maf/run_comparison/archive.py:get_family_runs"], "Induction over the sums so far.", "planned")

p("C589", "Bundles that are run together do not affect each other",
  "A bundle has the values in a group that it has alone. False: the visits of a slice are given to all bundles of a compatible list as one array, and each metric sees what those before it have written. A metric affects no other exactly if it leaves the array as it is, and none whose value is free of the order of visits exactly if it only reorders; if all before it are so, a bundle has its own value; bundles after it never matter.",
  "all lists of bundles, slices and visits, and all metrics, whatever they write", "A test runs a metric alone; which pairs of metrics disturb each other is a statement about all of them.",
  ["rubin_sim/maf/metric_bundles/metric_bundle_group.py:MetricBundleGroup._run_compatible"], "The value of each bundle as a function of the array that the bundles before it leave; induction over the list.", "planned")
p("C590", "Dust is taken from the depths once",
  "With add_dust, SNNSNMetric works on depths less the extinction of the band and leaves those of other bundles. The first is right alone; the second is false: the depths of the shared slice are replaced, so after k bundles with dust every later metric on this slicer sees k times the extinction. Where ebv is above hard_dust_cut, or without add_dust, nothing is written.",
  "all visits, bands, extinctions, numbers of bundles and metrics after them", "Any number of bundles before; a test runs the metric alone.",
  ["rubin_sim/maf/metrics/sn_n_sn_metric.py:SNNSNMetric.run", "rubin_sim/maf/metric_bundles/metric_bundle_group.py:MetricBundleGroup._run_compatible"], "The loop over bands gives the extinction of each visit; induction over the bundles before.", "planned")
p("C591", "Clipped strings of several bundles",
  "With clip_end, StringCountMetric counts strings without the number at their end, and other bundles see the strings of the visits. False for the second: the column of the shared slice is replaced, so after k such bundles every later metric sees strings clipped k times. Without clip_end, or if no string ends with a number, nothing is written.",
  "all strings, numbers of bundles and metrics after them", "Any number of bundles before and of numbers at the end of strings.",
  ["rubin_sim/maf/metrics/string_count_metric.py:StringCountMetric.run", "rubin_sim/maf/metric_bundles/metric_bundle_group.py:MetricBundleGroup._run_compatible"], "Iteration of the clipping by induction over the bundles.", "planned")
p("C592", "Each slice begins with the visits of the table; sorting is harmless",
  "The values of a slice are those of a run with this slice only, whatever metrics write in other slices, and it has none exactly if it has no visits. Metrics that sort the slice by time do not affect metrics that are free of the order, and have their own values after each other if no two visits have the same time.",
  "all tables, slices and metrics", "All orders of slices and bundles.",
  ["rubin_sim/maf/metric_bundles/metric_bundle_group.py:MetricBundleGroup._run_compatible", "rubin_sim/maf/metrics/cumulative_metric.py:CumulativeMetric.run", "rubin_sim/maf/metrics/cadence_metrics.py"], "Induction over slices; two sorted permutations of visits with different times are equal.", "planned")

p("C593", "Simulations of a night with their statistics",
  "sims_on_night_with_stats gives exactly the simulations of the telescope that cover the night, have all tags and are no older than the limit, each once, also those without statistics; a greater age never loses one. With an empty tuple the test of tags is omitted, as documented: false, the call is always an exception, as the text of this query has a percent sign without its letter.",
  "all archives, nights, tags, telescopes and ages", "All contents of the database; the query without tags is never sent by the tests.",
  ["rubin_sim/sim_archive/vseqmetadata.py:VisitSequenceArchiveMetadata.sims_on_night_with_stats", "sql/make_vseqmeta.sql"], "The result as a filter of the table, and the substitution of parameters in both texts.", "planned")
p("C594", "Which statistics a simulation is given",
  "The statistics of a simulation are all those recorded for it on this night, each name once, and none exactly if there are none, never those of another night or sequence. False if a name has statistics of the night as well as those accumulated up to it, which the key of the table allows: one of the two is lost. Right if names are different, as from compute_nightly_stats.",
  "all tables of statistics", "All contents of the table; tests insert one kind of statistics.",
  ["rubin_sim/sim_archive/vseqmetadata.py:VisitSequenceArchiveMetadata.sims_on_night_with_stats", "sql/make_vseqmeta.sql"], "The object that is aggregated holds the last row of each name.", "planned")

p("C595", "Cells of metric values over pairs of orbital elements",
  "MetricVsOrbit gives each cell of the grid the reduced value of exactly the objects whose two elements are in the cell, and the bad value to cells without objects. This is right for objects that share values of H. For objects with an H each only those near the median H are used, but their values are looked up by places among all objects: right if all objects are near it, and an IndexError whenever one is not and all objects are in the grid.",
  "all bins in order, elements, values, reductions", "All populations; tests do not draw this plot.",
  ["rubin_sim/maf/plots/mo_plotters.py:MetricVsOrbit.__call__"], "digitize of sorted edges as membership of a bin; selection of places in two steps equals one filter.", "planned")
p("C596", "Points of metric values over pairs of orbital elements",
  "MetricVsOrbitPoints draws each orbit with the colour of its value exactly if the foreground is on, there is a value for each orbit, and not a background for objects with an H each. Other options end in an error. For objects with an H each, of which one is not near the H of the plot, there is an error for all options.",
  "all populations and options", "All populations; tests do not draw this plot.",
  ["rubin_sim/maf/plots/mo_plotters.py:MetricVsOrbitPoints.__call__"], "The cases of the code, and the number of values that are selected.", "planned")
p("C597", "The line at the mark of H",
  "The value h_mark given to make_completeness_bundle is documented as added to the dictionary of plots of the new bundle, for a line at this H. False: the new dictionary is the old one with another label, and MetricVsH draws a line exactly for the key Hmark, so none is drawn for the key h_mark that the batches use.",
  "all dictionaries of options", "A statement on all options; a missing line is not an error.",
  ["rubin_sim/maf/plots/mo_plotters.py:MetricVsH.__call__", "rubin_sim/maf/metric_bundles/mo_metric_bundle.py:make_completeness_bundle"], "Lookup in the options laid over the defaults.", "planned")

p("C598", "The length of Chebyshev segments meets the tolerance on the sky",
  "calc_segment_length without an argument sets the first of the first guess and its rounded halves that has a residual within sky_tolerance, exactly if one of the first fifty halvings has; a length that is given is used whatever its residual, with a warning exactly if it is too large. The first guess is between 2 and 60 days. If none is found the code means to record failures and raise a ValueError: false with pandas from 1.0, where it is always another exception, as series have no as_matrix.",
  "all tolerances, residuals, spans and roundings", "All residuals as functions of the length; the search is not tested up to its end.",
  ["rubin_sim/moving_objects/cheby_fits.py:ChebyFits.calc_segment_length", "rubin_sim/moving_objects/cheby_fits.py:ChebyFits._test_residuals", "rubin_sim/moving_objects/cheby_fits.py:ChebyFits._round_length"], "Loop with a counter against an inductive specification of repeated halving.", "planned")
p("C599", "Fitted segments cover the time span once and meet the tolerance",
  "calc_segments, with any depth of subdivision, puts each time of the span in exactly one segment with coefficients or one recorded failure, and no other time in any; all segments with coefficients have a residual of position within sky_tolerance, and a row of residuals each, in order. Subdivision ends if residuals grow with the length of a segment. False for segments without a length that is good enough: with pandas from 1.0 they are not recorded as failures, but end the whole fit.",
  "all residuals, lengths, spans, depths", "All recursions of subdivisions.",
  ["rubin_sim/moving_objects/cheby_fits.py:ChebyFits.calc_segments", "rubin_sim/moving_objects/cheby_fits.py:ChebyFits.calc_one_segment", "rubin_sim/moving_objects/cheby_fits.py:ChebyFits._subdivide_segment"], "Induction on the depth with a count of the segments that hold a time.", "planned")
p("C600", "Residuals and failures that are recorded with a fit",
  "The row of residuals of a segment has those of position, distance, magnitude and elongation, and a failure the name of its object with the times. False: the residual of the magnitude is that of the distance in every row, and failures have the whole column of names in place of the name.",
  "all fits", "A statement on all rows of all fits; tests look at keys and numbers of rows.",
  ["rubin_sim/moving_objects/cheby_fits.py:ChebyFits.calc_one_segment", "rubin_sim/moving_objects/cheby_fits.py:ChebyFits._subdivide_segment"], "An invariant of all rows by induction on the depth.", "planned")
p("C601", "Files of coefficients, residuals and failures",
  "write gives each file a header and a line for each segment, and the file of failures a line for each if there are any; with append it adds to files that exist. False with append: the mode of files is not valid, so the call is always a ValueError. The file of failures of an earlier fit is left if the new one has none.",
  "all contents", "Append is never called by tests.",
  ["rubin_sim/moving_objects/cheby_fits.py:ChebyFits.write"], "The rule of open for modes.", "planned")

p("C602", "Number of supernovae and redshift limit at a point",
  "The value of SNNSNMetric at a point is bad exactly if no season has both a redshift limit above zero and a number of supernovae. Otherwise the number is the sum over seasons with a limit above zero, and the limit is a median of theirs: above zero, between any bounds of them. Seasons without a limit do not change the value, nor does the order of seasons; the two reductions give the two parts of the value.",
  "all tables of seasons", "All numbers and orders of seasons; tests run one field.",
  ["rubin_sim/maf/metrics/sn_n_sn_metric.py:SNNSNMetric.run", "rubin_sim/maf/metrics/sn_n_sn_metric.py:SNNSNMetric.reducen_sn", "rubin_sim/maf/metrics/sn_n_sn_metric.py:SNNSNMetric.reducezlim"], "The join of two tables, a filter, a sum and a median, against a sum over seasons.", "planned")
p("C603", "Seasons with too low efficiencies do not count",
  "A season has a redshift limit only with two redshifts and a mean efficiency above two percent, and is left out with fewer than two redshifts. A season that is counted adds its number of supernovae, so the total is never negative: right if all numbers are. False if a season has a limit but for the second type of supernova a mean efficiency of at most two percent: its sentinel of minus one is added to the sum.",
  "all tables of seasons and efficiencies", "All combinations of seasons.",
  ["rubin_sim/maf/metrics/sn_n_sn_metric.py:SNNSNMetric.zlim", "rubin_sim/maf/metrics/sn_n_sn_metric.py:SNNSNMetric.nsn", "rubin_sim/maf/metrics/sn_n_sn_metric.py:SNNSNMetric.check_dur_z", "rubin_sim/maf/metrics/sn_n_sn_metric.py:SNNSNMetric.run"], "Sums over seasons with and without the sentinel.", "planned")

p("C604", "Visits that are points of light curves of supernovae",
  "The points that LcfastNew simulates in a band are those of pairs of a supernova and a visit whose time is in the window of phases of the supernova, stretched by one plus its redshift, with a mean wavelength at rest between the blue and the red limit, a flux above 1e-10, and a magnitude less than half a magnitude fainter than the depth of the visit. No visit gives more than one point to a supernova.",
  "all supernovae, visits, references of fluxes and limits", "All redshifts and times; a test runs a few light curves.",
  ["rubin_sim/maf/utils/sn_n_sn_utils.py:LcfastNew.process_band", "rubin_sim/maf/utils/sn_n_sn_utils.py:LcfastNew.get_flag"], "Membership in filtered products, with phases turned into times.", "planned")
p("C605", "The least signal to noise ratio of points of light curves",
  "All points that are simulated have a signal to noise ratio above 3, so a least ratio snr_min of up to 3, such as the default of 1 of SNNSNMetric, takes no point away; the documented default of 5 keeps exactly the points that are not fainter than the depth. Points with enough signal count as before the maximum exactly at times before it and as after exactly after it; one at the maximum counts as neither.",
  "all supernovae, visits and references of fluxes", "All magnitudes and depths over the reals.",
  ["rubin_sim/maf/utils/sn_n_sn_utils.py:LcfastNew.process_band", "rubin_sim/maf/metrics/sn_n_sn_metric.py:SNNSNMetric.sn_effi"], "A bound of a real power, used at each point.", "planned")

p("C606", "Spectra of twilight between and beyond the filters",
  "The ratio of a spectrum of twilight to that of the sun is linear in wavelength between the effective wavelengths of the filters, that of the reddest filter beyond them, and goes on along the first line bluer than them. Spectra are not negative: false for the last, with positive fluxes in all filters the ratio is negative exactly where the line of the two bluest filters is.",
  "all filters, fluxes and wavelengths", "All wavelengths; tests sum components at a few points.",
  ["rubin_sim/skybrightness/interp_components.py:TwilightInterp.interp_spec"], "Piecewise linear functions by induction over the knots.", "planned")
p("C607", "Spectra of twilight of each point",
  "Each point with the sun between the limits and an airmass from one to the largest has the spectrum of the sun times its own ratio, and other points have zeros, in the order of points. False if the sun is above the upper limit at one point: there is an IndexError for all points, where interp_mag gives NaN.",
  "all lists of points, filters and limits", "All lists of points; tests have the sun below the limit.",
  ["rubin_sim/skybrightness/interp_components.py:TwilightInterp.interp_spec", "rubin_sim/skybrightness/interp_components.py:TwilightInterp.interp_mag"], "Writes to rows by number against a map over points.", "planned")

p("C608", "Scattered moonlight at a point",
  "The scattered moonlight of a point is the mean, over the neighbouring pixels that the templates have, with their weights, of the template interpolated in the separation of moon and sun and in the altitude of the moon; at the grid it is the template, within the grid between the smallest and the largest one.",
  "all grids, templates, neighbours and points that are not below the grid", "All grids and points; tests compare a few skies.",
  ["rubin_sim/skybrightness/interp_components.py:MoonInterp._weighting"], "A sum over eight corners in a flat array against nested interpolation.", "planned")
p("C609", "Moonlight with the moon outside of the grid",
  "As the comment says, points with the moon out of the range of altitudes have no moonlight. With one altitude of the moon for all points, as in SkyModel, those below the grid have none; one above the grid counts as at its highest altitude. False for points below the grid in a call with others that are not.",
  "all lists of points", "All combinations of altitudes.",
  ["rubin_sim/skybrightness/interp_components.py:MoonInterp._weighting"], "The test of the largest altitude of a call against one of each point.", "planned")

p("C610", "Titles of plots of several bundles",
  "The title of a plot has the name of the run, the label and the name of the metric, in this order, each exactly if all bundles share it. The joint names of labels and metrics are used exactly if the bundles share neither the label nor the metric nor a name of the run that is not empty.",
  "all lists of bundles", "All combinations of names.",
  ["rubin_sim/maf/plots/plot_handler.py:PlotHandler._build_title"], "Sets of names against a condition on all pairs of bundles.", "planned")
p("C611", "Legends tell bundles apart",
  "There is a label in the legend for each bundle, none for a single one: its own or else the parts of names of run, label and metric that the bundles do not share, which are those not in the title. Bundles with different parts have different labels: right if names of runs and labels have no blanks, false otherwise, as parts are joined with blanks.",
  "all lists of bundles", "All combinations of names.",
  ["rubin_sim/maf/plots/plot_handler.py:PlotHandler._build_legend_labels"], "Cutting joined texts at blanks.", "planned")

p("C612", "Colours of fractions of populations",
  "plot_fractions sets colours that tell the fractions in a plot apart. Right for any of the fractions of asteroids, and for those of outer objects with 1, 2, 4, 5 or 6 filters. False with 3 filters: no colour is set for it, and in a plot with others it is blue, like that with 6 filters.",
  "all lists of fractions in a plot", "All subsets and orders of fractions; plots are looked at.",
  ["rubin_sim/maf/batches/moving_objects_batch.py:plot_fractions", "rubin_sim/maf/batches/moving_objects_batch.py:run_fraction_summary", "rubin_sim/maf/plots/plot_handler.py:PlotHandler._build_colors"], "Injectivity of colours on the names, lifted to lists.", "planned")

p("C613", "Percentile curves against H",
  "plot_single plots the 5th, 25th, 50th, 75th and 95th percentiles of a metric against H. With two or more H values cloned for all objects the curves are reductions over all objects at each H, and are in this order at each H; the median is the 50th percentile. False for two or more objects which each have their own H: the percentile functions need an axis and are called without one, so the plot is a TypeError.",
  "all slicers, values and H", "All populations and values; the order of percentiles is a fact about all lists.",
  ["rubin_sim/maf/batches/moving_objects_batch.py:plot_single", "rubin_sim/maf/plots/mo_plotters.py:MetricVsH.__call__", "rubin_sim/maf/slicers/mo_slicer.py:MoObjSlicer"], "Percentiles are monotone in their rank; the median is the percentile of rank one half.", "planned")
p("C614", "Reductions over objects at one H",
  "MetricVsH plots np_reduce of the values of all objects at each H. Right with two or more H for all objects, and for the mean of one row, as of a completeness. False with exactly one H for all objects: the value plotted is that of the first object, for every reduction.",
  "all slicers, values and reductions", "All numbers of H and of objects.",
  ["rubin_sim/maf/plots/mo_plotters.py:MetricVsH.__call__", "rubin_sim/maf/slicers/mo_slicer.py:MoObjSlicer"], "Cases of the shapes.", "planned")
