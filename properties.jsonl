{"id": "C01", "title": "OneDSlicer slices hold exactly the visits of their bin", "statement": "After OneDSlicer.setup_slicer on any visit table and any bin edges, slice i (as yielded by iterating the slicer) contains the index of a visit exactly when bins[i] <= value < bins[i+1]; indices are distinct and are valid row numbers.", "quantifier": "every list of column values, every edge list (sorted or not), every slice number, every argsort tie order", "why_tests_cant": "The data values, number of rows, number of bins, duplicates and tie order are unbounded; tests check a handful of seeded arrays.", "anchors": ["rubin_sim/maf/slicers/one_d_slicer.py:OneDSlicer.setup_slicer", "rubin_sim/maf/slicers/base_slicer.py:BaseSlicer.__iter__"]}
{"id": "C02", "title": "OneDSlicer slices are disjoint and jointly cover [first edge, last edge)", "statement": "With non-decreasing edges, every visit whose value lies in [bins[0], bins[-1]) is yielded in exactly one slice, and no other visit is yielded at all; hence the per-slice counts add up to the number of such visits.", "quantifier": "every list of column values, every non-decreasing edge list with at least two edges", "why_tests_cant": "Partition statements quantify over all rows and all pairs of slices simultaneously.", "anchors": ["rubin_sim/maf/slicers/one_d_slicer.py:OneDSlicer.setup_slicer"]}
{"id": "C03", "title": "OneDSlicer last bin: documented closed, implemented half-open", "statement": "The class promises 'all but the last bin are half-open, the last one is [a, b]'; a visit whose value equals the last edge should be in the last slice. The code drops it, also when the edges were derived from the data maximum.", "quantifier": "every column and edge list; the failing case is value == last edge", "why_tests_cant": "Which values are lost depends on exact equality with the last edge; random floats in tests never hit it.", "anchors": ["rubin_sim/maf/slicers/one_d_slicer.py:OneDSlicer", "rubin_sim/maf/slicers/one_d_slicer.py:OneDSlicer.setup_slicer"]}
{"id": "C04", "title": "NDSlicer slices partition the visits by bin tuple", "statement": "NDSlicer yields one slice per tuple of bins, the number of slices is the product of the bin counts, and each visit whose value is at least the first edge in every dimension is yielded in exactly one slice, namely the tuple of bins containing it (the last bin of a dimension being unbounded above).", "quantifier": "every number of dimensions, every column, every edge list per dimension, every argsort tie order", "why_tests_cant": "Number of dimensions and of bins per dimension is unbounded; tests use three fixed dimensions.", "anchors": ["rubin_sim/maf/slicers/nd_slicer.py:NDSlicer.setup_slicer"]}
{"id": "C05", "title": "MovieSlicer: cumulative slices only grow, and the last one is everything", "statement": "In cumulative mode slice i contains exactly the visits with value < bins[i+1] (all visits for the last slice), so slices form an increasing chain; in non-cumulative mode every visit at or above the first edge is in exactly one slice.", "quantifier": "every column, every sorted edge list, both modes", "why_tests_cant": "Monotonicity is over all pairs of slices and all data sets.", "anchors": ["rubin_sim/maf/slicers/movie_slicer.py:MovieSlicer.setup_slicer"]}
{"id": "C06", "title": "TimeIntervalSlicer slices match their advertised time window", "statement": "The slice with slice point (mjd, duration) should contain exactly the visits with mjd <= t < mjd + duration. The code numbers visits with 1-based digitize ids but slice points from 0, so each slice holds the visits of the previous window and the last window's visits are in no slice.", "quantifier": "every visit table, every interval length dividing a day, every slice number", "why_tests_cant": "Off-by-one placement is invisible to the upstream test, which only reconstructs from the same off-by-one ids.", "anchors": ["rubin_sim/maf/slicers/time_interval_slicers.py:TimeIntervalSlicer.setup_slicer"]}
{"id": "C07", "title": "BlockIntervalSlicer blocks are the maximal runs of visits with one note and no long gap", "statement": "Every visit is in exactly one block; blocks are contiguous runs of the time-sorted visits; two time-consecutive visits share a block exactly when their notes agree and the second starts within the gap tolerance after the end of the first.", "quantifier": "every visit table (any length, notes, durations, tie order)", "why_tests_cant": "Block structure is a property of entire sequences of visits of arbitrary length.", "anchors": ["rubin_sim/maf/slicers/time_interval_slicers.py:BlockIntervalSlicer.setup_slicer"]}
{"id": "C08", "title": "VisitIntervalSlicer pairs each slice with its own visit", "statement": "Slice i yields one visit, and its slice point must carry that visit's mjd and duration. The code sorts the indices but not the slice points, so this holds only for time-sorted input.", "quantifier": "every visit table, every slice number", "why_tests_cant": "Needs all orders of the input rows; test data is sorted.", "anchors": ["rubin_sim/maf/slicers/time_interval_slicers.py:VisitIntervalSlicer.setup_slicer"]}
{"id": "C09", "title": "Slicing each visit exactly once: VisitIntervalSlicer and UniSlicer", "statement": "Iterating a VisitIntervalSlicer yields every visit exactly once; iterating a UniSlicer yields a single slice with all visits.", "quantifier": "every visit table", "why_tests_cant": "Quantifies over all row counts and orders.", "anchors": ["rubin_sim/maf/slicers/time_interval_slicers.py:VisitIntervalSlicer", "rubin_sim/maf/slicers/uni_slicer.py:UniSlicer.setup_slicer"]}
{"id": "C10", "title": "Iterating a slicer visits each slice once, in order, and can be restarted", "statement": "Iterating yields exactly _slice_sim_data(0..nslice-1) in order then stops, and starting a new iteration (even in the middle of another) restarts from the first slice.", "quantifier": "every nslice, every interleaving of iter() and next() calls", "why_tests_cant": "Interleavings of calls are unbounded histories.", "anchors": ["rubin_sim/maf/slicers/base_slicer.py:BaseSlicer.__iter__", "rubin_sim/maf/slicers/base_slicer.py:BaseSlicer.__next__"]}
{"id": "C11", "title": "Metric caching is transparent", "statement": "Running bundles with a caching slicer gives the same metric values and masks as running without a cache, whenever a metric's result depends only on the set of visits in the slice.", "quantifier": "every sequence of slices, every cache size, every eviction pattern, every set-determined metric", "why_tests_cant": "Cache hits, LRU evictions and re-insertions depend on the whole history of slices.", "anchors": ["rubin_sim/maf/metric_bundles/metric_bundle_group.py:MetricBundleGroup._run_compatible"]}
{"id": "C12", "title": "Every slice ends up either masked or holding its metric value", "statement": "After a run, slice i is masked exactly when it had no visits or the metric returned its bad value; otherwise it is unmasked and holds metric(visits of slice i).", "quantifier": "every number of slices/bundles, every metric, every visit assignment", "why_tests_cant": "Whole-run postcondition over all slices and bundles.", "anchors": ["rubin_sim/maf/metric_bundles/metric_bundle_group.py:MetricBundleGroup._run_compatible", "rubin_sim/maf/metric_bundles/metric_bundle.py:MetricBundle._setup_metric_values"]}
{"id": "C13", "title": "Bundles run together are pairwise compatible", "statement": "Every bundle of the current constraint must be run in a group, and any two bundles of one group must be compatible (same constraint, slicer and maps, no conflicting stackers). The grouping code appends a bundle even after finding an incompatible member and may put it in several groups.", "quantifier": "every list of bundles and every compatibility relation", "why_tests_cant": "Depends on all orders in which bundles were added.", "anchors": ["rubin_sim/maf/metric_bundles/metric_bundle_group.py:MetricBundleGroup._find_compatible_lists", "rubin_sim/maf/metric_bundles/metric_bundle_group.py:MetricBundleGroup._check_compatible"]}
{"id": "C14", "title": "A bundle knows every database column it needs", "statement": "The dependency search of MetricBundle terminates, and the resulting db_cols plus the columns produced by stacker_list contain every column required by metric, slicer, given stackers and added default stackers, transitively.", "quantifier": "every column registry and stacker dependency graph (also cyclic)", "why_tests_cant": "Dependency graphs are unbounded and may contain cycles.", "anchors": ["rubin_sim/maf/metric_bundles/metric_bundle.py:MetricBundle._find_req_cols", "rubin_sim/maf/stackers/get_col_info.py:ColInfo.get_data_source"]}
{"id": "C15", "title": "Stackers run after the stackers they depend on", "statement": "When stackers of a bundle are run in stacker_list order, every column a stacker needs should already be present. Default stackers discovered as dependencies are appended after their dependants, so this fails.", "quantifier": "every registry and every bundle", "why_tests_cant": "Order over arbitrary dependency chains.", "anchors": ["rubin_sim/maf/metric_bundles/metric_bundle.py:MetricBundle._find_req_cols", "rubin_sim/maf/metric_bundles/metric_bundle_group.py:MetricBundleGroup._run_compatible"]}
{"id": "C16", "title": "Running a stacker keeps existing data", "statement": "BaseStacker.run never drops or renames a column, keeps rows and their order, only changes columns the stacker declares, leaves an empty table untouched, and does not recompute when all its columns are already present (unless overridden).", "quantifier": "every table and every stacker", "why_tests_cant": "All tables, all column sets.", "anchors": ["rubin_sim/maf/stackers/base_stacker.py:BaseStacker.run", "rubin_sim/maf/stackers/base_stacker.py:BaseStacker._add_stacker_cols"]}
{"id": "C17", "title": "Reduce functions and summary statistics see only unmasked values", "statement": "reduce_metric keeps the mask, applies the reducer exactly to unmasked slices, and additionally masks slices whose reduced value is the bad value; compute_summary_stats evaluates each summary metric on exactly the unmasked values, in order, and reports the slicer's bad value when there are none.", "quantifier": "every masked metric array and every reduce function", "why_tests_cant": "All masks and array lengths.", "anchors": ["rubin_sim/maf/metric_bundles/metric_bundle.py:MetricBundle.reduce_metric", "rubin_sim/maf/metric_bundles/metric_bundle.py:MetricBundle.compute_summary_stats"]}
{"id": "C18", "title": "ResultsDb keeps one row per metric identity and stable metric ids", "statement": "For any history of operations, no two metric rows share (metric name, slicer name, run name, info label, constraint); metric ids are unique; recording the same identity again returns the same id and changes nothing.", "quantifier": "every finite history of ResultsDb operations", "why_tests_cant": "Invariant over histories of unbounded length.", "anchors": ["rubin_sim/maf/db/results_db.py:ResultsDb.update_metric"]}
{"id": "C19", "title": "ResultsDb display rows are one-to-one with metrics", "statement": "For any history, each metric id has at most one display row; with overwrite the row is the latest one submitted, without overwrite it is the first one.", "quantifier": "every finite history", "why_tests_cant": "Invariant over histories.", "anchors": ["rubin_sim/maf/db/results_db.py:ResultsDb.update_display"]}
{"id": "C20", "title": "ResultsDb plot rows: overwrite replaces, otherwise appends", "statement": "After update_plot with overwrite=True the (metric, plot type) pair has exactly one plot row, naming the file just given; with overwrite=False (the default) the row is added and no earlier one is lost; rows of other pairs never change.", "quantifier": "every finite history", "why_tests_cant": "Invariant over histories.", "anchors": ["rubin_sim/maf/db/results_db.py:ResultsDb.update_plot"]}
{"id": "C21", "title": "Summary statistics are stored despite a temporarily locked database", "statement": "update_summary_stat should store every (name, value) pair of a summary table when each insertion succeeds within the allowed retries. The retry counter is shared by all values of one call, so after enough lock failures later values are silently dropped.", "quantifier": "every table of summary values and every pattern of lock failures", "why_tests_cant": "Failure schedules are unbounded and nondeterministic.", "anchors": ["rubin_sim/maf/db/results_db.py:ResultsDb.update_summary_stat"]}
{"id": "C22", "title": "TrackingDb keeps one current entry per MAF directory", "statement": "For any history of add_run/delRun, run ids are unique and each maf directory has at most one entry, holding the values of the latest add_run for it under the id of its first registration; an explicit id that is taken is refused without changing anything.", "quantifier": "every finite history", "why_tests_cant": "Invariant over histories.", "anchors": ["rubin_sim/maf/db/tracking_db.py:TrackingDb.add_run", "rubin_sim/maf/db/tracking_db.py:TrackingDb.delRun"]}
{"id": "C23", "title": "Archive tags behave as a set", "statement": "For any history of tag/untag by one client, is_tagged(u,t) holds exactly when the last successful tag/untag for (u,t) was a tag; there is at most one row per (u,t); untagging an absent tag fails and changes nothing.", "quantifier": "every finite history of tag and untag calls", "why_tests_cant": "Histories of unbounded length.", "anchors": ["rubin_sim/sim_archive/vseqmetadata.py:VisitSequenceArchiveMetadata.tag", "rubin_sim/sim_archive/vseqmetadata.py:VisitSequenceArchiveMetadata.untag"]}
{"id": "C24", "title": "Concurrent taggers may duplicate a tag row", "statement": "If two clients tag the same sequence concurrently, is_tagged must still be true afterwards and one untag must remove the tag completely; the at-most-one-row property however fails because check and insert are separate transactions and the table has no uniqueness constraint.", "quantifier": "every interleaving of check/insert steps of any number of clients", "why_tests_cant": "All schedules.", "anchors": ["rubin_sim/sim_archive/vseqmetadata.py:VisitSequenceArchiveMetadata.tag", "sql/make_vseqmeta.sql:tags"]}
{"id": "C25", "title": "Registered archive files: one per type, updated only on request", "statement": "For any history of register_file calls there is at most one entry per (sequence, file type); registering an existing type without update fails and changes nothing; with update the latest hash and url are stored; 'visits' is always refused.", "quantifier": "every finite history", "why_tests_cant": "Histories of unbounded length.", "anchors": ["rubin_sim/sim_archive/vseqmetadata.py:VisitSequenceArchiveMetadata.register_file", "rubin_sim/sim_archive/vseqmetadata.py:VisitSequenceArchiveMetadata.get_file_url"]}
{"id": "C26", "title": "Archive integrity: stored bytes match the registered hash", "statement": "After any history of add_file calls (including failing ones), the bytes stored at a registered url should hash to the registered sha256. add_file writes before it checks, and file names of different types share a directory, so both a refused call and a name clash break this.", "quantifier": "every finite history of add_file calls, including failures part-way", "why_tests_cant": "All histories and crash points between write and registration.", "anchors": ["rubin_sim/sim_archive/vseqarchive.py:add_file", "rubin_sim/sim_archive/vseqmetadata.py:VisitSequenceArchiveMetadata.register_file"]}
{"id": "C27", "title": "record_conda_env requires both hash and listing, or neither", "statement": "Calling record_conda_env with exactly one of hash and listing should raise ValueError; the chained comparison in the guard can never be true, so a lone listing is silently ignored and a lone hash trips an assertion.", "quantifier": "every combination of arguments and every table content", "why_tests_cant": "The documented error is unreachable; a test would need to know that.", "anchors": ["rubin_sim/sim_archive/vseqmetadata.py:VisitSequenceArchiveMetadata.record_conda_env"]}
{"id": "C28", "title": "sims_on_nights returns exactly the matching simulations", "statement": "With a non-empty tag list the result contains exactly the simulations of the telescope that cover both nights, carry all tags and are no older than the limit; with an empty tag list the query text is malformed and the call fails.", "quantifier": "every archive content and every argument combination", "why_tests_cant": "All database contents.", "anchors": ["rubin_sim/sim_archive/vseqmetadata.py:VisitSequenceArchiveMetadata.sims_on_nights"]}
{"id": "C29", "title": "Simulation export followed by import keeps the simulated dates", "statement": "Importing the YAML produced by sim_metadata_yaml should restore label, telescope, scheduler version, tags and first/last dates. Export writes 'simulation_dates', import reads 'simulated_dates', so dates are always lost.", "quantifier": "every recorded simulation", "why_tests_cant": "Round trip over all records.", "anchors": ["rubin_sim/sim_archive/vseqmetadata.py:VisitSequenceArchiveMetadata.sim_metadata_yaml", "rubin_sim/sim_archive/vseqmetadata.py:VisitSequenceArchiveMetadata.import_sim_from_yaml"]}
{"id": "C30", "title": "(creation day, daily id) identifies a simulation", "statement": "At any time, distinct simulations have distinct (creation day_obs, daily id), where the day runs from noon to noon UTC, ids of a day are 1..n, and get_sim_uuid returns the simulation with that pair or fails. Recording further simulations with later creation times keeps existing pairs; recording one with an earlier creation time renumbers.", "quantifier": "every archive content and every sequence of additions", "why_tests_cant": "Histories and ties.", "anchors": ["sql/make_vseqmeta.sql:simulations_extra", "rubin_sim/sim_archive/vseqmetadata.py:VisitSequenceArchiveMetadata.get_sim_uuid"]}
{"id": "C31", "title": "select_latest_prenight_sim picks the newest eligible simulation", "statement": "The result is a simulation carrying all requested tags whose age in whole days does not exceed the limit and such that no other eligible one is newer; None is returned exactly when there is no eligible one.", "quantifier": "every index table, tag set and age limit", "why_tests_cant": "All tables and orderings incl. ties.", "anchors": ["rubin_sim/sim_archive/prenightindex.py:select_latest_prenight_sim"]}
{"id": "C32", "title": "chebeval evaluates the Chebyshev series", "statement": "chebeval(x, p, interval) returns sum_n p[n] T_n(x*) with x* the rescaled coordinate, both with and without velocity, for odd and even numbers of coefficients.", "quantifier": "every coefficient list, every x, every interval with distinct ends", "why_tests_cant": "All degrees; the loop is unrolled two terms at a time with an odd/even special case.", "anchors": ["rubin_sim/moving_objects/chebyshev_utils.py:chebeval"]}
{"id": "C33", "title": "chebeval's velocity is the derivative of its value", "statement": "The returned velocity equals the exact derivative with respect to x of the returned value as a function of x.", "quantifier": "every coefficient list, every x, every interval with distinct ends", "why_tests_cant": "All degrees and points.", "anchors": ["rubin_sim/moving_objects/chebyshev_utils.py:chebeval"]}
{"id": "C34", "title": "chebfit reproduces the endpoints exactly", "statement": "The coefficients returned by chebfit evaluate (with chebeval on the same interval) to exactly the given x values and, with velocities, derivatives at both ends of the interval, for all samples; the linear system is always solvable for admissible sizes, and neighbouring segments built from a common end sample join in value and velocity.", "quantifier": "every sample vector, every number of points and coefficients for which the linear system is solvable", "why_tests_cant": "All sizes and data.", "anchors": ["rubin_sim/moving_objects/chebyshev_utils.py:chebfit", "rubin_sim/moving_objects/chebyshev_utils.py:make_cheb_matrix_only_x", "rubin_sim/moving_objects/chebyshev_utils.py:make_cheb_matrix"]}
{"id": "C35", "title": "ChebyValues attributes each value to the right object", "statement": "get_ephemerides should return in row i, at every time, the value of object obj_id[i]. Rows are filled by position among matching segments, so a missing segment of one object shifts the values of later objects.", "quantifier": "every segment table, every set of times", "why_tests_cant": "All tables and times.", "anchors": ["rubin_sim/moving_objects/cheby_values.py:ChebyValues.get_ephemerides"]}
{"id": "C36", "title": "Chebyshev segments tile the time span", "statement": "calc_segments produces consecutive segments [s_k, s_{k+1}] starting at t_start with no gap or overlap, and stops exactly at t_end when the length divides the span.", "quantifier": "every start, span, segment length with length*n = span", "why_tests_cant": "Any number of segments.", "anchors": ["rubin_sim/moving_objects/cheby_fits.py:ChebyFits.calc_segments", "rubin_sim/moving_objects/cheby_fits.py:ChebyFits._round_length"]}
{"id": "C37", "title": "Sanitised names are safe and stable", "statement": "name_sanitize terminates, its result contains none of the replaced characters and no double underscore, and sanitising twice changes nothing; distinct names may collide.", "quantifier": "every string", "why_tests_cant": "All strings, all replacement interactions.", "anchors": ["rubin_sim/maf/utils/output_utils.py:name_sanitize"]}
{"id": "C38", "title": "optimal_bins stays within its limits", "statement": "optimal_bins returns a number of bins between nbin_min and nbin_max whenever it computes one, and nbin_max when the data are empty or degenerate.", "quantifier": "every data array and limits nbin_min <= nbin_max", "why_tests_cant": "All data.", "anchors": ["rubin_sim/maf/utils/maf_utils.py:optimal_bins"]}
{"id": "C39", "title": "dayobs_to_date decodes every YYYYMMDD integer", "statement": "For every valid calendar date d, decoding the integer 10000*y+100*m+d gives back d, decoding the ISO string gives d, and invalid integers are rejected.", "quantifier": "every integer and every date", "why_tests_cant": "All integers.", "anchors": ["rubin_sim/sim_archive/util.py:dayobs_to_date"]}
{"id": "C40", "title": "Day-of-observation conventions agree", "statement": "The day_obs computed from an MJD when grouping nightly statistics, when recording simulation dates and when converting a timestamp is the same calendar day: the UTC date of the instant minus twelve hours.", "quantifier": "every time instant", "why_tests_cant": "All instants, including boundaries.", "anchors": ["rubin_sim/sim_archive/vseqarchive.py:compute_nightly_stats", "rubin_sim/sim_archive/sim_archive.py:make_sim_data_dir", "rubin_sim/sim_archive/util.py:dayobs_to_date"]}
{"id": "C41", "title": "Angle metrics ignore where zero degrees lies", "statement": "FullRangeAngle gives the length of the smallest arc containing all angles, so it is between 0 and 360 degrees and unchanged when all angles are rotated together.", "quantifier": "every non-empty list of angles and every rotation", "why_tests_cant": "All lists and rotations, including wraparound.", "anchors": ["rubin_sim/maf/metrics/simple_metrics.py:_rotate_angles", "rubin_sim/maf/metrics/simple_metrics.py:FullRangeAngleMetric"]}
{"id": "C42", "title": "Threshold counting metrics agree with counting", "statement": "CountExplim, CountSubset, CountRatio, FracAbove, FracBelow, CountBeyondThreshold return the number or fraction of visits satisfying the documented condition; fractions lie in [0,1] and FracAbove+FracBelow>=1.", "quantifier": "every visit list and thresholds", "why_tests_cant": "All data; CountBeyondThreshold with two limits fails on more than one visit.", "anchors": ["rubin_sim/maf/metrics/simple_metrics.py:CountBeyondThreshold", "rubin_sim/maf/metrics/simple_metrics.py:FracAboveMetric"]}
{"id": "C43", "title": "TimeIntervalSlicer does not report empty intervals as empty", "statement": "The runner masks a slice when the indexed visit table has length 0. For an interval without visits TimeIntervalSlicer returns the index [[]], whose indexed table has length 1, so the slice is never masked and the metric is run on it; this happens for the first slice of every table.", "quantifier": "every visit table, every interval length, every slice number", "why_tests_cant": "Whether an interval is empty depends on the whole table; the upstream test never checks masks.", "anchors": ["rubin_sim/maf/slicers/time_interval_slicers.py:TimeIntervalSlicer.setup_slicer", "rubin_sim/maf/metric_bundles/metric_bundle_group.py:MetricBundleGroup._run_compatible"]}
{"id": "C44", "title": "A bundle group's results do not depend on earlier groups", "statement": "MetricBundleGroup runs groups one after another on the same visit table. The values a group computes should be those it would compute on a fresh table. A column written by a stacker of an earlier group is reused instead of recomputed, so two stackers writing the same column differently leak between groups.", "quantifier": "every table, every list of stackers of the earlier and the later group", "why_tests_cant": "Depends on every earlier group and the order in which groups run.", "anchors": ["rubin_sim/maf/metric_bundles/metric_bundle_group.py:MetricBundleGroup._run_compatible", "rubin_sim/maf/stackers/base_stacker.py:BaseStacker.run"]}
{"id": "C45", "title": "Hour angles are normalised", "statement": "For every sidereal time and right ascension in [0,360] degrees HourAngleStacker returns an hour angle between -12 and 12 hours that is congruent to (LST-RA)/15 modulo 24 hours.", "quantifier": "every sidereal time and right ascension", "why_tests_cant": "Continuous ranges and wraparound boundaries.", "anchors": ["rubin_sim/maf/stackers/general_stackers.py:HourAngleStacker._run"]}
{"id": "C46", "title": "ParallacticAngleStacker changes more than it declares", "statement": "Running ParallacticAngleStacker on a table without hour angle adds an undeclared HA column, and on a table that already has an HA column it uses the values found there, whatever they are; so the result is not a function of the columns the stacker declares as required.", "quantifier": "every table", "why_tests_cant": "All tables with or without HA column.", "anchors": ["rubin_sim/maf/stackers/general_stackers.py:ParallacticAngleStacker._run"]}
{"id": "C47", "title": "OverheadStacker accounts for all elapsed time", "statement": "The first overhead is NaN; the overhead of a later visit is the time from the end of the previous visit to its own end minus its exposure time, or NaN when the night changed in between or the value exceeds max_gap; over a stretch without NaN, overheads and exposure times add up to the elapsed time.", "quantifier": "every visit list and gap limit", "why_tests_cant": "Any number of visits.", "anchors": ["rubin_sim/maf/stackers/general_stackers.py:OverheadStacker._run"]}
{"id": "C48", "title": "SaturationStacker marks the visit that cannot saturate", "statement": "A visit whose sky background alone exceeds saturation should be given NaN and no other visit should change. The index used is relative to the filter subset but applied to the whole table, so the wrong row is overwritten.", "quantifier": "every visit table and filter assignment", "why_tests_cant": "Depends on the interleaving of filters.", "anchors": ["rubin_sim/maf/stackers/general_stackers.py:SaturationStacker._run"]}
{"id": "C49", "title": "NFollowStacker counts the telescopes that can follow up", "statement": "The number stored for a visit should be the number of listed telescopes that can see the target below the airmass limit at some time step. Latitude and longitude are passed in swapped order, so the count is for other places on Earth.", "quantifier": "every telescope list, time steps, visit", "why_tests_cant": "All geometries.", "anchors": ["rubin_sim/maf/stackers/n_follow_stacker.py:NFollowStacker._run", "rubin_sim/maf/stackers/coord_stackers.py:ra_dec2_alt_az"]}
{"id": "C50", "title": "NoteRootStacker keeps the part before the first comma", "statement": "The stored note root is the longest prefix of the note without a comma, cut at the fixed storage width of the column.", "quantifier": "every note string", "why_tests_cant": "All strings.", "anchors": ["rubin_sim/maf/stackers/general_stackers.py:NoteRootStacker._run"]}
{"id": "C51", "title": "update_summary_stat never updates", "statement": "The documentation says the call adds a row to or updates a row in the summary table. It only adds: after n calls for the same metric and name there are n rows, so re-running an analysis into the same database accumulates old values.", "quantifier": "every database content and every sequence of calls", "why_tests_cant": "Histories of unbounded length.", "anchors": ["rubin_sim/maf/db/results_db.py:ResultsDb.update_summary_stat"]}
{"id": "C52", "title": "Standardised summary names", "statement": "build_summary_name should give names without commas or outer blanks that tell statistics apart. Names have no outer blanks; the comma removal has no effect; the statistics Identity, Id, Count and none share one name, as do UniSlicer and no slicer.", "quantifier": "every metric, label, slicer and statistic name", "why_tests_cant": "All strings.", "anchors": ["rubin_sim/maf/db/results_db.py:ResultsDb.build_summary_name"]}
{"id": "C53", "title": "Updating a tracked run survives a crash", "statement": "If the process dies while add_run updates an existing directory, the directory should keep its old or its new entry. The deletion is committed before the insertion, so a crash in between loses the entry and its id; other entries are untouched and repeating the call registers the directory again, possibly under another id.", "quantifier": "every history and a crash at the commit boundary", "why_tests_cant": "Crash points.", "anchors": ["rubin_sim/maf/db/tracking_db.py:TrackingDb.add_run"]}
{"id": "C54", "title": "Importing simulation metadata keeps the creation time", "statement": "Importing the YAML of an exported simulation should restore its creation time. The 'creation_time' key is never read: two exports that differ only there import alike, and unless the label ends in a time the database uses the time of the import.", "quantifier": "every recorded simulation and every way of reading times from labels", "why_tests_cant": "Round trip over all records.", "anchors": ["rubin_sim/sim_archive/vseqmetadata.py:VisitSequenceArchiveMetadata.import_sim_from_yaml", "rubin_sim/sim_archive/vseqmetadata.py:VisitSequenceArchiveMetadata.sim_metadata_yaml"]}
{"id": "C55", "title": "Looking up a simulation by day and daily id in the prenight indexes", "statement": "With a list of telescopes, the simulation with the given creation day and daily id should be found when one telescope's index has it. A missing index becomes a DataFrame without columns, and the search fails with AttributeError even if another telescope has the simulation.", "quantifier": "every list of index tables, present or missing", "why_tests_cant": "All tables, orders and failure combinations.", "anchors": ["rubin_sim/sim_archive/prenightindex.py:_get_sim_uuid_from_metadata_index", "rubin_sim/sim_archive/prenightindex.py:get_prenight_index"]}
{"id": "C56", "title": "Recording a simulation is atomic", "statement": "A failing record_simulation_metadata call should leave nothing behind. The row is inserted in one transaction and completed in a second one, so when the second fails an incomplete simulation stays; a call that returns has recorded exactly one complete simulation.", "quantifier": "every table content and every failure of the second transaction", "why_tests_cant": "Crash points.", "anchors": ["rubin_sim/sim_archive/vseqmetadata.py:VisitSequenceArchiveMetadata.record_simulation_metadata"]}
{"id": "C57", "title": "Visit sequence urls can be read back, whatever the table", "statement": "After set_visitseq_url on a recorded sequence get_visitseq_url returns that url, whichever of the inherited tables the sequence was recorded in; every other sequence is unchanged; for an unknown uuid both calls fail.", "quantifier": "every table content with distinct uuids", "why_tests_cant": "All contents of the inherited tables.", "anchors": ["rubin_sim/sim_archive/vseqmetadata.py:VisitSequenceArchiveMetadata.set_visitseq_url", "rubin_sim/sim_archive/vseqmetadata.py:VisitSequenceArchiveMetadata.get_visitseq_url", "sql/make_vseqmeta.sql:visitseq"]}
{"id": "C58", "title": "Position-only fits are least-squares optimal", "statement": "Among all coefficient vectors of the same size whose series takes the given values at both ends, the one returned by chebfit without velocities has the strictly smallest sum of squared residuals at the sample points; samples of a series of that size give back its coefficients.", "quantifier": "every sample vector, all admissible sizes, all competing coefficient vectors", "why_tests_cant": "Optimality over an infinite set of competitors.", "anchors": ["rubin_sim/moving_objects/chebyshev_utils.py:chebfit", "rubin_sim/moving_objects/chebyshev_utils.py:make_cheb_matrix_only_x"]}
{"id": "C59", "title": "Right ascensions are made continuous", "statement": "three_sixty_to_neg turns wrapped right ascensions of a track spanning less than 90 degrees into values that differ from the continuous track by one common number of full turns; the bound is sharp.", "quantifier": "every list of angles and turns with pairwise differences below 90 degrees", "why_tests_cant": "All tracks, including ones across zero.", "anchors": ["rubin_sim/moving_objects/cheby_fits.py:three_sixty_to_neg"]}
{"id": "C60", "title": "get_ephemerides checks the objects it returns", "statement": "get_ephemerides ends with a check that the objects in the result are the ones asked for. The labels are written into the caller's own array, so the check compares the array with itself and can never fail: unknown objects give rows of zeros, and the caller's list may end up naming other objects.", "quantifier": "every table, object list and times", "why_tests_cant": "All tables and histories of label overwriting.", "anchors": ["rubin_sim/moving_objects/cheby_values.py:ChebyValues.get_ephemerides"]}
{"id": "C61", "title": "Times outside all segments give NaN", "statement": "Without extrapolation, times outside the range of the segments give NaN for every object. A time inside the overall range that no segment covers gives zero instead, indistinguishable from a value.", "quantifier": "every table and time", "why_tests_cant": "All tables and times.", "anchors": ["rubin_sim/moving_objects/cheby_values.py:ChebyValues.get_ephemerides"]}
{"id": "C62", "title": "Segment lengths divide the time span", "statement": "_round_length documents a length that fits into the span an integer number of times, to last decimal accuracy. The tolerance is ten units of the last decimal, so a returned length leaves a remainder of at most ten units, and any length up to eleven units is accepted unchanged whether or not it divides the span.", "quantifier": "every span, initial length and rounding", "why_tests_cant": "All spans and lengths; search loop.", "anchors": ["rubin_sim/moving_objects/cheby_fits.py:ChebyFits._round_length"]}
{"id": "C63", "title": "percentile_clipping keeps the requested share of the data", "statement": "percentile_clipping documents that 'percentile' percent of the data lie between the returned limits. False for small samples (of two values at 95 percent none is kept); for every sample all but 2*ceil((n-1)(1-p)/2) values are kept, limits lie between minimum and maximum and are ordered.", "quantifier": "every data array and percentile", "why_tests_cant": "All data and sizes.", "anchors": ["rubin_sim/maf/utils/maf_utils.py:percentile_clipping"]}
{"id": "C64", "title": "Archived simulations record every night they cover", "statement": "The first and last simulated dates stored by make_sim_data_dir should contain the night of every time in the simulated range. They do when taken from the visits. When sim_start_mjd and sim_duration are given, the last date is that of start + duration - 1: for a duration of n-1 days and a part of a night (the length of n nights) the last night is always missing, and for a single night the last date lies before the first.", "quantifier": "every start, duration and visit time", "why_tests_cant": "All instants, including boundaries.", "anchors": ["rubin_sim/sim_archive/sim_archive.py:make_sim_data_dir"]}
{"id": "C65", "title": "Fetching visits for nights selects exactly the visits of those nights", "statement": "Filtering by comparing the ISO strings of day_obs keeps exactly the visits whose day lies between the given days, for dates written YYYY-MM-DD; a first day written as YYYYMMDD selects no visit of that year or earlier, without an error.", "quantifier": "every pair of valid dates and every visit list", "why_tests_cant": "String order against calendar order for all dates.", "anchors": ["rubin_sim/sim_archive/sim_archive.py:fetch_sim_for_nights"]}
{"id": "C66", "title": "Fetching visits twice gives the same result", "statement": "Repeating fetch_sim_for_nights with the same arguments should give the same columns. The function appends to the caller's stackers list or keyword arguments, so the second call adds a column; a non-empty tuple of stackers always fails an assertion.", "quantifier": "every argument and number of repetitions", "why_tests_cant": "Histories of calls sharing mutable arguments.", "anchors": ["rubin_sim/sim_archive/sim_archive.py:fetch_sim_for_nights"]}
{"id": "C67", "title": "The latest prenight simulation covers the requested nights", "statement": "find_latest_prenight_sim_for_nights returns a simulation that is eligible (tags, age) and covers all requested nights, no newer eligible one does, and it fails only if there is none.", "quantifier": "every archive table, tags and nights", "why_tests_cant": "All tables and ties.", "anchors": ["rubin_sim/sim_archive/sim_archive.py:find_latest_prenight_sim_for_nights"]}
{"id": "C68", "title": "Prenight simulations start on the requested day", "statement": "compute_sim_start_and_end should start the simulation in the night of the given day. For days before the start of the almanac the index is negative and wraps to the end of the table, giving nights years later; for days within the almanac the start is right.", "quantifier": "every day and almanac", "why_tests_cant": "All days, including outside of the table.", "anchors": ["rubin_sim/sim_archive/prenight.py:compute_sim_start_and_end"]}
{"id": "C69", "title": "RmsAngle ignores where zero degrees lies", "statement": "The scatter of a set of directions should not depend on the origin of angles. If several largest gaps are equal the last one is cut, which depends on the origin: the directions 0, 10, 120, 240 change their scatter when all are turned by 120 degrees. If the smallest arc is unique the scatter is unchanged.", "quantifier": "every list of angles within a turn and every rotation", "why_tests_cant": "All lists and rotations, including ties.", "anchors": ["rubin_sim/maf/metrics/simple_metrics.py:_rotate_angles", "rubin_sim/maf/metrics/simple_metrics.py:RmsAngleMetric"]}
{"id": "C70", "title": "Outlier counts obey Chebyshev's bound", "statement": "NoutliersNsigma with n sigma reports at most N/n^2 of N visits, on either side and also when all values agree.", "quantifier": "every non-empty list of values and every n", "why_tests_cant": "All data.", "anchors": ["rubin_sim/maf/metrics/simple_metrics.py:NoutliersNsigmaMetric"]}
{"id": "C71", "title": "Coadded depth adds inverse variances", "statement": "Coaddm5 of one visit is its depth, of n equal visits m + 1.25 log10 n; it does not depend on the order, coadding the depths of any grouping gives the same as coadding the visits, more visits are strictly deeper, and the result is between the deepest visit and that plus 1.25 log10 n. If visits exist but none in the chosen filter, the result is minus infinity, not the bad value.", "quantifier": "every non-empty list of depths and every grouping", "why_tests_cant": "All lists and groupings.", "anchors": ["rubin_sim/maf/metrics/simple_metrics.py:Coaddm5Metric"]}
{"id": "C72", "title": "Angular spread is a measure of spread", "statement": "AngularSpread is between 0 and 1, zero exactly when all angles are one direction, and unchanged by turning all angles or shifting any by whole periods.", "quantifier": "every list of angles, period and rotation", "why_tests_cant": "All lists.", "anchors": ["rubin_sim/maf/metrics/simple_metrics.py:AngularSpreadMetric"]}
{"id": "C73", "title": "The mean angle turns with the angles", "statement": "MeanAngle is in [0, 360); turning all angles turns the mean by the same amount unless the mean unit vector is shorter than 0.1, when the mean is 180 degrees; equal angles are their own mean.", "quantifier": "every list of angles and rotation", "why_tests_cant": "All lists and rotations, including wraparound.", "anchors": ["rubin_sim/maf/metrics/simple_metrics.py:MeanAngleMetric"]}
{"id": "C74", "title": "Each distinct stacker of a group is run once", "statement": "The stackers run for a group of bundles come from those bundles, in the order of first appearance; every stacker of every bundle equals one that is run, and no two that are run are equal.", "quantifier": "every list of bundles with any stackers, under any reflexive equality", "why_tests_cant": "All stacker lists and equality relations.", "anchors": ["rubin_sim/maf/metric_bundles/metric_bundle_group.py:MetricBundleGroup._run_compatible"]}
{"id": "C75", "title": "Filter changes are counted as runs", "statement": "NChanges is one less than the number of runs of equal states in time order: zero exactly when all visits have one state, at least one per further state, less than the number of visits, and independent of the order of the rows if the times are distinct.", "quantifier": "every list of visits with any states", "why_tests_cant": "All lists.", "anchors": ["rubin_sim/maf/metrics/technical_metrics.py:NChangesMetric"]}
{"id": "C76", "title": "The minimum time between states is between changes", "statement": "MinTimeBetweenStates should give the least time between two changes and the bad value if there are no two changes. The time from the first visit to the first change is taken as well, so a change shortly after the start of the data sets the value; likewise NStateChangesFasterThan counts that change. The value is right if some two changes are no further apart than the first visit and the first change.", "quantifier": "every list of visits", "why_tests_cant": "All lists of visits, including those with a single change.", "anchors": ["rubin_sim/maf/metrics/technical_metrics.py:MinTimeBetweenStatesMetric", "rubin_sim/maf/metrics/technical_metrics.py:NStateChangesFasterThanMetric"]}
{"id": "C77", "title": "The maximum of changes is over all intervals", "statement": "MaxStateChangesWithin is the largest number of changes in any closed interval of the given length, although only intervals that begin at a change are tried.", "quantifier": "every list of visits, every interval length, every interval", "why_tests_cant": "Infinitely many intervals.", "anchors": ["rubin_sim/maf/metrics/technical_metrics.py:MaxStateChangesWithinMetric"]}
{"id": "C78", "title": "Pairs are mutual", "statement": "PairFraction should give the fraction of visits with another visit between the minimum and maximum gap away. Forward gaps are taken in [min, max), backward gaps in (min, max], so of two visits exactly the minimum or maximum gap apart one counts and the other does not. It is right if no two visits are exactly so far apart; it always is in [0, 1] and independent of the order.", "quantifier": "every list of times and gaps", "why_tests_cant": "All times, including exact ties.", "anchors": ["rubin_sim/maf/metrics/visit_groups_metric.py:PairFractionMetric"]}
{"id": "C79", "title": "The open shutter fraction is a fraction", "statement": "OpenShutterFraction is in [0, 1] if exposures are part of visits. BruteOSF should be too, but the last exposure counts while the time after it does not: two visits can give 3/2 and one visit divides by zero. The exposures but the last fit into the time if gaps are below the limit.", "quantifier": "every list of visits", "why_tests_cant": "All lists of visits.", "anchors": ["rubin_sim/maf/metrics/technical_metrics.py:OpenShutterFractionMetric", "rubin_sim/maf/metrics/technical_metrics.py:BruteOSFMetric"]}
{"id": "C80", "title": "A night counts its grouped visits", "statement": "VisitGroups documents that visits within the time window of another count, that two visits closer than the minimum count as one and a half if a third is within the window, and as nothing if there is none. In code a night of exactly two visits always counts two, whatever the gap; and close visits between good gaps count more than whole visits: four visits can count 4.5. In a night of three or more visits the whole visits are those with a good gap before or after; without close visits the value is the number of visits with another one within the window; it never exceeds one and a half times the visits. Nights come in increasing order.", "quantifier": "every list of visits", "why_tests_cant": "All lists of times within a night.", "anchors": ["rubin_sim/maf/metrics/visit_groups_metric.py:VisitGroupsMetric.run"]}
{"id": "C81", "title": "Window maxima are over all windows", "statement": "NVisitsInWindow and NNightsInWindow are the largest number of visits and nights in any window of the given number of nights, although only windows that begin at a night with data are tried.", "quantifier": "every metric value and every window position", "why_tests_cant": "Infinitely many windows.", "anchors": ["rubin_sim/maf/metrics/visit_groups_metric.py:VisitGroupsMetric.reduce_n_visits_in_window", "rubin_sim/maf/metrics/visit_groups_metric.py:VisitGroupsMetric.reduce_n_nights_in_window"]}
{"id": "C82", "title": "Lunations with groups are counted in sequence", "statement": "NLunations is the number of thirty-night periods that hold a group. MaxSeqLunations should be the longest sequence of consecutive ones; if the window is shorter than a lunation, a night that begins no group before the group's own first night ends the sequence. With a window of thirty nights or more, the default, it is the longest sequence.", "quantifier": "every metric value, window and thresholds", "why_tests_cant": "All histories of nights.", "anchors": ["rubin_sim/maf/metrics/visit_groups_metric.py:VisitGroupsMetric.reduce_n_lunations", "rubin_sim/maf/metrics/visit_groups_metric.py:VisitGroupsMetric.reduce_max_seq_lunations"]}
{"id": "C83", "title": "Gaps are those of all pairs or of neighbours", "statement": "With all_gaps, Tgaps and TgapsPercent use the differences of all n(n-1)/2 pairs of visits, otherwise those of neighbours in time; the histogram counts each gap between the first and last edge once, and the percentage is in [0, 100]. Nightgaps should do the same for nights, but with all_gaps it raises an exception if all visits are in one night; with two nights all gaps are at least one.", "quantifier": "every list of times or nights and all bins", "why_tests_cant": "All lists and bins.", "anchors": ["rubin_sim/maf/metrics/tgaps.py:TgapsMetric", "rubin_sim/maf/metrics/tgaps.py:TgapsPercentMetric", "rubin_sim/maf/metrics/tgaps.py:NightgapsMetric"]}
{"id": "C84", "title": "A sampled time scale is found", "statement": "GapsMetric documents that visits between half and three halves of the time scale apart count as a sample. A positive value does mean that two visits are so far apart; but the visits are first put into bins, and two visits exactly a time scale apart count nothing.", "quantifier": "every list of times and time scale", "why_tests_cant": "All lists; position of visits relative to the bins.", "anchors": ["rubin_sim/maf/metrics/tgaps.py:GapsMetric"]}
{"id": "C85", "title": "Time within and between nights adds up", "statement": "For nights that do not decrease with time: NightTimespan uses, for every night with at least two visits, the time from its first to its last visit; IntraNightGaps uses the gaps between neighbours of one night and InterNightGaps those between neighbours of different nights, and together they make up the time from first to last visit.", "quantifier": "every list of visits in order of time", "why_tests_cant": "All lists of visits.", "anchors": ["rubin_sim/maf/metrics/tgaps.py:NightTimespanMetric", "rubin_sim/maf/metrics/cadence_metrics.py:IntraNightGapsMetric", "rubin_sim/maf/metrics/cadence_metrics.py:InterNightGapsMetric"]}
{"id": "C86", "title": "A template is an earlier visit at least as good", "statement": "TemplateExists is the fraction of visits that come after some visit of the same or better seeing.", "quantifier": "every list of visits in order of time", "why_tests_cant": "All lists of seeing values.", "anchors": ["rubin_sim/maf/metrics/cadence_metrics.py:TemplateExistsMetric"]}
{"id": "C87", "title": "Uniformity is measured from zero to one", "statement": "Uniformity is zero exactly if visit i of n comes i/n of the survey length after the first. It should never exceed one, but the second date is subtracted from all, so it can: a first visit and two at the end of the survey give 4/3; within the survey it is at most 2. GeneralUniformity should be zero for evenly spaced values, but divides by the maximum instead of the range; it is right if the minimum is zero.", "quantifier": "every list of values, survey length and limits", "why_tests_cant": "All lists of values.", "anchors": ["rubin_sim/maf/metrics/cadence_metrics.py:UniformityMetric", "rubin_sim/maf/metrics/cadence_metrics.py:GeneralUniformityMetric"]}
{"id": "C88", "title": "Accumulated values are those up to the bin edge", "statement": "AccumulateMetric should give for each bin the function accumulated over the visits up to the end of the bin. It takes one visit more until the last visit is reached, and is bad for all bins if there is only one visit; the last bins are right.", "quantifier": "every list of visits, bins and accumulated function", "why_tests_cant": "All lists of visits; position of edges.", "anchors": ["rubin_sim/maf/metrics/vector_metrics.py:AccumulateMetric", "rubin_sim/maf/metrics/vector_metrics.py:AccumulateCountMetric"]}
{"id": "C89", "title": "Accumulated uniformity", "statement": "AccumulateUniformity gives for each bin the largest difference so far between the visits made and those due in an even survey, as a fraction of all visits: it is between zero and one and never decreases.", "quantifier": "every list of nights and bins", "why_tests_cant": "All lists of nights and bins.", "anchors": ["rubin_sim/maf/metrics/vector_metrics.py:AccumulateUniformityMetric"]}
{"id": "C90", "title": "The area summary is the best value reached on an area", "statement": "If the values cover the wanted area, AreaSummary with decreasing gives the largest value that at least this area reaches or exceeds, and without it the smallest that at least this area does not exceed. Otherwise the worst value is given without warning.", "quantifier": "every map of values, with or without missing ones, and every area", "why_tests_cant": "All maps; ties and missing values.", "anchors": ["rubin_sim/maf/metrics/area_summary_metrics.py:AreaSummaryMetric"]}
{"id": "C91", "title": "FONv and FOArea are two sides of one statement", "statement": "The minimum of FONv for an area is at least v exactly if FOArea for v visits gives at least that area. FONv is bad exactly if the data do not cover the area, its median is not below its minimum; FOArea is bad, not zero, where no pixel has enough visits.", "quantifier": "every list of visit numbers, area and number of visits", "why_tests_cant": "All lists.", "anchors": ["rubin_sim/maf/metrics/summary_metrics.py:FONv", "rubin_sim/maf/metrics/summary_metrics.py:FOArea"]}
{"id": "C92", "title": "Area thresholds and footprint fractions", "statement": "AreaThreshold is the area of the pixels with a value strictly within the limits; a missing limit does not restrict. Without limits it counts also pixels without a value. FootprintFraction is between zero and one, one exactly if all of the footprint has the required visits and zero if none has.", "quantifier": "every map, limits and footprint", "why_tests_cant": "All maps and limits.", "anchors": ["rubin_sim/maf/metrics/area_summary_metrics.py:AreaThresholdMetric", "rubin_sim/maf/metrics/summary_metrics.py:FootprintFractionMetric"]}
{"id": "C93", "title": "Season edges separate the seasons", "statement": "find_season_edges gives for each season in order the first and last position of its visits; each visit is in exactly one season; SeasonLength uses the time from first to last visit of a season and CampaignLength the number of seasons. Visits of exactly the minimum exposure time do not count.", "quantifier": "every list of visits in order of time", "why_tests_cant": "All lists of visits.", "anchors": ["rubin_sim/maf/metrics/season_metrics.py:find_season_edges", "rubin_sim/maf/metrics/season_metrics.py:SeasonLengthMetric", "rubin_sim/maf/metrics/season_metrics.py:CampaignLengthMetric"]}
{"id": "C94", "title": "The campaign frequency is a mean of separations", "statement": "MeanCampaignFrequency is the mean over the seasons of the mean separation of their nights. It should not be below the smallest separation, but a season with only one night counts as zero; it holds if each season has two nights.", "quantifier": "every list of visits in order of time", "why_tests_cant": "All lists of visits.", "anchors": ["rubin_sim/maf/metrics/season_metrics.py:MeanCampaignFrequencyMetric"]}
{"id": "C95", "title": "Numbers at the end of strings are clipped", "statement": "With clip_end, a comma, a space and digits at the end of a string are removed, and nothing else is changed.", "quantifier": "every string", "why_tests_cant": "All strings, such as with several separators.", "anchors": ["rubin_sim/maf/metrics/string_count_metric.py:StringCountMetric"]}
{"id": "C96", "title": "Each string is counted", "statement": "StringCount gives for each string its number, together the number of rows, or percentages that add up to a hundred. It raises an exception exactly if there are both empty strings and the string 'blank', the name used for them.", "quantifier": "every list of strings", "why_tests_cant": "All lists of strings.", "anchors": ["rubin_sim/maf/metrics/string_count_metric.py:StringCountMetric"]}
{"id": "C97", "title": "String counts can be reduced", "statement": "The reduce functions made by StringCount should work on the values of all slices. They do exactly if all slices have the same strings, otherwise an exception is raised; with one slice they give the counts.", "quantifier": "every list of slices", "why_tests_cant": "All sets of strings.", "anchors": ["rubin_sim/maf/metrics/string_count_metric.py:StringCountMetric", "rubin_sim/maf/metrics/string_count_metric.py:Keylookerupper"]}
{"id": "C98", "title": "Pairs of visits are counted", "statement": "PairMetric documents the number of pairs of visits within a time range. It counts pairs of time bins: never more than the pairs of different times, if three halves of a bin are allowed for at both ends, and some if there is a pair within the range by as much; the number can be less than documented.", "quantifier": "every list of times, range and bin size", "why_tests_cant": "All lists of times; position in the bins.", "anchors": ["rubin_sim/maf/metrics/pair_metric.py:PairMetric"]}
{"id": "C99", "title": "Numbers of observations and nights of a moving object agree", "statement": "NObs counts the observations at or above the SNR limit (or visible), NNights the nights with one, and NObsNoSingles the observations in nights with more than one; NObsNoSingles plus the nights with exactly one is NObs, and all three do not increase with the limit. Negative night numbers make NObsNoSingles raise an exception.", "quantifier": "every list of observations and limit", "why_tests_cant": "All lists and limits.", "anchors": ["rubin_sim/maf/metrics/mo_metrics.py:NObsMetric", "rubin_sim/maf/metrics/mo_metrics.py:NObsNoSinglesMetric", "rubin_sim/maf/metrics/mo_metrics.py:NNightsMetric"]}
{"id": "C100", "title": "The observational arc is the longest time span", "statement": "ObsArc is the largest difference in time of two visible observations, zero if there are none, and does not increase with the SNR limit.", "quantifier": "every list of observations and limit", "why_tests_cant": "All lists.", "anchors": ["rubin_sim/maf/metrics/mo_metrics.py:ObsArcMetric"]}
{"id": "C101", "title": "The chance of seeing activity is the fraction of time windows with observations", "statement": "ActivityOverTime should be the fraction of the windows of the survey in which the object is seen. The count of windows is divided by the number of edges, which is one more, so that it is always below one even if the object is seen in every window.", "quantifier": "every list of observations, window and survey length", "why_tests_cant": "All lists and windows.", "anchors": ["rubin_sim/maf/metrics/mo_metrics.py:ActivityOverTimeMetric"]}
{"id": "C102", "title": "Activity over the period uses the mean anomaly", "statement": "ActivityOverPeriod should give the fraction of bins of mean anomaly, over the full circle, in which the object is seen. If the time of perihelion is known, the phase lacks the factor 2 pi, so that only the bins up to one radian can be filled. With anomalies over the whole circle the value is the fraction of bins.", "quantifier": "every orbit and list of observations", "why_tests_cant": "All orbits and lists.", "anchors": ["rubin_sim/maf/metrics/mo_metrics.py:ActivityOverPeriodMetric"]}
{"id": "C103", "title": "MagicDiscovery counts windows with enough observations", "statement": "MagicDiscovery counts the nights with a visible observation from which on a window has enough visible observations. This holds for rows in the order of nights; otherwise the value depends on the order of the rows.", "quantifier": "every list of observations, number and window", "why_tests_cant": "All lists and orders.", "anchors": ["rubin_sim/maf/metrics/mo_metrics.py:MagicDiscoveryMetric"]}
{"id": "C104", "title": "Trailed observations are found", "statement": "HighVelocity counts the visible observations fast enough for the trail to be at least psf_factor times the seeing; a larger factor never gives more. HighVelocityNights gives a time of the first night with enough such observations, but it is the time of the first row of that night, even if it is not visible or not fast.", "quantifier": "every list of observations and factor", "why_tests_cant": "All lists.", "anchors": ["rubin_sim/maf/metrics/mo_metrics.py:HighVelocityMetric", "rubin_sim/maf/metrics/mo_metrics.py:HighVelocityNightsMetric"]}
{"id": "C105", "title": "Colour flags of asteroids grow with the bands", "statement": "ColorAsteroid gives 4 for all bands, 3 for all but u, 2 for four of grizy, 1 for g and (r or i) and (z or y), else 0. More bands or more observations never lower it, and one or more needs three bands with more than weight_det observations each.", "quantifier": "every set of bands and list of observations", "why_tests_cant": "All sets and lists.", "anchors": ["rubin_sim/maf/metrics/mo_metrics.py:ColorAsteroidMetric"]}
{"id": "C106", "title": "Light-curve flags grow with the observations", "statement": "LightcurveColorOuter is the number of bands with a light curve, plus one if there is such a band and another band has enough observations for a colour. More observations or a lower limit never lower it.", "quantifier": "every list of observations, bands and numbers", "why_tests_cant": "All lists; a band moving from colour to light curve.", "anchors": ["rubin_sim/maf/metrics/mo_metrics.py:LightcurveColorOuterMetric"]}
{"id": "C107", "title": "Instantaneous colours need close pairs", "statement": "InstantaneousColorOuter should give one only if there are enough pairs of observations in the two bands within the time span. It counts, for each observation in the second band, whether the last one in the first band is close before it; an observation before all those of the first band counts too, however long before.", "quantifier": "every list of observations", "why_tests_cant": "All lists in order of time.", "anchors": ["rubin_sim/maf/metrics/mo_metrics.py:InstantaneousColorOuterMetric"]}
{"id": "C108", "title": "Light-curve inversion needs a wide range of longitude", "statement": "LightcurveInversionAsteroid gives one only if in some band there are at least weight_det observations, with phase angles over five degrees and ecliptic longitudes over 90 degrees. The longitudes are compared as numbers, so that an arc of a few degrees around zero counts.", "quantifier": "every list of observations", "why_tests_cant": "All lists; longitudes on a circle.", "anchors": ["rubin_sim/maf/metrics/mo_metrics.py:LightcurveInversionAsteroidMetric"]}
{"id": "C109", "title": "KnownObjects gives the first discovery", "statement": "KnownObjects gives the earliest time of an observation, within the elongation and magnitude limits of its period of years, whose random number is within the efficiency of the period, and badval if there is none.", "quantifier": "every list of observations, random numbers and limits", "why_tests_cant": "All lists and draws; four periods.", "anchors": ["rubin_sim/maf/metrics/mo_metrics.py:KnownObjectsMetric"]}
{"id": "C110", "title": "Tracklets are found in every night that has one", "statement": "The Discovery metric should count the nights in which n_obs_per_night visible observations are within t_max and span at least t_min. Every night counted has such observations; but only all observations of the night and runs of n_obs_per_night neighbours are tried, so that others are missed. None is missed if observations are at least t_min apart. A night with one observation never counts.", "quantifier": "every list of observations in order of time and all limits", "why_tests_cant": "All lists.", "anchors": ["rubin_sim/maf/metrics/mo_metrics.py:DiscoveryMetric"]}
{"id": "C111", "title": "Discovery chances are counted by nights", "statement": "For observations in order of time, N_Chances is the number of nights with a tracklet such that from that night to the one t_window later there are n_nights_per_window nights with one; badval is returned exactly if there are fewer such nights in all.", "quantifier": "every list of observations in order of time and all limits", "why_tests_cant": "All lists and windows; wrap-around of np.roll.", "anchors": ["rubin_sim/maf/metrics/mo_metrics.py:DiscoveryMetric", "rubin_sim/maf/metrics/mo_metrics.py:DiscoveryNChancesMetric"]}
{"id": "C112", "title": "The order of the rows does not matter for discovery", "statement": "Discovery sorts the rows by time. For rows in order of time DiscoveryTime and the like take the first visible observation of the first chance. For other orders positions in the sorted and the unsorted rows are mixed up: the number of chances depends on the order of the rows, and the time can be that of another night.", "quantifier": "every list of observations and its order by time", "why_tests_cant": "All orders.", "anchors": ["rubin_sim/maf/metrics/mo_metrics.py:DiscoveryMetric", "rubin_sim/maf/metrics/mo_metrics.py:DiscoveryTimeMetric", "rubin_sim/maf/metrics/mo_metrics.py:DiscoveryDistanceMetric", "rubin_sim/maf/metrics/mo_metrics.py:DiscoveryRadecMetric"]}
{"id": "C113", "title": "N_Obs is the number of observations of the first track", "statement": "DiscoveryNObs should be the number of visible observations from the first to the last night of the first chance. It is always one less.", "quantifier": "every list of observations in order of time", "why_tests_cant": "All lists.", "anchors": ["rubin_sim/maf/metrics/mo_metrics.py:DiscoveryNObsMetric"]}
{"id": "C114", "title": "MaxGap is the longest time without visits", "statement": "MaxGap is the difference in time of two visits without a visit in between, and no such difference is larger; there is no value exactly if there are fewer than two visits.", "quantifier": "every list of times", "why_tests_cant": "All lists.", "anchors": ["rubin_sim/maf/metrics/tgaps.py:MaxGapMetric"]}
{"id": "C115", "title": "Integration over H is a weighted mean", "statement": "integrate_over_h gives at each H the mean of the metric values up to there, weighted by the numbers of objects; it does not change if the numbers are scaled, lies between bounds of the values, and does not increase with H if the values do not.", "quantifier": "every list of values and every list of positive weights of its length", "why_tests_cant": "All lengths and weights.", "anchors": ["rubin_sim/maf/metrics/mo_summary_metrics.py:integrate_over_h"]}
{"id": "C116", "title": "The power-law index is used for the completeness", "statement": "MoCompleteness with cumulative=True should weight by a power law of the given hindex. The index given is ignored: 0.33 is always used. power_law_dndh itself is positive, grows by 10^(hindex d) per step d, and its normalisation does not matter for the integrated values.", "quantifier": "every index and every increasing list of H", "why_tests_cant": "All indices.", "anchors": ["rubin_sim/maf/metrics/mo_summary_metrics.py:MoCompletenessMetric", "rubin_sim/maf/metrics/mo_summary_metrics.py:power_law_dndh"]}
{"id": "C117", "title": "Completeness is the fraction of objects at the threshold", "statement": "For cloned H, the completeness at each H is the fraction of all objects with a value not below the threshold, masked ones counting as not found; it is between zero and one, and does not increase with the threshold nor decrease with the values. For a threshold not above zero masked objects count as found.", "quantifier": "every list of values, masked or not, and threshold", "why_tests_cant": "All populations.", "anchors": ["rubin_sim/maf/metrics/mo_summary_metrics.py:MoCompletenessMetric"]}
{"id": "C118", "title": "Completeness for objects with their own H", "statement": "When each object has its own H, the completeness in bins of H should be that of the objects of the bin. The metric values are put into the bins, not the H values, so that a value outside the range of H counts nowhere. The bins have equal width, but for a small range of H they do not reach its end.", "quantifier": "every list of values and H", "why_tests_cant": "All populations and bins.", "anchors": ["rubin_sim/maf/metrics/mo_summary_metrics.py:MoCompletenessMetric"]}
{"id": "C119", "title": "Completeness with time", "statement": "The completeness at a time is the fraction of objects found by then; it is zero at the first time and does not decrease, also after integration over H. Objects found before the first time are never counted.", "quantifier": "every increasing list of times and every discovery time", "why_tests_cant": "All times.", "anchors": ["rubin_sim/maf/metrics/mo_summary_metrics.py:MoCompletenessAtTimeMetric"]}
{"id": "C120", "title": "A summary metric gives the same each time it is run", "statement": "MoCompletenessAtTime uses the H nearest to hval, or the middle one if none is given. It stores this in hval, so that a second run with other H values uses the one of the first. If neither hval nor metric_name is given, as documented, it cannot be made.", "quantifier": "every list of H and every sequence of two runs", "why_tests_cant": "State kept between runs.", "anchors": ["rubin_sim/maf/metrics/mo_summary_metrics.py:MoCompletenessAtTimeMetric"]}
{"id": "C121", "title": "Values at a given H are interpolated", "statement": "ValueAtH has a value exactly if h_mark is in the range of H and the values are one-dimensional. It is the metric value at the H values and on the line between neighbours; it is monotone if the metric is. MeanValueAtH is the same for a single object. TotalNumberSSO at one of the H values is the sum of the values times the numbers of objects up to it, and does not decrease with h_mark.", "quantifier": "every increasing list of H, values and h_mark", "why_tests_cant": "All real arguments.", "anchors": ["rubin_sim/maf/metrics/mo_summary_metrics.py:ValueAtHMetric", "rubin_sim/maf/metrics/mo_summary_metrics.py:MeanValueAtHMetric", "rubin_sim/maf/metrics/mo_summary_metrics.py:TotalNumberSSO"]}
{"id": "C122", "title": "Resampling conserves flux", "statement": "spectres gives, at each new wavelength whose cell lies within the old cells, the mean of the piecewise constant old spectrum over the new cell, and the fill value elsewhere. Hence the integral over the new cells is the integral of the spectrum over their union, values stay between bounds of the old ones, a constant spectrum stays constant, resampling to the same grid changes nothing, and the result is linear in the fluxes.", "quantifier": "every pair of increasing grids of at least two wavelengths and all fluxes", "why_tests_cant": "All grids and their relative positions.", "anchors": ["rubin_sim/phot_utils/spectral_resampling.py:spectres", "rubin_sim/phot_utils/spectral_resampling.py:make_bins"]}
{"id": "C123", "title": "A spectrum that spans the new grid has values everywhere", "statement": "If the old wavelengths reach from below the first to above the last new wavelength, as checked for the warning, no new flux should be NaN. This fails if the first or last new cell sticks out, as for a coarse new grid. It also fails for decreasing wavelengths.", "quantifier": "every pair of grids", "why_tests_cant": "All grids.", "anchors": ["rubin_sim/phot_utils/spectral_resampling.py:spectres", "rubin_sim/phot_utils/sed.py:Sed.resample_sed"]}
{"id": "C124", "title": "Flux through a bandpass is a weighted mean", "statement": "phi has integral one, is proportional to the throughput over the wavelength and not negative. calc_flux lies between bounds of the spectrum, gives c for a constant spectrum c, is linear in the spectrum, and does not depend on the scale of the throughput. The spectrum is taken at the wavelengths of the bandpass, up to 1e-10.", "quantifier": "every bandpass with throughputs at least zero, every spectrum covering it", "why_tests_cant": "All spectra and throughputs.", "anchors": ["rubin_sim/phot_utils/bandpass.py:Bandpass.sb_tophi", "rubin_sim/phot_utils/sed.py:Sed.calc_flux", "rubin_sim/phot_utils/sed.py:Sed.resample_sed"]}
{"id": "C125", "title": "many_flux_calc agrees with calc_flux", "statement": "The flux by many_flux_calc should be that of calc_flux. It is larger by half of both end terms, so that they agree if the throughput vanishes at both ends of the grid.", "quantifier": "every uniform grid, throughput and spectrum", "why_tests_cant": "All grids.", "anchors": ["rubin_sim/phot_utils/sed.py:Sed.many_flux_calc", "rubin_sim/phot_utils/sed.py:Sed.calc_flux"]}
{"id": "C126", "title": "Counts are fixed by the flux", "statement": "Sources of the same flux, hence magnitude, through a bandpass should give the same counts. Counts are a sum and the flux uses the trapezoid rule, so that this fails unless the throughput vanishes at both ends; then calc_adu is calc_flux times a factor of bandpass and camera.", "quantifier": "every uniform grid, throughput and pair of spectra", "why_tests_cant": "All spectra.", "anchors": ["rubin_sim/phot_utils/sed.py:Sed.calc_adu", "rubin_sim/phot_utils/sed.py:Sed.calc_flux"]}
{"id": "C127", "title": "calc_ergs is the integral over the bandpass", "statement": "calc_ergs should be the trapezoid rule for flambda times throughput. It uses the first step for all intervals, which is right for uniform grids only.", "quantifier": "every bandpass and spectrum", "why_tests_cant": "All grids.", "anchors": ["rubin_sim/phot_utils/sed.py:Sed.calc_ergs"]}
{"id": "C128", "title": "The two kinds of flux of a Sed never disagree", "statement": "After any sequence of calls of methods that change a Sed, also if they raise an exception, fnu is unset or equals flambda wavelen^2 / c. Counts, fluxes and magnitudes are calculated from an fnu that agrees with the present flambda.", "quantifier": "every sequence of method calls with positive wavelengths", "why_tests_cant": "All sequences of calls.", "anchors": ["rubin_sim/phot_utils/sed.py:Sed"]}
{"id": "C129", "title": "Redshift stretches wavelengths by 1 + z", "statement": "redshift_sed multiplies wavelengths by 1 + z, and with dimming keeps flux times wavelength; a redshift by -z undoes one by z. For negative z wavelengths are divided by 1 - z, which is not multiplication by 1 + z.", "quantifier": "every spectrum and redshift above -1", "why_tests_cant": "All spectra and redshifts.", "anchors": ["rubin_sim/phot_utils/sed.py:Sed.redshift_sed"]}
{"id": "C130", "title": "Magnitudes and fluxes are inverse to each other", "statement": "flux_from_mag and mag_from_flux undo each other, a hundred times the flux is five magnitudes, and a brighter source has a smaller magnitude. A spectrum scaled by calc_flux_norm for a magnitude has this magnitude in the bandpass. A flat spectrum of 3631 Jy has magnitude zero in every bandpass.", "quantifier": "every flux, magnitude, spectrum and bandpass whose cells the spectrum covers", "why_tests_cant": "All real arguments and all spectra.", "anchors": ["rubin_sim/phot_utils/sed.py:Sed.flux_from_mag", "rubin_sim/phot_utils/sed.py:Sed.mag_from_flux", "rubin_sim/phot_utils/sed.py:Sed.calc_mag", "rubin_sim/phot_utils/sed.py:Sed.calc_flux_norm", "rubin_sim/phot_utils/sed.py:Sed.multiply_flux_norm"]}
{"id": "C131", "title": "The magnitude of a spectrum does not depend on how the Sed was set up", "statement": "A flat spectrum of 3631 Jy has magnitude zero for a new Sed. After clear_sed the zeropoint is -8.9 instead of -2.5 log10 3631, so that all magnitudes are lower by a constant between 0 and 0.001.", "quantifier": "every bandpass covered by the spectrum", "why_tests_cant": "Constants compared exactly.", "anchors": ["rubin_sim/phot_utils/sed.py:Sed.clear_sed", "rubin_sim/phot_utils/sed.py:Sed.__init__"]}
{"id": "C132", "title": "Signal to noise scales with exposures and not with units", "statement": "The signal to noise ratio of calc_snr_sed grows with the root of the number of exposures and does not depend on the gain. The noise of the sky does not depend on the plate scale. The two conversions of FWHM are inverse to each other.", "quantifier": "every source, sky, bandpass and camera", "why_tests_cant": "All spectra and parameters.", "anchors": ["rubin_sim/phot_utils/signaltonoise.py:calc_snr_sed", "rubin_sim/phot_utils/signaltonoise.py:calc_total_non_source_noise_sq", "rubin_sim/phot_utils/signaltonoise.py:calc_neff", "rubin_sim/phot_utils/signaltonoise.py:fwhm_eff2_fwhm_geom", "rubin_sim/phot_utils/signaltonoise.py:fwhm_geom2_fwhm_eff"]}
{"id": "C133", "title": "calc_m5 is the magnitude of a five sigma detection", "statement": "A flat source of magnitude calc_m5 should have a signal to noise ratio of five. This holds for gain 1. The gain is not squared in one term, so that the ratio is above five for gain above 1 and below five for gain below 1, and m5 depends on the gain, though the ratio does not.", "quantifier": "every sky, pair of bandpasses and camera", "why_tests_cant": "All spectra and parameters.", "anchors": ["rubin_sim/phot_utils/signaltonoise.py:calc_m5", "rubin_sim/phot_utils/signaltonoise.py:calc_snr_sed"]}
{"id": "C134", "title": "scale_sky_m5 gives a sky with the limiting magnitude", "statement": "With the sky scaled by scale_sky_m5, a flat source of magnitude m5 has signal to noise ratio five. calc_m5 of the scaled sky should be m5, which holds for gain 1 only. For a faint m5 the scaled sky is negative, without an error.", "quantifier": "every m5, sky, pair of bandpasses and camera", "why_tests_cant": "All spectra and parameters.", "anchors": ["rubin_sim/phot_utils/signaltonoise.py:scale_sky_m5", "rubin_sim/phot_utils/signaltonoise.py:calc_sky_counts_per_pixel_for_m5"]}
{"id": "C135", "title": "Signal to noise from m5", "statement": "calc_gamma is below 0.04, and at least zero if the source at m5 has enough counts. calc_snr_m5 is five at m5 for each gamma, and decreases with magnitude for gamma from 0 to 0.04; for negative gamma faint sources have no value. With the gamma of the same camera and m5 of a five sigma source it agrees with calc_snr_sed for flat sources.", "quantifier": "every magnitude, m5, gamma and camera", "why_tests_cant": "All real arguments.", "anchors": ["rubin_sim/phot_utils/signaltonoise.py:calc_gamma", "rubin_sim/phot_utils/signaltonoise.py:calc_snr_m5"]}
{"id": "C136", "title": "Magnitude errors", "statement": "The error of mag_error_from_snr is the shift in magnitude by one sigma of the flux; it is positive and decreases with snr. calc_mag_error_m5 and calc_mag_error_sed are at least the systematic error and at least the photometric error, and at most their sum.", "quantifier": "every signal to noise ratio and systematic error", "why_tests_cant": "All real arguments.", "anchors": ["rubin_sim/phot_utils/signaltonoise.py:mag_error_from_snr", "rubin_sim/phot_utils/signaltonoise.py:calc_mag_error_m5", "rubin_sim/phot_utils/signaltonoise.py:calc_mag_error_sed"]}
{"id": "C137", "title": "Astrometric error", "statement": "calc_astrometric_error at m5 for one visit has random part fwhm / 5. The error is above the floor, grows with magnitude, and the square of its random part is inversely proportional to the number of visits.", "quantifier": "every magnitude, m5, fwhm, positive number of visits and floor", "why_tests_cant": "All real arguments.", "anchors": ["rubin_sim/phot_utils/signaltonoise.py:calc_astrometric_error"]}
{"id": "C138", "title": "The zeropoint is the magnitude of one count per second", "statement": "A source of magnitude calc_zp_t gives one count in the whole visit. The documented one count per second is given only if the visit takes one second; the zeropoint grows by 2.5 log10 of the factor of exposure time.", "quantifier": "every bandpass and camera", "why_tests_cant": "All cameras.", "anchors": ["rubin_sim/phot_utils/bandpass.py:Bandpass.calc_zp_t"]}
{"id": "C139", "title": "Predicted zeropoints", "statement": "predicted_zeropoint at airmass 1 and one second is its table value, is lower for larger airmass, and grows by 2.5 log10 of the factor of exposure time.", "quantifier": "every airmass, band and exposure time", "why_tests_cant": "All real arguments.", "anchors": ["rubin_sim/phot_utils/predicted_zeropoints.py:predicted_zeropoint"]}
{"id": "C140", "title": "Dust dims every wavelength of the extinction law", "statement": "setup_ccm_ab and setup_o_donnell_ab followed by add_dust should dim every wavelength from 91 to 3333 nm. For r_v from 1 to 8 exactly these are dimmed, apart from the wavelength 1000/5.9 nm, which lies in a hole of the law; for r_v of 10 the far ultraviolet is brightened. The extinction at 1.82 inverse microns is a_v.", "quantifier": "every wavelength, positive a_v and r_v from 1 to 8", "why_tests_cant": "All real wavelengths and parameters; polynomials of the tenth degree.", "anchors": ["rubin_sim/phot_utils/sed.py:Sed.setup_ccm_ab", "rubin_sim/phot_utils/sed.py:Sed.setup_o_donnell_ab", "rubin_sim/phot_utils/sed.py:Sed.add_dust"]}
{"id": "C141", "title": "Dust acts by magnitudes", "statement": "add_dust multiplies the flux by 10^(-0.4 A) with the extinction A in magnitudes. Two layers of dust act as one of the sum, no dust changes nothing, and dust of opposite sign undoes it.", "quantifier": "every spectrum, extinction and r_v", "why_tests_cant": "All spectra and parameters.", "anchors": ["rubin_sim/phot_utils/sed.py:Sed.add_dust"]}
{"id": "C142", "title": "add_dust rejects contradictory parameters", "statement": "a_v, ebv and r_v can be given in three ways that agree. Contradictory values should be rejected; this holds if r_v is not 3.1. For r_v of 3.1, also if given explicitly, another r_v is used.", "quantifier": "every a_v, ebv and r_v", "why_tests_cant": "All real parameters.", "anchors": ["rubin_sim/phot_utils/sed.py:Sed.add_dust"]}
{"id": "C143", "title": "Extinction of DustValues", "statement": "The stored value for a bandpass lies between the extinctions at its wavelengths and is positive for bandpasses from 170 to 3330 nm. Multiplied by ebv it should be the extinction for ebv; for a reference other than ref_ebv = 1 the stored value is not divided by it.", "quantifier": "every bandpass with steps up to 1 nm at its ends and r_v from 1 to 8", "why_tests_cant": "All bandpasses.", "anchors": ["rubin_sim/phot_utils/photometric_parameters.py:DustValues.__init__"]}
{"id": "C144", "title": "read_throughput reads what is in the file", "statement": "After read_throughput the bandpass has the points of the file, in order of wavelength, each once, whatever the order of the rows. It raises exactly if two rows have the same wavelength.", "quantifier": "every list of rows", "why_tests_cant": "All files.", "anchors": ["rubin_sim/phot_utils/bandpass.py:Bandpass.read_throughput"]}
{"id": "C145", "title": "Resampled bandpasses follow the old ones", "statement": "resample_bandpass interpolates linearly: it agrees with the old values at its nodes, is zero outside, and stays in the range of the old values. On its own uniform grid nothing changes. Both ends are part of the new grid if the width is a whole number of steps.", "quantifier": "every curve and grid", "why_tests_cant": "All curves and grids.", "anchors": ["rubin_sim/phot_utils/bandpass.py:Bandpass.resample_bandpass"]}
{"id": "C146", "title": "read_throughput_list multiplies the components", "statement": "The throughput of a list of components is at each wavelength the product of their throughputs. It does not depend on their order, lies between 0 and 1, and a further component does not raise it.", "quantifier": "every list of components that overlap the grid", "why_tests_cant": "All lists of curves.", "anchors": ["rubin_sim/phot_utils/bandpass.py:Bandpass.read_throughput_list"]}
{"id": "C147", "title": "multiply_throughputs multiplies at equal wavelengths", "statement": "multiply_throughputs should give at each wavelength of the bandpass the product with the other curve at this wavelength. This holds on uniform grids; on others the other curve is taken at other wavelengths.", "quantifier": "every pair of curves", "why_tests_cant": "All curves.", "anchors": ["rubin_sim/phot_utils/bandpass.py:Bandpass.multiply_throughputs"]}
{"id": "C148", "title": "imsim_bandpass has a single wavelength", "statement": "imsim_bandpass should have throughput 1 at one wavelength of the grid, the nearest to the one asked for, and 0 elsewhere. There is at most one, and it is the nearest; if the one asked for is in the middle of two, there is none.", "quantifier": "every wavelength and uniform grid", "why_tests_cant": "All grids.", "anchors": ["rubin_sim/phot_utils/bandpass.py:Bandpass.imsim_bandpass"]}
{"id": "C149", "title": "Effective wavelengths lie in the bandpass", "statement": "Both values of calc_eff_wavelen lie between the smallest and the largest wavelength, and the one by phi is at most the one by throughput.", "quantifier": "every non-negative throughput", "why_tests_cant": "All curves.", "anchors": ["rubin_sim/phot_utils/bandpass.py:Bandpass.calc_eff_wavelen"]}
{"id": "C150", "title": "read_sed_flambda gives the contents of the file", "statement": "Every read, by a name with or without .gz and with or without cache_sed, gives the contents of the file. This holds while no file changes. A file that changes after it was read with cache_sed is given with its old contents, even with cache_sed=False.", "quantifier": "every sequence of reads and changes of files", "why_tests_cant": "All sequences.", "anchors": ["rubin_sim/phot_utils/sed.py:Sed.read_sed_flambda", "rubin_sim/phot_utils/sed.py:cache_LSST_seds"]}
{"id": "C151", "title": "renormalize_sed gives the value asked for", "statement": "renormalize_sed should scale the spectrum so that its value at lambdanorm, or its mean over the gap, is normvalue. This holds for normflux flambda if wavelen_step is given. With the default wavelen_step it always raises AttributeError, and for normflux fnu it always raises; multiply_sed raises without wavelen_step too.", "quantifier": "every spectrum, wavelength, value and gap", "why_tests_cant": "All spectra.", "anchors": ["rubin_sim/phot_utils/sed.py:Sed.renormalize_sed", "rubin_sim/phot_utils/sed.py:Sed.multiply_sed"]}
{"id": "C152", "title": "Written spectra can be read again", "statement": "The wavelengths of a file written by write_sed are off by at most 0.005 nm and increase if the steps are at least 0.01 nm. For steps below 0.005 nm they need not. With print_fnu the loop raises after two lines for three or more wavelengths.", "quantifier": "every grid of wavelengths", "why_tests_cant": "All grids.", "anchors": ["rubin_sim/phot_utils/sed.py:Sed.write_sed"]}
{"id": "C153", "title": "Defaults of PhotometricParameters", "statement": "Each parameter is the one given, or the default of the bandpass, which is that of any without bandpass. Defaults differ between bandpasses only in sigma_sys. For another bandpass the constructor raises if any of the nine parameters is missing, though a comment says that the values of any are used.", "quantifier": "every bandpass and set of parameters given", "why_tests_cant": "All combinations.", "anchors": ["rubin_sim/phot_utils/photometric_parameters.py:PhotometricParameters.__init__", "rubin_sim/phot_utils/photometric_parameters.py:DefaultPhotometricParameters"]}
{"id": "C154", "title": "Apparent magnitudes shift with H", "statement": "Changing the H of an object by d changes every apparent magnitude of AppMagStacker and of CometAppMagStacker by d. A comet is brighter than its nucleus and than its coma, by the sum of the two fluxes.", "quantifier": "every observation, H and d", "why_tests_cant": "All real values.", "anchors": ["rubin_sim/maf/stackers/mo_stackers.py:AppMagStacker._run", "rubin_sim/maf/stackers/mo_stackers.py:CometAppMagStacker._run"]}
{"id": "C155", "title": "The coma has the magnitude of its Afrho", "statement": "The coma should have the flux F_sun * Afrho * rho / (2 rh delta)^2 with all lengths in the same unit. The distance is in metres, the other lengths in cm: the coma is 10 magnitudes too bright.", "quantifier": "every observation and comet", "why_tests_cant": "All real values.", "anchors": ["rubin_sim/maf/stackers/mo_stackers.py:CometAppMagStacker._run"]}
{"id": "C156", "title": "Comet types", "statement": "CometAppMagStacker takes short, oort, mbc or a dict. A dict with the documented keys k and afrho1_const should be accepted; it raises, the key read is Afrho1_const.", "quantifier": "every dict", "why_tests_cant": "All dicts.", "anchors": ["rubin_sim/maf/stackers/mo_stackers.py:CometAppMagStacker.__init__"]}
{"id": "C157", "title": "Signal to noise of moving objects", "statement": "The SNR of SNRStacker is 5 at m5 and falls with magnitude. It should be that of calc_snr_m5; it is so at m5 only. Elsewhere it is the SNR of a magnitude 1.25 times as far from m5.", "quantifier": "every magnitude, m5 and gamma from 0 to 0.04", "why_tests_cant": "All real values.", "anchors": ["rubin_sim/maf/stackers/mo_stackers.py:SNRStacker._run"]}
{"id": "C158", "title": "Visibility of moving objects", "statement": "vis is 0 or 1, an observation is visible with probability 1/2 at m5 and a fainter magnitude is never more visible for the same random number. Random numbers are used in order over all calls. So a brighter H need not be visible in all observations in which a fainter H is.", "quantifier": "every sequence of calls and stream of random numbers", "why_tests_cant": "All sequences.", "anchors": ["rubin_sim/maf/stackers/mo_stackers.py:SNRStacker._run"]}
{"id": "C159", "title": "Ecliptic coordinates of observations", "statement": "EclStacker gives a latitude from -90 to 90 and a longitude from 0 to 360 degrees whose unit vector is that of ra and dec rotated by the obliquity. The equinox has longitude 0 and the ecliptic pole latitude 90.", "quantifier": "every ra and dec", "why_tests_cant": "All real angles.", "anchors": ["rubin_sim/maf/stackers/mo_stackers.py:EclStacker._run"]}
{"id": "C160", "title": "Phase functions", "statement": "phase__log_linear dims by slope magnitudes per degree. phase_hg is 1 at opposition, positive, and falls with the phase angle below 180 degrees for G from 0 to 1.", "quantifier": "every phase angle and G from 0 to 1", "why_tests_cant": "All real values.", "anchors": ["rubin_sim/maf/stackers/mo_phase.py:phase__log_linear", "rubin_sim/maf/stackers/mo_phase.py:phase_hg"]}
{"id": "C161", "title": "Effective exposure times add up", "statement": "t_eff is the time in fiducial conditions that gives the depth of the visit, and 1 per second if normed. The t_eff of coadded visits is the sum of theirs.", "quantifier": "every depth and list of visits", "why_tests_cant": "All real depths.", "anchors": ["rubin_sim/maf/stackers/teff_stacker.py:compute_teff", "rubin_sim/maf/stackers/sn_stacker.py:CoaddStacker.m5_coadd"]}
{"id": "C162", "title": "Coadded depths", "statement": "m5_coadd adds inverse variances. It does not depend on the order, is deeper than each visit if there are two or more, by 1.25 log n for n equal visits, and coadding coadds gives the coadd of all.", "quantifier": "every list of depths", "why_tests_cant": "All lists.", "anchors": ["rubin_sim/maf/stackers/sn_stacker.py:CoaddStacker.m5_coadd"]}
{"id": "C163", "title": "CoaddStacker has one row per field, band and night", "statement": "The result should have one row for each position, band and night, and the total exposures and times should stay the same. This holds if different positions are at least 1e-5 apart. Visits closer than this are counted in the row of each position.", "quantifier": "every list of visits", "why_tests_cant": "All lists.", "anchors": ["rubin_sim/maf/stackers/sn_stacker.py:CoaddStacker._run", "rubin_sim/maf/stackers/sn_stacker.py:CoaddStacker.fill"]}
{"id": "C164", "title": "Altitude and azimuth", "statement": "ra_dec2_alt_az gives the altitude and the azimuth, from north over east, of the direction. wrap_ra gives the same angle from 0 to 2 pi.", "quantifier": "every direction, latitude and hour angle", "why_tests_cant": "All angles.", "anchors": ["rubin_sim/maf/stackers/coord_stackers.py:ra_dec2_alt_az", "rubin_sim/maf/stackers/coord_stackers.py:wrap_ra"]}
{"id": "C165", "title": "Units of galactic coordinates", "statement": "GalacticStacker should give degrees for degrees=True, as its units say; it always gives radians.", "quantifier": "every position", "why_tests_cant": "All positions.", "anchors": ["rubin_sim/maf/stackers/coord_stackers.py:GalacticStacker._run"]}
{"id": "C166", "title": "Normalised airmass is at least 1", "statement": "The normairmass of a visit above the horizon is at least 1, and 1 on the meridian only.", "quantifier": "every declination, latitude and hour angle", "why_tests_cant": "All angles.", "anchors": ["rubin_sim/maf/stackers/general_stackers.py:NormAirmassStacker._run"]}
{"id": "C167", "title": "Optimal depth", "statement": "m5_optimal is at least the depth, and equal only at the smallest airmass. The sky should stay the same with the moon up and in twilight. It does with the moon up; the altitude of the sun in degrees is compared with radians, so in twilight it does not.", "quantifier": "every visit", "why_tests_cant": "All real values.", "anchors": ["rubin_sim/maf/stackers/m5_optimal_stacker.py:M5OptimalStacker._run"]}
{"id": "C168", "title": "Columns of M5OptimalStacker", "statement": "cols_req should have all columns that the stacker reads. The depth is missing.", "quantifier": "the default columns", "why_tests_cant": "A fixed list, but with an effect on every query.", "anchors": ["rubin_sim/maf/stackers/m5_optimal_stacker.py:M5OptimalStacker.__init__"]}
{"id": "C169", "title": "Largest distance of NEOs", "statement": "MaxGeoDist should be the distance up to which the object is seen, so that deeper visits do not have smaller ones. It is the first distance at which it is too faint, and 0 if it is seen at all distances, so for the deepest visits it is smallest.", "quantifier": "every visit and list of distances", "why_tests_cant": "All lists.", "anchors": ["rubin_sim/maf/stackers/neo_dist_stacker.py:NEODistStacker._run"]}
{"id": "C170", "title": "Positions of NEOs", "statement": "NEOHelioX and NEOHelioY are at distance MaxGeoDist from the earth at (0, 1), R is the distance from the sun, and alpha the angle between sun and earth. X is flipped for azimuths above the limit, whatever the azimuth of the sun; for azimuths from 0 to 360 degrees the limit is pi.", "quantifier": "every elongation, distance and azimuth", "why_tests_cant": "All real values.", "anchors": ["rubin_sim/maf/stackers/neo_dist_stacker.py:NEODistStacker._run"]}
{"id": "C171", "title": "Area labels", "statement": "A visit gets the label of the area exactly if the mean of the footprint over its healpixels reaches the threshold, so always for the whole sky. Visits without healpixels get NULL.", "quantifier": "every footprint, threshold and visit", "why_tests_cant": "All footprints.", "anchors": ["rubin_sim/maf/stackers/label_stackers.py:WFDlabelStacker._run"]}
{"id": "C172", "title": "Labels of deep drilling fields", "statement": "Visits of a deep drilling field should have a label unique to the field. This holds for names of at most 15 characters that do not end in u. Longer ones are cut, and a name that ends in u is merged with what follows.", "quantifier": "every note", "why_tests_cant": "All strings.", "anchors": ["rubin_sim/maf/stackers/label_stackers.py:WFDlabelStacker.define_ddname", "rubin_sim/maf/stackers/label_stackers.py:WFDlabelStacker._run"]}
{"id": "C173", "title": "Refraction offsets and moments", "statement": "The offsets of DcrStacker have the size of the band times tan z along the parallactic angle. The moments of Dcr2Stacker add up to dcr_var, are those of a line in this direction, and at 45 degrees the total is the value of the band.", "quantifier": "every zenith distance and parallactic angle", "why_tests_cant": "All angles.", "anchors": ["rubin_sim/maf/stackers/general_stackers.py:DcrStacker._run", "rubin_sim/maf/stackers/general_stackers.py:Dcr2Stacker._run"]}
{"id": "C174", "title": "Dcr2Stacker uses the stackers given", "statement": "A zstacker and a pastacker given to Dcr2Stacker should be used. With a zstacker it raises AttributeError when run.", "quantifier": "every stacker", "why_tests_cant": "All stackers.", "anchors": ["rubin_sim/maf/stackers/general_stackers.py:Dcr2Stacker.__init__"]}
{"id": "C175", "title": "What set_orbits stores", "statement": "A data frame is accepted exactly if it is not empty, has one of the formats COM, KEP and CAR with all its elements, and its epochs are between 1800 and 2200; all given columns are stored, with H = 20, g = 0.15 and ids 0, 1, ... where they are missing. Only the first epoch is checked.", "quantifier": "every data frame of orbits", "why_tests_cant": "Frames with any columns and any number of rows.", "anchors": ["rubin_sim/moving_objects/orbits.py:Orbits.set_orbits"]}
{"id": "C176", "title": "set_orbits changes nothing else", "statement": "When a frame is refused the object stays as it was; the frame of the caller is not changed, so it can be used again with the same outcome. Only the orbits stay; the format of the object can change, the frame of the caller loses FORMAT, and it can then be refused or give other spectra.", "quantifier": "every object and data frame", "why_tests_cant": "Sequences of calls.", "anchors": ["rubin_sim/moving_objects/orbits.py:Orbits.set_orbits"]}
{"id": "C177", "title": "Comparison of orbits", "statement": "Two Orbits are equal exactly if they have the same orbits. Objects with the same orbits are equal; but only formats and ids are compared, one orbit equals many with its id, and new objects raise KeyError.", "quantifier": "every pair of objects", "why_tests_cant": "All pairs.", "anchors": ["rubin_sim/moving_objects/orbits.py:Orbits.__eq__"]}
{"id": "C178", "title": "Items of Orbits", "statement": "o[i] has row i and the format of o, and iterating gives all items in order. It is refused for frames that have a column of another format as well, or rows with odd epochs.", "quantifier": "every object and index", "why_tests_cant": "All objects.", "anchors": ["rubin_sim/moving_objects/orbits.py:Orbits.__getitem__", "rubin_sim/moving_objects/orbits.py:Orbits.__iter__"]}
{"id": "C179", "title": "Spectra of orbits", "statement": "assign_sed gives each object C.dat or S.dat: S below 2 au, C from 4 au, and between them C with probability a/2 - 1, by its own axis and its own random number. The seed given should fix the result; it is ignored once numbers were drawn.", "quantifier": "every frame and random stream", "why_tests_cant": "All streams.", "anchors": ["rubin_sim/moving_objects/orbits.py:Orbits.assign_sed"]}
{"id": "C180", "title": "Header of orbit files", "statement": "read_orbits skips the lines before the first one with a number in its fourth column and takes the names from the last of them. This should hold for every delimiter; lines are always split at blanks, so with commas no orbits are read.", "quantifier": "every file", "why_tests_cant": "Files with any lines.", "anchors": ["rubin_sim/moving_objects/orbits.py:Orbits.read_orbits"]}
{"id": "C181", "title": "Names of columns in orbit files", "statement": "read_orbits gives each column its standard name, and refuses two columns for one quantity. S3MID and objid(int) are not recognised because of a missing comma.", "quantifier": "every list of columns", "why_tests_cant": "All lists.", "anchors": ["rubin_sim/moving_objects/orbits.py:Orbits.read_orbits"]}
{"id": "C182", "title": "Negative inclinations", "statement": "Orbits with negative inclinations should be refused with ValueError. With ids they are read, and without ids there is a KeyError.", "quantifier": "every frame", "why_tests_cant": "All frames.", "anchors": ["rubin_sim/moving_objects/orbits.py:Orbits.read_orbits"]}
{"id": "C183", "title": "update_orbits", "statement": "update_orbits replaces the elements and keeps ids, spectra and magnitudes. H and g are not kept when the new frame lacks them.", "quantifier": "every object and new frame", "why_tests_cant": "All frames.", "anchors": ["rubin_sim/moving_objects/orbits.py:Orbits.update_orbits"]}
{"id": "C184", "title": "Times of rough positions", "statement": "DirectObs has, for each visit, a rough position at a time that is not before the visit and less than one step after it.", "quantifier": "every range of times and step", "why_tests_cant": "All real times and steps.", "anchors": ["rubin_sim/moving_objects/direct_obs.py:DirectObs.run"]}
{"id": "C185", "title": "Rows of DirectObs", "statement": "The output has, for each object in order, one row for each visit that its rough position is near to and that has its exact position in the field of view, in the order of the visits. All values of the row are those of this object and this visit, and no pair occurs twice.", "quantifier": "every list of objects and visits", "why_tests_cant": "All lists and ephemerides.", "anchors": ["rubin_sim/moving_objects/direct_obs.py:DirectObs.run"]}
{"id": "C186", "title": "DirectObs finds all observations", "statement": "Every visit that has an object in the field of view is found. It is if the object moves by at most rough_tol - r_fov in one step; the rough cut leaves out the size of the field, so that with a tolerance smaller than the field even objects at rest are lost.", "quantifier": "every motion and visit", "why_tests_cant": "All motions.", "anchors": ["rubin_sim/moving_objects/direct_obs.py:DirectObs.run", "rubin_sim/moving_objects/base_obs.py:BaseObs._sso_in_circle_fov"]}
{"id": "C187", "title": "Positions computed before", "statement": "With positions computed before, the one at the nearest time is used for each visit, they are used exactly if their times enclose those of the visits, and the tolerance bounds the moves to the neighbouring times.", "quantifier": "every sorted list of times", "why_tests_cant": "All lists.", "anchors": ["rubin_sim/moving_objects/direct_obs.py:DirectObs.run"]}
{"id": "C188", "title": "Footprints", "statement": "An object is in the field exactly if it is within the footprint, whatever the unit of the visits and wherever on the sky. The circle is the same in both units; the rectangle ignores obs_degrees and loses objects across zero right ascension. An unknown footprint is used as a circle, but the info lacks its radius.", "quantifier": "every position, field and footprint", "why_tests_cant": "All real coordinates.", "anchors": ["rubin_sim/moving_objects/base_obs.py:BaseObs._sso_in_circle_fov", "rubin_sim/moving_objects/base_obs.py:BaseObs._sso_in_rectangle_fov", "rubin_sim/moving_objects/base_obs.py:BaseObs.sso_in_fov"]}
{"id": "C189", "title": "Trailing losses", "statement": "The losses are not negative, zero at rest, and grow with velocity, exposure time and better seeing. The detection loss should be greater than the SNR loss; it is so only if the trail is longer than about 0.7 times the seeing.", "quantifier": "every velocity, seeing and exposure time", "why_tests_cant": "All real values.", "anchors": ["rubin_sim/moving_objects/base_obs.py:BaseObs.calc_trailing_losses"]}
{"id": "C190", "title": "Ephemerides", "statement": "ephs[i][j] belongs to object i and time j by object, and to time i and object j by time, also for the velocity, which is made from the two rates. Modes and types are read without regard to case, others are refused. An error of OpenOrb should be an exception; for basic ephemerides it is ignored.", "quantifier": "every result of OpenOrb, mode and type", "why_tests_cant": "All results.", "anchors": ["rubin_sim/moving_objects/ooephemerides.py:PyOrbEphemerides.generate_ephemerides", "rubin_sim/moving_objects/ooephemerides.py:PyOrbEphemerides._convert_oorb_basic_ephs", "rubin_sim/moving_objects/ooephemerides.py:PyOrbEphemerides._convert_oorb_full_ephs"]}
{"id": "C191", "title": "Full ephemerides in DirectObs", "statement": "The ephemerides of either type can be written to the output. Those of type full cannot, unless a visit column has the name of one of theirs.", "quantifier": "every list of visit columns", "why_tests_cant": "All lists of columns.", "anchors": ["rubin_sim/moving_objects/direct_obs.py:DirectObs.run"]}
{"id": "C192", "title": "Orbits for OpenOrb", "statement": "The elements packed for OpenOrb give back the orbit, with its number and type; exactly the formats KEP, COM and CAR can be packed.", "quantifier": "every orbit and format", "why_tests_cant": "All real elements.", "anchors": ["rubin_sim/moving_objects/ooephemerides.py:PyOrbEphemerides._convert_to_oorb_elem", "rubin_sim/moving_objects/ooephemerides.py:PyOrbEphemerides.convert_from_oorb_elem"]}
{"id": "C193", "title": "Colours of observations", "statement": "Each row gets the colour of its spectrum in its band; there is an error exactly if one of them is not known.", "quantifier": "every list of rows and colours", "why_tests_cant": "All lists.", "anchors": ["rubin_sim/moving_objects/direct_obs.py:DirectObs.run"]}
{"id": "C194", "title": "Slices of spatial slicers", "statement": "The slice at a position has each visit within the radius of it on the sky (and in the camera footprint, if that is used) exactly once, and no other visit, wherever on the sky; visits in degrees and in radians give the same slices, and whole turns of the longitude do not matter.", "quantifier": "every position, radius up to 180 degrees and list of visits", "why_tests_cant": "All real positions.", "anchors": ["rubin_sim/maf/slicers/base_spatial_slicer.py:BaseSpatialSlicer.setup_slicer", "rubin_sim/maf/slicers/base_spatial_slicer.py:BaseSpatialSlicer._treexyz", "rubin_sim/maf/slicers/base_spatial_slicer.py:BaseSpatialSlicer._set_rad"]}
{"id": "C195", "title": "Slice points", "statement": "In the slice point given to a metric, each key has the value of that slice, or the value common to all slices. Common arrays with as many entries as there are slices are cut to one entry.", "quantifier": "every dictionary of slice points", "why_tests_cant": "All values and shapes.", "anchors": ["rubin_sim/maf/slicers/base_spatial_slicer.py:BaseSpatialSlicer.setup_slicer", "rubin_sim/maf/slicers/user_points_slicer.py:UserPointsSlicer.__init__"]}
{"id": "C196", "title": "Subsets of pixels", "statement": "A loop over a HealpixSubsetSlicer gives the pixels of the subset in order, whatever was done before; in the subset, slices, information, metric values and masks are those of the full slicer, and outside all is masked. The subsets of a circle and of the wide-fast-deep area have exactly the pixels they should.", "quantifier": "every subset, list of visits and metric", "why_tests_cant": "All subsets.", "anchors": ["rubin_sim/maf/slicers/healpix_subset_slicer.py:HealpixSubsetSlicer.__next__", "rubin_sim/maf/slicers/healpix_subset_slicer.py:HealpixSubsetSlicer.setup_slicer", "rubin_sim/maf/slicers/healpix_subset_slicer.py:make_circle_subset_slicer", "rubin_sim/maf/slicers/healpix_subset_slicer.py:make_wfd_subset_slicer"]}
{"id": "C197", "title": "Masks of subsets with several numbers per slice", "statement": "The metric values of a slice outside the subset are masked and the others are not, also if the metric gives several numbers per slice. That is false: the mask is laid along the wrong axis.", "quantifier": "every mask and number of values", "why_tests_cant": "All masks.", "anchors": ["rubin_sim/maf/metric_bundles/metric_bundle.py:MetricBundle._setup_metric_values"]}
{"id": "C198", "title": "Points of the user", "statement": "UserPointsSlicer refuses lists of coordinates of different lengths; otherwise slice i is at point i, in radians.", "quantifier": "every pair of coordinates", "why_tests_cant": "All lists and numbers.", "anchors": ["rubin_sim/maf/slicers/user_points_slicer.py:UserPointsSlicer.__init__"]}
{"id": "C199", "title": "Comparison of spatial slicers", "statement": "Equal slicers have equal slices, a slicer is equal to itself, and comparison is symmetric. The unit of the visits and the camera are not compared, and with points of the user comparison is not symmetric.", "quantifier": "every pair of spatial slicers", "why_tests_cant": "All slicers.", "anchors": ["rubin_sim/maf/slicers/healpix_slicer.py:HealpixSlicer.__eq__", "rubin_sim/maf/slicers/healpix_subset_slicer.py:HealpixSubsetSlicer.__eq__", "rubin_sim/maf/slicers/user_points_slicer.py:UserPointsSlicer.__eq__"]}
{"id": "C200", "title": "Metric files", "statement": "A file of metric values gives back values, masks, slice points, number of slices and shape, and a slicer with the parameters of the one written. Parameters that are not in slicer_init come back with their defaults, points of the user come back in radians, moving object slicers come back with all defaults, and the fill value can be replaced by another one.", "quantifier": "every slicer class, parameter and array", "why_tests_cant": "All parameters.", "anchors": ["rubin_sim/maf/slicers/base_slicer.py:BaseSlicer.write_data", "rubin_sim/maf/slicers/base_slicer.py:BaseSlicer.read_data", "rubin_sim/maf/metric_bundles/metric_bundle.py:MetricBundle.read"]}
{"id": "C201", "title": "JSON of metric values", "statement": "The JSON form has one row for each unmasked value with its position in degrees, and for bins one row for each bin and a closing row with the last edge. Integers, said to be accepted, are refused; bins without a mask fail; and the call for a bundle always fails.", "quantifier": "every array, mask and slicer", "why_tests_cant": "All arrays.", "anchors": ["rubin_sim/maf/slicers/base_slicer.py:BaseSlicer.output_json", "rubin_sim/maf/metric_bundles/metric_bundle.py:MetricBundle.output_json"]}
{"id": "C202", "title": "Moving object slicer", "statement": "The slices are the orbits in order, each with exactly the observations of that object and with the H values of the range or the H of the orbit; each observation of a known object is in exactly one slice. nslice is the number of values. Equal slicers have equal slices, except for a range that equals the list of the H of the orbits.", "quantifier": "every list of orbits, observations and H values", "why_tests_cant": "All lists.", "anchors": ["rubin_sim/maf/slicers/mo_slicer.py:MoObjSlicer._slice_obs", "rubin_sim/maf/slicers/mo_slicer.py:MoObjSlicer.__next__", "rubin_sim/maf/slicers/mo_slicer.py:MoObjSlicer.read_orbits", "rubin_sim/maf/slicers/mo_slicer.py:MoObjSlicer.__eq__"]}
{"id": "C203", "title": "Compatible moving object bundles", "statement": "The lists of compatible bundles are the keys in order, all bundles of a list are compatible, and a new list begins only with a bundle that is not compatible with the list before. Bundles are compatible exactly if constraint and slicer agree and no stackers of the same class differ.", "quantifier": "every list of bundles", "why_tests_cant": "All lists.", "anchors": ["rubin_sim/maf/metric_bundles/mo_metric_bundle.py:MoMetricBundleGroup._find_compatible", "rubin_sim/maf/metric_bundles/mo_metric_bundle.py:MoMetricBundleGroup._check_compatible"]}
{"id": "C204", "title": "Values of moving object bundles", "statement": "After run_all the value of each bundle for each object and H value is the metric of the observations that meet its constraint, with the columns of the stackers, whatever the order of the constraints. It is masked exactly if there are no observations or the value is bad; the values of a child come from the same table and the value of its parent, and are masked exactly if the parent is masked or they are bad.", "quantifier": "every group of bundles, objects and H values", "why_tests_cant": "All states of the loops.", "anchors": ["rubin_sim/maf/metric_bundles/mo_metric_bundle.py:MoMetricBundleGroup._run_compatible", "rubin_sim/maf/metric_bundles/mo_metric_bundle.py:MoMetricBundleGroup.run_constraint", "rubin_sim/maf/metric_bundles/mo_metric_bundle.py:MoMetricBundleGroup.run_all"]}
{"id": "C205", "title": "Independence of moving object bundles", "statement": "A bundle in a group has the values it has alone, and the value for an H value does not depend on the other H values. The first is false if bundles have different stackers, as all stackers of the group are run for each bundle.", "quantifier": "every group of bundles", "why_tests_cant": "All groups.", "anchors": ["rubin_sim/maf/metric_bundles/mo_metric_bundle.py:MoMetricBundleGroup._run_compatible"]}
{"id": "C206", "title": "Labels and children of moving object bundles", "statement": "The label of a bundle, if not given, tells the observations and the constraint. That is false: it never tells the observations, so that files of different observations have the same name. Summary metrics go to the children if there are any.", "quantifier": "every observation file and constraint", "why_tests_cant": "All names.", "anchors": ["rubin_sim/maf/metric_bundles/mo_metric_bundle.py:MoMetricBundle._build_metadata", "rubin_sim/maf/metric_bundles/mo_metric_bundle.py:MoMetricBundle.set_child_bundles"]}
{"id": "C207", "title": "Equality of stackers", "statement": "Stackers of the same class are equal exactly if they are configured in the same way. That is so for new stackers without public methods; a stacker that was run is not equal to a new one, though the new one is equal to it, and stackers with public methods are never equal.", "quantifier": "every pair of stackers", "why_tests_cant": "All attributes.", "anchors": ["rubin_sim/maf/stackers/base_stacker.py:BaseStacker.__eq__", "rubin_sim/maf/stackers/base_stacker.py:BaseStacker._add_stacker_cols"]}
{"id": "C208", "title": "Start of the survey of transients", "statement": "TransientMetric with a given survey_start begins its light curves there. That is false: with a given start there is no result at all, whatever the visits.", "quantifier": "every set of parameters and visits", "why_tests_cant": "All parameters.", "anchors": ["rubin_sim/maf/metrics/transient_metrics.py:TransientMetric.run"]}
{"id": "C209", "title": "Transients that are counted", "statement": "The light curve of TransientMetric rises to the peak of its filter in the given time and then declines with the given slopes. With one criterion at a time, the detected transients are exactly those seen by at least one visit, by the given number of visits before the peak, or in each section of the light curve in the given number of filters.", "quantifier": "every list of visits and set of parameters", "why_tests_cant": "All visits and parameters.", "anchors": ["rubin_sim/maf/metrics/transient_metrics.py:TransientMetric.run", "rubin_sim/maf/metrics/transient_metrics.py:TransientMetric.light_curve"]}
{"id": "C210", "title": "All criteria for transients", "statement": "A transient is counted if and only if it meets all the criteria. Those that do are counted; but others are too, as a second filter makes up for visits missing before the peak, and visits that do not see the object count as samples.", "quantifier": "every list of visits and set of parameters", "why_tests_cant": "All visits and parameters.", "anchors": ["rubin_sim/maf/metrics/transient_metrics.py:TransientMetric.run"]}
{"id": "C211", "title": "Fraction of transients detected", "statement": "The result of TransientMetric is a fraction, at most one. That holds for one phase without visits after the end of the last whole light curve, and is false otherwise.", "quantifier": "every list of visits and set of parameters", "why_tests_cant": "All visits and parameters.", "anchors": ["rubin_sim/maf/metrics/transient_metrics.py:TransientMetric.run"]}
{"id": "C212", "title": "Phases of transients", "statement": "With several phases, the visits that are taken together see the same transient. That is so for the first phase; in the others, visits of two successive transients are taken together.", "quantifier": "every visit and phase", "why_tests_cant": "All visits and phases.", "anchors": ["rubin_sim/maf/metrics/transient_metrics.py:TransientMetric.run"]}
{"id": "C213", "title": "Phase gaps", "statement": "PhaseGapMetric with several periods gives evenly spaced periods from the least to the largest, and for each the length of the longest arc of phase without visits, where phases are taken modulo one; it is at most one and at least one over the number of visits.", "quantifier": "every list of times and range of periods", "why_tests_cant": "All times and periods.", "anchors": ["rubin_sim/maf/metrics/phase_gap_metric.py:PhaseGapMetric.run"]}
{"id": "C214", "title": "Mean phase gap", "statement": "The mean gap is the mean over the periods looked at, for any number of periods. That is false: with equal limits there is one period, but the mean is over n_periods gaps of which the others are zero, and with one period and different limits all is NaN.", "quantifier": "every list of times and period", "why_tests_cant": "All times and periods.", "anchors": ["rubin_sim/maf/metrics/phase_gap_metric.py:PhaseGapMetric.run", "rubin_sim/maf/metrics/phase_gap_metric.py:PhaseGapMetric.reduce_mean_gap"]}
{"id": "C215", "title": "Kuiper statistic", "statement": "KuiperMetric gives the largest excess of the part of the angles in an arc over the part of the circle, less one angle. It does not depend on where angles are counted from, is at least zero, and zero exactly if the angles are evenly spread. That one means that all angles are the same is false: it is never one, and a single angle gives zero.", "quantifier": "every list of angles", "why_tests_cant": "All lists and arcs.", "anchors": ["rubin_sim/maf/metrics/kuiper_metrics.py:KuiperMetric.run"]}
{"id": "C216", "title": "Cumulative number of visits", "statement": "CumulativeMetric gives the number of visits up to each night. That is so for nights with visits and after the last; between visits it is up to one more, and before the first it is one.", "quantifier": "every list of nights and point", "why_tests_cant": "All nights.", "anchors": ["rubin_sim/maf/metrics/cumulative_metric.py:CumulativeMetric.run"]}
{"id": "C217", "title": "Years covered", "statement": "YearCoverageMetric with its default bins gives the number of the ten years with a visit.", "quantifier": "every list of nights", "why_tests_cant": "All nights.", "anchors": ["rubin_sim/maf/metrics/coverage_metric.py:YearCoverageMetric.run", "rubin_sim/maf/metrics/coverage_metric.py:YearCoverageMetric.__init__"]}
{"id": "C218", "title": "Uniformity of rapid revisits", "statement": "RapidRevisitUniformityMetric is zero exactly if the differences in the interval are evenly spread from the shortest on, and compares values scaled to lie from 0 to 1, so that it is at most one. The last is false; it is less than two.", "quantifier": "every list of times and interval", "why_tests_cant": "All times.", "anchors": ["rubin_sim/maf/metrics/cadence_metrics.py:RapidRevisitUniformityMetric.run"]}
{"id": "C219", "title": "Revisits", "statement": "NRevisitsMetric counts the visits that come within the given time of an earlier one; as a fraction it is less than one, and one half if all visits come in pairs. RapidRevisitMetric is one exactly if enough visits have the given times to the visits before.", "quantifier": "every list of times", "why_tests_cant": "All times.", "anchors": ["rubin_sim/maf/metrics/cadence_metrics.py:NRevisitsMetric.run", "rubin_sim/maf/metrics/cadence_metrics.py:RapidRevisitMetric.run"]}
{"id": "C220", "title": "Gaps and age", "statement": "The gaps of VisitGapMetric add up to the time from the first to the last visit. AgeMetric gives the time since the most recent visit as of a given time, masked above the limit. That holds without later visits; with one the age is negative.", "quantifier": "every list of times", "why_tests_cant": "All times.", "anchors": ["rubin_sim/maf/metrics/cadence_metrics.py:VisitGapMetric.run", "rubin_sim/maf/metrics/schedview_metrics.py:AgeMetric.run"]}
{"id": "C221", "title": "Signal to noise and astrometric precision", "statement": "m52snr gives 5 for a star at the limiting magnitude for every gamma, is the same for gamma None and for its default, and increases with depth. astrom_precision is at least the floor and the noise, at most their sum, and decreases with better seeing and more signal.", "quantifier": "every magnitude, depth, gamma, seeing and floor", "why_tests_cant": "All reals.", "anchors": ["rubin_sim/maf/utils/astrometry_utils.py:m52snr", "rubin_sim/maf/utils/astrometry_utils.py:astrom_precision"]}
{"id": "C222", "title": "Uncertainty of a slope", "statement": "The square of sigma_slope is the least variance of any unbiased linear estimate of the slope from data with the given errors. It is NaN exactly if all points have the same x, and one more point never makes it larger.", "quantifier": "every list of points and errors", "why_tests_cant": "A minimum over all estimates.", "anchors": ["rubin_sim/maf/utils/astrometry_utils.py:sigma_slope"]}
{"id": "C223", "title": "Parallax uncertainty", "statement": "ParallaxMetric gives in mas the standard deviation of the best linear unbiased estimate of the parallax from both coordinates of all visits; infinite exactly without any parallax factor. Normalised, its square is the mean of the squared parallax factors with weights by precision, at most one, and one exactly if all factors are full.", "quantifier": "every list of visits", "why_tests_cant": "A minimum over all estimates.", "anchors": ["rubin_sim/maf/metrics/calibration_metrics.py:ParallaxMetric.run", "rubin_sim/maf/metrics/calibration_metrics.py:ParallaxMetric._final_sigma"]}
{"id": "C224", "title": "Proper motion uncertainty", "statement": "ProperMotionMetric gives in mas per year the standard deviation of the best slope from visits in filters with at least two visits. Normalised, it compares with visits that are half at the start and half at the end of the baseline, which is the best case, so it is at most one for visits within the baseline. The last holds for equal errors, and is false in general: the best dates are given out in the order of the data, and the value depends on that order.", "quantifier": "every list of visits and baseline", "why_tests_cant": "All dates and errors.", "anchors": ["rubin_sim/maf/metrics/calibration_metrics.py:ProperMotionMetric.run"]}
{"id": "C225", "title": "Parallax coverage", "statement": "ParallaxCoverageMetric gives a value from zero to one, zero exactly if all visits have the same parallax factors. With theta_range the value is kept exactly if the angles of the bright visits cover the range, also around the circle. The last is false: visits 0.1 apart pass for a range of 0.5, and visits 2 apart do not for a range of 1. Without bright visits there is an exception.", "quantifier": "every list of visits and range", "why_tests_cant": "All angles.", "anchors": ["rubin_sim/maf/metrics/calibration_metrics.py:ParallaxCoverageMetric.run", "rubin_sim/maf/metrics/calibration_metrics.py:ParallaxCoverageMetric._theta_check", "rubin_sim/maf/metrics/calibration_metrics.py:ParallaxCoverageMetric._weighted_r"]}
{"id": "C226", "title": "Degeneracy of parallax and refraction", "statement": "ParallaxDcrDegenMetric gives minus the correlation of the two signals, between -1 and 1, zero exactly if they are orthogonal. The calibration metrics ask for the columns that they read. The last is false for this metric: its filter column is missing.", "quantifier": "every list of visits", "why_tests_cant": "All visits.", "anchors": ["rubin_sim/maf/metrics/calibration_metrics.py:ParallaxDcrDegenMetric.run", "rubin_sim/maf/metrics/calibration_metrics.py:ParallaxDcrDegenMetric.__init__", "rubin_sim/maf/metrics/calibration_metrics.py:ParallaxMetric.__init__", "rubin_sim/maf/metrics/calibration_metrics.py:ProperMotionMetric.__init__", "rubin_sim/maf/metrics/calibration_metrics.py:ParallaxCoverageMetric.__init__"]}
{"id": "C227", "title": "Precision of refraction", "statement": "DcrPrecisionMetric gives the standard deviation of the refraction amplitude: one over the square root of the sum of tan(zenith distance)^2/error^2 over the visits in ugrizy. The parallactic angle has no effect.", "quantifier": "every list of visits", "why_tests_cant": "All visits.", "anchors": ["rubin_sim/maf/metrics/dcr_metric.py:DcrPrecisionMetric.run"]}
{"id": "C228", "title": "Visits to reach the best depth", "statement": "OptimalM5Metric gives the number of visits of median depth to add to reach the depth on the meridian, negative for spare visits. Its other forms have the same sign. SnrWeightedMetric does not depend on the magnitude of the star, and is between the least and greatest value.", "quantifier": "every list of visits", "why_tests_cant": "All depths.", "anchors": ["rubin_sim/maf/metrics/optimal_m5_metric.py:OptimalM5Metric.run", "rubin_sim/maf/metrics/snr_weight.py:SnrWeightedMetric.run"]}
{"id": "C229", "title": "Distance of visits", "statement": "RadiusObsMetric gives the angle between the slice point and the pointing, in the unit it names. The value is the angle in degrees from 0 to 180; that the unit is right is false, it names radians.", "quantifier": "every pair of positions", "why_tests_cant": "All positions.", "anchors": ["rubin_sim/maf/metrics/calibration_metrics.py:RadiusObsMetric.run", "rubin_sim/maf/metrics/calibration_metrics.py:RadiusObsMetric.__init__"]}
{"id": "C230", "title": "Depth after dust", "statement": "ExgalM5 gives the depth of the visits, each corrected for the dust in its band; the bad value exactly without visits; deeper with more visits. False for visits in several bands: all are corrected with the filter of the first, so the order of the visits matters.", "quantifier": "every list of visits, reddening and dust law", "why_tests_cant": "All depths and orders.", "anchors": ["rubin_sim/maf/metrics/exgal_m5.py:ExgalM5.run"]}
{"id": "C231", "title": "Cuts for weak lensing", "statement": "ExgalM5WithCuts gives the depth exactly where dust is low, visits in enough filters exist, the band has visits and it is deep enough. WeakLensingNvisits counts the visits longer than the limit there. RIZDetectionCoaddExposureTime gives the exposure time in the detection bands and excludes places where a band is missing. The last is false (min_bands has no effect), and visits of exactly the limit are not counted.", "quantifier": "every list of visits and limits", "why_tests_cant": "All combinations of cuts.", "anchors": ["rubin_sim/maf/metrics/weak_lensing_systematics_metric.py:ExgalM5WithCuts.run", "rubin_sim/maf/metrics/weak_lensing_systematics_metric.py:WeakLensingNvisits.run", "rubin_sim/maf/metrics/weak_lensing_systematics_metric.py:RIZDetectionCoaddExposureTime.run"]}
{"id": "C232", "title": "Linear model of depths", "statement": "SingleLinearMultibandModelMetric gives the linear combination of the depths less their means, the bad value for missing or cut depths. False with the default means: for two bands or more an exception is raised at every slice point that passes the first cuts. With a bad value of -666 and a mean a missing depth gives another number. It holds without means and cuts, or for one band.", "quantifier": "every model, list of visits and cut", "why_tests_cant": "All models.", "anchors": ["rubin_sim/maf/metrics/uniformity_metrics.py:SingleLinearMultibandModelMetric.run"]}
{"id": "C233", "title": "Nested linear models of depths", "statement": "NestedLinearMultibandModelMetric gives for each model the linear combination of six depths, NaN if a depth is missing or cut. Bands that a model does not use are ignored, and each band has its own mean. The last two are false: a band without visits gives NaN for all models; the mean of u is subtracted in all bands, another mean raises an exception. MultibandExgalM5 gives the six depths.", "quantifier": "every list of models, visits and cuts", "why_tests_cant": "All models.", "anchors": ["rubin_sim/maf/metrics/uniformity_metrics.py:NestedLinearMultibandModelMetric.run", "rubin_sim/maf/metrics/uniformity_metrics.py:MultibandExgalM5.run"]}
{"id": "C234", "title": "Exposure time of three bands", "statement": "NestedRIZExptimeExgalM5Metric gives the depth with cuts and the exposure time in r, i and z. The last is false: only i is counted.", "quantifier": "every list of visits", "why_tests_cant": "All visits.", "anchors": ["rubin_sim/maf/metrics/uniformity_metrics.py:NestedRIZExptimeExgalM5Metric.run"]}
{"id": "C235", "title": "Scaled galaxy and light curve counts", "statement": "NgalScaleMetric gives no galaxies where dust is high or depth is low, and otherwise a number from the median seeing; visits in other filters are ignored. NlcPointsMetric counts for each visit that is deep enough the stars of the filter, if the filter has at least the demanded number. False are: that other filters are ignored, and the demanded number (one more is needed).", "quantifier": "every list of visits", "why_tests_cant": "All visits.", "anchors": ["rubin_sim/maf/metrics/scaling_metrics.py:NgalScaleMetric.run", "rubin_sim/maf/metrics/scaling_metrics.py:NlcPointsMetric.run"]}
{"id": "C236", "title": "When a template is made", "statement": "TemplateTime makes a template at the n-th visit, in time, that qualifies, from the first n visits that qualify; it is bad exactly if fewer qualify. A visit qualifies if its seeing is at most the scaled limit or the percentile, and its depth at least the scaled limit or the percentile. The visits with a template are those of later nights, and with the visits up to the template they are at most all visits. A template of fewer images is not later.", "quantifier": "every list of visits, limit and percentile", "why_tests_cant": "All visits and limits.", "anchors": ["rubin_sim/maf/metrics/incremental_template_metric.py:TemplateTime.run"]}
{"id": "C237", "title": "Depth and seeing of templates", "statement": "The flux limit of a template adds inverse variances of its images; the square of the seeing is the mean of squares weighted by inverse variance, so it is between the best and the worst; the variance of a difference image is the sum of both, so it is shallower than the visit and the template.", "quantifier": "every nonempty list of images", "why_tests_cant": "All depths.", "anchors": ["rubin_sim/maf/metrics/incremental_template_metric.py:TemplateTime.run"]}
{"id": "C238", "title": "Limits for templates", "statement": "At the zenith, for a band at 500 nm, the limits of seeing and depth are those that are given; elsewhere they are looser for bands that are not redder. Images that are better than both percentiles always qualify.", "quantifier": "every declination, latitude and limit", "why_tests_cant": "All positions.", "anchors": ["rubin_sim/maf/metrics/incremental_template_metric.py:TemplateTime.run"]}
{"id": "C239", "title": "Time lag of quasars", "statement": "AgnTimeLagMetric uses visits in g and r only if they are deeper than the cutoffs. This is false: depths, dust and cutoffs have no effect. The value for the mean is the lag over the mean gap times (1+z), bad below the threshold; fewer than two visits are bad; the logarithm does not change which values are bad; for the common divisor the value is infinite if all gaps round to zero.", "quantifier": "every list of visits with positive times", "why_tests_cant": "All visits.", "anchors": ["rubin_sim/maf/metrics/agn_time_lag_metric.py:AgnTimeLagMetric.run"]}
{"id": "C240", "title": "Total power", "statement": "TotalPowerMetric gives the sum of (2l+1) C_l over the multipoles from lmin to lmax, both included, so neighbouring ranges add; the flags remove the monopole and the dipole. The flag of the monopole is false: it has no effect.", "quantifier": "every spectrum and range", "why_tests_cant": "All spectra.", "anchors": ["rubin_sim/maf/metrics/cosmology_summary_metrics.py:TotalPowerMetric.run"]}
{"id": "C241", "title": "Bias of sigma8", "statement": "TomographicClusteringSigma8biasMetric fits the square of sigma8 by least squares to the powers of the bins, with the given error: any other value has a greater chi square, by the square of the difference over the error. Without spurious power the bias is zero; with it the bias is positive, converted or not; with c times the sky the error is smaller by the root of c. The spurious power has the same multipoles as the model, and all of the sky is a fraction of one. The last two are false.", "quantifier": "every list of bins with positive spectra", "why_tests_cant": "All bins and spectra.", "anchors": ["rubin_sim/maf/metrics/cosmology_summary_metrics.py:TomographicClusteringSigma8biasMetric.run"]}
{"id": "C242", "title": "Simple figure of merit", "statement": "StaticProbesFoMEmulatorMetricSimple gives a figure of merit in years 1, 3, 6 and 10 for maps with a positive value, from a grid that increases in area. This is false: there is an exception in each of these cases, and a bad value in all others; the areas of year 6 do not increase.", "quantifier": "every map, year and bad value", "why_tests_cant": "All maps.", "anchors": ["rubin_sim/maf/metrics/cosmology_summary_metrics.py:StaticProbesFoMEmulatorMetricSimple.run"]}
{"id": "C243", "title": "Bias of mean redshifts", "statement": "MultibandMeanzBiasMetric takes for each year the model of that year. This is false: it takes that of the next year, and fails for year ten, the default. It gives one pair of ratios for each bin, of year one and of year ten, in proportion 3 to 13; the sum of the latter over the bins is the sum of the bias of all bands and bins over the requirement.", "quantifier": "every list of bands and bins", "why_tests_cant": "All bands.", "anchors": ["rubin_sim/maf/metrics/cosmology_summary_metrics.py:MultibandMeanzBiasMetric.run"]}
{"id": "C244", "title": "Stripes", "statement": "The statistic of stripes compares the relative scatter in the north and in the south, with positive values only; it does not depend on the unit, and exchange of north and south inverts one plus it. Other regions are an error. There are no stripes if its size is less than 0.7 over the root of the year, in particular for uniform maps. The last is false.", "quantifier": "every map and year", "why_tests_cant": "All maps.", "anchors": ["rubin_sim/maf/metrics/cosmology_summary_metrics.py:get_stats_by_region", "rubin_sim/maf/metrics/cosmology_summary_metrics.py:stripiness_test_statistic", "rubin_sim/maf/metrics/cosmology_summary_metrics.py:UniformAreaFoMFractionMetric.run"]}
{"id": "C245", "title": "Uniform area", "statement": "UniformAreaFoMFractionMetric gives one without stripes, and otherwise the figure of merit of the better of two regions over that of all, at most one if no region is better than the whole. Pixels above the cut have the labels of the clusters in order, the others none; the fractions of two labels add to one. The two regions are disjoint. The last is false for pixels below the cut.", "quantifier": "every map, clustering and figure of merit", "why_tests_cant": "All maps.", "anchors": ["rubin_sim/maf/metrics/cosmology_summary_metrics.py:UniformAreaFoMFractionMetric.run"]}
{"id": "C246", "title": "Dropouts can be counted", "statement": "Objects of UDropoutsNumbersShallowestDepth and UDropoutsArea can be made. This is false, for any keywords.", "quantifier": "every list of keywords", "why_tests_cant": "All keywords.", "anchors": ["rubin_sim/maf/metrics/cosmology_summary_metrics.py:UDropoutsNumbersShallowestDepth.__init__", "rubin_sim/maf/metrics/cosmology_summary_metrics.py:UDropoutsArea.__init__"]}
{"id": "C247", "title": "Cleaning of observations", "statement": "LsqrSolver.clean_data ends, and keeps the greatest part of the observations in which each star and each patch has at least two observations, whatever the order of equal keys in the sorts. This is false for a single observation, which is kept.", "quantifier": "every list of observations and every sort", "why_tests_cant": "The loop runs any number of times.", "anchors": ["rubin_sim/selfcal/solver.py:LsqrSolver.clean_data"]}
{"id": "C248", "title": "Numbers of stars and patches", "statement": "After cleaning, the rows are the observations that are kept, with patches numbered from 0 and stars from 1 in increasing order; the columns of the matrix are that of the patch, among the first, and that of the star, among the others, inside its shape.", "quantifier": "every list of observations", "why_tests_cant": "All lists.", "anchors": ["rubin_sim/selfcal/solver.py:LsqrSolver.clean_data", "rubin_sim/selfcal/solver.py:LsqrSolver.solve_matrix"]}
{"id": "C249", "title": "Zero points and magnitudes", "statement": "The tables that LsqrSolver.return_solution gives hold each patch and star that is kept once, in increasing order, and minimise the residuals of the observations that are kept, weighted with the errors, over all zero points and magnitudes. A shift of all zero points against all magnitudes does not matter; without noise, if all observations are linked, the solution is the truth up to one shift. If nothing is kept there is an exception.", "quantifier": "every list of observations, for a solver that gives a least squares solution", "why_tests_cant": "All lists.", "anchors": ["rubin_sim/selfcal/solver.py:LsqrSolver.solve_matrix", "rubin_sim/selfcal/solver.py:LsqrSolver.return_solution"]}
{"id": "C250", "title": "Patches", "statement": "Stars nearer than the radius are in the square of patches, whatever the rotation of the camera; patches are cells of equal width, and two stars are on the same patch exactly if they are in the same visit and cell. In generate_catalog stars of different visits are on different patches. The last is false for a radius greater than the default.", "quantifier": "every position, rotation and radius", "why_tests_cant": "All real positions.", "anchors": ["rubin_sim/selfcal/star_tools.py:stars_project", "rubin_sim/selfcal/star_tools.py:assign_patches", "rubin_sim/selfcal/generate_catalog.py:generate_catalog"]}
{"id": "C251", "title": "Observed magnitudes", "statement": "generate_catalog adds all offsets to the magnitude; each offset is made from the ones before it. The square of the error is that of the noise and the floor; fainter stars have greater errors. NoOffset changes nothing. False are: NoOffset, which is an exception, and offsets with the same key, which replace each other. Without offsets there is no catalog; without visits there is an exception.", "quantifier": "every list of offsets, stars and visits", "why_tests_cant": "All lists.", "anchors": ["rubin_sim/selfcal/offsets.py:NoOffset", "rubin_sim/selfcal/offsets.py:OffsetSNR.calc_mag_errors", "rubin_sim/selfcal/generate_catalog.py:generate_catalog"]}
{"id": "C252", "title": "Orbital elements as text", "statement": "The two lines made from orbital elements have 69 characters each, hold the number of the satellite, the epoch, the inclination, the node, the mean anomaly and the mean motion in the columns of the format, and end with their checksum, for numbers of at most five digits.", "quantifier": "every number, epoch and elements within the columns", "why_tests_cant": "All elements.", "anchors": ["rubin_sim/satellite_constellations/sat_utils.py:tle_from_orbital_parameters"]}
{"id": "C253", "title": "Constellations are complete", "statement": "create_constellation makes for each group of the lists the product of planes and satellites per plane, at distinct places with equal distances, numbered from 8000 without gaps; the presets have 4408, 29988 and 6372 satellites, all with numbers of five digits. Mean motion follows Kepler's third law and decreases with altitude.", "quantifier": "every list of groups and random numbers", "why_tests_cant": "All groups.", "anchors": ["rubin_sim/satellite_constellations/sat_utils.py:create_constellation", "rubin_sim/satellite_constellations/sat_utils.py:satellite_mean_motion", "rubin_sim/satellite_constellations/sat_utils.py:starlink_tles_v1", "rubin_sim/satellite_constellations/sat_utils.py:starlink_tles_v2", "rubin_sim/satellite_constellations/sat_utils.py:oneweb_tles"]}
{"id": "C254", "title": "Visible satellites and maps", "statement": "A satellite is visible exactly if it is in the light and at or above the altitude limit. The map counts in each pixel exactly these satellites. The basis function is never positive, and uses exactly the maps from now until the end of the forecast; without any it is zero.", "quantifier": "every list of positions, times and maps", "why_tests_cant": "All positions and times.", "anchors": ["rubin_sim/satellite_constellations/sat_utils.py:Constellation.update_mjd", "rubin_sim/satellite_constellations/model_observatory.py:ModelObservatory._update_satellite_maps", "rubin_sim/satellite_constellations/basis_function.py:SatelliteAvoidBasisFunction"]}
{"id": "C255", "title": "Maps of the night", "statement": "After each change of time the observatory has the maps of the night. It has the resolution asked for. Both are false in general: there are no maps in a first night of number -1, and the resolution is ignored.", "quantifier": "every sequence of times", "why_tests_cant": "All sequences.", "anchors": ["rubin_sim/satellite_constellations/model_observatory.py:ModelObservatory.mjd"]}
{"id": "C256", "title": "Streaks in visits", "statement": "check_pointings gives for each visit the number and the summed length of the streaks of the satellites that are above the limit and in the light at one end at least and near to the pointing; there are no streaks exactly if the length is zero. This holds for visits of any length. The last is false: visits of less than half the time step never have streaks.", "quantifier": "every list of satellites and visits", "why_tests_cant": "All satellites and visits.", "anchors": ["rubin_sim/satellite_constellations/sat_utils.py:Constellation.check_pointings"]}
{"id": "C257", "title": "Dust values do not depend on earlier calls", "statement": "eb_vhp returns the value of the file of the resolution and directory of this call, whatever was called before: that of the pixel, of the nearest pixel or interpolated; DustMap uses the resolution and pixels of a healpix slicer. The map is read once for calls of the same resolution. The last is false: each call reads the file.", "quantifier": "every sequence of calls and every file", "why_tests_cant": "All histories of the attributes of the function.", "anchors": ["rubin_sim/maf/maps/ebv_hp.py:eb_vhp", "rubin_sim/maf/maps/dust_map.py:DustMap.run"]}
{"id": "C258", "title": "The file of the map with distances", "statement": "ebv_3d_hp returns the row of the file that this call asks for, in ring order and in the resolution of the file, whatever was called before. It is false: after a first map was read all calls use it, whatever file they name, and a repeated call for a file of other resolution looks at another pixel. It holds if all calls ask for the same file with its resolution.", "quantifier": "every sequence of calls and every file", "why_tests_cant": "All histories of the attributes of the function.", "anchors": ["rubin_sim/maf/maps/ebv_3d_hp.py:ebv_3d_hp"]}
{"id": "C259", "title": "Distance of a change of magnitude", "statement": "get_x_at_nearest_y gives the first of the nearest values. distance_at_dmag gives the greater of this distance and of that which with the extinction at the end of the map makes exactly the change, so that beyond the map the change is exact. One slice point and all slice points give the same. The last is false for extinctions that decrease.", "quantifier": "every list of distances and extinctions", "why_tests_cant": "All real numbers.", "anchors": ["rubin_sim/maf/maps/ebv_3d_hp.py:get_x_at_nearest_y", "rubin_sim/maf/maps/dust_map_3d.py:DustMap3D.distance_at_dmag"]}
{"id": "C260", "title": "Keys of the priority maps", "statement": "gp_priority_map_keys_to_components gives back the filter and the science map of gp_priority_map_components_to_keys, for all names without a colon and without the text in front; with a colon it is an exception.", "quantifier": "every pair of names", "why_tests_cant": "All texts.", "anchors": ["rubin_sim/maf/maps/galactic_plane_priority_maps.py:gp_priority_map_components_to_keys", "rubin_sim/maf/maps/galactic_plane_priority_maps.py:gp_priority_map_keys_to_components"]}
{"id": "C261", "title": "Priority maps of the galactic plane", "statement": "The first call of galplane_priority_map gives for each filter and science map the value of the file of the filter. The class uses the directory that it is given, and a call after missing files succeeds once they are there. Both are false: the class reads the standard directory when it is made, later directories are ignored, and after missing files all calls are exceptions.", "quantifier": "every sequence of calls and every file", "why_tests_cant": "All histories of the attributes of the function.", "anchors": ["rubin_sim/maf/maps/galactic_plane_priority_maps.py:galplane_priority_map", "rubin_sim/maf/maps/galactic_plane_priority_maps.py:GalacticPlanePriorityMap"]}
{"id": "C262", "title": "Maps of bundles and groups", "statement": "A bundle has the given maps first and then each map that its metric needs. A group runs maps of all keys, no two with the same keys. Each map of the bundles is run and a single map can be given. Both are false: maps with the same keys but other parameters or another class are left out, and a single map is an exception. StellarDensityMap gives each slice point the row of its pixel.", "quantifier": "every list of maps", "why_tests_cant": "All lists of bundles.", "anchors": ["rubin_sim/maf/maps/base_map.py:BaseMap.__eq__", "rubin_sim/maf/metric_bundles/metric_bundle.py:MetricBundle", "rubin_sim/maf/metric_bundles/metric_bundle_group.py:MetricBundleGroup", "rubin_sim/maf/maps/stellar_density_map.py:StellarDensityMap.run"]}
{"id": "C263", "title": "Registries of classes", "statement": "A metric class is found under its name: its own name inside of the package, otherwise with the package of its module in front. For maps, stackers and slicers a second definition of a name is an exception, and each class is found; base classes are left out. False in two ways: two modules of a package with metrics of the same name leave only the last, and BaseMap is in the registry of maps.", "quantifier": "every sequence of definitions of classes", "why_tests_cant": "All sequences of definitions.", "anchors": ["rubin_sim/maf/metrics/base_metric.py:MetricRegistry", "rubin_sim/maf/maps/base_map.py:MapsRegistry", "rubin_sim/maf/stackers/base_stacker.py:StackerRegistry", "rubin_sim/maf/slicers/base_slicer.py:SlicerRegistry"]}
{"id": "C264", "title": "Sources and units of columns", "statement": "ColInfo gives for a column the last stacker that adds it and its unit. The registry of columns has exactly the columns of all metrics since it was cleared, each either of the database or with its stacker. False for stackers with fewer units than columns: the columns without units have no source.", "quantifier": "every list of stackers and every sequence of metrics", "why_tests_cant": "All sequences.", "anchors": ["rubin_sim/maf/stackers/get_col_info.py:ColInfo", "rubin_sim/maf/metrics/base_metric.py:ColRegistry"]}
{"id": "C265", "title": "Names, types and units of metrics", "statement": "A given name, type or unit is used. Otherwise metrics of one class with different columns have different names, the type is object if there are reduce functions and float otherwise, and the units are those of the columns. Names are unique and each metric can be made. The last two are false: classes whose names differ by the word Metric have the same names, and columns with the unit None are an exception.", "quantifier": "every class and list of columns", "why_tests_cant": "All texts.", "anchors": ["rubin_sim/maf/metrics/base_metric.py:BaseMetric.__init__"]}
{"id": "C266", "title": "Reduce functions of a metric", "statement": "Each function with reduce_ in front of its name is found under the rest of its name, has its place in the alphabetical list of methods, and makes a bundle with the name of the metric and of the function. This holds for all functions with reduce in front. The last is false: without the underscore one function can replace another, and reduce_ within a name is an exception.", "quantifier": "every list of methods", "why_tests_cant": "All names of methods.", "anchors": ["rubin_sim/maf/metrics/base_metric.py:BaseMetric.__init__", "rubin_sim/maf/metric_bundles/metric_bundle.py:MetricBundle.reduce_metric"]}
{"id": "C267", "title": "Reading reduced metrics", "statement": "read_all restores the files of a group, with the reduced metrics. It is false: it succeeds exactly if no file of a reduced metric is there, and then gives the files of the metrics that are there; file names of functions without the underscore differ. The order of the time scales of GalPlaneVisitIntervalsTimescaleMetric is that of the list; for GalPlaneSeasonGapsTimescaleMetric it is alphabetical.", "quantifier": "every group and every set of files", "why_tests_cant": "All groups.", "anchors": ["rubin_sim/maf/metric_bundles/metric_bundle_group.py:MetricBundleGroup.read_all", "rubin_sim/maf/metrics/galplane_time_sampling_metrics.py:GalPlaneSeasonGapsTimescaleMetric"]}
{"id": "C268", "title": "Footprint of the galactic plane", "statement": "A point is left out exactly if its priority does not exceed the threshold of the science map. Otherwise the metric gives the number of visits in the filters that are deep enough for their filter, the sum of the priorities of their filters, and the priority of the point. The function of a time scale gives the priority exactly if there are enough visits for two in each interval of the season in ten years; more visits or longer time scales never lower it.", "quantifier": "every map, filter list and set of visits", "why_tests_cant": "All sets of visits and all priorities.", "anchors": ["rubin_sim/maf/metrics/galactic_plane_metrics.py:GalPlaneFootprintMetric", "rubin_sim/maf/metrics/galactic_plane_metrics.py:galplane_nvisits_thresholds"]}
{"id": "C269", "title": "Exposure time per filter in the galactic plane", "statement": "The value of a filter is its share of the exposure time over its share of the priority; weighted with those shares the values add up to one, and only proportions of times matter. Without any time all are zero. A filter in which nothing is expected gives one, and the functions of all six filters work with each filter list. The last two are false: such a filter is masked, and a function of a filter not in the list is an exception.", "quantifier": "every map, filter list and set of visits", "why_tests_cant": "All sets of visits and all priorities.", "anchors": ["rubin_sim/maf/metrics/galactic_plane_metrics.py:GalPlaneTimePerFilterMetric"]}
{"id": "C270", "title": "Visit intervals in the galactic plane", "statement": "The value of a time scale is the mean of a weight of the intervals between successive visits that are deep enough: above zero, at most one, and one exactly if no interval is longer than the time scale. It rises with the time scale, and does not depend on the order of visits or the origin of time. A visit more between others does not lower it. The last is false: the mean can fall.", "quantifier": "every list of visits and time scales", "why_tests_cant": "All real times.", "anchors": ["rubin_sim/maf/metrics/galplane_time_sampling_metrics.py:GalPlaneVisitIntervalsTimescaleMetric", "rubin_sim/maf/metrics/galplane_time_sampling_metrics.py:calc_interval_decay"]}
{"id": "C271", "title": "Season gaps in the galactic plane", "statement": "The gaps are those between successive visits of different seasons; the value of a time scale is above zero, at most one, and one exactly if each gap is within the expected gap or the time scale. There is none exactly if all visits are in one season. Visits below mag_limit do not count, the metric names the maps it needs, and the data are left as they are. The last three are false: the limit is not used, no map is named, and the times are sorted in place without the other columns.", "quantifier": "every list of visits and time scales", "why_tests_cant": "All real times and monotone seasons.", "anchors": ["rubin_sim/maf/metrics/galplane_time_sampling_metrics.py:GalPlaneSeasonGapsTimescaleMetric"]}
{"id": "C272", "title": "Weights of the sky templates", "statement": "The weights of the grid points to the right and left of a point add up to one; within the grid the weighted value is that of the straight line between the neighbours, exact at grid points and within the bounds of the values. Out of the grid a component gives nothing. Points off the grid use the grid point at the edge. The last is false: below the grid the line through the first and the last grid point is followed.", "quantifier": "every increasing grid, table and point", "why_tests_cant": "All grids and points of an ordered field.", "anchors": ["rubin_sim/skybrightness/interp_components.py:BaseSingleInterp._indx_and_weights", "rubin_sim/skybrightness/interp_components.py:BaseSingleInterp._weighting"]}
{"id": "C273", "title": "Sky templates in two dimensions", "statement": "Airglow is interpolated in solar flux and then in airmass, for a table in this order, and is zero out of either range. The weights of the neighbouring pixels of the zodiacal light, without those not in the map, add up to one; with all pixels in the map the result is the mean of the interpolations in airmass with these weights.", "quantifier": "every grid and table", "why_tests_cant": "All grids, tables and points.", "anchors": ["rubin_sim/skybrightness/interp_components.py:Airglow._weighting", "rubin_sim/skybrightness/interp_components.py:ZodiacalInterp._weighting"]}
{"id": "C274", "title": "Spectra and magnitudes of the sky templates", "statement": "The magnitude of the flux that is made of an interpolated magnitude is that magnitude. At grid points the spectrum is the stored one, and it is between the stored ones elsewhere. The last two are false: the stored value one becomes zero, and a flux of zero is taken for one in its neighbourhood.", "quantifier": "every increasing grid and table of spectra", "why_tests_cant": "All real spectra.", "anchors": ["rubin_sim/skybrightness/interp_components.py:BaseSingleInterp.interp_spec", "rubin_sim/skybrightness/interp_components.py:BaseSingleInterp.interp_mag"]}
{"id": "C275", "title": "Twilight and identifiers", "statement": "Twilight is positive, rises with the sun, is the same on both sides of the sun and never darker towards the sun; with the dark sky it is the function of the zenith at the zenith. id2intid numbers identifiers by their order, and intid2id takes the numbers back, whatever the sort does with equal identifiers.", "quantifier": "every fit, point and list of identifiers", "why_tests_cant": "All real points and all lists.", "anchors": ["rubin_sim/skybrightness/twilight_func.py:twilight_func", "rubin_sim/skybrightness/interp_components.py:id2intid", "rubin_sim/skybrightness/interp_components.py:intid2id"]}
{"id": "C276", "title": "Angles of the sky model", "statement": "wrap_ra gives the angle in [0, 2 pi) that differs by full turns; the azimuth relative to the moon is in [0, pi] with the cosine of the difference, whichever comes first; airmass and altitude are inverse to each other. set_params in degrees is set_params of the same angles in radians. The last is false for moon_targ_sep, which uses the azimuth of the moon in degrees as if in radians.", "quantifier": "every angle and parameter", "why_tests_cant": "All real angles.", "anchors": ["rubin_sim/skybrightness/utils.py:wrap_ra", "rubin_sim/skybrightness/sky_model.py:calc_az_rel_moon", "rubin_sim/skybrightness/sky_model.py:SkyModel.set_params"]}
{"id": "C277", "title": "Sum of the components of the sky", "statement": "At points in the range of airmass the sky is the sum of the components that are on, elsewhere not a number; components can be turned off and on between calls; with a limit of at most 2.5 points where a component is empty have no sky. Turning on a component that was off at construction is an exception. The last is false with points out of range: the wrong points are emptied.", "quantifier": "every list of points, components and switches", "why_tests_cant": "All lists; the components are arbitrary functions.", "anchors": ["rubin_sim/skybrightness/sky_model.py:SkyModel._interp_sky"]}
{"id": "C278", "title": "State and magnitudes of the sky model", "statement": "After a successful call the spectra and magnitudes returned are those of the points of that call. The magnitude of the sum of components does not depend on the constant of the conversion, is that of the template for one component, falls with every further component and shifts with the templates. The first is false for set_params: with no point in range the old spectra are returned, and on a new object with mags=False the magnitudes are an exception.", "quantifier": "every sequence of calls and list of magnitudes", "why_tests_cant": "All states and real magnitudes.", "anchors": ["rubin_sim/skybrightness/sky_model.py:SkyModel.set_params", "rubin_sim/skybrightness/sky_model.py:SkyModel.set_ra_dec_mjd", "rubin_sim/skybrightness/sky_model.py:SkyModel.return_wave_spec", "rubin_sim/skybrightness/sky_model.py:SkyModel.return_mags"]}
{"id": "C279", "title": "Times of the pre-computed sky", "statement": "The times kept by generate_sky are increasing and among those asked for, with the last and every third. Each time that is left out is between neighbouring times kept that are less than timestep_max apart, and its map agrees with the interpolation within dm wherever there are numbers; neighbours kept that are not neighbours in the list are less than timestep_max apart. A map can be had from its neighbours at each pixel with a number: this is false, as pixels without a number at a neighbour are not compared.", "quantifier": "every increasing list of times, maps and tolerances", "why_tests_cant": "All lists of times; the maps are arbitrary.", "anchors": ["rubin_sim/skybrightness/generate_hdf5.py:generate_sky"]}
{"id": "C280", "title": "Normalised tables of metrics", "statement": "normalize_metric_summaries keeps the runs and metrics in their order and gives for each the ratio to the baseline, the inverse ratio, or one plus or minus the difference for magnitudes; the baseline of several runs is the median of their numbers; the name for the reference is never that of a run; an unknown baseline is an exception. normalize_for_radar gives the same values. Above one is an improvement. The last two are false: below zero the ratio is reversed, and reversing a column that is not in magnitudes changes nothing.", "quantifier": "every table, baseline and set of flags", "why_tests_cant": "All tables over an ordered field.", "anchors": ["rubin_sim/maf/run_comparison/summary_plots.py:normalize_metric_summaries", "rubin_sim/maf/run_comparison/radar_plot.py:normalize_for_radar"]}
{"id": "C281", "title": "Selection of runs and metrics", "statement": "get_metric_summaries returns exactly the runs and metrics of the summary that are asked for by name or by family, in the order of the summary without repetition if that order is asked for, and everything if nothing is asked for; a run that is not there is left out in the order of the summary and an exception in that of families. Each run is there once: this is false in the order of families.", "quantifier": "every summary, list of runs, families and metrics", "why_tests_cant": "All lists.", "anchors": ["rubin_sim/maf/run_comparison/archive.py:get_metric_summaries"]}
{"id": "C282", "title": "Runs of families", "statement": "The tables of get_family_runs and get_runs have the same content: a run is listed with a family exactly if the family has it. Each run has one row: this is false for a run with different descriptions in two families.", "quantifier": "every set of families", "why_tests_cant": "All lists of families and runs.", "anchors": ["rubin_sim/maf/run_comparison/archive.py:get_family_runs", "rubin_sim/maf/run_comparison/archive.py:get_runs"]}
{"id": "C283", "title": "Gathering of summaries", "statement": "combine_result_dbs gives for each run and name the last number among the rows of the databases, in the order of the directories. A directory without a database is an exception. Names of metrics have single blanks and are different for different metrics: both are false, for metrics with two empty parts and for metrics with the same words.", "quantifier": "every list of databases", "why_tests_cant": "All lists of rows.", "anchors": ["rubin_sim/maf/run_comparison/gather_summaries.py:combine_result_dbs", "rubin_sim/maf/run_comparison/summary_plots.py:plot_run_metric"]}
{"id": "C284", "title": "Errors from crowding", "statement": "The crowding error of each bin of magnitude is the best seeing times the root of the summed squared fluxes of all stars that are as faint or fainter, over the flux; it is in proportion to the seeing. At a single magnitude it is the linear interpolation of the errors of the bins, equal to that of the bin at a bin, and an exception outside of the bins.", "quantifier": "every luminosity function and seeing", "why_tests_cant": "All lists of magnitudes and counts; real numbers.", "anchors": ["rubin_sim/maf/metrics/crowding_metric.py:_comp_crowd_error", "rubin_sim/maf/metrics/crowding_metric.py:CrowdingMagUncertMetric"]}
{"id": "C285", "title": "Limits from crowding and numbers of stars", "statement": "The error of each bin up to the limit of CrowdingM5Metric is below the one given, and better seeing never makes the limit brighter; more visits never lower the number of stars of NstarsMetric. StarDensityMetric does not fall with the magnitude and is the bad value outside of the map. The limit is the last bin below the error, and the limit from depth has the error given: both are false; the first is a bin early, at the second the error is 1.19 times as large.", "quantifier": "every luminosity function, list of visits and threshold", "why_tests_cant": "All lists; real numbers.", "anchors": ["rubin_sim/maf/metrics/crowding_metric.py:CrowdingM5Metric.run", "rubin_sim/maf/metrics/crowding_metric.py:NstarsMetric.run", "rubin_sim/maf/metrics/star_density.py:StarDensityMetric.run"]}
{"id": "C286", "title": "Nights with a colour and a slope", "statement": "ColorSlopeMetric counts the nights whose visits above the depths given have two visits in different filters at most color_length apart in time, and two in one filter at least slope_length apart. The columns are those given to the metric: this is false, the check always reads the default names.", "quantifier": "every list of visits", "why_tests_cant": "All lists of visits over an ordered field.", "anchors": ["rubin_sim/maf/metrics/color_slope_metrics.py:CheckColorSlope", "rubin_sim/maf/metrics/color_slope_metrics.py:ColorSlopeMetric.run"]}
{"id": "C287", "title": "Pairs of nights with a colour and a slope", "statement": "ColorSlope2NightMetric counts the pairs of nights n, n+1 whose visits have a colour and a slope. Visits of one night count once: this is false, the night is in two pairs.", "quantifier": "every list of visits", "why_tests_cant": "All lists of visits.", "anchors": ["rubin_sim/maf/metrics/color_slope_metrics.py:ColorSlope2NightMetric.run"]}
{"id": "C288", "title": "Vendors and uses", "statement": "ChipVendorMetric gives 1 or 2 if all chips are of that vendor and 3 if there are both; no use known to UseMetric is the start of another, and the use of a visit is the only one that its note starts with. The metric can be run on slices: this is false, arrays are an exception; without chips the vendor is 3.", "quantifier": "every list of chips and note", "why_tests_cant": "All strings.", "anchors": ["rubin_sim/maf/metrics/chip_vendor_metric.py:ChipVendorMetric", "rubin_sim/maf/metrics/use_metrics.py:UseMetric"]}
{"id": "C289", "title": "Cadence of SNCadenceMetric", "statement": "The cadence is the number of days over the number of visits, and zero for visits in one day; the metric reads only the columns it declares. Both are false: the visits of the last day are not counted, and the columns filter, fieldRA and fieldDec are read but not declared.", "quantifier": "every list of times", "why_tests_cant": "All lists of times.", "anchors": ["rubin_sim/maf/metrics/sn_cadence_metric.py:SNCadenceMetric"]}
{"id": "C290", "title": "Selection of metrics on the page", "statement": "The metrics shown are exactly those whose group and subgroup or whose id is asked for, each once; the value of the form stands for its group and subgroup; the table of groups has each group and subgroup of the metrics once; old and new names of plots find each other; names keep the order of the metrics.", "quantifier": "every table of metrics and request", "why_tests_cant": "Names come from the user, with any characters; a test has a few.", "anchors": ["rubin_sim/maf/web/maf_run_results.py:MafRunResults.convert_select_to_metrics", "rubin_sim/maf/web/maf_run_results.py:MafRunResults.metrics_in_subgroup", "rubin_sim/maf/web/maf_run_results.py:MafRunResults.metrics_with_plot_type", "rubin_sim/maf/web/maf_run_results.py:MafRunResults.unique_metric_names", "rubin_sim/maf/web/maf_run_results.py:MafRunResults.metric_info"]}
{"id": "C291", "title": "Order of statistics and plots", "statement": "Statistics and plots are shown all and once: first those with a fixed place in the order of places, then the others; each statistic has the first of its values; every table fraction that occurs has a place, and places are all different.", "quantifier": "every list of names, values and plots", "why_tests_cant": "Names are those of the user's metrics; a test has one list.", "anchors": ["rubin_sim/maf/web/maf_run_results.py:MafRunResults.order_stat_names", "rubin_sim/maf/web/maf_run_results.py:MafRunResults.all_stat_names", "rubin_sim/maf/web/maf_run_results.py:MafRunResults.stat_dict", "rubin_sim/maf/web/maf_run_results.py:MafRunResults.plot_dict", "rubin_sim/maf/web/maf_run_results.py:MafRunResults.__init__"]}
{"id": "C292", "title": "Layout of sky maps", "statement": "Sky maps are laid out in full rows of three. If no filter has two plots, each filter's plot is at its place in ugrizy, with a gap if there is none, and the plots without filter follow; otherwise there is a place for each metric in the order of display. Every plot is shown, once, and nothing else.", "quantifier": "every list of plots", "why_tests_cant": "Files can match several filters or none; a test has the usual six.", "anchors": ["rubin_sim/maf/web/maf_run_results.py:MafRunResults.order_plots"]}
{"id": "C293", "title": "Tracked runs are up to date", "statement": "Over any sequence of requests, with a database whose time changes whenever its rows do, a request for a run gives the results of the directory of its row in the present database, read at this or an earlier request; results are read once as long as the database does not change; a run that is not there is an exception; rows are always those of the time that is kept.", "quantifier": "every sequence of changes and requests", "why_tests_cant": "Interleavings of changes with requests are unbounded; a test makes one request.", "anchors": ["rubin_sim/maf/web/maf_tracking.py:MafTracking.__init__", "rubin_sim/maf/web/maf_tracking.py:MafTracking._check_db", "rubin_sim/maf/web/maf_tracking.py:MafTracking.sort_runs", "rubin_sim/maf/web/maf_tracking.py:MafTracking.get_run"]}
{"id": "C294", "title": "Reading of a simulation", "statement": "get_sim_data gives exactly the rows of the table that meet the condition, in the columns asked for, after the stackers in their order; a warning is raised if there are none. Without a table it is the observations or the summary of an old file, or an exception; a full query overrides condition, columns and table; URLs are read with lsst.resources.", "quantifier": "every table, columns, condition and stackers", "why_tests_cant": "Columns and conditions are the user's; the query is made by concatenation of strings.", "anchors": ["rubin_sim/maf/utils/opsim_utils.py:get_sim_data"]}
{"id": "C295", "title": "Benchmarks scale with the length of the run", "statement": "The benchmark numbers of visits in each filter are those of ten years times the length over ten, rounded down; a longer run has no fewer; the total is the sum of the filters.", "quantifier": "every length of run", "why_tests_cant": "The length is a real number; a test has ten years.", "anchors": ["rubin_sim/maf/utils/opsim_utils.py:scale_benchmarks"]}
{"id": "C296", "title": "Coadded depth from numbers of visits", "statement": "The depth of each filter is that of the coaddition of its visits of the single depth; it grows with the visits, by 2.5 magnitudes for a hundred times as many; filters of both arguments must match.", "quantifier": "every number of visits and depth", "why_tests_cant": "Real arguments; no visits is a case of its own.", "anchors": ["rubin_sim/maf/utils/opsim_utils.py:calc_coadded_depth"]}
{"id": "C297", "title": "Blocks of visits of the hourglass", "statement": "The blocks of the hourglass cover all visits in order, each once; in a block all visits are in one filter and no two that follow each other are more than two minutes apart; between two blocks the filter changes or there is such a gap.", "quantifier": "every list of visits sorted by time", "why_tests_cant": "Any number of blocks; a test has a handful.", "anchors": ["rubin_sim/maf/metrics/hourglass_metric.py:HourglassMetric.run"]}
{"id": "C298", "title": "Midnights of the hourglass", "statement": "Each time is given the nearest midnight, also before the first and after the last; midnights with the same tenth of a day are one, every midnight has one kept within a tenth of a day, those farther apart are not merged, and repeats are not kept.", "quantifier": "every list of midnights and time", "why_tests_cant": "The index before the first wraps around to the last.", "anchors": ["rubin_sim/maf/metrics/hourglass_metric.py:HourglassMetric.run", "rubin_sim/maf/metrics/hourglass_metric.py:nearest_val"]}
{"id": "C299", "title": "Conditions of the batches", "statement": "The condition that filter_list makes for a band selects exactly the visits of the band that meet the extra condition, whatever it is, and that of all bands those that meet it, so that counts over bands add up; two conditions in brackets mean both; so do the conditions for adjacent bands and of the glance; an empty condition is like none.", "quantifier": "every extra condition and table of visits", "why_tests_cant": "Conditions are the user's, with any and, or, not and brackets; a test has a simple one.", "anchors": ["rubin_sim/maf/batches/common.py:filter_list", "rubin_sim/maf/batches/time_batch.py:intraNight", "rubin_sim/maf/batches/glance_batch.py:glanceBatch", "rubin_sim/maf/batches/metadata_batch.py:firstYearMetadata", "rubin_sim/maf/batches/skycoverage.py:eastWestBias"]}
{"id": "C300", "title": "Years of the hourglass and of weak lensing", "statement": "Each night is in exactly one year of the hourglass, which have 365 or 366 nights; the years of weak lensing are cumulative.", "quantifier": "every night and number of years", "why_tests_cant": "All nights; a test has one year.", "anchors": ["rubin_sim/maf/batches/hourglass_batch.py:hourglassPlots", "rubin_sim/maf/batches/science_radar_batch.py:science_radar_batch"]}
{"id": "C301", "title": "Names and labels of the batches", "statement": "Labels are combined with a blank, and no label changes nothing; with an empty replacement the name of a metric is without its column; fractions of a population have one metric for each threshold, named by the threshold or by the name at its place.", "quantifier": "every label, name, column and threshold", "why_tests_cant": "Names are the user's.", "anchors": ["rubin_sim/maf/batches/common.py:combine_info_labels", "rubin_sim/maf/batches/common.py:standard_metrics", "rubin_sim/maf/batches/common.py:extended_metrics", "rubin_sim/maf/batches/common.py:standard_angle_metrics", "rubin_sim/maf/batches/common.py:fraction_population_at_threshold"]}
{"id": "C302", "title": "Captions and labels in loops", "statement": "The caption of each filter has the label of that filter; visits of a subset can be asked for with a condition and no label.", "quantifier": "every list of labels", "why_tests_cant": "The caption is changed from one filter to the next.", "anchors": ["rubin_sim/maf/batches/time_batch.py:intraNight", "rubin_sim/maf/batches/visitdepth_batch.py:nvisitsPerSubset"]}
{"id": "C303", "title": "Triplets of visits", "statement": "TripletMetric gives the number of triples of visits in which the second follows the first, and the third the second, after more than DelMin and less than DelMax, with intervals whose ratio is within the limits; order and origin of time do not matter and wider limits lose no triplet.", "quantifier": "every list of times and limits", "why_tests_cant": "Triples of any visits of any cadence, also unsorted.", "anchors": ["rubin_sim/maf/maf_contrib/triplet_metric.py:TripletMetric.run"]}
{"id": "C304", "title": "Triplets in one band", "statement": "TripletBandMetric counts, for each band, the triples of visits in this band that follow each other within the limits and whose intervals are similar; the sum over bands is the number of all such triples in one band. Evenly spaced visits are similar.", "quantifier": "every list of visits and limits", "why_tests_cant": "Triples of any visits; the ratio is a quotient that must not divide by zero.", "anchors": ["rubin_sim/maf/maf_contrib/triplet_metric.py:TripletBandMetric.run", "rubin_sim/maf/maf_contrib/triplet_metric.py:TripletBandMetric.reduce_bandall"]}
{"id": "C305", "title": "Visits in the windows of another survey", "statement": "NumObsInSurveyTimeOverlapMetric gives the number of visits within the windows; IntervalsBetweenObsMetric the mean of the intervals between visits that follow each other in one window, never across windows.", "quantifier": "every list of windows and times", "why_tests_cant": "Windows may overlap, touch or hold no or one visit.", "anchors": ["rubin_sim/maf/maf_contrib/num_obs_in_survey_time_overlap_metric.py:NumObsInSurveyTimeOverlapMetric.run", "rubin_sim/maf/maf_contrib/intervals_between_obs_metric.py:IntervalsBetweenObsMetric.run"]}
{"id": "C306", "title": "Gaps between visits of two filters", "statement": "For a pair of filters the gaps are those of all pairs of visits, one of each filter and, if the filters differ, no more than the last edge of the bins apart; the order of the filters does not matter. With allgaps false they are those to the nearest visits in the other filter, before and after.", "quantifier": "every list of visits and pair of filters", "why_tests_cant": "All cadences, with ties and filters that are not observed.", "anchors": ["rubin_sim/maf/maf_contrib/filter_pair_t_gaps_metric.py:FilterPairTGapsMetric._get_d_t"]}
{"id": "C307", "title": "Figure of merit of the gaps", "statement": "The figure of merit of a pair of filters is the number of gaps in the bins over the standard deviation of the clipped histogram, pairs without gaps do not count, and it is finite.", "quantifier": "every histogram and clip", "why_tests_cant": "Histograms of all shapes; a flat one has no deviation.", "anchors": ["rubin_sim/maf/maf_contrib/filter_pair_t_gaps_metric.py:FilterPairTGapsMetric.run"]}
{"id": "C308", "title": "Gamma-ray bursts found", "statement": "The fraction for a filter is the number of bursts of which enough is seen in this filter, over the number of bursts for which the survey has time; that for any filter is of bursts found in n_filters filters. All phases count, a burst that is too faint is not found, and the start of the survey can be given.", "quantifier": "every list of visits, phases, drawn magnitudes and limits", "why_tests_cant": "Bursts are drawn at random; cadences of all kinds.", "anchors": ["rubin_sim/maf/maf_contrib/grb_transient_metric.py:GRBTransientMetric.run", "rubin_sim/maf/maf_contrib/grb_transient_metric.py:GRBTransientMetric.light_curve"]}
{"id": "C309", "title": "Averages over filters of gamma-ray bursts", "statement": "reduce_band1_filt_avg is the average over the filters of the fraction found in this filter.", "quantifier": "all fractions", "why_tests_cant": "The dictionary has an entry more than there are filters.", "anchors": ["rubin_sim/maf/maf_contrib/grb_transient_metric.py:GRBTransientMetric.reduce_band1_filt_avg"]}
{"id": "C310", "title": "Star counts by shells", "statement": "starcount cuts the cone between two distances into shells of equal volume that fill it, evaluates the density once inside each shell, at the distance that halves its volume, and so gives a positive number no larger than the volume times the largest density.", "quantifier": "all distances and directions", "why_tests_cant": "Cube roots of all distances; the fifty shells of every cone.", "anchors": ["rubin_sim/maf/maf_contrib/star_counts/starcount.py:starcount", "rubin_sim/maf/maf_contrib/star_counts/starcount.py:star_vols", "rubin_sim/maf/maf_contrib/star_counts/coords.py:eq_gal3"]}
{"id": "C311", "title": "Fractions of stars by mass", "statement": "IMF is the integral of the mass function between two masses, adds up over adjoining ranges and is positive; the fractions of the mass bins between m1 and m2 sum to one.", "quantifier": "all positive masses", "why_tests_cant": "An integral, for all ranges.", "anchors": ["rubin_sim/maf/maf_contrib/star_counts/starcount_bymass.py:IMF", "rubin_sim/maf/maf_contrib/star_counts/starcount_bymass.py:starcount_bymass"]}
{"id": "C312", "title": "Density of stars", "statement": "The density of stars is positive everywhere; each disc has the local density at the position of the sun, thins out outwards and away from a height of -25 pc, and is symmetric about it. The bulge and a flattened halo are added to the discs.", "quantifier": "all positions", "why_tests_cant": "All positions of a continuous model.", "anchors": ["rubin_sim/maf/maf_contrib/star_counts/stellardensity.py:stellardensity", "rubin_sim/maf/maf_contrib/star_counts/stellardensity.py:diskprofile"]}
{"id": "C313", "title": "Errors of magnitudes of stars", "statement": "mag_error grows with the magnitude, stays above the systematic error of 0.005 and has a random part of 0.2 at the five-sigma depth, for every depth given; exactly one magnitude has an error of 0.03 and noise_calc solves for it; get_distance inverts the distance modulus.", "quantifier": "all magnitudes, bands and limits", "why_tests_cant": "Continuous functions; a solver stops wherever the function it is given lets it.", "anchors": ["rubin_sim/maf/maf_contrib/star_counts/starcount_bymass.py:mag_error", "rubin_sim/maf/maf_contrib/star_counts/starcount_bymass.py:noise_calc", "rubin_sim/maf/maf_contrib/star_counts/starcount_bymass.py:get_distance"]}
{"id": "C314", "title": "Galactic coordinates of star counts", "statement": "eq_gal turns a root of its equations into a latitude from -90 to 90 and a longitude from 0 to 360 that solve them too, eq_gal2 can give every longitude, and gal_cyn gives cylindrical coordinates about the galactic centre, 8000 pc away.", "quantifier": "all directions and distances", "why_tests_cant": "All directions; a comparison of an angle in the wrong unit is right for most.", "anchors": ["rubin_sim/maf/maf_contrib/star_counts/coords.py:eq_gal", "rubin_sim/maf/maf_contrib/star_counts/coords.py:eq_gal2", "rubin_sim/maf/maf_contrib/star_counts/coords.py:gal_cyn"]}
{"id": "C315", "title": "Spectral types and absolute magnitudes", "statement": "A heavier star is of an earlier type and a later type is fainter in every band; both functions meet their tables at the entries and keep the end values beyond them, the band chooses the magnitude, and a lighter star is seen no further than a heavier one.", "quantifier": "all masses and types", "why_tests_cant": "Continuous interpolation, also outside of the tables.", "anchors": ["rubin_sim/maf/maf_contrib/star_counts/spec_type.py:spec_type", "rubin_sim/maf/maf_contrib/star_counts/abs_mag.py:abs_mag", "rubin_sim/maf/maf_contrib/star_counts/starcount_bymass.py:dist_calc"]}
{"id": "C316", "title": "Amplification by a lens", "statement": "The amplification is above one, symmetric about the peak and falling away from it, larger for smaller impact parameters, and 3/sqrt(5) at the peak for an impact parameter of one without blending; an event is brighter than its star at every visit.", "quantifier": "all times and parameters", "why_tests_cant": "Continuous functions of five parameters.", "anchors": ["rubin_sim/maf/maf_contrib/microlensing_metric.py:microlensing_amplification", "rubin_sim/maf/maf_contrib/microlensing_metric.py:MicrolensingMetric.run"]}
{"id": "C317", "title": "Events with magnitudes of their own", "statement": "An event for which source and blend fluxes are given is brightest at its peak.", "quantifier": "all times and parameters", "why_tests_cant": "All parameters; the size of the effect is small for long events.", "anchors": ["rubin_sim/maf/maf_contrib/microlensing_metric.py:microlensing_amplification_fsfb", "rubin_sim/maf/maf_contrib/microlensing_metric.py:MicrolensingMetric.run"]}
{"id": "C318", "title": "The time of most information", "statement": "info_peak_before_t0 is the time before the peak at which a visit says most about the crossing time, for a constant signal-to-noise ratio.", "quantifier": "all impact parameters and crossing times", "why_tests_cant": "A maximum over all times.", "anchors": ["rubin_sim/maf/maf_contrib/microlensing_metric.py:info_peak_before_t0"]}
{"id": "C319", "title": "Coefficients of the Fisher matrix", "statement": "coefficients_pspl gives the derivatives of the flux by te, u0 and t0, and coefficients_fsfb those by the fluxes; the first entry, whose variance is taken as that of te, is that by te.", "quantifier": "all times and parameters", "why_tests_cant": "Derivatives of long formulas.", "anchors": ["rubin_sim/maf/maf_contrib/microlensing_metric.py:coefficients_pspl", "rubin_sim/maf/maf_contrib/microlensing_metric.py:coefficients_fsfb"]}
{"id": "C320", "title": "The Fisher matrix", "statement": "The matrix is symmetric and positive semidefinite, that of more visits is the sum, each entry is the sum over visits of products of derivatives over squared errors, for the event and for the fluxes of each filter, and all visits in all filters count.", "quantifier": "every list of visits and parameters", "why_tests_cant": "Any number of visits and filters.", "anchors": ["rubin_sim/maf/maf_contrib/microlensing_metric.py:fisher_matrix", "rubin_sim/maf/maf_contrib/microlensing_metric.py:MicrolensingMetric.run"]}
{"id": "C321", "title": "Detected microlensing events", "statement": "An event is detected only if pts_needed points of its light curve are above the five-sigma depth before the peak, and with detect=True after it as well; with detect=True no other events are detected than without.", "quantifier": "every list of visits", "why_tests_cant": "All cadences; pairs of visits are compared.", "anchors": ["rubin_sim/maf/maf_contrib/microlensing_metric.py:MicrolensingMetric.run"]}
{"id": "C322", "title": "Number of points and times of an event", "statement": "Npts is the number of points within two crossing times of the peak, and visits are timed from the start of the survey as the peaks are.", "quantifier": "every list of visits", "why_tests_cant": "All cadences.", "anchors": ["rubin_sim/maf/maf_contrib/microlensing_metric.py:MicrolensingMetric.run"]}
{"id": "C323", "title": "Draw of the pixels of events", "statement": "Stated as it is: generate_microlensing_slicer draws for each event the pixel before the one whose share of the weights holds the random number, the first pixel for its own share as well, so that the last pixel of the sorted map, the densest, is never drawn.", "quantifier": "every map of densities and every random number", "why_tests_cant": "Random draws; each pixel has a small share.", "anchors": ["rubin_sim/maf/maf_contrib/microlensing_metric.py:generate_microlensing_slicer"]}
{"id": "C324", "title": "Detected tidal disruption events", "statement": "pre_peak is one if the event is seen in pts_needed visits before the peak; some_color if it is seen before the peak, in three filters within ten days of it and in two filters after it; some_color_pu if near the peak and after it u and another filter are among them. More visits lose no event.", "quantifier": "every list of visits", "why_tests_cant": "All cadences and light curves.", "anchors": ["rubin_sim/maf/maf_contrib/tdes_pop_metric.py:TdePopMetric._pre_peak_detect", "rubin_sim/maf/maf_contrib/tdes_pop_metric.py:TdePopMetric._some_color_detect", "rubin_sim/maf/maf_contrib/tdes_pop_metric.py:TdePopMetric._some_color_pu_detect"]}
{"id": "C325", "title": "Quality of tidal disruption events", "statement": "The score of an event is zero if and only if it fails the criterion, and one for an event seen every other night.", "quantifier": "every list of visits and range of times", "why_tests_cant": "All cadences.", "anchors": ["rubin_sim/maf/maf_contrib/tdes_pop_metric.py:TdePopMetricQuality._some_color_pnum_detect", "rubin_sim/maf/maf_contrib/tdes_pop_metric.py:TdePopMetricQuality._some_color_pu_pnum_detect"]}
{"id": "C326", "title": "Detected kilonovae", "statement": "A kilonova is not seen outside of the times of its light curve, has the magnitude of the file with extinction and distance modulus at its times, and counts as detected if it is seen as often as needed, in two filters, or four times in red or in blue filters, up to thirty days after the merger.", "quantifier": "every list of visits and light curve", "why_tests_cant": "All cadences and light curves.", "anchors": ["rubin_sim/maf/maf_contrib/kne_metrics.py:KnLc.interp", "rubin_sim/maf/maf_contrib/kne_metrics.py:KNePopMetric.run", "rubin_sim/maf/maf_contrib/kne_metrics.py:KNePopMetric._multi_detect", "rubin_sim/maf/maf_contrib/kne_metrics.py:KNePopMetric._multi_color_detect", "rubin_sim/maf/maf_contrib/kne_metrics.py:KNePopMetric._red_color_detect", "rubin_sim/maf/maf_contrib/kne_metrics.py:KNePopMetric._blue_color_detect"]}
{"id": "C327", "title": "Kilonovae by their rate of change", "statement": "A kilonova passes if and only if it is seen as often as needed, over min_dt, and in some band between the extremes of its magnitude fades or rises as fast as the limits, significantly and over more than min_dt; the order of the bands does not matter, one that passes in red or blue bands passes in all, and more visits lose none.", "quantifier": "every list of detections and limits", "why_tests_cant": "All cadences; the bands are met in the order of a set.", "anchors": ["rubin_sim/maf/maf_contrib/kne_metrics.py:KNePopMetric._ztfrest_simple"]}
{"id": "C328", "title": "Presto triplets", "statement": "The presto criterion is three detections in two filters, one of them twice. Of the two in one filter the nearer to the other is taken for the colour, within the first limit, and the change of magnitude is the earlier minus the later.", "quantifier": "every list of detections and every triplet", "why_tests_cant": "All cadences.", "anchors": ["rubin_sim/maf/maf_contrib/presto_color_kne_pop_metric.py:PrestoColorKNePopMetric._presto_color_detect", "rubin_sim/maf/maf_contrib/presto_color_kne_pop_metric.py:PrestoColorKNePopMetric._get_score"]}
{"id": "C329", "title": "Presto scores and tables", "statement": "The S score is one if and only if a triplet is rarer than the threshold, the P score is the largest one minus a rate; the table is that of the file given for the region; the populations of the two regions share no event and leave none out.", "quantifier": "every list of rates, every sequence of calls, all latitudes", "why_tests_cant": "A table kept between calls; rates of all triplets.", "anchors": ["rubin_sim/maf/maf_contrib/presto_color_kne_pop_metric.py:PrestoColorKNePopMetric._get_score", "rubin_sim/maf/maf_contrib/presto_color_kne_pop_metric.py:_load_hash", "rubin_sim/maf/maf_contrib/presto_color_kne_pop_metric.py:generate_presto_pop_slicer"]}
{"id": "C330", "title": "Populations of kilonovae", "statement": "Distances are between the limits with the share of a power law, indices are those of files, and the seed determines the population.", "quantifier": "all draws and limits", "why_tests_cant": "Random draws; a state shared by the process.", "anchors": ["rubin_sim/maf/maf_contrib/kne_metrics.py:generate_kn_pop_slicer", "rubin_sim/maf/maf_contrib/presto_color_kne_pop_metric.py:generate_presto_pop_slicer"]}
{"id": "C331", "title": "Files of kilonovae by parameters", "statement": "get_kne_filename returns the files that have one of the sets of parameters, each once, and all files without parameters.", "quantifier": "every list of files and parameters", "why_tests_cant": "All sets of parameters, also overlapping ones.", "anchors": ["rubin_sim/maf/maf_contrib/kne_metrics.py:get_kne_filename"]}
{"id": "C332", "title": "Light curves of outbursts", "statement": "An outburst rises until the root of the product of its rise and decay times and then decays, has its amplitude there and nowhere else, so peaks six magnitudes above the absolute magnitude within its duration, and has magnitude 99 outside of it.", "quantifier": "all times and parameters", "why_tests_cant": "Continuous functions of random parameters.", "anchors": ["rubin_sim/maf/maf_contrib/xrb_metrics.py:XrbLc.fred", "rubin_sim/maf/maf_contrib/xrb_metrics.py:XrbLc.lightcurve", "rubin_sim/maf/maf_contrib/xrb_metrics.py:XrbLc.outburst_params"]}
{"id": "C333", "title": "Duration of outbursts", "statement": "An outburst has faded to its star when its duration is over.", "quantifier": "all rise and decay times", "why_tests_cant": "Random parameters.", "anchors": ["rubin_sim/maf/maf_contrib/xrb_metrics.py:XrbLc.outburst_params", "rubin_sim/maf/maf_contrib/xrb_metrics.py:XrbLc.lightcurve"]}
{"id": "C334", "title": "Visible duration of outbursts", "statement": "detectable_duration gives the first and the last of the times at which the outburst is bright enough in some filter, nothing if it never is, and it is bright enough in some filter all the time between; possible_to_detect says whether there is any.", "quantifier": "all parameters, distances and extinctions", "why_tests_cant": "Six filters and ten thousand times for each of many outbursts.", "anchors": ["rubin_sim/maf/maf_contrib/xrb_metrics.py:XrbLc.detectable_duration", "rubin_sim/maf/maf_contrib/xrb_metrics.py:XRBPopMetric._possible_to_detect"]}
{"id": "C335", "title": "Detected outbursts", "statement": "Only visits during the outburst count; ever_detect needs pts_needed of them, early_detect pts_early within t_early days of the start; the mean time between detections is the mean of the gaps between them, and the bad value for fewer than two.", "quantifier": "every list of visits", "why_tests_cant": "All cadences.", "anchors": ["rubin_sim/maf/maf_contrib/xrb_metrics.py:XRBPopMetric.run", "rubin_sim/maf/maf_contrib/xrb_metrics.py:XRBPopMetric._early_detect", "rubin_sim/maf/maf_contrib/xrb_metrics.py:XRBPopMetric._ever_detect", "rubin_sim/maf/maf_contrib/xrb_metrics.py:XRBPopMetric._mean_time_between_detections", "rubin_sim/maf/maf_contrib/xrb_metrics.py:XRBPopMetric.reduce_mean_time_between_detections"]}
{"id": "C336", "title": "Populations of outbursts", "statement": "Every outburst has a rise time above 0.3 days, and the seed determines the population.", "quantifier": "all draws", "why_tests_cant": "Random draws from three generators.", "anchors": ["rubin_sim/maf/maf_contrib/xrb_metrics.py:XrbLc.outburst_params", "rubin_sim/maf/maf_contrib/xrb_metrics.py:generate_xrb_pop_slicer"]}
{"id": "C337", "title": "Density of young stars", "statement": "The density along a line of sight is positive away from the Sun, symmetric about the plane and about the centre of the galaxy, falls with the height above the plane and away from the direction of the centre, and is the same for two longitudes that are the same direction.", "quantifier": "all directions and distances", "why_tests_cant": "A function of three real numbers.", "anchors": ["rubin_sim/maf/maf_contrib/young_stellar_objects_metric.py:StarDensity.__call__"]}
{"id": "C338", "title": "Counts of young stars", "statement": "Beyond the limit of latitude the metric gives zero; within it, the distance or the count of stars out to the least of the distances in the filters. A larger distance has more stars, the count is in proportion to the area, and bounded by the cube of the distance.", "quantifier": "all slice points and distances", "why_tests_cant": "An integral over the line of sight.", "anchors": ["rubin_sim/maf/maf_contrib/young_stellar_objects_metric.py:NYoungStarsMetric.run", "rubin_sim/maf/maf_contrib/young_stellar_objects_metric.py:StarDensity.__call__"]}
{"id": "C339", "title": "Distance of young stars", "statement": "A star is within the distance that is returned if and only if it has the signal to noise asked for in every filter; without visits in one of the filters the distance and the count are zero; another visit does not lessen the depth.", "quantifier": "all lists of visits, magnitudes and extinctions", "why_tests_cant": "All cadences and stars.", "anchors": ["rubin_sim/maf/maf_contrib/young_stellar_objects_metric.py:NYoungStarsMetric.run"]}
{"id": "C340", "title": "Light curves of periodic stars", "statement": "A periodic star repeats after its period and stays within the amplitude of the mean of the filter; every visit has the mean of its own filter; the phase is in days; the mean of a filter without visits has no effect; with a filter other than ugrizy there is no light curve.", "quantifier": "all parameters and visits", "why_tests_cant": "Real parameters and lists of visits.", "anchors": ["rubin_sim/maf/maf_contrib/periodic_star_metric.py:PeriodicStar.__call__"]}
{"id": "C341", "title": "Recovery of periodic stars", "statement": "The metric gives the share of the realisations of the noise whose fit has period and amplitude within the fractional tolerances and the mean within mag_tol in n_bands of the filters with visits, badval for fewer than nine visits; wider tolerances recover no fewer, and with visits in fewer than n_bands filters none is recovered. The slice point is optional.", "quantifier": "all visits, tolerances and fits", "why_tests_cant": "The fits are of random noise.", "anchors": ["rubin_sim/maf/maf_contrib/periodic_star_metric.py:PeriodicStarMetric.run"]}
{"id": "C342", "title": "Recovery on short baselines", "statement": "PeriodicStarModulationMetric gives the mean over the intervals of the share of the realisations that are recovered, so one if every fit finds the true parameters.", "quantifier": "all visits, intervals and fits", "why_tests_cant": "The fits are of random noise.", "anchors": ["rubin_sim/maf/maf_contrib/periodic_star_modulation_metric.py:PeriodicStarModulationMetric.run"]}
{"id": "C343", "title": "Intervals of short baselines", "statement": "The light curve is evaluated in pieces of time_interval days: every visit is in exactly one.", "quantifier": "all times and intervals", "why_tests_cant": "Times at ends of intervals.", "anchors": ["rubin_sim/maf/maf_contrib/periodic_star_modulation_metric.py:PeriodicStarModulationMetric.run"]}
{"id": "C344", "title": "Spectral window function", "statement": "PeriodicMetric gives the largest value and the mean of the window function over the frequencies other than zero; the purity is between zero and two, and zero if the visits are apart by whole periods of one of the frequencies.", "quantifier": "all lists of times", "why_tests_cant": "Thirty thousand frequencies for all cadences.", "anchors": ["rubin_sim/maf/maf_contrib/periodic_metric.py:PeriodicMetric.run", "rubin_sim/maf/maf_contrib/periodic_metric.py:PeriodicMetric.reduce_peak"]}
{"id": "C345", "title": "Depth of variability", "statement": "VarDepth gives for every list of visits a magnitude of the grid from 16 to the mean depth, where the interpolated difference of the thresholds is nearest to zero, or 15 if there are not two magnitudes with thresholds; thresholds are computed until the first difference below zero.", "quantifier": "all mean depths and thresholds", "why_tests_cant": "Random noise.", "anchors": ["rubin_sim/maf/maf_contrib/var_depth_metric.py:VarDepth.run"]}
{"id": "C346", "title": "Surface brightness limit of a visit", "statement": "The surface brightness that is returned reaches the signal to noise nsigma over the area, and where the limiting cases are close it is too optimistic by 0.38 magnitudes at most.", "quantifier": "all positive areas, times, read noises, pixels and thresholds, and all magnitudes", "why_tests_cant": "An inequality between real functions.", "anchors": ["rubin_sim/maf/metrics/surfb_metric.py:surface_brightness_limit_approx"]}
{"id": "C347", "title": "Surface brightness of a set of visits", "statement": "The metric adds the limits of the visits of one filter like depths, more visits never lower it, and for more than one filter an exception is raised; zero points and extinctions given by the user are used; the visits with a saturated sky are counted.", "quantifier": "all lists of visits and options", "why_tests_cant": "Lists of any length and all combinations of options.", "anchors": ["rubin_sim/maf/metrics/surfb_metric.py:SurfaceBrightLimitMetric.run", "rubin_sim/maf/metrics/surfb_metric.py:SurfaceBrightLimitMetric.__init__", "rubin_sim/maf/metrics/sky_sat_metric.py:SkySaturationMetric.run"]}
{"id": "C348", "title": "Quasar counts", "statement": "The table is made cumulative in magnitude and redshift, so that at the nodes of the spline the metric is the area of the pixel times the quasars between the limits of redshift and between saturation and depth; the default limit of the redshift is the lesser of 6.7 and that at which the Lyman break is at the effective wavelength, 6.7 for i, z and y. Over the cut of the extinction the value is badval.", "quantifier": "all tables, limits and slices", "why_tests_cant": "Sums over tables of any size.", "anchors": ["rubin_sim/maf/metrics/qso_number_counts_metric.py:QSONumberCountsMetric.__init__", "rubin_sim/maf/metrics/qso_number_counts_metric.py:QSONumberCountsMetric.run"]}
{"id": "C349", "title": "Structure function of active galaxies", "statement": "Each pair of visits that are bright enough is counted once in the bin of its distance in time, or each pair of neighbours; the value is between twice the median squared error and twice its sum with ten times the scatter, and does not depend on the order of the visits; the weights default to a flat set with sum one and can be given; with fewer than two visits the value is badval.", "quantifier": "all lists of visits, bins and weights", "why_tests_cant": "All cadences and options.", "anchors": ["rubin_sim/maf/metrics/agnstructure.py:SFUncertMetric.__init__", "rubin_sim/maf/metrics/agnstructure.py:SFUncertMetric.run"]}
{"id": "C350", "title": "Distances of brown dwarfs", "statement": "The metric finds the distance at which the parallax of the object has the signal to noise asked for: the ratio at a distance combines all visits in the filters of the object, falls with the distance and grows with visits, and the value lies between the distances where the goal is reached and where it is not, and grows with visits; badval where the goal is not reached. The colours are a dictionary for every type. Pixels with one distance make the volume of the ball.", "quantifier": "all lists of visits, grids of distances and magnitudes", "why_tests_cant": "Real functions, grids of any size.", "anchors": ["rubin_sim/maf/metrics/brown_dwarf_metric.py:bd_colors", "rubin_sim/maf/metrics/brown_dwarf_metric.py:BDParallaxMetric.run", "rubin_sim/maf/metrics/brown_dwarf_metric.py:VolumeSumMetric.run"]}
{"id": "C351", "title": "Times of a night", "statement": "Sun and Moon are placed every twenty minutes from thirty minutes before the first visit to at least thirty and less than fifty minutes after the last, and every visit is between two of these times.", "quantifier": "all lists of times", "why_tests_cant": "Lists of any length.", "anchors": ["rubin_sim/maf/metrics/night_pointing_metric.py:NightPointingMetric.run"]}
{"id": "C352", "title": "Detection of periodic stars", "statement": "The value is the number of the stars that are told from constant ones, between zero and the number of stars. A star without variation, and one that is aliased in every filter, is never detected; a detection needs a chi squared over the degrees of freedom; without more visits than three plus the number of filters none is detected.", "quantifier": "all visits, stars and levels up to one", "why_tests_cant": "All cadences and stars.", "anchors": ["rubin_sim/maf/metrics/periodic_detect_metric.py:PeriodicDetectMetric.run"]}
{"id": "C353", "title": "Season numbers of the supernova metric", "statement": "A visit belongs to the season one plus the number of gaps longer than season_gap before it: visits in order of time, the first in season one, a new season exactly at each long gap.", "quantifier": "all lists of times and gaps", "why_tests_cant": "Lists of any length.", "anchors": ["rubin_sim/maf/metrics/sn_n_sn_metric.py:SNNSNMetric.getseason"]}
{"id": "C354", "title": "Nightly coaddition of the supernova metric", "statement": "Coaddition gives one row for each filter and night with a visit; exposures, visit time and exposure time are conserved; the depth is that of the visits taken together, and a visit alone in its night and filter keeps its depth.", "quantifier": "all lists of visits", "why_tests_cant": "Sums over groups of any size and real depths.", "anchors": ["rubin_sim/maf/metrics/sn_n_sn_metric.py:SNNSNMetric.coadd"]}
{"id": "C355", "title": "Season length against redshift", "statement": "The days of maximum between T0_min and T0_max are those for which the season holds all phases from min_rf_phase_qual to max_rf_phase_qual; a redshift is used for a season exactly if this window is min_duration long, that is, for seasons of 60 + 45 (1 + z) days; smaller redshifts and longer seasons are used as well.", "quantifier": "all seasons and redshifts", "why_tests_cant": "Real inequalities.", "anchors": ["rubin_sim/maf/metrics/sn_n_sn_metric.py:SNNSNMetric.get_season_info", "rubin_sim/maf/metrics/sn_n_sn_metric.py:SNNSNMetric.season_info"]}
{"id": "C356", "title": "Simulated days of maximum", "statement": "The days of maximum go from T0_min to T0_max, both included, in equal steps of daymax_step; windows of ten days or less are marked with -1.", "quantifier": "all windows and steps", "why_tests_cant": "All real windows.", "anchors": ["rubin_sim/maf/metrics/sn_n_sn_metric.py:SNNSNMetric.calc_daymax"]}
{"id": "C357", "title": "Epochs of a light curve", "statement": "The number of epochs before or after the maximum is the number of different nights with a point.", "quantifier": "all lists of nights", "why_tests_cant": "Lists of any length and masks.", "anchors": ["rubin_sim/maf/metrics/sn_n_sn_metric.py:SNNSNMetric.get_epochs", "rubin_sim/maf/metrics/sn_n_sn_metric.py:SNNSNMetric.sn_effi"]}
{"id": "C358", "title": "Selection efficiency of supernovae", "statement": "A supernova is selected exactly if it has enough points at phases up to -5 and from 20 on, enough nights before and after the maximum and a variance of the colour of at most sigma_c squared; the efficiency is the fraction of the supernovae with a point of the least signal to noise that are selected, between zero and one, with the binomial error.", "quantifier": "all light curves and cuts", "why_tests_cant": "Light curves of any length.", "anchors": ["rubin_sim/maf/metrics/sn_n_sn_metric.py:SNNSNMetric.sn_effi", "rubin_sim/maf/metrics/sn_n_sn_metric.py:SNNSNMetric.efficiencies", "rubin_sim/maf/metrics/sn_n_sn_metric.py:SNNSNMetric.step_efficiencies"]}
{"id": "C359", "title": "Redshift limit of a season", "statement": "The limit is the redshift up to which the share zlim_coeff of the supernovae lies, by linear interpolation between neighbouring redshifts of the study; -1 if no supernova is expected.", "quantifier": "all numbers of supernovae, redshifts and shares below one", "why_tests_cant": "Cumulative sums of any length.", "anchors": ["rubin_sim/maf/metrics/sn_n_sn_metric.py:SNNSNMetric.zlim_or_nsn", "rubin_sim/maf/metrics/sn_n_sn_metric.py:SNNSNMetric.zlim"]}
{"id": "C360", "title": "Number of supernovae", "statement": "The number for a season is the sum over the bins of redshift up to the limit of efficiency times expected number; it is not negative and not more than the expected number; the metric adds it over the seasons with a positive limit, takes the median limit, and gives badval without such a season.", "quantifier": "all efficiencies, durations, rates and seasons", "why_tests_cant": "Sums of any length.", "anchors": ["rubin_sim/maf/metrics/sn_n_sn_metric.py:SNNSNMetric.get_nsn", "rubin_sim/maf/metrics/sn_n_sn_metric.py:SNNSNMetric.nsn", "rubin_sim/maf/metrics/sn_n_sn_metric.py:SNNSNMetric.run"]}
{"id": "C361", "title": "Expected number of supernovae", "statement": "For each bin from zmin to zmax the number is rate times area times comoving volume of the bin times duration in years over 1 + z; it is not negative and grows with the area; the bins reach zmax; the edges of the season take (1 + z) (max_rf_phase - min_rf_phase) days, never below zero; bins can be given.", "quantifier": "all bins, rates, durations, volumes and areas", "why_tests_cant": "Arrays of any length.", "anchors": ["rubin_sim/maf/utils/sn_n_sn_utils.py:SnRate.__call__", "rubin_sim/maf/metrics/sn_n_sn_metric.py:SNNSNMetric.nsn_from_rate"]}
{"id": "C362", "title": "Rates of supernovae", "statement": "The rates are positive and grow with the redshift, those of Ripoche and Dilday up to redshift one; the error of Perrett is the propagated one; the three names of the documentation are known.", "quantifier": "all redshifts and names", "why_tests_cant": "Real powers.", "anchors": ["rubin_sim/maf/utils/sn_n_sn_utils.py:SnRate.perrett_rate", "rubin_sim/maf/utils/sn_n_sn_utils.py:SnRate.ripoche_rate", "rubin_sim/maf/utils/sn_n_sn_utils.py:SnRate.dilday_rate", "rubin_sim/maf/utils/sn_n_sn_utils.py:SnRate.sn_rate"]}
{"id": "C363", "title": "Variance of the colour", "statement": "var_color is the last diagonal entry of the inverse of the symmetric Fisher matrix; the metric, which inverts one matrix for all supernovae, gives each the variance it has alone, and raises exactly if one of the Fisher matrices has no inverse.", "quantifier": "all Fisher matrices and numbers of supernovae", "why_tests_cant": "Matrices of any size.", "anchors": ["rubin_sim/maf/utils/sn_n_sn_utils.py:CovColor.var_color", "rubin_sim/maf/utils/sn_n_sn_utils.py:CovColor.det", "rubin_sim/maf/metrics/sn_n_sn_metric.py:SNNSNMetric.sigma_s_nparams"]}
{"id": "C364", "title": "Cached reference files", "statement": "Whatever was asked for before, load_sne_cached gives the data of the file it is asked for, and reads a file exactly if the call before was for another one.", "quantifier": "all sequences of calls", "why_tests_cant": "Executions of any length.", "anchors": ["rubin_sim/maf/utils/sn_n_sn_utils.py:load_sne_cached"]}
{"id": "C365", "title": "Points of a light curve", "statement": "A visit gives a point exactly if its rest-frame phase and wavelength are in range and the flux is positive; flux, phase, redshift, day of maximum and visit columns of a row of the table belong to the same supernova and visit.", "quantifier": "all visits, supernovae and flags", "why_tests_cant": "Arrays of any size.", "anchors": ["rubin_sim/maf/utils/sn_n_sn_utils.py:LcfastNew.process_band", "rubin_sim/maf/utils/sn_n_sn_utils.py:LcfastNew.get_flag", "rubin_sim/maf/utils/sn_n_sn_utils.py:LcfastNew.tarray"]}
{"id": "C366", "title": "Lensed supernovae", "statement": "The number follows the documented formula, adds over the seasons with enough visits and filters deep enough after dust, and is zero where nothing was seen deep enough.", "quantifier": "all visits, seasons and depths", "why_tests_cant": "Lists of any length.", "anchors": ["rubin_sim/maf/metrics/sn_sl_metric.py:SNSLMetric.n_lensed", "rubin_sim/maf/metrics/sn_sl_metric.py:SNSLMetric.run"]}
{"id": "C367", "title": "Bundles of a plot handler", "statement": "set_metric_bundles keeps each bundle it is given, once; it raises for no bundle and for bundles whose slicers have different names, and only then; bundles of different bands given in the order of the bands stay in order, and bundles in any other order are put into the order of the bands. The last is false: z after y stays there, and two bundles of the first band are exchanged.", "quantifier": "all lists of bundles and file roots", "why_tests_cant": "Lists of any length and all file roots.", "anchors": ["rubin_sim/maf/plots/plot_handler.py:PlotHandler.set_metric_bundles"]}
{"id": "C368", "title": "Precedence of plot options", "statement": "An option of a plot comes from the user, else from the bundle, else from the defaults of the plotter, else from what was set before, and else is made by the handler; after several plots an option is the one set latest, so that options of one plot stay for the next; a single dictionary is used for all bundles, a list that is too short is an exception. False for the labels of the axes: the labels made by the handler replace those set before.", "quantifier": "all dictionaries, keys and sequences of plots", "why_tests_cant": "All sequences of calls of one handler.", "anchors": ["rubin_sim/maf/plots/plot_handler.py:PlotHandler.set_plot_dicts"]}
{"id": "C369", "title": "Conflicts of plot options", "statement": "After the check the dictionaries of one subplot agree on limits and titles, and everything else is as it was. Options on which the bundles agree stay, and of different limits of the colours the widest are used. The last two are false: a pair of limits of an axis is a conflict with itself and is dropped, even for one bundle, and different limits of the colours are all dropped.", "quantifier": "all lists of dictionaries", "why_tests_cant": "All combinations of dictionaries and keys.", "anchors": ["rubin_sim/maf/plots/plot_handler.py:PlotHandler._check_plot_dicts"]}
{"id": "C370", "title": "Place of a joint plot on the page", "statement": "A joint plot is not before any of its metrics and at most one place after the last, in the group of its bundles if that is one, else among the comparisons. It comes after all its metrics whatever the order of the bundles: false.", "quantifier": "all lists of places and groups", "why_tests_cant": "Lists of any length.", "anchors": ["rubin_sim/maf/plots/plot_handler.py:PlotHandler._build_display_dict"]}
{"id": "C371", "title": "Joint label of several bundles", "statement": "Different labels can be joined, and each phrase of each label is in the joint label. Both are false: a label all of whose phrases are in the others is an exception, and of several phrases of its own one is kept. The exception is exactly this case; with one phrase of its own for each label nothing is lost.", "quantifier": "all labels", "why_tests_cant": "All sets of labels.", "anchors": ["rubin_sim/maf/plots/plot_handler.py:PlotHandler._combine_metadata"]}
{"id": "C372", "title": "Joint name of several metrics", "statement": "The joint name is determined by the names of the metrics; metrics that differ in the band have the bands in the order ugrizy in its place; a single name stays. The first is false unless the names differ in bands only: sets of words are joined in any order, and the name of the file with them.", "quantifier": "all names and all orders of sets", "why_tests_cant": "Python sets of strings are read in an order that changes from run to run.", "anchors": ["rubin_sim/maf/plots/plot_handler.py:PlotHandler._combine_metric_names"]}
{"id": "C373", "title": "Colours of several bundles", "statement": "A bundle has its own colour, else the colour of the band in its constraint. False for constraints of the form band = 'g': colours are random.", "quantifier": "all bundles and constraints", "why_tests_cant": "All constraints.", "anchors": ["rubin_sim/maf/plots/plot_handler.py:PlotHandler._build_colors"]}
{"id": "C374", "title": "What a plot draws and saves", "statement": "Exactly the bundles with values that are not masked are drawn; a file is saved, and a row added to the database, exactly if one is; a plotter for numbers draws nothing if one bundle has objects for values.", "quantifier": "all lists of bundles", "why_tests_cant": "Lists of any length.", "anchors": ["rubin_sim/maf/plots/plot_handler.py:PlotHandler.plot", "rubin_sim/maf/plots/plot_handler.py:PlotHandler.save_fig"]}
{"id": "C375", "title": "Zero point and norm of a plot", "statement": "The value drawn is the distance from the zero point in units of the norm; without them it is the value.", "quantifier": "all values", "why_tests_cant": "All numbers of a field.", "anchors": ["rubin_sim/maf/plots/plot_handler.py:apply_zp_norm"]}
{"id": "C376", "title": "Limits of the colours", "statement": "set_color_lims keeps the limits of the user; without them there is always a range, all data are within it if nothing is clipped, and the limits are the smallest and the largest value unless there is one value only, which is put in the middle; without data the limits are 0 and 1. There is a range if the user gives one limit: false, the limits can be the wrong way round.", "quantifier": "all data and limits", "why_tests_cant": "All lists of numbers.", "anchors": ["rubin_sim/maf/plots/spatial_plotters.py:set_color_lims"]}
{"id": "C377", "title": "Bins of a histogram of given width", "statement": "The edges begin at the lower limit and are the width apart, the last one is within half a width of the upper limit; a range of less than half a width has four edges around it. The bins of a cumulative histogram cover the full range of the data: false, values up to half a width beyond the last edge are left out, unless the range is a whole number of bins.", "quantifier": "all ranges and widths", "why_tests_cant": "All numbers of an ordered field.", "anchors": ["rubin_sim/maf/plots/spatial_plotters.py:BaseHistogram"]}
{"id": "C378", "title": "Longitude on a map of the sky", "statement": "The longitude at which a point is drawn is the only number within half a turn of the centre which differs from the distance to the centre, positive to the west, by whole turns; so it does not depend on how the right ascension is wrapped.", "quantifier": "all angles", "why_tests_cant": "All angles and turns.", "anchors": ["rubin_sim/maf/plots/spatial_plotters.py:BaseSkyMap"]}
{"id": "C379", "title": "Visits in singles, pairs and triples", "statement": "VisitPairsHist has a bar for each number of visits per night, whose height is the number of visits in such nights, so that the bars add up to all visits. False whenever there is a visit: the nights with the largest number of visits are left out; the bars and these nights add up to all visits.", "quantifier": "all lists of numbers of visits", "why_tests_cant": "Lists of any length.", "anchors": ["rubin_sim/maf/plots/two_d_plotters.py:VisitPairsHist"]}
{"id": "C380", "title": "Plots leave the values as they are", "statement": "A plot does not change the bundle it draws. False for TwoDMap with a colour minimum: the values below it are masked in the bundle, nothing else is changed, and a later plot with a lower minimum does not show them; true without a minimum.", "quantifier": "all values, masks and minima", "why_tests_cant": "All lists of values.", "anchors": ["rubin_sim/maf/plots/two_d_plotters.py:TwoDMap", "rubin_sim/maf/plots/plot_handler.py:PlotHandler.plot"]}
{"id": "C381", "title": "Plots of one axis of several", "statement": "OneDSubsetData draws at each bin of the axis the sum of the values of the slices in it. For the slicer of the package it is an exception. With the attribute in place: right if the numbers of bins read the same from both ends; otherwise false, for two dimensions with an exception and for more silently; the values drawn always add up to the sum of all.", "quantifier": "all numbers of bins and dimensions and all values", "why_tests_cant": "Any number of dimensions.", "anchors": ["rubin_sim/maf/plots/nd_plotters.py:OneDSubsetData", "rubin_sim/maf/slicers/nd_slicer.py:NDSlicer"]}
{"id": "C382", "title": "Plots of two axes of several", "statement": "TwoDSubsetData draws at each pair of bins the sum of the values of the slices in both. With the attribute of C381 in place: right if the y axis is before the x axis and the numbers of bins read the same from both ends; with the x axis first the axes are exchanged.", "quantifier": "all numbers of bins and dimensions and all values", "why_tests_cant": "Any number of dimensions.", "anchors": ["rubin_sim/maf/plots/nd_plotters.py:TwoDSubsetData", "rubin_sim/maf/slicers/nd_slicer.py:NDSlicer"]}
{"id": "C383", "title": "Orbit plots with the default options, stated as it is", "statement": "MetricVsOrbit raises a KeyError for whatever options of the user without both keys hwidth and hval, since its defaults are spelled otherwise; for objects with their own H it needs hvals besides hval if that is not None.", "quantifier": "all options of the user", "why_tests_cant": "All sets of keys.", "anchors": ["rubin_sim/maf/plots/mo_plotters.py:MetricVsOrbit"]}
{"id": "C384", "title": "Bins of H", "statement": "For a range of H of at least one magnitude each object is in the bin of the equal part of the range in which its H is, the objects of the largest H alone in the last one, so objects in one bin are at most one step apart. False for a smaller range: all objects from half a magnitude above the smallest H on are put together.", "quantifier": "all ranges, numbers of bins and values of H", "why_tests_cant": "All numbers of an ordered field.", "anchors": ["rubin_sim/maf/plots/mo_plotters.py:MetricVsH"]}
{"id": "C385", "title": "Diameter for H and albedo", "statement": "The diameter is inverse to the square root of the albedo, falls by ten for five magnitudes, and is between 1342 and 1343 km for H = 0 and an albedo of one.", "quantifier": "all H and positive albedos", "why_tests_cant": "All real numbers.", "anchors": ["rubin_sim/maf/plots/mo_plotters.py:MetricVsH"]}
{"id": "C386", "title": "Cumulative area against number of visits", "statement": "For each value of the metric the curve of FOPlot has a point whose height is the area where the metric is at least as large; every point is between the area where the metric is larger and the area where it is at least as large.", "quantifier": "all lists of values with repeats", "why_tests_cant": "Lists of any length.", "anchors": ["rubin_sim/maf/plots/special_plotters.py:FOPlot"]}
{"id": "C387", "title": "Summed histograms", "statement": "SummaryHistogram with the sum draws for each bin the sum over the sky; the bins add up to the sum of everything, and the cumulative histogram at a bin is the sum of the bins up to it, at the last one the sum of everything.", "quantifier": "all lists of histograms", "why_tests_cant": "Lists of any length.", "anchors": ["rubin_sim/maf/plots/special_plotters.py:SummaryHistogram"]}
{"id": "C388", "title": "Luminosity of simulated dwarfs", "statement": "The stars of a simulated dwarf have the total magnitude that goes with the requested magnitude in B at every distance, with the colour of the file; _sum_luminosity is the total magnitude of the stars, whichever bin comes first; the distance modulus is zero at ten parsecs and grows by five for each factor of ten.", "quantifier": "all luminosity functions, magnitudes and distances", "why_tests_cant": "All real numbers and lists.", "anchors": ["rubin_sim/maf/maf_contrib/lv_dwarfs/lv_dwarfs_metrics.py:make__fake_old_galaxy_lf", "rubin_sim/maf/maf_contrib/lv_dwarfs/lv_dwarfs_metrics.py:_sum_luminosity"]}
{"id": "C389", "title": "Limit of detected dwarfs", "statement": "Whatever the draws, the dwarf whose magnitude is returned is the first one that is not detected, or the last; all brighter ones are detected in both bands; the flag is the band with fewer stars. There is a limit whenever the two brightest dwarfs are detected: false, it is lost if no star of the next one is seen.", "quantifier": "all draws of the random generator", "why_tests_cant": "All draws.", "anchors": ["rubin_sim/maf/maf_contrib/lv_dwarfs/lv_dwarfs_metrics.py:_dwarf_sblimit"]}
{"id": "C390", "title": "Stars needed to detect a dwarf", "statement": "The number of stars needed is the significance times the fluctuation of the stars and galaxies in the background down to the depth in i. False: the depth is set under another name, the stars are always counted to 25. Given the densities the number is right, and largest where there are no counts of galaxies.", "quantifier": "all densities, depths and fractions", "why_tests_cant": "All real numbers.", "anchors": ["rubin_sim/maf/maf_contrib/lv_dwarfs/lv_dwarfs_metrics.py:LVDwarfsMetric.run", "rubin_sim/maf/metrics/star_density.py:StarDensityMetric"]}
{"id": "C391", "title": "Limit of the distance of dwarfs", "statement": "The limit may be given as a number, in Mpc, or a quantity. False: a number is an exception at the first point, and the unit of a quantity is not used; true for quantities in Mpc.", "quantifier": "all limits", "why_tests_cant": "All numbers and units.", "anchors": ["rubin_sim/maf/maf_contrib/lv_dwarfs/lv_dwarfs_metrics.py:LVDwarfsMetric"]}
{"id": "C392", "title": "Counts of galaxies in redshift bins", "statement": "The counts for all redshifts are the sum of those of the bins at each magnitude; bands are converted to i with colours of 0.4; an unknown bin is all redshifts; the law of the book is 46 per square arcminute and magnitude at 25. The totals of the bins add up to the total: false, as totals below one in a square degree are dropped; true if none is.", "quantifier": "all power laws, bands and magnitudes", "why_tests_cant": "All real numbers.", "anchors": ["rubin_sim/maf/maf_contrib/lss_obs_strategy/galaxy_counts_metric_extended.py:GalaxyCountsMetricExtended"]}
{"id": "C393", "title": "Magnitudes of typical stars", "statement": "stellar_mags gives magnitudes with the colours of the table for the type and the given magnitude in r; exactly the ten types of the table are known, others are an exception; from O to M the first four colours are redder.", "quantifier": "all types and magnitudes", "why_tests_cant": "All names and numbers.", "anchors": ["rubin_sim/maf/utils/stellar_mags.py:stellar_mags"]}
{"id": "C394", "title": "Start of the survey for transients of a table", "statement": "Without a start of the survey the first visit at each point is used. False: the first visit of the first point is used for all points; the length of the survey is the longest of what was given and the spans of all points so far.", "quantifier": "all sequences of points", "why_tests_cant": "All sequences of points of a run.", "anchors": ["rubin_sim/maf/maf_contrib/transient_ascii_sed_metric.py:TransientAsciiSEDMetric.setup_run_metric_variables"]}
{"id": "C395", "title": "Phases of transients of a table", "statement": "Phases are within the duration, the shifts divide it evenly, the transients of the first shift are numbered from zero wherever the survey starts. Visits with one number see the same transient: true without a shift, where the converse holds as well; false with one, as the numbers are not shifted.", "quantifier": "all visits, starts and shifts", "why_tests_cant": "All numbers of an ordered field.", "anchors": ["rubin_sim/maf/maf_contrib/transient_ascii_sed_metric.py:TransientAsciiSEDMetric.setup_phase_shift_dependent_variables", "rubin_sim/maf/maf_contrib/transient_ascii_sed_metric.py:TransientAsciiSEDMetric.initialize_phase_loop_variables"]}
{"id": "C396", "title": "Detection of transients of a table", "statement": "A transient is detected if and only if enough of its detections are before the given time, there is one in each section of the light curve, and there are enough bands, and the bands are close enough in time; the result is the number of such transients over all shifts.", "quantifier": "all visits, thresholds and light curves", "why_tests_cant": "Lists of any length.", "anchors": ["rubin_sim/maf/maf_contrib/transient_ascii_sed_metric.py:TransientAsciiSEDMetric.evaluate_all_detection_criteria", "rubin_sim/maf/maf_contrib/transient_ascii_sed_metric.py:TransientAsciiSEDMetric.run"]}
{"id": "C397", "title": "Bands within a given time", "statement": "With filter_time a transient passes if and only if there are detections in enough bands within this time. False: the last detection is never used, so that as many detections as bands never pass; what passes has enough bands without the last detection, and these are enough.", "quantifier": "all lists of detections in order of time", "why_tests_cant": "Lists of any length.", "anchors": ["rubin_sim/maf/maf_contrib/transient_ascii_sed_metric.py:TransientAsciiSEDMetric.evaluate_filter_in_time_detection_criteria"]}
{"id": "C398", "title": "Thresholds of transients of a table", "statement": "Visits in bands without a threshold are not used. False: they are an exception, exactly if there is one; the others are detections if they reach the threshold of their band.", "quantifier": "all visits and thresholds", "why_tests_cant": "Lists of any length.", "anchors": ["rubin_sim/maf/maf_contrib/transient_ascii_sed_metric.py:TransientAsciiSEDMetric.evaluate_snr_thresholds"]}
{"id": "C399", "title": "Where make_lsst_obs writes", "statement": "The observations are written to out_dir/run__orbits_obs.npz, as the help says. False: the directory is joined twice, so for every directory that is relative and not the current one the file is out_dir/out_dir/...; true for directories from the root and for the current one.", "quantifier": "all directories and file names", "why_tests_cant": "All strings as paths.", "anchors": ["rubin_sim/moving_objects/make_lsst_obs.py:setup_args", "rubin_sim/moving_objects/make_lsst_obs.py:make_lsst_obs"]}
{"id": "C400", "title": "The script of generate_ss works together", "statement": "In each line of the script for a run the options of the three programs are known, the observations are read from the file that the first one writes, and the fractions from the directory of the metrics. Each line is for the run of its file: false, names with the word tracking are dropped from the names but not from the files; true if there are none.", "quantifier": "all lists of files, populations and directories of data", "why_tests_cant": "All strings.", "anchors": ["rubin_sim/maf/generate_ss.py:generate_ss", "rubin_sim/moving_objects/make_lsst_obs.py:make_lsst_obs", "rubin_sim/maf/run_moving_calc.py:run_moving_calc", "rubin_sim/maf/run_moving_fractions.py:run_moving_fractions"]}
{"id": "C401", "title": "Populations of generate_ss", "statement": "A script for a population is written exactly for the eight populations with orbits, or if there are no runs; every type that it gives has defaults of its own.", "quantifier": "all names of populations", "why_tests_cant": "All strings.", "anchors": ["rubin_sim/maf/generate_ss.py:generate_ss"]}
{"id": "C402", "title": "Split populations of generate_ss, stated as they are", "statement": "The metrics of a part of a population are never calculated: the command has the option --run_name, which run_moving_calc does not know. The file of observations that it names is never the one that make_lsst_obs writes. The directory for the metrics is the one in which run_moving_join looks, for parts named by population and number.", "quantifier": "all runs, populations and parts", "why_tests_cant": "All strings.", "anchors": ["rubin_sim/maf/generate_ss.py:generate_ss", "rubin_sim/maf/run_moving_join.py:run_moving_join"]}
{"id": "C403", "title": "Inputs of run_moving_calc", "statement": "The file of the simulation is optional. False: without it the program always ends with an exception. With it, the metrics are calculated exactly if orbits and observations are given and the options known.", "quantifier": "all command lines", "why_tests_cant": "All options.", "anchors": ["rubin_sim/maf/run_moving_calc.py:run_moving_calc"]}
{"id": "C404", "title": "H values and populations of run_moving_calc", "statement": "The H values are those by whole steps from h_min that are less than a step after h_max, so n + 1 values ending at h_max if the step divides the range; values on the command line replace the defaults. Every object type has defaults with a positive step and the mark within the range, and a batch to characterise it; names starting with granvik, L7 or OCC are NEO, TNO and LPC. A characterization is known exactly if it is inner or outer in any case.", "quantifier": "all types and H values", "why_tests_cant": "All rationals and strings.", "anchors": ["rubin_sim/maf/run_moving_calc.py:run_moving_calc", "rubin_sim/maf/batches/moving_objects_batch.py:ss_population_defaults"]}
{"id": "C405", "title": "Joining the parts of a population", "statement": "The files that are left out by run_moving_join are exactly the raw discovery files. combine_subsets gives the sums of the values that are not masked, with their masks. False: it always ends with an exception (the bundle has no plotDict); the sums it has found before are right, but never masked; bundles with other orbits pass the check of the slicers if the H values are the same. With orbits given by a path from the root the base directory has no effect.", "quantifier": "all bundles and names", "why_tests_cant": "All lists.", "anchors": ["rubin_sim/maf/run_moving_join.py:run_moving_join", "rubin_sim/maf/batches/moving_objects_batch.py:combine_subsets"]}
{"id": "C406", "title": "Times and files of run_moving_fractions", "statement": "The completeness is calculated at six times a year from the start to the end of the last year, both included. The files read are those with the metadata before the ending of the name, all of them a subset of those without. Without files there is an exception; without metadata the names of the figures have the word None.", "quantifier": "all numbers of years, times and names", "why_tests_cant": "All naturals, rationals and strings.", "anchors": ["rubin_sim/maf/run_moving_fractions.py:run_moving_fractions"]}
{"id": "C407", "title": "H marks of the summaries", "statement": "For the completeness each bundle has the mark that is given, or its own, or the median of its H values. For the fractions likewise for each bundle, two brighter and not below the lowest H. False for the second: the mark of the first bundle is kept for all others, raised to their lowest H and never lowered; a mark of None in the dict is an exception. True for one bundle.", "quantifier": "all dicts of bundles", "why_tests_cant": "All lists of bundles.", "anchors": ["rubin_sim/maf/batches/moving_objects_batch.py:run_completeness_summary", "rubin_sim/maf/batches/moving_objects_batch.py:run_fraction_summary"]}
{"id": "C408", "title": "Which metrics have a completeness", "statement": "run_completeness_summary makes bundles exactly for the metrics of discovery with times, numbers of chances or Magic in the name, and those with HighVelocity.", "quantifier": "all names of metrics", "why_tests_cant": "All strings.", "anchors": ["rubin_sim/maf/batches/moving_objects_batch.py:run_completeness_summary"]}
{"id": "C409", "title": "Directories in the tracking database", "statement": "add_run_to_database records the path from the database to the directory of the results, if that is a directory. False: the path from the directory above the database is used from the current directory; with the default database of show_maf, whatever the directory, another one is looked at, so there is an exception or another directory is recorded. True for a database in the current directory or just below it that is given from there.", "quantifier": "all current directories, databases and directories of results", "why_tests_cant": "All lists of names.", "anchors": ["rubin_sim/maf/db/tracking_db.py:add_run_to_database", "rubin_sim/maf/show_maf.py:show_maf"]}
{"id": "C410", "title": "Directories in the web pages", "statement": "The pages of a run show the results in the recorded directory. False: the path is used from the current directory; for results below the database it is the right one exactly in the directory of the database.", "quantifier": "all directories", "why_tests_cant": "All lists of names.", "anchors": ["rubin_sim/maf/web/maf_tracking.py:MafTracking.get_run", "rubin_sim/maf/db/tracking_db.py:TrackingDb.add_run"]}
{"id": "C411", "title": "Pages of show_maf", "statement": "A directory given to show_maf is opened immediately. False: the page of the lowest id is opened, never that of a new directory if there are other runs; true for the first one. The page with the data of a metric always ends with an exception.", "quantifier": "all tracking databases", "why_tests_cant": "All lists of rows.", "anchors": ["rubin_sim/maf/show_maf.py:show_maf", "rubin_sim/maf/show_maf.py:DataHandler"]}
{"id": "C412", "title": "Names of runs in the tracking database", "statement": "For a file named a_vV_10yrs*.db the comment is the version V and a with spaces; the group is the directory of the file, and a file without directory is an exception.", "quantifier": "all names", "why_tests_cant": "All strings.", "anchors": ["rubin_sim/maf/make_fbs_tracking_db.py:make_fbs_tracking_db"]}
{"id": "C413", "title": "Versions in the tracking database", "statement": "make_fbs_tracking_db records for each directory the version in its results. False: results without rows get the version of the directory before, also of another run, or an exception if they are the first; true if all results have rows. add_run_to_database records what is given, else the first row.", "quantifier": "all directories and rows", "why_tests_cant": "All lists.", "anchors": ["rubin_sim/maf/make_fbs_tracking_db.py:make_fbs_tracking_db", "rubin_sim/maf/db/tracking_db.py:add_run_to_database"]}
{"id": "C414", "title": "Batches for all files of a directory", "statement": "The files that are used are exactly the visible .db files without the word trackingDb (for the metadata: but for two names). Each has its results in a directory of its own and is recorded under its name. False: files with more than one .db in the name may share a directory and remove each other's results; a file given with a directory is recorded without it. True for names with one .db.", "quantifier": "all directories and file names", "why_tests_cant": "All lists of strings.", "anchors": ["rubin_sim/maf/scimaf_dir.py:scimaf_dir", "rubin_sim/maf/glance_dir.py:glance_dir", "rubin_sim/maf/ddf_dir.py:ddf_dir", "rubin_sim/maf/metadata_dir.py:metadata_dir"]}
{"id": "C415", "title": "Sets of data", "statement": "The data for tests are the seven sets that the documentation names, with the versions of all data; each file is named after its set. The baseline is a visible file of its directory that ends with 10yrs.db, with an exception exactly if there is none.", "quantifier": "all directories", "why_tests_cant": "All lists of names.", "anchors": ["rubin_sim/data/rs_download_data.py:rs_download_testing", "rubin_sim/data/rs_download_data.py:data_dict", "rubin_sim/data/rs_download_data.py:get_baseline"]}
{"id": "C416", "title": "Detection rate of faint supernovae", "statement": "The metric gives the part of the days on which the supernovae of the survey are not fainter than those of a regular cadence, close to 1 for regular cadences. False: with the columns that it asks for it always raises, and with the column filter it raises just if one of the seasons asked for has five visits over ten days, so for no visits at all there is another value than 0 or None. The rate itself is between 0 and 1, and 1 if the survey is never below the fakes.", "quantifier": "all visits, columns and seasons asked for", "why_tests_cant": "All lists of visits; the exceptions come from names.", "anchors": ["rubin_sim/maf/metrics/sn_snr_metric.py:SNSNRMetric.run", "rubin_sim/maf/metrics/sn_snr_metric.py:SNSNRMetric.gen_fakes", "rubin_sim/maf/metrics/sn_snr_metric.py:SNSNRMetric.detection_rate"]}
{"id": "C417", "title": "Seasons of the signal to noise metric", "statement": "A season has a row just if it has five visits: first and last visit, the time between them and the mean gap. Seasons begin at least 20 days after the end of the one before, otherwise they are as before, and only those longer than 30 days are kept. False for one season alone: it is kept whatever its length.", "quantifier": "all visits and lists of seasons", "why_tests_cant": "All lists.", "anchors": ["rubin_sim/maf/metrics/sn_snr_metric.py:SNSNRMetric.season_info", "rubin_sim/maf/metrics/sn_snr_metric.py:SNSNRMetric.check_seasons"]}
{"id": "C418", "title": "Days of maximum", "statement": "The supernovae of a season are at their maximum on its first day and all days after it up to ten days before its end; each belongs to the season its day is in, with the length, cadence and first day of that season. The last is false if the seasons are not in the order of their numbers.", "quantifier": "all lists of seasons one after the other", "why_tests_cant": "All lists.", "anchors": ["rubin_sim/maf/metrics/sn_snr_metric.py:SNSNRMetric.snr_slice", "rubin_sim/maf/metrics/sn_snr_metric.py:SNSNRMetric.get_season"]}
{"id": "C419", "title": "Signal to noise of a light curve", "statement": "The square of the signal to noise is the sum of the squares of those of the visits from 20 days before the maximum, at rest, to 10 days after it; more visits never lower it, their order does not matter, and one visit with the flux of the depth gives five.", "quantifier": "all redshifts, light curves and visits", "why_tests_cant": "All real numbers.", "anchors": ["rubin_sim/maf/metrics/sn_snr_metric.py:SNSNRMetric.snr_slice"]}
{"id": "C420", "title": "Fake observations", "statement": "make_fake gives for each season and band visits from the first day on, at the cadence of the band, up to less than one cadence after the end, in the order of time, and nothing else; with the mean gap of a season there are as many as in the season, and the depth is that of all exposures together.", "quantifier": "all configurations", "why_tests_cant": "All lists of seasons and bands.", "anchors": ["rubin_sim/maf/utils/sn_utils.py:GenerateFakeObservations.make_fake", "rubin_sim/maf/utils/sn_utils.py:GenerateFakeObservations.m5_coadd", "rubin_sim/maf/metrics/sn_snr_metric.py:SNSNRMetric.gen_fakes"]}
{"id": "C421", "title": "Limits for supernovae", "statement": "The limit of a redshift is the product of depth and root of the cadence for which visits with this cadence have, in the mean square over the possible first days, the signal to noise asked for. Redshifts without positive flux in the band have none. Of the points of several files those of the last are used, stated as it is.", "quantifier": "all light curves, redshifts and signal to noise", "why_tests_cant": "All real numbers.", "anchors": ["rubin_sim/maf/utils/sn_utils.py:Lims.get_lims", "rubin_sim/maf/utils/sn_utils.py:Lims.mesh", "rubin_sim/maf/utils/sn_utils.py:Lims.interp"]}
{"id": "C422", "title": "Number of a new simulation", "statement": "A new simulation of a day gets the number after the largest one there is, 1 on a new day, and so a directory of its own; those that are added one after the other have numbers one after the other. False for two programs at once: the directory is only made after the look, and both get the same one.", "quantifier": "all contents of the directory of a day, numbers of simulations added and the interleavings of two programs", "why_tests_cant": "All lists of names, and executions.", "anchors": ["rubin_sim/sim_archive/prototype.py:_next_sim_date_and_index", "rubin_sim/sim_archive/prototype.py:transfer_archive_dir"]}
{"id": "C423", "title": "Transfer of a simulation into the archive", "statement": "The transfer succeeds just if the metadata and all files in them are in the directory, and then these and nothing else are in the archive, as they were. If it fails, there are no metadata in the archive, so that no reader finds a simulation without its files. The last is false if the metadata list a file for themselves, as those of exported simulations do.", "quantifier": "all directories and lists of files in the metadata", "why_tests_cant": "All lists; a failure at each place.", "anchors": ["rubin_sim/sim_archive/prototype.py:transfer_archive_dir", "rubin_sim/sim_archive/prototype.py:export_sim_to_prototype_sim_archive"]}
{"id": "C424", "title": "Check of an archived simulation", "statement": "The check tells for each file whether its hash is that in the metadata, and raises if a file or a hash is missing. What make_sim_data_dir made and was transferred passes it, and a file with another hash does not. False: it raises for each exported simulation, whose metadata have no hashes, and a supplied file with the name of the metadata is overwritten and fails.", "quantifier": "all files, hashes and directories", "why_tests_cant": "All contents.", "anchors": ["rubin_sim/sim_archive/prototype.py:check_opsim_archive_resource", "rubin_sim/sim_archive/sim_archive.py:make_sim_data_dir", "rubin_sim/sim_archive/prototype.py:export_sim_to_prototype_sim_archive"]}
{"id": "C425", "title": "Files of a simulation", "statement": "All supplied files and the visits are in the directory, each under its type. True if names and types differ; false for two files of one name, of which only the last is there. The command line gives each file its name for type, so that the scheduler is not under scheduler.", "quantifier": "all supplied files", "why_tests_cant": "All lists of names.", "anchors": ["rubin_sim/sim_archive/sim_archive.py:make_sim_data_dir", "rubin_sim/sim_archive/prototype.py:make_sim_archive_cli"]}
{"id": "C426", "title": "Reading the archived metadata", "statement": "Without a compilation the metadata that are read are those of the simulations added in the given number of nights up to the latest one, no others, in the order of the days and each once. With a compilation and verification the result is the same whatever is missing from the compilation, and the simulations reported are those that are only in the compilation.", "quantifier": "all archives, compilations and windows of nights", "why_tests_cant": "All lists of simulations.", "anchors": ["rubin_sim/sim_archive/prototype.py:read_archived_sim_metadata"]}
{"id": "C427", "title": "Compiled metadata as a cache", "statement": "Reading the archive with the compilation gives what reading without it gives, whenever simulations are added, days go by and compilations are made, anew or by appending, also if one fails. True for windows in the last N nights if all compilations are over at least N nights; false for compilations over fewer nights. What is added gets a new URI and changes no other simulation.", "quantifier": "all executions: additions, days and compilations", "why_tests_cant": "All histories of the archive.", "anchors": ["rubin_sim/sim_archive/prototype.py:compile_sim_metadata", "rubin_sim/sim_archive/prototype.py:read_archived_sim_metadata"]}
{"id": "C428", "title": "Tables of a compilation", "statement": "What is compiled into tables is what is read from them. True if each simulation has both dates and all files have the same keys. In general simulations without dates get NaN, files get NaN for the keys of others, and empty lists are gone. The compilation raises just if a simulation has only one date, or there is no file, no sim_runner_kwargs or no tag at all; so one simulation made with a start and no duration stops all compilations.", "quantifier": "all metadata", "why_tests_cant": "All dictionaries.", "anchors": ["rubin_sim/sim_archive/prototype.py:compile_sim_metadata", "rubin_sim/sim_archive/prototype.py:read_sim_metadata_from_hdf", "rubin_sim/sim_archive/sim_archive.py:make_sim_data_dir"]}
{"id": "C429", "title": "Verification of a compilation", "statement": "No difference is reported just if each value in the archive has an equal one in the compilation and each key in the compilation is in the archive; a value of the archive is reported under its simulation and key just if it has no equal one.", "quantifier": "all pairs of metadata and comparisons", "why_tests_cant": "All dictionaries.", "anchors": ["rubin_sim/sim_archive/prototype.py:verify_compiled_sim_metadata"]}
{"id": "C430", "title": "Most recent simulation for nights", "statement": "The simulation that is found covers the nights, is of the telescope and has the tags, and is the most recent one; None just if there is none. The first is true, the most recent only among those of one day: over several days it is one with the highest number of its day, so the third of yesterday comes before the first of today. A simulation without simulated_dates, as all exported ones, or one that covers the nights and has no tags, makes the search raise.", "quantifier": "all simulations in the order they are read, nights, tags and telescopes", "why_tests_cant": "All lists.", "anchors": ["rubin_sim/sim_archive/prototype.py:find_latest_prenight_sim_for_nights", "rubin_sim/sim_archive/prototype.py:export_sim_to_prototype_sim_archive"]}
{"id": "C431", "title": "Visits of the most recent simulation", "statement": "If no simulation fits, there are no visits: None, an empty table or a count of 0. False: there is a TypeError; the count is given only with a simulation, and is the number of its visits. For a day more than one day ahead fetch_obsloctap_visits raises whatever is in the archive.", "quantifier": "all archives, days and times", "why_tests_cant": "All archives.", "anchors": ["rubin_sim/sim_archive/prototype.py:fetch_sim_for_nights", "rubin_sim/sim_archive/prototype.py:fetch_obsloctap_visits", "rubin_sim/sim_archive/prototype.py:fetch_sim_stats_for_night"]}
{"id": "C432", "title": "Anomalous overheads keep to the minimum", "statement": "If slew, visit and exposure times are given, the overhead with the offset is at least min_overhead whatever is drawn, and without slew scatter the offset is the larger of what is drawn and what gives the minimum. If one of the times is missing there is a warning and no minimum.", "quantifier": "all parameters, observations and random numbers", "why_tests_cant": "All real numbers that may be drawn.", "anchors": ["rubin_sim/sim_archive/prenight.py:AnomalousOverheadFunc.__call__"]}
{"id": "C433", "title": "Scatter of the slew", "statement": "With a scale or a positive location the part of the slew is the slew time times the number drawn, and the slew never takes negative time. False: a location other than zero is said to move the centre, but a negative one without a scale does nothing. An ObservationArray, which is in the annotation, is an AssertionError.", "quantifier": "all parameters, observations and random numbers", "why_tests_cant": "All real numbers.", "anchors": ["rubin_sim/sim_archive/prenight.py:AnomalousOverheadFunc.__call__"]}
{"id": "C434", "title": "Results of prenight simulations from the command line", "statement": "The results of run_prenight_sim are in the directory that is given, and other directories are as they were. False without --results, which is the default: the program ends with an AssertionError after the simulation, and the temporary directory with the results is gone. Anomalous overheads are used just if a scale is not zero.", "quantifier": "all directories and arguments", "why_tests_cant": "All states of the disk.", "anchors": ["rubin_sim/sim_archive/prenight.py:run_prenight_sim_cli", "rubin_sim/sim_archive/sim_archive.py:make_sim_data_dir"]}
{"id": "C435", "title": "Running and archiving a simulation", "statement": "drive_sim archives the scheduler as it was before the simulation, and refuses to record rewards that are not kept before it runs anything. False: the caller never gets the archived directory, because of a misspelt keyword, and if that were accepted the directory would be gone on return. Not to record rewards that are kept is an IndexError.", "quantifier": "all schedulers, simulators and arguments", "why_tests_cant": "All functions as simulators.", "anchors": ["rubin_sim/sim_archive/sim_archive.py:drive_sim", "rubin_sim/sim_archive/sim_archive.py:make_sim_data_dir"]}
{"id": "C436", "title": "Schedulers from configuration files", "statement": "A configuration with a scheduler, or with a function get_scheduler, gives the scheduler and its nside. True of the first. False of the second: the missing attribute is an AttributeError, which is not the NameError that is caught, so the function is never used.", "quantifier": "all modules", "why_tests_cant": "All contents of a module.", "anchors": ["rubin_sim/sim_archive/make_snapshot.py:get_scheduler_from_config"]}
{"id": "C437", "title": "Choice of the scheduler for a snapshot", "statement": "A repository that is not empty is used with its reference and script, else a local script, else the example; the visits of the database are added if one is named and has any. A repository without a script is a ValueError.", "quantifier": "all arguments and contents of files", "why_tests_cant": "All combinations of arguments, repositories and databases.", "anchors": ["rubin_sim/sim_archive/make_snapshot.py:get_scheduler", "rubin_sim/sim_archive/make_snapshot.py:get_scheduler_instance_from_repo"]}
{"id": "C438", "title": "Reading a saved scheduler", "statement": "The programs that take a scheduler file read what scheduler_snapshot saved. The compression is that of the extension. True for files without one of its extensions; false for each file with one: it is read without decompression.", "quantifier": "all file names and schedulers", "why_tests_cant": "All strings.", "anchors": ["rubin_sim/sim_archive/make_snapshot.py:save_scheduler", "rubin_sim/sim_archive/make_snapshot.py:make_ideal_model_observatory_cli", "rubin_sim/sim_archive/prenight.py:run_prenight_sim_cli"]}
{"id": "C439", "title": "Conversion of an opsim database to HDF5", "statement": "The file at the path that is returned has the tables of the database and nothing else, whatever was there. True if there is a table; a database without tables leaves the old file, or none.", "quantifier": "all databases and old files", "why_tests_cant": "All lists of tables.", "anchors": ["rubin_sim/sim_archive/util.py:opsimdb_to_hdf5"]}
{"id": "C440", "title": "Conversion of HDF5 to an opsim database", "statement": "A database that is converted to HDF5 and back to a new file has the same tables, in whatever order the store gives its keys. A table that is in the target already is an error, and no table of the target is lost, though some of the store may have been added; so with the default paths, where the target is the original, the way back always fails.", "quantifier": "all databases, stores and orders of keys", "why_tests_cant": "All lists of tables.", "anchors": ["rubin_sim/sim_archive/util.py:hdf5_to_opsimdb", "rubin_sim/sim_archive/util.py:opsimdb_to_hdf5"]}
{"id": "C441", "title": "Versions of conda packages", "statement": "The packages are those in the files that can be read, the last of each name, in the order of the names, with the environment under conda_env; nothing without an environment. Within a process all calls give what the first one gave.", "quantifier": "all contents of conda-meta and sequences of calls", "why_tests_cant": "All lists of files and calls.", "anchors": ["rubin_sim/sim_archive/conda_packages.py:get_conda_packages"]}
{"id": "C442", "title": "Connections of a metadata archive object", "statement": "Any number of queries and readings of tables can be made with one VisitSequenceArchiveMetadata: a call succeeds exactly if fewer than five connections are kept by earlier calls. False with insertions of nightly statistics, each of which keeps a connection for good: after five (four with a reading) every call is a PoolError.", "quantifier": "all sequences of calls", "why_tests_cant": "All sequences of calls of any length.", "anchors": ["rubin_sim/sim_archive/vseqmetadata.py:VisitSequenceArchiveMetadata.query", "rubin_sim/sim_archive/vseqmetadata.py:VisitSequenceArchiveMetadata.pd_read_sql", "rubin_sim/sim_archive/vseqmetadata.py:VisitSequenceArchiveMetadata.insert_nightly_stats"]}
{"id": "C443", "title": "Where the parameters of the connection come from", "statement": "Database, host, user and port are what the caller gives, else what the environment says, else the value of the module, and other parameters are passed on. False: the dictionary of the caller is not left alone, so one that is used again keeps what the environment said the first time.", "quantifier": "all dictionaries and environments", "why_tests_cant": "All dictionaries.", "anchors": ["rubin_sim/sim_archive/vseqmetadata.py:VisitSequenceArchiveMetadata.__init__"]}
{"id": "C444", "title": "Nightly statistics of visits", "statement": "compute_nightly_stats gives one row for each night with visits and each column. A night is from noon to noon (UTC), by obs_start_mjd if there is one. Count, mean, smallest and largest are those of the values on the night that are not missing, the percentiles are in order between them, and over the nights the counts add up to the visits with a value.", "quantifier": "all visits and columns", "why_tests_cant": "All tables with values missing anywhere.", "anchors": ["rubin_sim/sim_archive/vseqarchive.py:compute_nightly_stats"]}
{"id": "C445", "title": "Nightly statistics in the database", "statement": "Statistics of a sequence that has none are inserted completely and returned as they are; those of other sequences stay. An insertion with a row for a night and value that is there already is an error that changes nothing, and there are never two such rows.", "quantifier": "all tables and rows", "why_tests_cant": "All states of the table.", "anchors": ["rubin_sim/sim_archive/vseqmetadata.py:VisitSequenceArchiveMetadata.insert_nightly_stats", "rubin_sim/sim_archive/vseqmetadata.py:VisitSequenceArchiveMetadata.query_nightly_stats"]}
{"id": "C446", "title": "Mixed sequences are recorded in two steps", "statement": "record_mixed_metadata adds one row with the dates and parents and leaves others alone. False: it is not one transaction. With a date that cannot be read the call fails and leaves a row without dates and parents.", "quantifier": "all tables, dates and parents", "why_tests_cant": "All tables.", "anchors": ["rubin_sim/sim_archive/vseqmetadata.py:VisitSequenceArchiveMetadata.record_mixed_metadata"]}
{"id": "C447", "title": "Updating metadata from the command line", "statement": "A hash given to update-visitseq-metadata as the digits that are printed is stored as the hash; an update changes that field of that sequence and nothing else, and one that fails (no such sequence or field, no hexadecimal digits) changes nothing.", "quantifier": "all hashes, sequences, fields and values", "why_tests_cant": "All sequences of bytes of any length.", "anchors": ["rubin_sim/sim_archive/vseqarchive.py:update_visitseq_metadata", "rubin_sim/sim_archive/vseqmetadata.py:VisitSequenceArchiveMetadata.update_visitseq_metadata"]}
{"id": "C448", "title": "Metadata of simulations in the prototype archive", "statement": "metadata_yaml_from_prototype gives the time of creation of the metadata, else of the label, else one on the date of the simulation in the order of the indexes, and each file has its URL or its name in the directory; nothing else changes. False in effect: the import that uses it ignores the time, so a simulation whose label has no time is recorded as made at the time of the import.", "quantifier": "all metadata, dates and indexes", "why_tests_cant": "All metadata files.", "anchors": ["rubin_sim/sim_archive/vseqmetadata.py:metadata_yaml_from_prototype", "rubin_sim/sim_archive/vseqmetadata.py:VisitSequenceArchiveMetadata.import_sim_from_yaml"]}
{"id": "C449", "title": "Visits come back from the archive", "statement": "A database of visits that is archived can be retrieved as a database with the same tables, other files as they are. A destination that is there is not overwritten. False for a database with a suffix that is not known, which is archived as it is and cannot be retrieved as a database.", "quantifier": "all databases, files and suffixes", "why_tests_cant": "All databases with any tables.", "anchors": ["rubin_sim/sim_archive/vseqarchive.py:add_file", "rubin_sim/sim_archive/vseqarchive.py:get_file"]}
{"id": "C450", "title": "Nights of the observation schedule", "statement": "fetch_obsloctap_visits takes the first night that begins after the reference and as many nights as asked for; with a day_obs in the almanac the first is this day. Simulations up to a day before it are considered. For a day two or more days ahead no simulation that exists is considered unless an age is given.", "quantifier": "all almanacs in which the sun sets in the second half of the day (UTC), all times and numbers of nights", "why_tests_cant": "All real times.", "anchors": ["rubin_sim/sim_archive/sim_archive.py:fetch_obsloctap_visits"]}
{"id": "C451", "title": "Visits of a night in the latest simulation", "statement": "fetch_sim_stats_for_night reports the number of visits on the night. False: without recorded statistics it is the number of values in the first column, which is less if one is missing, and a night without visits is a KeyError. Without a simulation there is an exception, where an empty dictionary is documented. Recorded statistics are kept.", "quantifier": "all simulations, statistics and visits", "why_tests_cant": "All tables with values missing anywhere.", "anchors": ["rubin_sim/sim_archive/sim_archive.py:fetch_sim_stats_for_night"]}
{"id": "C452", "title": "Names of microlensing results", "statement": "parse_t_e_run_types reads the name of the run, the type of the metric and the shortest and longest crossing time back from a name run_MicrolensingMetric_type_tE_min_max..., and refuses (IndexError) a name without MicrolensingMetric. False for every run: one with MicrolensingMetric in its own name is read wrongly.", "quantifier": "all runs, types and crossing times", "why_tests_cant": "All names of any length.", "anchors": ["rubin_sim/maf/run_comparison/microlensing_compare.py:parse_t_e_run_types", "rubin_sim/maf/metric_bundles/metric_bundle.py:MetricBundle._build_file_root"]}
{"id": "C453", "title": "Ranges of crossing times in the comparison", "statement": "If both limits grow from bin to bin, the ranges of plot_fom and plot_compare are the bins of the runs and a run is in the range of its own bin and no other. False for bins that lie in one another: runs are in no range, and a range has limits that no run has; of bins that begin together there is only one range.", "quantifier": "all runs and bins", "why_tests_cant": "All lists of runs.", "anchors": ["rubin_sim/maf/run_comparison/microlensing_compare.py:plot_fom", "rubin_sim/maf/run_comparison/microlensing_compare.py:plot_compare"]}
{"id": "C454", "title": "What the figure of merit plot shows", "statement": "A series of plot_fom has the runs of its range and type, in the order of their names. If the figure is drawn, every run of type detect, Npts or Fisher is in it exactly once, in the panel of its type and with the label of its bin. False for every set of results: the figure is refused (IndexError) exactly when some bin has no run of one of the three types, as with the bins of the science radar batch.", "quantifier": "all runs, names and types", "why_tests_cant": "All sets of results.", "anchors": ["rubin_sim/maf/run_comparison/microlensing_compare.py:plot_fom", "rubin_sim/maf/batches/science_radar_batch.py:science_radar_batch"]}
{"id": "C455", "title": "Comparison matrices of microlensing results", "statement": "The cells of detected_fisher_comparison, fisher_npts_comparison and detected_npts_comparison are the numbers of events that pass and do not pass the two criteria, except for events that meet a limit exactly. False as documented: an event with exactly the required number of points (or uncertainty) is in no cell, so the cells do not add up to the events.", "quantifier": "all events and limits", "why_tests_cant": "All lists of events.", "anchors": ["rubin_sim/maf/run_comparison/microlensing_compare.py:detected_fisher_comparison", "rubin_sim/maf/run_comparison/microlensing_compare.py:fisher_npts_comparison", "rubin_sim/maf/run_comparison/microlensing_compare.py:detected_npts_comparison"]}
{"id": "C456", "title": "The required number of points in the comparison", "statement": "The matrices that plot_compare labels with the required number of points are those for this number. Holds for ten points. False for others: the number is only in the label, the matrix is always for more than ten points.", "quantifier": "all events and numbers of points", "why_tests_cant": "All events.", "anchors": ["rubin_sim/maf/run_comparison/microlensing_compare.py:plot_compare"]}
{"id": "C457", "title": "Results of one microlensing metric", "statement": "get_results is the fraction of events detected, the mean number of points, or the fraction of events with an uncertainty below the limit, over all events. With zeros for the events without visits this holds for the first two. False for the third: the mask is not looked at, so events without visits count as characterized if the number under the mask is below the limit.", "quantifier": "all events and masks", "why_tests_cant": "All result files.", "anchors": ["rubin_sim/maf/run_comparison/microlensing_compare.py:get_results", "rubin_sim/maf/run_comparison/microlensing_compare.py:microlensing_fom"]}
{"id": "C458", "title": "Reading the results of microlensing runs", "statement": "get_results_dbs gives the databases of a folder that have metrics. False: it calls getAllMetricIds, which ResultsDb does not have, so any folder with a result is an AttributeError; only for an empty folder is there a result.", "quantifier": "all folders", "why_tests_cant": "All lists of files.", "anchors": ["rubin_sim/maf/run_comparison/microlensing_compare.py:get_results_dbs", "rubin_sim/maf/db/results_db.py:ResultsDb"]}
{"id": "C459", "title": "Nights with more than a number of filters", "statement": "NightsWithNFiltersMetric gives the number of different nights on which more than n_filters different filters were used, whatever the order of the visits. (Documented for the argument as the minimum set of filters, which would count nights with exactly that many.)", "quantifier": "for all visits and all n_filters", "why_tests_cant": "Tests use one order of a few visits; the count is over every night and every set of filters.", "anchors": ["rubin_sim/maf/maf_contrib/example_new_metrics.py:NightsWithNFiltersMetric.run"]}
{"id": "C460", "title": "Stars are matched to their solutions", "statement": "The matching of identifiers in the uniformity metric finds every solution whose identifier is among the stars, once and in order, no other, and pairs it with a star of the same identifier; it never indexes outside the stars, also when an identifier is larger than all of them.", "quantifier": "for all arrays of identifiers and every order of ties in the sort", "why_tests_cant": "The out of range case depends on the largest identifier; tests have a few arrays.", "anchors": ["rubin_sim/maf/maf_contrib/selfcal_uniformity_metric.py:_match"]}
{"id": "C461", "title": "Uniformity of the self calibration", "statement": "The results do not depend on the zero point of the solution; the pixels that count are those with a star; outlier_frac_full is the fraction of pixels that are outliers and outlier_frac_highglat the fraction of the pixels at high latitudes that are; the columns that are read are among those that the metric asks for.", "quantifier": "for all solutions, pixelizations, limits and choices of high latitudes", "why_tests_cant": "One run of the self calibration takes minutes; no test covers the results.", "anchors": ["rubin_sim/maf/maf_contrib/selfcal_uniformity_metric.py:PhotometricSelfCalUniformityMetric.run", "rubin_sim/maf/maf_contrib/selfcal_uniformity_metric.py:PhotometricSelfCalUniformityMetric.__init__"]}
{"id": "C462", "title": "Galaxy counts with and without a slicer agree", "statement": "galaxy_counts_with_pixel_calibration gives, for a coadded depth, what GalaxyCountsMetricExtended gives at a place with that depth; counts are not negative and places shallower than one magnitude have none.", "quantifier": "for all depths, bands, redshift bins, options, tables of power laws and integration rules", "why_tests_cant": "The two copies of the formulas are compared for every option, which tests do not run.", "anchors": ["rubin_sim/maf/maf_contrib/lss_obs_strategy/galaxy_counts_with_pixel_calibration.py:galaxy_counts_with_pixel_calibration", "rubin_sim/maf/maf_contrib/lss_obs_strategy/galaxy_counts_metric_extended.py:GalaxyCountsMetricExtended.run"]}
{"id": "C463", "title": "Galaxies in the extragalactic footprint", "statement": "DepthLimitedNumGalMetric gives the number of galaxies from the visits in its band where the place passes the cuts on dust, number of filters and depth, and its bad value elsewhere.", "quantifier": "for all visits, cuts, extinctions, counts and bad values", "why_tests_cant": "Depends on which of four cuts fails and on the bad value of an inner metric.", "anchors": ["rubin_sim/maf/maf_contrib/depth_limited_num_gal_metric.py:DepthLimitedNumGalMetric.run"]}
{"id": "C464", "title": "Normalization of a spectrum to a magnitude", "statement": "get_imsim_flux_norm gives the one positive factor by which a spectrum must be multiplied so that its magnitude in the imsim bandpass is the wanted one, and raises RuntimeError exactly if the spectrum does not cover the wavelength of the bandpass.", "quantifier": "for all spectra with positive flux there, wavelengths, zero points and magnitudes", "why_tests_cant": "Inverse of a real function over all spectra.", "anchors": ["rubin_sim/phot_utils/sed_utils.py:get_imsim_flux_norm"]}
{"id": "C465", "title": "Column dictionaries and the observations that are read", "statement": "col_map_dict finds the dictionaries whatever the case of their names, the default is FBS, and other names raise ValueError; read_observations works with each of them, asks once for each needed column, each column of the caller, the solar elongation and the identifier, raises KeyError if a key is missing, and changes the caller's dictionary only by adding rotSkyPos.", "quantifier": "for all names, dictionaries and lists of columns", "why_tests_cant": "All dictionaries a caller can make, including those with missing keys.", "anchors": ["rubin_sim/maf/batches/col_map_dict.py:col_map_dict", "rubin_sim/moving_objects/utils.py:read_observations"]}
{"id": "C466", "title": "Star count metrics", "statement": "As it is: StarCountMetric.run calls the module starcount instead of its function, so that it raises TypeError for all data; StarCountMassMetric.run takes the third and fourth column of the first visit for its position, whatever they are, so that its result depends on the order of the columns.", "quantifier": "for all data and all count functions", "why_tests_cant": "A failure for every input and a dependence on the order of columns; there is no test of either metric.", "anchors": ["rubin_sim/maf/maf_contrib/star_count_metric.py:StarCountMetric.run", "rubin_sim/maf/maf_contrib/star_count_mass_metric.py:StarCountMassMetric.run", "rubin_sim/maf/maf_contrib/star_counts/__init__.py:__all__"]}
{"id": "C467", "title": "Visible time of a field, fast version", "statement": "calculate_lsst_field_visibility_fast gives the sampled dates between start and end at which the field is at least at the minimum altitude and the sun not above its limit, in order, and the sampling interval times their number as the visible time; stricter limits never give more time, and the time is at most that between start and end. The last part is false: an always visible field gets one interval more.", "quantifier": "for all altitudes of field and sun as functions of time, all dates, limits and rates", "why_tests_cant": "The claims are about every function of time and every sampling rate.", "anchors": ["rubin_sim/maf/maf_contrib/calculate_lsst_field_visibility_astropy.py:calculate_lsst_field_visibility_fast"]}
{"id": "C468", "title": "Visible time of a field per night", "statement": "calculate_lsst_field_visibility gives one entry for each date, which is the number of hours of the samples at which the sun is below its limit and the field high enough, and the sum of the entries is 24 times the total. False: if the sun is never below the limit on one of the dates it raises ValueError instead of giving zero.", "quantifier": "for all altitudes of field and sun as functions of time, all dates, limits and rates", "why_tests_cant": "Needs dates without night; tests use none.", "anchors": ["rubin_sim/maf/maf_contrib/calculate_lsst_field_visibility_astropy.py:calculate_lsst_field_visibility"]}
{"id": "C469", "title": "Merged sky templates", "statement": "The magnitude that merged_spec writes is that of the sum of the fluxes of the components with a magnitude, whatever zero point is used on the way; it is not fainter than any component, a single component keeps its magnitude, and two equal ones are brighter by 2.5 log 2.", "quantifier": "for all magnitudes and zero points", "why_tests_cant": "An identity of real functions.", "anchors": ["rubin_sim/skybrightness/data/ESO_Spectra/eso_tools.py:merged_spec"]}
{"id": "C470", "title": "Templates split over files", "statement": "The files that a table of templates is split into hold together all rows in order, and their sizes differ by at most one; loading them sorted by name gives the table back for the five files of the moon and the three of the zodiacal light. (It would not for eleven.)", "quantifier": "for all tables", "why_tests_cant": "For every length of the table, also those not divisible by the number of files.", "anchors": ["rubin_sim/skybrightness/data/ESO_Spectra/eso_tools.py:generate_moon", "rubin_sim/skybrightness/data/ESO_Spectra/eso_tools.py:generate_zodi", "rubin_sim/skybrightness/interp_components.py:load_spec_files", "rubin_sim/skybrightness/interp_components.py:BaseSingleInterp.__init__"]}
{"id": "C471", "title": "Index of a template", "statement": "The reader of the zodiacal light takes row (airmass index) * (number of pixels) + pixel and that of the moon row (separation index) * pixels * altitudes + (altitude index) * pixels + (pixel index): in the sorted tables these are the templates for those values.", "quantifier": "for all grids with increasing values, whatever sorting is used", "why_tests_cant": "For every grid, not only that of the files that are shipped.", "anchors": ["rubin_sim/skybrightness/data/ESO_Spectra/eso_tools.py:generate_moon", "rubin_sim/skybrightness/data/ESO_Spectra/eso_tools.py:generate_zodi", "rubin_sim/skybrightness/interp_components.py:ZodiacalInterp._weighting", "rubin_sim/skybrightness/interp_components.py:MoonInterp._weighting"]}
{"id": "C472", "title": "Regenerated templates and their readers", "statement": "As it is: a table of the airglow as generate_airglow writes it cannot be read, because its column is solar_flux and the reader wants solarFlux, and those of all other components can; the zodiacal light that is found at an ecliptic latitude is the one that was computed for the opposite latitude.", "quantifier": "for all components and latitudes", "why_tests_cant": "The generator needs an external program, so that no test regenerates a table.", "anchors": ["rubin_sim/skybrightness/data/ESO_Spectra/eso_tools.py:generate_airglow", "rubin_sim/skybrightness/data/ESO_Spectra/eso_tools.py:generate_zodi", "rubin_sim/skybrightness/interp_components.py:Airglow.__init__", "rubin_sim/skybrightness/interp_components.py:ZodiacalInterp._weighting"]}
{"id": "C473", "title": "Measured sky brightnesses", "statement": "all_sky_db gives the observations in the filter on the date, each with its star, and the time of that date or None; diode_sky_db gives the measurements strictly within a day of the time, and if clean only those with three positive values. False: the argument of all_sky_db is documented as a date, but is the number of a date in the database. diode_sky_db without an address raises TypeError unless a variable of an older package is set.", "quantifier": "for all contents of the tables", "why_tests_cant": "For every database; tests have no such file.", "anchors": ["rubin_sim/skybrightness/allsky_db.py:all_sky_db", "rubin_sim/skybrightness/allsky_db.py:diode_sky_db"]}
{"id": "C474", "title": "Images at a point", "statement": "If the radius of HealpixSDSSSlicer is at least the distance from the first corner of an image to any of its points, the images at a slice point are exactly those that contain it, each once; with any radius none is given that does not contain it.", "quantifier": "for all images, points, radii and orders in which the tree gives the neighbours", "why_tests_cant": "The tree gives neighbours in any order.", "anchors": ["rubin_sim/maf/slicers/healpix_sdss_slicer.py:HealpixSDSSSlicer.setup_slicer"]}
{"id": "C475", "title": "Night and hours by the clock", "statement": "_compute_hours_after_midnight gives the night that began at the last noon and the hours from its midnight, from -12 to 12: the time is the midnight at the end of the night's day plus the hours, which determine each other; within a night later times have larger hours.", "quantifier": "for all times", "why_tests_cant": "For all real times, in particular those at and next to noon.", "anchors": ["rubin_sim/maf/plots/hg_plotters.py:_compute_hours_after_midnight"]}
{"id": "C476", "title": "Night and hours by the sun", "statement": "_compute_hours_after_solar_midnight gives hours from mean solar midnight, from -12 to 12, and the night in which the time is. The second part is false: the night is by the clock, so between the noon of the clock and that of the sun the time is drawn in the row before or after its own.", "quantifier": "for all times, longitudes and time zones", "why_tests_cant": "Fails only for times in a short interval about noon; otherwise holds for all.", "anchors": ["rubin_sim/maf/plots/hg_plotters.py:_compute_hours_after_solar_midnight"]}
{"id": "C477", "title": "Rows of a month", "statement": "In the plot of a month a block is on the row of the day of the month in whose evening its night began; each block is in exactly one month. False at the edges: the month is cut at noon UTC and not noon of the clock, so that a block between the two is on a row outside of the axis; one at noon UTC of the first day is in no month.", "quantifier": "for all months, times and time zones", "why_tests_cant": "Fails only for times between two noons on one day of the month.", "anchors": ["rubin_sim/maf/plots/hg_plotters.py:GeneralHourglassPlot._plot_dates", "rubin_sim/maf/plots/hg_plotters.py:GeneralHourglassPlot._plot_month", "rubin_sim/maf/plots/hg_plotters.py:GeneralHourglassPlot._plot_value_bars"]}
{"id": "C478", "title": "Colours of values and the colour bar", "statement": "The colour of a block is the place of its value between the limits of the colour bar, in every month of a year. False without limits: each month has its own and the bar is that of the last month, or there is none if that month is empty; a month in which all values are equal is an error, also with limits.", "quantifier": "for all values and limits", "why_tests_cant": "Any number of values and months.", "anchors": ["rubin_sim/maf/plots/hg_plotters.py:GeneralHourglassPlot._map_colors", "rubin_sim/maf/plots/hg_plotters.py:YearHourglassPlot._plot"]}
{"id": "C479", "title": "Colours of categories", "statement": "If there are enough colours every category has one, that is the assigned one if there is one, not gray, and different from those of the others; with too few colours it is an IndexError, and a gray one that is assigned is a KeyError. In a year assigned colours are the same in each month. False for others: their colours differ from month to month, although the legend has that of the last month.", "quantifier": "for all colour maps of different colours, categories and assignments of different colours", "why_tests_cant": "For every set of categories and every assignment.", "anchors": ["rubin_sim/maf/plots/hg_plotters.py:_assign_category_colors", "rubin_sim/maf/plots/hg_plotters.py:CategoricalHourglassPlotMixin._map_colors"]}
{"id": "C480", "title": "Legend", "statement": "With legend_elements the legend has those of them that exist, in that order, with the handle of the axes or else the coloured patch; without, every label once.", "quantifier": "for all patches, handles and lists of elements", "why_tests_cant": "Any collision of labels.", "anchors": ["rubin_sim/maf/plots/hg_plotters.py:GeneralHourglassPlot._add_figure_legend"]}
{"id": "C481", "title": "Lines that do not wrap", "statement": "The transits and moon rise and set are drawn as lines that together have all points in order; the hours along each do not decrease, and there are just as many lines as that needs: one more than the number of times the hours decrease.", "quantifier": "for all lists of hours", "why_tests_cant": "For every pattern of wrapping.", "anchors": ["rubin_sim/maf/plots/hg_plotters.py:_astron_hourglass"]}
{"id": "C482", "title": "Times of transit", "statement": "For a body whose hour angle grows by 360 r degrees in a day, 0 < r < 2, _compute_coord_transit_mjds moves the time by at most half a day and leaves the hour angle times 1 - r; after the three steps of the moon it is the third power of 1 - r times that at the beginning, at most 180 degrees times that power.", "quantifier": "for all hour angles, rates and times", "why_tests_cant": "Convergence for every starting time, also near the wrap.", "anchors": ["rubin_sim/maf/plots/hg_plotters.py:_compute_coord_transit_mjds", "rubin_sim/maf/plots/hg_plotters.py:_compute_moon_transit_mjds"]}
{"id": "C483", "title": "Lines and bars on the same row", "statement": "The lines of twilight and transits for a night are on the row of its bars. False unless the axis begins at one half, the default for months: with another y_min they are shifted by the difference.", "quantifier": "for all lower limits, reference dates and nights", "why_tests_cant": "For every lower limit.", "anchors": ["rubin_sim/maf/plots/hg_plotters.py:GeneralHourglassPlot._plot_one_axis", "rubin_sim/maf/plots/hg_plotters.py:_astron_hourglass"]}
{"id": "C484", "title": "Plots for a range of dates", "statement": "As it is: GeneralHourglassPlot and RangeHourglassPlot always end in an error (the labels are added with one argument too many), month and year plots do not for that reason.", "quantifier": "for all data", "why_tests_cant": "Whatever happens while the data are drawn.", "anchors": ["rubin_sim/maf/plots/hg_plotters.py:GeneralHourglassPlot._plot", "rubin_sim/maf/plots/hg_plotters.py:RangeHourglassPlot._plot", "rubin_sim/maf/plots/hg_plotters.py:GeneralHourglassPlot._add_axis_labels"]}
{"id": "C485", "title": "Stackers, summary metrics and plotters of a bundle", "statement": "A MetricBundle takes one stacker, summary metric or plotter or a list of them, and anything else in the list is a ValueError; None in a list of stackers is passed over; without summary metrics it has the Identity for the UniSlicer and none for others, and without plotters those of the slicer. False for one plotter that is not in a list: it is a TypeError.", "quantifier": "for all arguments", "why_tests_cant": "Lists of any length with wrong items anywhere.", "anchors": ["rubin_sim/maf/metric_bundles/metric_bundle.py:MetricBundle.set_summary_metrics", "rubin_sim/maf/metric_bundles/metric_bundle.py:MetricBundle.set_plot_funcs", "rubin_sim/maf/metric_bundles/metric_bundle.py:MetricBundle.__init__"]}
{"id": "C486", "title": "Plot dictionary", "statement": "An entry of the plot dictionary is that of the last call that had one; a zero point that is not finite and a norm of zero are never in it, whatever the calls (an earlier good value is removed with them). A reduced bundle has all entries of its parent unless others are given. False, as the comment says: except for title and labels of the axes.", "quantifier": "for all sequences of calls", "why_tests_cant": "Any number of calls with any dictionaries.", "anchors": ["rubin_sim/maf/metric_bundles/metric_bundle.py:MetricBundle.set_plot_dict", "rubin_sim/maf/metric_bundles/metric_bundle.py:MetricBundle.reduce_metric"]}
{"id": "C487", "title": "Display dictionary and caption", "statement": "An entry of the display dictionary is that of the last call that had one, else the default; after any calls there are group, subgroup, order and a caption that is not None. A caption that is made has the comment, or else name, slicer and constraint, and the zero point and norm of the plots. False after a change of the plot dictionary: the caption stays. False for a zero point of None, which set_plot_dict allows for: it is a TypeError. A reduced bundle has the caption of its parent, and the order of its function unless another is given.", "quantifier": "for all sequences of calls", "why_tests_cant": "Any number of calls with any dictionaries.", "anchors": ["rubin_sim/maf/metric_bundles/metric_bundle.py:MetricBundle.set_display_dict", "rubin_sim/maf/metric_bundles/metric_bundle.py:MetricBundle.reduce_metric"]}
{"id": "C488", "title": "Label from the constraint", "statement": "A label that is given is the label; otherwise it is made of the characters of the constraint, without equal signs and quotes and without blanks at the ends; that of the selection of a band is the band. False: that it has no double blanks; and that bundles of different constraints have different files: equal signs make no difference, so <= and < have the same.", "quantifier": "for all constraints", "why_tests_cant": "For every text.", "anchors": ["rubin_sim/maf/metric_bundles/metric_bundle.py:MetricBundle._build_metadata", "rubin_sim/maf/metric_bundles/metric_bundle.py:MetricBundle._build_file_root"]}
{"id": "C489", "title": "Bundles written and read", "statement": "MetricBundle.read of what write wrote gives the name of the metric, run, constraint, values, summary values, the label with the comment, the plot dictionary and the display dictionary, and the root of the name of the file (with the suffix). False for the units of the metric, which are read only if they are in the plot dictionary.", "quantifier": "for all bundles, comments and suffixes", "why_tests_cant": "For every bundle.", "anchors": ["rubin_sim/maf/metric_bundles/metric_bundle.py:MetricBundle.write", "rubin_sim/maf/metric_bundles/metric_bundle.py:MetricBundle.read"]}
{"id": "C490", "title": "File in the results database", "statement": "write with a results database makes a row that names the file that was written. True without a suffix and if there was no row of the same metric; false with a suffix, and if there was one, as after set_display_dict with the database, it stays and names none.", "quantifier": "for all databases and bundles", "why_tests_cant": "For every state of the database.", "anchors": ["rubin_sim/maf/metric_bundles/metric_bundle.py:MetricBundle.write", "rubin_sim/maf/metric_bundles/metric_bundle.py:MetricBundle.write_db", "rubin_sim/maf/metric_bundles/metric_bundle.py:MetricBundle.set_display_dict"]}
{"id": "C491", "title": "Plots of a bundle", "statement": "MetricBundle.plot makes a figure for each type of the plotters of the bundle, which is that of the last plotter of the type. False for a plotter that is given: AttributeError.", "quantifier": "for all lists of plotters", "why_tests_cant": "Any number of plotters of equal types.", "anchors": ["rubin_sim/maf/metric_bundles/metric_bundle.py:MetricBundle.plot"]}
{"id": "C492", "title": "Bundles that are run for a constraint", "statement": "set_current selects the bundles with the constraint (None is the empty one) and the columns that any of them needs; run_all runs each bundle once, and the reduced bundles that are made on the way are not run.", "quantifier": "for all groups and constraints", "why_tests_cant": "Any number of bundles, constraints and reduce functions.", "anchors": ["rubin_sim/maf/metric_bundles/metric_bundle_group.py:MetricBundleGroup.set_current", "rubin_sim/maf/metric_bundles/metric_bundle_group.py:MetricBundleGroup.run_all"]}
{"id": "C493", "title": "Reduced bundles in the group", "statement": "After reduce_current each reduced bundle is in the group and among the current ones, under its name, or the root of its file if the name is that of a bundle in the group, and the others stay. False for two bundles whose metrics have the same name (on different slicers): only the last of the two reduced bundles is kept.", "quantifier": "for all groups and reduce functions", "why_tests_cant": "Any number of bundles.", "anchors": ["rubin_sim/maf/metric_bundles/metric_bundle_group.py:MetricBundleGroup.reduce_current"]}
{"id": "C494", "title": "Plots of a group", "statement": "plot_current plots every bundle except those for which there is a ValueError, which is a warning; another error ends it and the bundles after it are not plotted.", "quantifier": "for all lists of bundles and errors", "why_tests_cant": "Any order of errors.", "anchors": ["rubin_sim/maf/metric_bundles/metric_bundle_group.py:MetricBundleGroup.plot_current"]}
{"id": "C495", "title": "Points on a circle", "statement": "compute_circle_points gives the points of an arc in steps of the bearing, up to its end, with right ascensions that differ from those of the points by whole turns and have no large jumps. True for steps that divide the arc and within one turn on either side; false for other steps, where the last point is past the end, and for more than a turn round a pole, where there is a jump of a turn.", "quantifier": "for all arcs, steps and sequences of right ascensions", "why_tests_cant": "Any number of points; a jump comes only after the first turn.", "anchors": ["rubin_sim/maf/plots/skyproj_plotters.py:compute_circle_points"]}
{"id": "C496", "title": "One projection for each part of a figure", "statement": "Plots in the same part of the same figure share one projection, whichever of the two forms names the part and whatever is drawn in between; it has the arguments of the first call, and a call for another class is an AssertionError. Different parts and figures never share one.", "quantifier": "for all sequences of calls", "why_tests_cant": "Any number of calls in any order.", "anchors": ["rubin_sim/maf/plots/skyproj_plotters.py:SkyprojPlotter._prepare_skyproj"]}
{"id": "C497", "title": "Values of points on a healpix grid", "statement": "For slicers without healpixels the map has in each pixel the reduced values of the points in it that are not masked, and is masked where there are none. True for pixels without masked points; false for others: a masked point takes part with the bad value of the slicer.", "quantifier": "for all points, values and reductions", "why_tests_cant": "For any number of points in a pixel.", "anchors": ["rubin_sim/maf/plots/skyproj_plotters.py:HpxmapPlotter._transform_to_healpix", "rubin_sim/maf/plots/spatial_plotters.py:HealpixSkyMap.__call__"]}
{"id": "C498", "title": "Scale and limits of the colours of a map", "statement": "log_scale makes the scale logarithmic, or is a ValueError if another norm is given; limits from the data or the dictionary that have zero between or at them are not passed to a logarithmic scale, others always are, before those in draw_hpxmap_kwargs; with mask_below only the values above it are drawn. The colour bar is at the right if it is vertical, below if horizontal, and other orientations are refused.", "quantifier": "for all norms, limits and maps", "why_tests_cant": "For every map.", "anchors": ["rubin_sim/maf/plots/skyproj_plotters.py:HpxmapPlotter.draw", "rubin_sim/maf/plots/skyproj_plotters.py:HpxmapPlotter._compatible_color_limits", "rubin_sim/maf/plots/skyproj_plotters.py:HpxmapPlotter.draw_colorbar"]}
{"id": "C499", "title": "Files from before version 1.0", "statement": "Reading such a file gives each saved argument of the slicer under its new name (the columns of the position from spatialkey1 and spatialkey2 first), the others as they were, and the header with the new names; a single argument that the class does not have makes it the default slicer, with none of them.", "quantifier": "for all saved dictionaries", "why_tests_cant": "For every combination of old and new names.", "anchors": ["rubin_sim/maf/slicers/base_slicer.py:BaseSlicer.read_backwards_compatible"]}
{"id": "C500", "title": "Radar plots", "statement": "The axes are at even distances over a turn, each at its own angle, the first at the top; the line of a run goes through all its values and closes if there are two or more metrics; the corners of the frame are on the circle; colours are one for each run, and too few are an IndexError.", "quantifier": "for all numbers of metrics and runs", "why_tests_cant": "For any number of axes.", "anchors": ["rubin_sim/maf/run_comparison/radar_plot.py:_radar_factory", "rubin_sim/maf/run_comparison/radar_plot.py:_unit_poly_verts", "rubin_sim/maf/run_comparison/radar_plot.py:radar"]}
{"id": "C501", "title": "Plot of binned data", "statement": "OneDBinnedData draws over each bin a line at its value, and leaves out masked bins, or draws them at the fill value with filled_data. The y axis starts at zero if that is the least value: true without masked values, false with them. False that the defaults are enough: without a colour it is a KeyError.", "quantifier": "for all bins and values", "why_tests_cant": "For any number of bins.", "anchors": ["rubin_sim/maf/plots/oned_plotters.py:OneDBinnedData.__call__"]}
{"id": "C502", "title": "Histogram of the distances of near-Earth objects", "statement": "Each cell has the number of objects within the limits of ecliptic latitude whose direction is nearest to that of the cell and which are seen as far as the cell; so there are not more farther out, and each direction is within half a step of a cell. False that the directions are a step apart: the first and the last are half a degree apart and overlap.", "quantifier": "for all objects and grids", "why_tests_cant": "For any number of objects.", "anchors": ["rubin_sim/maf/plots/neo_distance_plotter.py:NeoDistancePlotter.__call__"]}
{"id": "C503", "title": "Downloads of runs", "statement": "After download_runs every run has its file; without clobber files that exist are not changed, otherwise the file has what is at the address of the run, and other files stay. A directory that does not exist is a FileNotFoundError. False that it returns the metadata of the runs: it returns the names of the files.", "quantifier": "for all tables of runs and states of the directory", "why_tests_cant": "Any number of runs, also of the same file.", "anchors": ["rubin_sim/maf/run_comparison/archive.py:download_runs"]}
{"id": "C504", "title": "Tables of families", "statement": "The table that describe_families shows has the metrics of the subset under their short names, and the path of the file if there are no more than two; a metric that the summary does not have is a KeyError; without a summary there are no metrics. False that without a subset there are none: then all metrics of the summary are in the table.", "quantifier": "for all summaries and subsets", "why_tests_cant": "For every number of metrics.", "anchors": ["rubin_sim/maf/run_comparison/archive.py:describe_families"]}
{"id": "C505", "title": "Plot of families", "statement": "The plot of describe_families has the runs of the families and the run to compare with, each once if they differ, and the metrics of the subset that the summary has; a run that the summary does not have is a KeyError. False that the summary may be left out: AttributeError.", "quantifier": "for all lists of runs and metrics", "why_tests_cant": "For every list.", "anchors": ["rubin_sim/maf/run_comparison/archive.py:describe_families"]}
{"id": "C506", "title": "When bundles share a file name", "statement": "Two bundles of the same run, label and slicer have the same file_root exactly if the names of their metrics are the same once made fit for file names between underscores; likewise for labels and runs. make_bundles_dict_from_list keeps every bundle under its file_root in the order given, and raises NameError exactly if two are the same.", "quantifier": "for all names, labels, runs and lists of bundles", "why_tests_cant": "Names are arbitrary text and different texts can give the same file name.", "anchors": ["rubin_sim/maf/metric_bundles/metric_bundle.py:MetricBundle._build_file_root", "rubin_sim/maf/metric_bundles/metric_bundle_group.py:make_bundles_dict_from_list"]}
{"id": "C507", "title": "Batches with one bundle per band", "statement": "A batch with one bundle per band and metric never fails with NameError if the names of its metrics give different file names: the labels of two bands never do clash, whatever run, metric, condition or label is given. So altazHealpix gives seven bundles and seasons fifteen.", "quantifier": "for all names of runs and metrics, labels, conditions and slicers", "why_tests_cant": "Labels, conditions and names are arbitrary text that is rewritten in the file name.", "anchors": ["rubin_sim/maf/batches/common.py:filter_list", "rubin_sim/maf/batches/altaz_batch.py:altazHealpix", "rubin_sim/maf/batches/time_batch.py:seasons"]}
{"id": "C508", "title": "Bundles of the gaps between visits", "statement": "timeGaps gives twenty-eight bundles, with no NameError, and the histograms of gaps are in the subgroup asked for. False for the histograms of the single bands, which are in 'Gaps Sampling'; only that of all bands is in the subgroup.", "quantifier": "for all subgroups, labels, conditions, slicers and runs", "why_tests_cant": "State is passed from one pass of the loop to the next.", "anchors": ["rubin_sim/maf/batches/time_batch.py:timeGaps"]}
{"id": "C509", "title": "Bundles of metadata", "statement": "metadataBasics works for any quantity, condition, label and slicer, with ninety-eight bundles of different file names. False for a UniSlicer, with which there is always a NameError.", "quantifier": "for all quantities, labels, conditions, runs and slicers", "why_tests_cant": "The quantity is part of all names.", "anchors": ["rubin_sim/maf/batches/metadata_batch.py:metadataBasics"]}
{"id": "C510", "title": "Bundles of slews", "statement": "slewBasics gives nine bundles (seven without column of distances) of different file names, all under the condition given; the statistics are labelled with the condition. The histograms are labelled 'All visits' whatever the condition, so that batches under different conditions write to the same files.", "quantifier": "for all columns, conditions and runs", "why_tests_cant": "For any two conditions.", "anchors": ["rubin_sim/maf/batches/slew_batch.py:slewBasics"]}
{"id": "C511", "title": "Bundles of filter changes", "statement": "filtersPerNight and filtersWholeSurvey give six bundles each, of different file names also together; the label tells the condition if no label is given. The number of changes in the whole survey is never named 'Total Filter Changes' as setupMetrics provides.", "quantifier": "for all columns, numbers of nights, labels, conditions and runs", "why_tests_cant": "The column is part of the names.", "anchors": ["rubin_sim/maf/batches/filterchange_batch.py:setupMetrics", "rubin_sim/maf/batches/filterchange_batch.py:filtersPerNight", "rubin_sim/maf/batches/filterchange_batch.py:filtersWholeSurvey"]}
{"id": "C512", "title": "Open shutter, and number of nights", "statement": "openshutterFractions gives four bundles of different file names, among them the number of nights with visits and the 'Number of nights from start to finish of survey'. False for the latter: it is one less than the number of nights from the first to the last.", "quantifier": "for all columns, labels, conditions, runs and nights", "why_tests_cant": "For any set of nights.", "anchors": ["rubin_sim/maf/batches/openshutter_batch.py:openshutterFractions"]}
{"id": "C513", "title": "Summary of light curves", "statement": "lightcurve_summary gives the total detected, the numbers of light curves in the footprint and on the sky, and the fractions, which are the total divided by the numbers; the fraction of all is at most that in the footprint and both are between 0 and 1. False without light curves in the footprint: the total is then the bad value, not zero.", "quantifier": "for all values of a metric with any points masked", "why_tests_cant": "For any number of values and masked points.", "anchors": ["rubin_sim/maf/batches/common.py:lightcurve_summary", "rubin_sim/maf/metric_bundles/metric_bundle.py:MetricBundle.compute_summary_stats"]}
{"id": "C514", "title": "Summary of microlensing", "statement": "microlensing_summary raises an exception for types other than Npts and Fisher; it gives the fraction of events with more than npts_required observations, or with an uncertainty less than the cutoff. False at equality, which is counted in both cases (so named in one). The mean of the uncertainties over all light curves takes those without value as zero.", "quantifier": "for all values, thresholds and types", "why_tests_cant": "For any number of values.", "anchors": ["rubin_sim/maf/batches/common.py:microlensing_summary"]}
{"id": "C515", "title": "What is in the cache of spectra", "statement": "The cache that is generated has exactly the compressed files of the five sub directories of the library that can be read, each under its full path and with its content, however few files there are.", "quantifier": "for all libraries, paths and contents", "why_tests_cant": "Exceptions are passed over file by file, and the report of progress divides by a number that can be zero.", "anchors": ["rubin_sim/phot_utils/sed.py:_generate_sed_cache"]}
{"id": "C516", "title": "A cache that was just generated is accepted", "statement": "_validate_sed_cache accepts a dictionary exactly if there is a compressed spectrum of a star or a galaxy and all of them are in it; so it accepts the cache that was just generated exactly if all of these can be read. False when the data directory is given by a relative path, as paths are joined twice.", "quantifier": "for all libraries, paths and dictionaries", "why_tests_cant": "Depends on how the data directory is written.", "anchors": ["rubin_sim/phot_utils/sed.py:_validate_sed_cache", "rubin_sim/phot_utils/sed.py:_generate_sed_cache"]}
{"id": "C517", "title": "When the checks of the cache fail", "statement": "If the checks of the cache fail, the cache is set to None and the program goes on, as the comment in cache_lsst_seds says. False: the call always ends with AttributeError, and the cache that was refused stays in place.", "quantifier": "for all libraries that fail the checks", "why_tests_cant": "The branch is only reached with a damaged library.", "anchors": ["rubin_sim/phot_utils/sed.py:cache_lsst_seds"]}
{"id": "C518", "title": "The cache of spectra is used again", "statement": "After the cache was written, the next call uses the file. False if the path of the library has white space: then, and only then, the cache is generated again each time.", "quantifier": "for all paths of the library", "why_tests_cant": "Paths are arbitrary text that is split at white space.", "anchors": ["rubin_sim/phot_utils/sed.py:cache_lsst_seds", "rubin_sim/phot_utils/sed.py:_generate_sed_cache"]}
{"id": "C519", "title": "Objects that a pickled cache may name", "statement": "SedUnpickler finds ndarray and dtype of numpy and _reconstruct of numpy.core.multiarray, and nothing else: a pickle that names any other object is refused with RuntimeError. As numpy 2 has _reconstruct in numpy._core.multiarray, there the second call of cache_lsst_seds always ends with RuntimeError on the file that the first has written.", "quantifier": "for all modules, names, pickles and libraries", "why_tests_cant": "Security of all possible pickles.", "anchors": ["rubin_sim/phot_utils/sed.py:SedUnpickler.find_class", "rubin_sim/phot_utils/sed.py:cache_lsst_seds"]}
{"id": "C520", "title": "A library that was updated", "statement": "When sims_sed_library is updated a new cache is generated, as the comment in _generate_sed_cache says. False if it is updated in the same directory: what was cached is used whatever the library has become, and the call can end without complaint.", "quantifier": "for all libraries before and after", "why_tests_cant": "Needs two versions of the library.", "anchors": ["rubin_sim/phot_utils/sed.py:_generate_sed_cache", "rubin_sim/phot_utils/sed.py:cache_lsst_seds"]}
{"id": "C521", "title": "Limits of the wavelengths in the cache", "statement": "With wavelen_min or wavelen_max the cache in memory has the same names, and of each spectrum the samples within the limits, both included, in order and with their multiplicity; the file on disk is not limited.", "quantifier": "for all limits, libraries and spectra", "why_tests_cant": "All spectra and limits.", "anchors": ["rubin_sim/phot_utils/sed.py:cache_lsst_seds"]}
{"id": "C522", "title": "Equality of spectra", "statement": "Two Sed are equal exactly if name, zeropoint, bad value and the three arrays agree, where values that are not a number agree with each other. False for an empty flux, which equals None from one side only, as one of the conditions is written twice.", "quantifier": "for all spectra", "why_tests_cant": "Three optional arrays with values that are not numbers.", "anchors": ["rubin_sim/phot_utils/sed.py:Sed.__eq__"]}
{"id": "C523", "title": "A spectrum that was cleared", "statement": "A Sed that was cleared and read again is the same as one that was just made and read. False: clear_sed sets the zeropoint to -8.9, which is not -2.5 log10(3631), and keeps the bad value.", "quantifier": "for all spectra and files", "why_tests_cant": "The two numbers differ in the fifth digit.", "anchors": ["rubin_sim/phot_utils/sed.py:Sed.clear_sed", "rubin_sim/phot_utils/sed.py:Sed.__init__"]}
{"id": "C524", "title": "Names of stellar templates", "statement": "From a name such as km01_7000.fits_g40_7140.gz, with any digits in the four places, read_close__kurucz reads sign and digits of the metallicity, the digits of the surface gravity, and as temperature the digits at its end.", "quantifier": "for all digits and both signs", "why_tests_cant": "All names of that form.", "anchors": ["rubin_sim/phot_utils/sed.py:read_close__kurucz"]}
{"id": "C525", "title": "The closest template", "statement": "The templates that match are those of the least difference in temperature, among these of the least difference in metallicity, and among these of the least difference in surface gravity; there is always one.", "quantifier": "for all tables and parameters", "why_tests_cant": "All tables, with ties.", "anchors": ["rubin_sim/phot_utils/sed.py:read_close__kurucz"]}
{"id": "C526", "title": "Reading the closest template", "statement": "read_close__kurucz returns the closest template. False: the size of a comparison of names with the number 1 is taken, so every call ends with TypeError, or with ValueError if there are no templates. A path of more than 200 characters would not be stored as it is.", "quantifier": "for all tables and parameters", "why_tests_cant": "Every call raises.", "anchors": ["rubin_sim/phot_utils/sed.py:read_close__kurucz"]}
{"id": "C527", "title": "The array of many bandpasses", "statement": "setup_phi_array puts all curves onto one grid, from the least wavelength by the first step of the first curve, with zero where a curve is not known. False if the width of the range exceeds a whole number of steps by at most half a step: then, and only then, it raises, as two sizes are computed in different ways.", "quantifier": "for all lists of curves", "why_tests_cant": "Depends on the fraction of a step that is left over.", "anchors": ["rubin_sim/phot_utils/sed.py:Sed.setup_phi_array", "rubin_sim/phot_utils/bandpass.py:Bandpass.resample_bandpass"]}
{"id": "C528", "title": "Segments of the hourglass plot", "statement": "HourglassPlot draws successive pairs of rows, and an odd number of rows is an IndexError. For what HourglassMetric returns it draws one segment for each block of visits, from the first to the last visit of the block.", "quantifier": "for all rows and visits", "why_tests_cant": "All numbers of rows.", "anchors": ["rubin_sim/maf/plots/hourglass_plotters.py:HourglassPlot.__call__", "rubin_sim/maf/metrics/hourglass_metric.py:HourglassMetric.run"]}
{"id": "C529", "title": "Whose values get_computed_vals reports", "statement": "All values that get_computed_vals reports belong to the conditions that were set last. False: set_params leaves the position on the sky, the azimuth relative to the sun and the positions of sun and moon of an earlier call in place, a component that is off leaves its values, and a call that is refused has replaced the position already.", "quantifier": "for all sequences of calls, components and values", "why_tests_cant": "State is kept between calls, and which call wrote which attribute depends on the whole history.", "anchors": ["rubin_sim/skybrightness/sky_model.py:SkyModel.get_computed_vals", "rubin_sim/skybrightness/sky_model.py:SkyModel.set_params", "rubin_sim/skybrightness/sky_model.py:SkyModel.set_ra_dec_mjd", "rubin_sim/skybrightness/sky_model.py:SkyModel._setup_point_grid"]}
{"id": "C530", "title": "New magnitudes in the files of the sky model", "statement": "recalc_mags rewrites exactly the npz files of its seven directories: spectra, wavelengths and other columns stay, the six magnitudes of a spectrum are those of calc_mag and zero where that raises ValueError, other arrays of the file are lost; a second run changes nothing.", "quantifier": "for all files, spectra and bandpasses", "why_tests_cant": "Overwrites files in place, with exceptions passed over.", "anchors": ["rubin_sim/skybrightness/utils.py:recalc_mags", "rubin_sim/skybrightness/utils.py:spec2mags"]}
{"id": "C531", "title": "The entry of the table of rates that is used", "statement": "For a triplet with magnitude change and color in the range of the bins and a pair of bands of the table, _enquiry gives the rate of the nearest times and of the bins with the values; outside the range it gives zero. False when the table does not have all pairs of its two grids of times: the nearest ones are chosen apart from each other, and a pair that is not there is an IndexError.", "quantifier": "for all tables, grids and triplets", "why_tests_cant": "Depends on the grid that comes with the table.", "anchors": ["rubin_sim/maf/maf_contrib/presto_color_kne_pop_metric.py:PrestoColorKNePopMetric._enquiry"]}
{"id": "C532", "title": "When the presto metric gives scores", "statement": "The scores are zero unless there are three detections in the thirty days after the peak, in two bands, two of them in one; then they are the scores of the whole light curve below magnitude 100, not only of those days.", "quantifier": "for all light curves and visits", "why_tests_cant": "Depends on counts in a window.", "anchors": ["rubin_sim/maf/maf_contrib/presto_color_kne_pop_metric.py:PrestoColorKNePopMetric.run"]}
{"id": "C533", "title": "The telescopes for follow up", "statement": "find_telescopes returns those of its list that are at least as large as asked for, each at the place of its table: degrees and minutes to the side of the sign. It always returns, and a larger limit gives a part of the list.", "quantifier": "for all sizes", "why_tests_cant": "The sign of a position goes through a division.", "anchors": ["rubin_sim/maf/stackers/n_follow_stacker.py:find_telescopes"]}
{"id": "C534", "title": "Tables of metrics that a user makes", "statement": "create_metric_subset gives one row for each metric, in order, with the name of the subset, the short names or else the names, and the styles and flags, one for all or one each; it raises exactly if a list has another length.", "quantifier": "for all names, lists and values", "why_tests_cant": "Broadcasting of single values against lists.", "anchors": ["rubin_sim/maf/run_comparison/archive.py:create_metric_subset"]}
{"id": "C535", "title": "Columns of the descriptions of families", "statement": "get_family_descriptions returns the columns of its file, those of the families in their order and then run, brief, filepath and url; a file without one of these is a KeyError.", "quantifier": "for all columns", "why_tests_cant": "Depends on the content of the file.", "anchors": ["rubin_sim/maf/run_comparison/archive.py:get_family_descriptions"]}
{"id": "C536", "title": "The file that gather_summaries writes", "statement": "With --to_csv a CSV file, otherwise an hdf5 file; the ending is added to the name; --to_hdf has no effect, also together with --to_csv.", "quantifier": "for all arguments", "why_tests_cant": "An option that is accepted and not used.", "anchors": ["rubin_sim/maf/run_comparison/gather_summaries.py:gather_summaries"]}
{"id": "C537", "title": "The plot of the pointings of a night", "statement": "Every visit is drawn once, at its time and altitude in the color of its band; the tracks of moon and sun have the points above -10 and -20 degrees. A band that is not one of ugrizy is a KeyError.", "quantifier": "for all visits and bands", "why_tests_cant": "The union over the bands has to have every visit once.", "anchors": ["rubin_sim/maf/plots/night_pointing_plotter.py:NightPointingPlotter.__call__"]}
{"id": "C538", "title": "Labels of the plot of two arrays", "statement": "XyPlotter uses what the metric gives for a key, otherwise what the user gives, otherwise its default.", "quantifier": "for all dictionaries", "why_tests_cant": "Precedence of three dictionaries.", "anchors": ["rubin_sim/maf/plots/xyplotter.py:XyPlotter.__call__"]}
{"id": "C539", "title": "Time stamps of visits", "statement": "ObservationStartTimestampStacker.run returns the visits as they were with the column of time stamps, which is computed unless it is there and not to be replaced; a table of pandas is itself changed, other arguments are not. False for a dictionary of columns: each column comes back as a dictionary from row numbers.", "quantifier": "for all tables, kinds and columns", "why_tests_cant": "Depends on the kind of the argument.", "anchors": ["rubin_sim/maf/stackers/date_stackers.py:ObservationStartTimestampStacker.run"]}
{"id": "C540", "title": "The curve of the power spectrum", "statement": "HealpixPowerSpectrum draws l(l+1)C/2pi for each multipole above one, or above zero if the dipole is kept, once and in order; if there is none it raises ValueError, and for a map without data it returns no figure.", "quantifier": "for all spectra", "why_tests_cant": "The range depends on an option and on the largest multipole asked for.", "anchors": ["rubin_sim/maf/plots/spatial_plotters.py:HealpixPowerSpectrum.__call__"]}
{"id": "C541", "title": "Missing values in the test of stripes", "statement": "The result of StripinessMetric does not depend on how missing values are marked: masked, not finite, -666 or UNSEEN; all other values are used as they are, and a map of another resolution is refused.", "quantifier": "for all maps and marks", "why_tests_cant": "Four ways to mark a missing value.", "anchors": ["rubin_sim/maf/metrics/cosmology_summary_metrics.py:StripinessMetric.run"]}
{"id": "C542", "title": "What the figure of merit of static probes depends on", "statement": "StaticProbesFoMEmulatorMetric depends on the map only through the number and the median of the depths that are positive: not on their order, nor on pixels without a value or with a value that is not positive.", "quantifier": "for all maps, emulators and areas of pixels", "why_tests_cant": "For all permutations of a map.", "anchors": ["rubin_sim/maf/maf_contrib/static_probes_fom_summary_metric.py:StaticProbesFoMEmulatorMetric.run"]}
{"id": "C543", "title": "The line of the ecliptic on maps", "statement": "The points that _plot_ecliptic draws are on the ecliptic. False: the declination is the inclination times the sine of the right ascension, which is right only at equinoxes and solstices; it has the right sign and the right range.", "quantifier": "for all inclinations below a right angle and all right ascensions", "why_tests_cant": "An identity of real functions.", "anchors": ["rubin_sim/maf/plots/spatial_plotters.py:BaseSkyMap._plot_ecliptic"]}
{"id": "C544", "title": "The zone of the galaxy on maps", "statement": "The zone that _plot_mw_zone draws has the width given at the center of the galaxy, decreases to zero at the taper length, is zero beyond, and is the same on both sides of the plane and of the center.", "quantifier": "for all widths, lengths and longitudes", "why_tests_cant": "Properties of a real function.", "anchors": ["rubin_sim/maf/plots/spatial_plotters.py:BaseSkyMap._plot_mw_zone"]}
{"id": "C545", "title": "Paths of satellites", "statement": "paths_array returns, as documented, one value for each date. False: there is a row for each satellite and a column for each date, the value of that satellite at that date; without satellites it is a ValueError.", "quantifier": "for all satellites and dates", "why_tests_cant": "Shape of arrays that are stacked.", "anchors": ["rubin_sim/satellite_constellations/sat_utils.py:Constellation.paths_array"]}
{"id": "C546", "title": "What the map of dust in three dimensions adds", "statement": "DustMap3D.run sets exactly the names in keynames, which differ for all distances and changes of magnitude; for points of a healpix slicer it uses the resolution of the slicer and does not interpolate.", "quantifier": "for all distances, changes of magnitude and formats", "why_tests_cant": "Names that are built from numbers.", "anchors": ["rubin_sim/maf/maps/dust_map_3d.py:DustMap3D.run"]}
{"id": "C547", "title": "The requirement of rapid revisits", "statement": "The metric RapidRevisits of rapidRevisitBatch is one exactly for the points with at least 82 revisits after 40 seconds to 30 minutes, 28 of them within 20 minutes, as its comments and caption have it. False: it asks for 82 within 20 minutes, and the shortest time is two thirds of a second.", "quantifier": "for all times of visits in order", "why_tests_cant": "Constants in days and arguments in an order that only a case on the border shows.", "anchors": ["rubin_sim/maf/batches/srd_batch.py:rapidRevisitBatch", "rubin_sim/maf/metrics/cadence_metrics.py:RapidRevisitMetric"]}
{"id": "C548", "title": "The area with rapid revisits", "statement": "The summary of the area in square degrees is the area of the pixels that meet the requirement. False: it is the fraction of the pixels with visits, times the whole sky; larger whenever a pixel has none.", "quantifier": "for all maps of zeros and ones with and without visits", "why_tests_cant": "Depends on how masked pixels are counted.", "anchors": ["rubin_sim/maf/batches/srd_batch.py:rapidRevisitBatch"]}
{"id": "C549", "title": "Percentiles of the uncertainties of parallax and proper motion", "statement": "The summaries named 95th percentile are the 95th percentile. False for the proper motion, of which it is the 90th.", "quantifier": "for all maps", "why_tests_cant": "A default that is not the one of the name.", "anchors": ["rubin_sim/maf/batches/srd_batch.py:astrometryBatch", "rubin_sim/maf/metrics/simple_metrics.py:PercentileMetric"]}
{"id": "C550", "title": "The parallax with visits in the y band alone", "statement": "The metrics for the y band select the visits in y that meet the extra condition. False: the column is always filter, whatever colmap says, and an or in the extra condition lets other bands in.", "quantifier": "for all columns and conditions", "why_tests_cant": "For all conditions, by the grammar of SQL.", "anchors": ["rubin_sim/maf/batches/srd_batch.py:astrometryBatch"]}
{"id": "C551", "title": "The metadata of the first year", "statement": "firstYearMetadata selects exactly the visits up to night 365 that meet the extra condition, whatever it is.", "quantifier": "for all conditions and visits", "why_tests_cant": "For all conditions, by the grammar of SQL.", "anchors": ["rubin_sim/maf/batches/metadata_batch.py:firstYearMetadata"]}
{"id": "C552", "title": "The extra condition of the deep fields", "statement": "extra_sql of ddfBatch is added to the condition of each metric. False: supernovae, kilonovae, Kuiper belt and weak lensing do not use it.", "quantifier": "for all conditions, bands and fields", "why_tests_cant": "For all conditions and all bundles of the batch.", "anchors": ["rubin_sim/maf/batches/ddf_batch.py:ddfBatch"]}
{"id": "C553", "title": "The median season length of a deep field", "statement": "The median season length, labelled for all bands, is that of the visits in all bands. False: a variable of an earlier loop makes it the y band alone. The other metrics of a field use the band of their label.", "quantifier": "for all fields, bands and visits", "why_tests_cant": "A variable of a loop that is over.", "anchors": ["rubin_sim/maf/batches/ddf_batch.py:ddfBatch"]}
{"id": "C554", "title": "The conditions of a deep field", "statement": "The metrics of a field use only visits with the note of the field that meet the extra condition, in the band. False for all bands with an or in the extra condition: visits of other fields are used.", "quantifier": "for all notes, bands and conditions", "why_tests_cant": "For all conditions, by the grammar of SQL.", "anchors": ["rubin_sim/maf/batches/ddf_batch.py:ddfBatch"]}
{"id": "C555", "title": "The point of the main survey in ddfBatch", "statement": "The metrics computed for WFD are those of a point of the main survey. False: the test of the name is never true, so they are those of all visits of the survey.", "quantifier": "for all names of fields", "why_tests_cant": "A test that no name can meet.", "anchors": ["rubin_sim/maf/batches/ddf_batch.py:ddfBatch"]}
{"id": "C556", "title": "The pixels of a deep field", "statement": "The pixels of a field are those within the radius of any of its centers, each once and in order.", "quantifier": "for all centers, radii and numbers of pixels", "why_tests_cant": "For all overlaps of two centers.", "anchors": ["rubin_sim/maf/batches/ddf_batch.py:ddfBatch"]}
{"id": "C557", "title": "The bundles of the effective time", "statement": "tEffMetrics gives total, per night, and sky maps of all and each band, under different names. False: none is per night, and with a UniSlicer for the maps two names are the same and it raises.", "quantifier": "for all runs, conditions, labels and slicers", "why_tests_cant": "Names go through the rules of file names.", "anchors": ["rubin_sim/maf/batches/visitdepth_batch.py:tEffMetrics"]}
{"id": "C558", "title": "phaseGap", "statement": "phaseGap returns its bundles. False: it raises TypeError whatever the arguments.", "quantifier": "for all extra conditions", "why_tests_cant": "The batch has never been run.", "anchors": ["rubin_sim/maf/batches/time_sci_batch.py:phaseGap", "rubin_sim/maf/metrics/phase_gap_metric.py:PhaseGapMetric"]}
{"id": "C559", "title": "Names of metrics with another name of the column", "statement": "With replace_colname the names of extended_metrics are those with the other name of the column in its place. False when the name of the column occurs in the words before it.", "quantifier": "for all names of columns", "why_tests_cant": "Replacement of text is everywhere, not only at the place meant.", "anchors": ["rubin_sim/maf/batches/common.py:extended_metrics"]}
{"id": "C560", "title": "Comments of a visit sequence", "statement": "get_comments gives exactly the comments made on that sequence, one row for each call of comment, with its text, time and author, none when no author was given; comments on other sequences do not matter.", "quantifier": "for all sequences of calls and contents of the table", "why_tests_cant": "For all histories of calls.", "anchors": ["rubin_sim/sim_archive/vseqmetadata.py:VisitSequenceArchiveMetadata.comment", "rubin_sim/sim_archive/vseqmetadata.py:VisitSequenceArchiveMetadata.get_comments"]}
{"id": "C561", "title": "Versions of the software of a simulation", "statement": "get_software_versions_for_sim gives the rows of that simulation; with a list of packages those of the list, in its order, and packages that were not recorded are left out without an error.", "quantifier": "for all tables, simulations and lists of packages", "why_tests_cant": "For all tables and lists.", "anchors": ["rubin_sim/sim_archive/vseqmetadata.py:VisitSequenceArchiveMetadata.get_software_versions_for_sim"]}
{"id": "C562", "title": "Indexes of prenights", "statement": "get_prenight_index_from_bucket gives the last index that make_prenight_index made for this telescope and night; indexes of other telescopes and nights are never mistaken for it.", "quantifier": "for all sequences of calls, telescopes and nights", "why_tests_cant": "Paths are made from texts: that no two are the same is for all dates.", "anchors": ["rubin_sim/sim_archive/vseqarchive.py:make_prenight_index", "rubin_sim/sim_archive/prenightindex.py:get_prenight_index_from_bucket"]}
{"id": "C563", "title": "Writing and reading a bandpass", "statement": "A bandpass that is written by write_throughput is read as it was by read_throughput. False with a header of more than one line: only its first line is made a comment.", "quantifier": "for all bandpasses, headers and ways to write numbers", "why_tests_cant": "For all texts of headers and all curves.", "anchors": ["rubin_sim/phot_utils/bandpass.py:Bandpass.write_throughput", "rubin_sim/phot_utils/bandpass.py:Bandpass.read_throughput"]}
{"id": "C564", "title": "Cadence, season and campaign of the time delays", "statement": "TdcMetric uses the visits deeper than the cut behind the dust; its cadence, season and campaign are those of MeanCampaignFrequencyMetric, SeasonLengthMetric and CampaignLengthMetric for these visits; shallower visits change nothing.", "quantifier": "for all visits, cuts and dust", "why_tests_cant": "Agreement of classes for all data.", "anchors": ["rubin_sim/maf/metrics/season_metrics.py:TdcMetric", "rubin_sim/maf/metrics/season_metrics.py:MeanCampaignFrequencyMetric"]}
{"id": "C565", "title": "Directions of the numbers of the time delays", "statement": "The numbers of TdcMetric are positive; a faster cadence does not harm precision and rate, longer seasons harm none of the three, a longer campaign harms neither precision nor accuracy; at the normalisations they are 4, 30 and 0.06.", "quantifier": "for all cadences, seasons and campaigns", "why_tests_cant": "Inequalities between real powers.", "anchors": ["rubin_sim/maf/metrics/season_metrics.py:TdcMetric"]}
{"id": "C566", "title": "Metrics with a statistic", "statement": "metrics_with_summary_stat gives exactly the metrics of the subset that have a statistic of the name, none twice; metrics_with_stats those that have any.", "quantifier": "for all metrics, statistics and names", "why_tests_cant": "For all tables.", "anchors": ["rubin_sim/maf/web/maf_run_results.py:MafRunResults.metrics_with_summary_stat", "rubin_sim/maf/web/maf_run_results.py:MafRunResults.metrics_with_stats"]}
{"id": "C567", "title": "Names of metrics with their labels", "statement": "unique_metric_name_and_info_label gives each pair of name and label once, in the order of the metrics.", "quantifier": "for all metrics", "why_tests_cant": "For all lists.", "anchors": ["rubin_sim/maf/web/maf_run_results.py:MafRunResults.unique_metric_name_and_info_label"]}
{"id": "C568", "title": "Noise after the offsets before", "statement": "The error of OffsetSNR is that of the magnitude with all offsets before, in any order of them; an offset that dims the star makes it larger.", "quantifier": "for all magnitudes, depths and offsets", "why_tests_cant": "For all lists of offsets, by monotonicity of real functions.", "anchors": ["rubin_sim/selfcal/offsets.py:OffsetSNR"]}
{"id": "C569", "title": "Offsets by clouds", "statement": "OffsetClouds gives one offset for each star. False under any clouds: it raises AttributeError.", "quantifier": "for all transparencies and numbers of stars", "why_tests_cant": "For all transparencies.", "anchors": ["rubin_sim/selfcal/offsets.py:OffsetClouds"]}
{"id": "C570", "title": "Counts of galaxies", "statement": "GalaxyCountsMetric gives the number of galaxies at the coadded depth. False: it raises TypeError for all visits and points, because the depth behind the dust needs the point and does not get it.", "quantifier": "for all visits and points", "why_tests_cant": "The metric has never been run.", "anchors": ["rubin_sim/maf/maf_contrib/lss_metrics.py:GalaxyCountsMetric", "rubin_sim/maf/metrics/exgal_m5.py:ExgalM5"]}
{"id": "C571", "title": "Magnitudes of X-ray binaries", "statement": "lmxb_abs_mags gives one dictionary for each period, in the same order, with the r magnitude of this period and the same colours; a longer period is brighter in every band; each period is between half and one and a half of the one drawn from the catalogue.", "quantifier": "for all draws of random numbers", "why_tests_cant": "For all draws.", "anchors": ["rubin_sim/maf/maf_contrib/xrb_metrics.py:XrbLc.lmxb_abs_mags"]}
{"id": "C572", "title": "Names of the discovery bundles", "statement": "quick_discovery_batch and discovery_batch give 2 and 11 bundles, each named after its criterion and its losses; all thirteen file names are different for every run and population, so that the two dictionaries can be joined; losses other than detection and trailing are a ValueError.", "quantifier": "for all names of runs, populations and constraints", "why_tests_cant": "File names are squeezed texts of arbitrary labels: that none of them ever collide is for all labels.", "anchors": ["rubin_sim/maf/batches/moving_objects_batch.py:quick_discovery_batch", "rubin_sim/maf/batches/moving_objects_batch.py:discovery_batch"]}
{"id": "C573", "title": "Wider windows of discovery", "statement": "A wider window loses no chance of discovery, whatever the observations and their order; what three pairs in 15 nights find three pairs in 30 nights find.", "quantifier": "for all observations, orders and windows", "why_tests_cant": "Monotonicity over all sets of observations.", "anchors": ["rubin_sim/maf/batches/moving_objects_batch.py:quick_discovery_batch", "rubin_sim/maf/metrics/mo_metrics.py:DiscoveryMetric"]}
{"id": "C574", "title": "Stricter criteria of discovery", "statement": "A criterion that asks for more finds no more: four pairs in 20 nights at most as many chances as three pairs in 30, and pairs in several nights at most as many as a single pair. False of triplets: three triplets in 30 nights can be found where three pairs are not.", "quantifier": "for all observations in order of time", "why_tests_cant": "Monotonicity over all sets of observations.", "anchors": ["rubin_sim/maf/batches/moving_objects_batch.py:discovery_batch", "rubin_sim/maf/metrics/mo_metrics.py:DiscoveryMetric"]}
{"id": "C575", "title": "Lower limits of the signal to noise", "statement": "An object that is found with a limit of 5 is found with a limit of 4. False: one more faint detection in a night can hide the pair. True if fainter detections are in other nights only.", "quantifier": "for all observations and limits", "why_tests_cant": "For all sets of observations.", "anchors": ["rubin_sim/maf/batches/moving_objects_batch.py:discovery_batch", "rubin_sim/maf/metrics/mo_metrics.py:DiscoveryMetric"]}
{"id": "C576", "title": "Single detections", "statement": "The criterion 'Single detection' of discovery_batch finds the objects that are detected at least once. False: it counts the nights with first and last detection five to ninety minutes apart, finds no object seen once a night, and no more than 'Single pair' does.", "quantifier": "for all observations in order of time", "why_tests_cant": "For all sets of observations.", "anchors": ["rubin_sim/maf/batches/moving_objects_batch.py:discovery_batch", "rubin_sim/maf/metrics/mo_metrics.py:DiscoveryMetric"]}
{"id": "C577", "title": "Bundles of characterization", "statement": "The batches of characterization give a bundle for each window and bin asked for. False: windows that are the same after rounding to days, like 10.2 and 10.4, are a NameError; the batch is made exactly if no two windows and no two bins round to the same number, so if they are more than one apart.", "quantifier": "for all windows, bins, runs and labels", "why_tests_cant": "For all windows and bins.", "anchors": ["rubin_sim/maf/batches/moving_objects_batch.py:characterization_inner_batch", "rubin_sim/maf/batches/moving_objects_batch.py:characterization_outer_batch"]}
{"id": "C578", "title": "Curves of the plots of completeness", "statement": "plot_completeness draws over time the cumulative curves over time of the two main criteria, against H their differential and their cumulative curves in two plots, and all cumulative curves together in the last plot. False: a run with 'Time' in its name is a KeyError, and the last plot leaves out the curves for high velocities.", "quantifier": "for all sets of curves", "why_tests_cant": "Keys are arbitrary texts that are searched for words.", "anchors": ["rubin_sim/maf/batches/moving_objects_batch.py:plot_completeness", "rubin_sim/maf/batches/moving_objects_batch.py:run_completeness_summary"]}
{"id": "C579", "title": "The Lambert projection keeps areas and does not fold the sky", "statement": "For `project_lambert` the ring of the plot between the circles of two latitudes has the area of the zone of the unit sphere between them; two points of the sky other than the zenith are at one place of the plot only if they have the same latitude and their longitudes differ by whole turns; longitude zero is straight up; and all points at 10 degrees or more are within the limits of the plot of `LambertSkyMap`.", "quantifier": "all longitudes, all latitudes from -90 to 90 degrees", "why_tests_cant": "A test compares single points with numbers; equal areas and injectivity concern all pairs of points.", "anchors": ["rubin_sim/maf/plots/spatial_plotters.py:project_lambert", "rubin_sim/maf/plots/spatial_plotters.py:LambertSkyMap"]}
{"id": "C580", "title": "The bias of the mean redshift is that of the year asked for", "statement": "`MultibandMeanzBiasMetric(model, year=n)` uses the tables of year n of the tomography model. It does not: it uses the tables of year n + 1 and no others, and with the tables of years 1 to 10, which the package has, the default year=10 is a KeyError.", "quantifier": "all models, years, numbers of bins and scatters of depths", "why_tests_cant": "Tests run one year of one model; that no other table has any effect is a statement about all models.", "anchors": ["rubin_sim/maf/metrics/cosmology_summary_metrics.py:MultibandMeanzBiasMetric", "rubin_sim/maf/metrics/tomography_models.py"]}
{"id": "C581", "title": "The bias has one row for each bin, and the fitted line keeps the total", "statement": "`MultibandMeanzBiasMetric` gives zbins rows; y1ratio times 0.013 is y10ratio times 0.003 in each, and the sum of y10ratio times 0.003 is the sum over bands and bins of the curve of the figure at the mean redshift times |dz/dm| times the scatter of the depth over 0.02. This holds if all bins are nearer than 1.4; bins beyond are left out, and then the result does not fit the array: there is a result only if all bins of the first band are used or exactly one.", "quantifier": "all models, curves, years, numbers of bins, bands and scatters", "why_tests_cant": "Tests use the tables of the package; which tables make an error and where a fit moves the bias concern all tables.", "anchors": ["rubin_sim/maf/metrics/cosmology_summary_metrics.py:MultibandMeanzBiasMetric"]}
{"id": "C582", "title": "The bias is proportional to the scatter of the depths", "statement": "If the scatter of the depth of all bands is s times as large, both ratios of `MultibandMeanzBiasMetric` are s times as large and errors stay the same errors; with no scatter the ratios are zero.", "quantifier": "all factors s, models, curves, years, numbers of bins and bands", "why_tests_cant": "A test compares two runs; proportionality is a statement about all factors and all tables.", "anchors": ["rubin_sim/maf/metrics/cosmology_summary_metrics.py:MultibandMeanzBiasMetric"]}
{"id": "C583", "title": "A mapping is applied to each value", "statement": "`ApplyMappingMetric` with an array replaces each value by what the mapping has for it, at the same place, and values that the mapping lacks by None; with a single value it gives the same where the mapping has it, and a KeyError where the array has None.", "quantifier": "all mappings and all arrays", "why_tests_cant": "Tests apply one mapping to one array.", "anchors": ["rubin_sim/maf/metrics/simple_metrics.py:ApplyMappingMetric"]}
{"id": "C584", "title": "The map of Gaia cannot be continued from its own checkpoint (stated as it is)", "statement": "`create_gaia_density_map.py` saves its state as starDensity, bins, icheck and overMaxMask and on a restart reads star_density, icheck and over_max_mask: a restart is a KeyError.", "quantifier": "the one file format", "why_tests_cant": "The script needs a database and has no tests.", "anchors": ["rubin_sim/maf/maps/create_gaia_density_map.py"]}
{"id": "C585", "title": "The mesh of runs and metrics has each value at its place", "statement": "plot_run_metric_mesh gives each run a column and each metric a row, in the order of the table, with its label, and the cell where they meet the value of the metric of the run; a table and its transpose give the same plot if the names of the axes say which is which; a label is marked as inverse exactly if there is a baseline and the table of metrics says so; the limits of the colours are centred on 1 and as far apart as asked for.", "quantifier": "all tables, labels, tables of metrics and normalisations", "why_tests_cant": "Tests check that a plot is made; that values and labels belong together is a statement about all tables.", "anchors": ["rubin_sim/maf/run_comparison/summary_plots.py:plot_run_metric_mesh"]}
{"id": "C586", "title": "Colours, lines and markers of plots with uncertainties", "statement": "In plot_run_metric_uncert a metric has the line and, unless colours are given, the colour of its style in the table of metrics, else those of its place, repeated as needed, and calls do not affect each other. Partly false: the colours of styles are written into the list of colorcet and stay there for later calls; with a plot for each metric, which is the default, names of lines or markers of more than one letter, as for dashed lines, are a ValueError, and more metrics than colours an IndexError; of a style with a dashed line only the first dash is used.", "quantifier": "all lists of colours, lines, markers and styles, and all numbers of metrics", "why_tests_cant": "What one call does to later calls, and what all lists of styles give, cannot be seen from one plot.", "anchors": ["rubin_sim/maf/run_comparison/summary_plots.py:plot_run_metric_uncert"]}
{"id": "C587", "title": "Shading of better and worse values", "statement": "With a positive shade_fraction plot_run_metric shades green exactly the values of the plot that are at or above 1 + shade_fraction and red exactly those at or below 1 - shade_fraction; otherwise it shades nothing.", "quantifier": "all fractions and limits of the axes", "why_tests_cant": "Tests do not look at the regions; the claim is about all values.", "anchors": ["rubin_sim/maf/run_comparison/summary_plots.py:plot_run_metric"]}
{"id": "C588", "title": "Lines between families", "statement": "find_family_lines gives for each family of the list the number of runs of the families up to it, for tables as from get_family_runs; a missing family is a KeyError. False of families with one run, which count as many runs as the name of the run has letters.", "quantifier": "all tables and lists of families", "why_tests_cant": "A test has families of several runs; the claim is about all tables.", "anchors": ["rubin_sim/maf/run_comparison/summary_plots.py:find_family_lines", "rubin_sim/maf/run_comparison/archive.py:get_family_runs"]}
{"id": "C589", "title": "Bundles that are run together do not affect each other", "statement": "A bundle has the values in a group that it has alone. False: the visits of a slice are given to all bundles of a compatible list as one array, and each metric sees what those before it have written. A metric affects no other exactly if it leaves the array as it is, and none whose value is free of the order of visits exactly if it only reorders; if all before it are so, a bundle has its own value; bundles after it never matter.", "quantifier": "all lists of bundles, slices and visits, and all metrics, whatever they write", "why_tests_cant": "A test runs a metric alone; which pairs of metrics disturb each other is a statement about all of them.", "anchors": ["rubin_sim/maf/metric_bundles/metric_bundle_group.py:MetricBundleGroup._run_compatible"]}
{"id": "C590", "title": "Dust is taken from the depths once", "statement": "With add_dust, SNNSNMetric works on depths less the extinction of the band and leaves those of other bundles. The first is right alone; the second is false: the depths of the shared slice are replaced, so after k bundles with dust every later metric on this slicer sees k times the extinction. Where ebv is above hard_dust_cut, or without add_dust, nothing is written.", "quantifier": "all visits, bands, extinctions, numbers of bundles and metrics after them", "why_tests_cant": "Any number of bundles before; a test runs the metric alone.", "anchors": ["rubin_sim/maf/metrics/sn_n_sn_metric.py:SNNSNMetric.run", "rubin_sim/maf/metric_bundles/metric_bundle_group.py:MetricBundleGroup._run_compatible"]}
{"id": "C591", "title": "Clipped strings of several bundles", "statement": "With clip_end, StringCountMetric counts strings without the number at their end, and other bundles see the strings of the visits. False for the second: the column of the shared slice is replaced, so after k such bundles every later metric sees strings clipped k times. Without clip_end, or if no string ends with a number, nothing is written.", "quantifier": "all strings, numbers of bundles and metrics after them", "why_tests_cant": "Any number of bundles before and of numbers at the end of strings.", "anchors": ["rubin_sim/maf/metrics/string_count_metric.py:StringCountMetric.run", "rubin_sim/maf/metric_bundles/metric_bundle_group.py:MetricBundleGroup._run_compatible"]}
{"id": "C592", "title": "Each slice begins with the visits of the table; sorting is harmless", "statement": "The values of a slice are those of a run with this slice only, whatever metrics write in other slices, and it has none exactly if it has no visits. Metrics that sort the slice by time do not affect metrics that are free of the order, and have their own values after each other if no two visits have the same time.", "quantifier": "all tables, slices and metrics", "why_tests_cant": "All orders of slices and bundles.", "anchors": ["rubin_sim/maf/metric_bundles/metric_bundle_group.py:MetricBundleGroup._run_compatible", "rubin_sim/maf/metrics/cumulative_metric.py:CumulativeMetric.run", "rubin_sim/maf/metrics/cadence_metrics.py"]}
{"id": "C593", "title": "Simulations of a night with their statistics", "statement": "sims_on_night_with_stats gives exactly the simulations of the telescope that cover the night, have all tags and are no older than the limit, each once, also those without statistics; a greater age never loses one. With an empty tuple the test of tags is omitted, as documented: false, the call is always an exception, as the text of this query has a percent sign without its letter.", "quantifier": "all archives, nights, tags, telescopes and ages", "why_tests_cant": "All contents of the database; the query without tags is never sent by the tests.", "anchors": ["rubin_sim/sim_archive/vseqmetadata.py:VisitSequenceArchiveMetadata.sims_on_night_with_stats", "sql/make_vseqmeta.sql"]}
{"id": "C594", "title": "Which statistics a simulation is given", "statement": "The statistics of a simulation are all those recorded for it on this night, each name once, and none exactly if there are none, never those of another night or sequence. False if a name has statistics of the night as well as those accumulated up to it, which the key of the table allows: one of the two is lost. Right if names are different, as from compute_nightly_stats.", "quantifier": "all tables of statistics", "why_tests_cant": "All contents of the table; tests insert one kind of statistics.", "anchors": ["rubin_sim/sim_archive/vseqmetadata.py:VisitSequenceArchiveMetadata.sims_on_night_with_stats", "sql/make_vseqmeta.sql"]}
{"id": "C595", "title": "Cells of metric values over pairs of orbital elements", "statement": "MetricVsOrbit gives each cell of the grid the reduced value of exactly the objects whose two elements are in the cell, and the bad value to cells without objects. This is right for objects that share values of H. For objects with an H each only those near the median H are used, but their values are looked up by places among all objects: right if all objects are near it, and an IndexError whenever one is not and all objects are in the grid.", "quantifier": "all bins in order, elements, values, reductions", "why_tests_cant": "All populations; tests do not draw this plot.", "anchors": ["rubin_sim/maf/plots/mo_plotters.py:MetricVsOrbit.__call__"]}
{"id": "C596", "title": "Points of metric values over pairs of orbital elements", "statement": "MetricVsOrbitPoints draws each orbit with the colour of its value exactly if the foreground is on, there is a value for each orbit, and not a background for objects with an H each. Other options end in an error. For objects with an H each, of which one is not near the H of the plot, there is an error for all options.", "quantifier": "all populations and options", "why_tests_cant": "All populations; tests do not draw this plot.", "anchors": ["rubin_sim/maf/plots/mo_plotters.py:MetricVsOrbitPoints.__call__"]}
{"id": "C597", "title": "The line at the mark of H", "statement": "The value h_mark given to make_completeness_bundle is documented as added to the dictionary of plots of the new bundle, for a line at this H. False: the new dictionary is the old one with another label, and MetricVsH draws a line exactly for the key Hmark, so none is drawn for the key h_mark that the batches use.", "quantifier": "all dictionaries of options", "why_tests_cant": "A statement on all options; a missing line is not an error.", "anchors": ["rubin_sim/maf/plots/mo_plotters.py:MetricVsH.__call__", "rubin_sim/maf/metric_bundles/mo_metric_bundle.py:make_completeness_bundle"]}
{"id": "C598", "title": "The length of Chebyshev segments meets the tolerance on the sky", "statement": "calc_segment_length without an argument sets the first of the first guess and its rounded halves that has a residual within sky_tolerance, exactly if one of the first fifty halvings has; a length that is given is used whatever its residual, with a warning exactly if it is too large. The first guess is between 2 and 60 days. If none is found the code means to record failures and raise a ValueError: false with pandas from 1.0, where it is always another exception, as series have no as_matrix.", "quantifier": "all tolerances, residuals, spans and roundings", "why_tests_cant": "All residuals as functions of the length; the search is not tested up to its end.", "anchors": ["rubin_sim/moving_objects/cheby_fits.py:ChebyFits.calc_segment_length", "rubin_sim/moving_objects/cheby_fits.py:ChebyFits._test_residuals", "rubin_sim/moving_objects/cheby_fits.py:ChebyFits._round_length"]}
{"id": "C599", "title": "Fitted segments cover the time span once and meet the tolerance", "statement": "calc_segments, with any depth of subdivision, puts each time of the span in exactly one segment with coefficients or one recorded failure, and no other time in any; all segments with coefficients have a residual of position within sky_tolerance, and a row of residuals each, in order. Subdivision ends if residuals grow with the length of a segment. False for segments without a length that is good enough: with pandas from 1.0 they are not recorded as failures, but end the whole fit.", "quantifier": "all residuals, lengths, spans, depths", "why_tests_cant": "All recursions of subdivisions.", "anchors": ["rubin_sim/moving_objects/cheby_fits.py:ChebyFits.calc_segments", "rubin_sim/moving_objects/cheby_fits.py:ChebyFits.calc_one_segment", "rubin_sim/moving_objects/cheby_fits.py:ChebyFits._subdivide_segment"]}
{"id": "C600", "title": "Residuals and failures that are recorded with a fit", "statement": "The row of residuals of a segment has those of position, distance, magnitude and elongation, and a failure the name of its object with the times. False: the residual of the magnitude is that of the distance in every row, and failures have the whole column of names in place of the name.", "quantifier": "all fits", "why_tests_cant": "A statement on all rows of all fits; tests look at keys and numbers of rows.", "anchors": ["rubin_sim/moving_objects/cheby_fits.py:ChebyFits.calc_one_segment", "rubin_sim/moving_objects/cheby_fits.py:ChebyFits._subdivide_segment"]}
{"id": "C601", "title": "Files of coefficients, residuals and failures", "statement": "write gives each file a header and a line for each segment, and the file of failures a line for each if there are any; with append it adds to files that exist. False with append: the mode of files is not valid, so the call is always a ValueError. The file of failures of an earlier fit is left if the new one has none.", "quantifier": "all contents", "why_tests_cant": "Append is never called by tests.", "anchors": ["rubin_sim/moving_objects/cheby_fits.py:ChebyFits.write"]}
{"id": "C602", "title": "Number of supernovae and redshift limit at a point", "statement": "The value of SNNSNMetric at a point is bad exactly if no season has both a redshift limit above zero and a number of supernovae. Otherwise the number is the sum over seasons with a limit above zero, and the limit is a median of theirs: above zero, between any bounds of them. Seasons without a limit do not change the value, nor does the order of seasons; the two reductions give the two parts of the value.", "quantifier": "all tables of seasons", "why_tests_cant": "All numbers and orders of seasons; tests run one field.", "anchors": ["rubin_sim/maf/metrics/sn_n_sn_metric.py:SNNSNMetric.run", "rubin_sim/maf/metrics/sn_n_sn_metric.py:SNNSNMetric.reducen_sn", "rubin_sim/maf/metrics/sn_n_sn_metric.py:SNNSNMetric.reducezlim"]}
{"id": "C603", "title": "Seasons with too low efficiencies do not count", "statement": "A season has a redshift limit only with two redshifts and a mean efficiency above two percent, and is left out with fewer than two redshifts. A season that is counted adds its number of supernovae, so the total is never negative: right if all numbers are. False if a season has a limit but for the second type of supernova a mean efficiency of at most two percent: its sentinel of minus one is added to the sum.", "quantifier": "all tables of seasons and efficiencies", "why_tests_cant": "All combinations of seasons.", "anchors": ["rubin_sim/maf/metrics/sn_n_sn_metric.py:SNNSNMetric.zlim", "rubin_sim/maf/metrics/sn_n_sn_metric.py:SNNSNMetric.nsn", "rubin_sim/maf/metrics/sn_n_sn_metric.py:SNNSNMetric.check_dur_z", "rubin_sim/maf/metrics/sn_n_sn_metric.py:SNNSNMetric.run"]}
{"id": "C604", "title": "Visits that are points of light curves of supernovae", "statement": "The points that LcfastNew simulates in a band are those of pairs of a supernova and a visit whose time is in the window of phases of the supernova, stretched by one plus its redshift, with a mean wavelength at rest between the blue and the red limit, a flux above 1e-10, and a magnitude less than half a magnitude fainter than the depth of the visit. No visit gives more than one point to a supernova.", "quantifier": "all supernovae, visits, references of fluxes and limits", "why_tests_cant": "All redshifts and times; a test runs a few light curves.", "anchors": ["rubin_sim/maf/utils/sn_n_sn_utils.py:LcfastNew.process_band", "rubin_sim/maf/utils/sn_n_sn_utils.py:LcfastNew.get_flag"]}
{"id": "C605", "title": "The least signal to noise ratio of points of light curves", "statement": "All points that are simulated have a signal to noise ratio above 3, so a least ratio snr_min of up to 3, such as the default of 1 of SNNSNMetric, takes no point away; the documented default of 5 keeps exactly the points that are not fainter than the depth. Points with enough signal count as before the maximum exactly at times before it and as after exactly after it; one at the maximum counts as neither.", "quantifier": "all supernovae, visits and references of fluxes", "why_tests_cant": "All magnitudes and depths over the reals.", "anchors": ["rubin_sim/maf/utils/sn_n_sn_utils.py:LcfastNew.process_band", "rubin_sim/maf/metrics/sn_n_sn_metric.py:SNNSNMetric.sn_effi"]}
{"id": "C606", "title": "Spectra of twilight between and beyond the filters", "statement": "The ratio of a spectrum of twilight to that of the sun is linear in wavelength between the effective wavelengths of the filters, that of the reddest filter beyond them, and goes on along the first line bluer than them. Spectra are not negative: false for the last, with positive fluxes in all filters the ratio is negative exactly where the line of the two bluest filters is.", "quantifier": "all filters, fluxes and wavelengths", "why_tests_cant": "All wavelengths; tests sum components at a few points.", "anchors": ["rubin_sim/skybrightness/interp_components.py:TwilightInterp.interp_spec"]}
{"id": "C607", "title": "Spectra of twilight of each point", "statement": "Each point with the sun between the limits and an airmass from one to the largest has the spectrum of the sun times its own ratio, and other points have zeros, in the order of points. False if the sun is above the upper limit at one point: there is an IndexError for all points, where interp_mag gives NaN.", "quantifier": "all lists of points, filters and limits", "why_tests_cant": "All lists of points; tests have the sun below the limit.", "anchors": ["rubin_sim/skybrightness/interp_components.py:TwilightInterp.interp_spec", "rubin_sim/skybrightness/interp_components.py:TwilightInterp.interp_mag"]}
{"id": "C608", "title": "Scattered moonlight at a point", "statement": "The scattered moonlight of a point is the mean, over the neighbouring pixels that the templates have, with their weights, of the template interpolated in the separation of moon and sun and in the altitude of the moon; at the grid it is the template, within the grid between the smallest and the largest one.", "quantifier": "all grids, templates, neighbours and points that are not below the grid", "why_tests_cant": "All grids and points; tests compare a few skies.", "anchors": ["rubin_sim/skybrightness/interp_components.py:MoonInterp._weighting"]}
{"id": "C609", "title": "Moonlight with the moon outside of the grid", "statement": "As the comment says, points with the moon out of the range of altitudes have no moonlight. With one altitude of the moon for all points, as in SkyModel, those below the grid have none; one above the grid counts as at its highest altitude. False for points below the grid in a call with others that are not.", "quantifier": "all lists of points", "why_tests_cant": "All combinations of altitudes.", "anchors": ["rubin_sim/skybrightness/interp_components.py:MoonInterp._weighting"]}
{"id": "C610", "title": "Titles of plots of several bundles", "statement": "The title of a plot has the name of the run, the label and the name of the metric, in this order, each exactly if all bundles share it. The joint names of labels and metrics are used exactly if the bundles share neither the label nor the metric nor a name of the run that is not empty.", "quantifier": "all lists of bundles", "why_tests_cant": "All combinations of names.", "anchors": ["rubin_sim/maf/plots/plot_handler.py:PlotHandler._build_title"]}
{"id": "C611", "title": "Legends tell bundles apart", "statement": "There is a label in the legend for each bundle, none for a single one: its own or else the parts of names of run, label and metric that the bundles do not share, which are those not in the title. Bundles with different parts have different labels: right if names of runs and labels have no blanks, false otherwise, as parts are joined with blanks.", "quantifier": "all lists of bundles", "why_tests_cant": "All combinations of names.", "anchors": ["rubin_sim/maf/plots/plot_handler.py:PlotHandler._build_legend_labels"]}
{"id": "C612", "title": "Colours of fractions of populations", "statement": "plot_fractions sets colours that tell the fractions in a plot apart. Right for any of the fractions of asteroids, and for those of outer objects with 1, 2, 4, 5 or 6 filters. False with 3 filters: no colour is set for it, and in a plot with others it is blue, like that with 6 filters.", "quantifier": "all lists of fractions in a plot", "why_tests_cant": "All subsets and orders of fractions; plots are looked at.", "anchors": ["rubin_sim/maf/batches/moving_objects_batch.py:plot_fractions", "rubin_sim/maf/batches/moving_objects_batch.py:run_fraction_summary", "rubin_sim/maf/plots/plot_handler.py:PlotHandler._build_colors"]}
{"id": "C613", "title": "Percentile curves against H", "statement": "plot_single plots the 5th, 25th, 50th, 75th and 95th percentiles of a metric against H. With two or more H values cloned for all objects the curves are reductions over all objects at each H, and are in this order at each H; the median is the 50th percentile. False for two or more objects which each have their own H: the percentile functions need an axis and are called without one, so the plot is a TypeError.", "quantifier": "all slicers, values and H", "why_tests_cant": "All populations and values; the order of percentiles is a fact about all lists.", "anchors": ["rubin_sim/maf/batches/moving_objects_batch.py:plot_single", "rubin_sim/maf/plots/mo_plotters.py:MetricVsH.__call__", "rubin_sim/maf/slicers/mo_slicer.py:MoObjSlicer"]}
{"id": "C614", "title": "Reductions over objects at one H", "statement": "MetricVsH plots np_reduce of the values of all objects at each H. Right with two or more H for all objects, and for the mean of one row, as of a completeness. False with exactly one H for all objects: the value plotted is that of the first object, for every reduction.", "quantifier": "all slicers, values and reductions", "why_tests_cant": "All numbers of H and of objects.", "anchors": ["rubin_sim/maf/plots/mo_plotters.py:MetricVsH.__call__", "rubin_sim/maf/slicers/mo_slicer.py:MoObjSlicer"]}
