{
 "claims": [
  {
   "property": "C01",
   "status": "proved",
   "theorems": [
    "Verif.Slicers.oneD_slice_exact"
   ],
   "note": "Values idealised as a linear order (no NaN)."
  },
  {
   "property": "C02",
   "status": "proved",
   "theorems": [
    "Verif.Slicers.oneD_partition",
    "Verif.Slicers.oneD_concat_perm"
   ],
   "note": ""
  },
  {
   "property": "C03",
   "status": "partial",
   "theorems": [
    "Verif.Slicers.oneD_last_bin_closed_partial",
    "Verif.Slicers.oneD_last_bin_closed_false",
    "Verif.Slicers.oneD_last_edge_dropped",
    "Verif.Slicers.oneD_auto_bins_drop_maximum"
   ],
   "note": "The documented claim is false of the code: refuted by oneD_last_bin_closed_false, and oneD_last_edge_dropped shows every value equal to the last edge is lost. Kept: all bins for values below the last edge."
  },
  {
   "property": "C04",
   "status": "proved",
   "theorems": [
    "Verif.Slicers.nd_partition"
   ],
   "note": ""
  },
  {
   "property": "C05",
   "status": "proved",
   "theorems": [
    "Verif.Slicers.movie_cumulative",
    "Verif.Slicers.movie_step_partition"
   ],
   "note": ""
  },
  {
   "property": "C06",
   "status": "partial",
   "theorems": [
    "Verif.Slicers.timeInterval_shifted_partial",
    "Verif.Slicers.timeInterval_slice_never_own_window"
   ],
   "note": "The documented claim is false of the code: no slice ever holds a visit of its own window. The partial theorem gives exactly what each slice holds."
  },
  {
   "property": "C07",
   "status": "proved",
   "theorems": [
    "Verif.Slicers.block_partition"
   ],
   "note": ""
  },
  {
   "property": "C08",
   "status": "partial",
   "theorems": [
    "Verif.Slicers.visitInterval_sorted_partial",
    "Verif.Slicers.visitInterval_mismatch"
   ],
   "note": "False for unsorted input (refuted); proved for strictly time-sorted input."
  },
  {
   "property": "C09",
   "status": "proved",
   "theorems": [
    "Verif.Slicers.visitInterval_each_once",
    "Verif.Slicers.uni_selects_all"
   ],
   "note": ""
  },
  {
   "property": "C10",
   "status": "proved",
   "theorems": [
    "Verif.Slicers.slicer_iteration",
    "Verif.Slicers.slicer_iteration_run"
   ],
   "note": ""
  },
  {
   "property": "C11",
   "status": "proved",
   "theorems": [
    "Verif.Bundles.cache_transparent",
    "Verif.Bundles.cache_bounded"
   ],
   "note": "For metrics determined by the set of visits (the documented condition for caching) that do not write into the visits (C589)."
  },
  {
   "property": "C12",
   "status": "proved",
   "theorems": [
    "Verif.Bundles.run_values_and_masks"
   ],
   "note": "For metrics that do not write into the visits they are given; C589 is about those that do."
  },
  {
   "property": "C13",
   "status": "partial",
   "theorems": [
    "Verif.Bundles.groups_cover_partial",
    "Verif.Bundles.groups_ok_partial",
    "Verif.Bundles.groups_ok_of_equivalence",
    "Verif.Bundles.groups_ok_false",
    "Verif.Bundles.groups_pairwise_false",
    "Verif.Bundles.groups_unique_false",
    "Verif.Bundles.group_clobbers_column",
    "Verif.Bundles.maps_ignored"
   ],
   "note": "False of the code in general (groups_ok_false, groups_pairwise_false, groups_unique_false, group_clobbers_column). Kept: every bundle is run; groups are right when compatibility behaves as an equivalence on the bundles at hand."
  },
  {
   "property": "C14",
   "status": "proved",
   "theorems": [
    "Verif.ReqCols.reqCols_terminates",
    "Verif.ReqCols.reqCols_closed"
   ],
   "note": "Python set iteration order is an arbitrary enumeration."
  },
  {
   "property": "C15",
   "status": "partial",
   "theorems": [
    "Verif.ReqCols.stacker_order_partial",
    "Verif.ReqCols.stacker_order_false",
    "Verif.ReqCols.dependency_runs_too_late"
   ],
   "note": "False of the code (stacker_order_false; dependency_runs_too_late in general). Kept: right order when no added default stacker has dependencies of its own."
  },
  {
   "property": "C16",
   "status": "proved",
   "theorems": [
    "Verif.Stackers.stacker_run_frame",
    "Verif.Stackers.zenith_ha_wellBehaved",
    "Verif.Stackers.stacker_recomputes",
    "Verif.Stackers.zenith_override"
   ],
   "note": "For stackers whose _run writes only declared columns; that hypothesis is discharged for the zenith-distance and hour-angle stackers and fails for the parallactic-angle stacker (C46)."
  },
  {
   "property": "C17",
   "status": "proved",
   "theorems": [
    "Verif.Masked.reduce_spec",
    "Verif.Masked.summary_spec",
    "Verif.Masked.masked_noninterference"
   ],
   "note": ""
  },
  {
   "property": "C18",
   "status": "proved",
   "theorems": [
    "Verif.Db.metrics_key_unique",
    "Verif.Db.metric_id_stable",
    "Verif.Db.metric_id_injective"
   ],
   "note": "None and the string NULL are the same value for the database; identity is meant after that conversion."
  },
  {
   "property": "C19",
   "status": "proved",
   "theorems": [
    "Verif.Db.display_one_to_one"
   ],
   "note": ""
  },
  {
   "property": "C20",
   "status": "proved",
   "theorems": [
    "Verif.Db.plots_spec"
   ],
   "note": ""
  },
  {
   "property": "C21",
   "status": "partial",
   "theorems": [
    "Verif.Db.summary_table_partial",
    "Verif.Db.summary_table_lost",
    "Verif.Db.summary_table_drops_rest"
   ],
   "note": "False of the code: the retry counter is shared (summary_table_lost, summary_table_drops_rest). Proved for every schedule: only a prefix is stored, each value once; everything if fewer than ntry failures occur in the call. A failed attempt is assumed to leave the session usable."
  },
  {
   "property": "C22",
   "status": "proved",
   "theorems": [
    "Verif.Db.tracking_refines",
    "Verif.Db.addRun_returns",
    "Verif.Db.run_id_reused"
   ],
   "note": "Directories are compared after relpath; a missing directory counts as the directory NULL."
  },
  {
   "property": "C23",
   "status": "proved",
   "theorems": [
    "Verif.Archive.tags_set",
    "Verif.Archive.untag_spec"
   ],
   "note": "For calls one after another."
  },
  {
   "property": "C24",
   "status": "proved",
   "theorems": [
    "Verif.Archive.concurrent_tag_holds",
    "Verif.Archive.concurrent_untag_removes",
    "Verif.Archive.concurrent_tag_duplicates"
   ],
   "note": "Interleavings of the two statements of a call; includes the duplicate that concurrent calls can leave."
  },
  {
   "property": "C25",
   "status": "proved",
   "theorems": [
    "Verif.Archive.files_registered",
    "Verif.Archive.register_fails_iff"
   ],
   "note": ""
  },
  {
   "property": "C26",
   "status": "partial",
   "theorems": [
    "Verif.Archive.archive_integrity_partial",
    "Verif.Archive.refused_add_breaks",
    "Verif.Archive.crash_breaks",
    "Verif.Archive.name_clash_breaks",
    "Verif.Archive.add_file_other_sequence"
   ],
   "note": "False of the code (refused_add_breaks, crash_breaks in general; name_clash_breaks without any failing call). Proved for histories without crashes in which names determine types and repeated types use update; other sequences are never touched."
  },
  {
   "property": "C27",
   "status": "partial",
   "theorems": [
    "Verif.Archive.conda_recorded_partial",
    "Verif.Archive.conda_checked_false",
    "Verif.Archive.conda_no_value_error",
    "Verif.Archive.conda_lone_arguments"
   ],
   "note": "The documented error never happens (conda_no_value_error). Proved for both or neither argument."
  },
  {
   "property": "C28",
   "status": "partial",
   "theorems": [
    "Verif.Archive.sims_on_nights_partial",
    "Verif.Archive.sims_on_nights_untagged",
    "Verif.Archive.sims_exact_false"
   ],
   "note": "False with an empty tag list, where the call always fails; exact with tags."
  },
  {
   "property": "C29",
   "status": "partial",
   "theorems": [
    "Verif.Archive.yaml_round_trip_partial",
    "Verif.Archive.yaml_dates_lost",
    "Verif.Archive.yaml_round_trip_iff"
   ],
   "note": "Dates are always lost; yaml_round_trip_iff says exactly when the full statement holds. Importing needs an observations file."
  },
  {
   "property": "C30",
   "status": "proved",
   "theorems": [
    "Verif.Archive.daily_ids",
    "Verif.Archive.daily_id_unique",
    "Verif.Archive.get_sim_uuid_spec",
    "Verif.Archive.daily_id_rank",
    "Verif.Archive.daily_id_after_adding",
    "Verif.Archive.daily_id_stable",
    "Verif.Archive.daily_id_tie",
    "Verif.Archive.creation_day_noon"
   ],
   "note": "With equal creation times the numbering is up to the database (daily_id_tie); stability is for distinct creation times."
  },
  {
   "property": "C31",
   "status": "proved",
   "theorems": [
    "Verif.Archive.select_latest",
    "Verif.Archive.select_none_iff"
   ],
   "note": "The clock may advance between rows."
  },
  {
   "property": "C32",
   "status": "proved",
   "theorems": [
    "Verif.Cheby.chebeval_value",
    "Verif.Cheby.chebeval_no_velocity",
    "Verif.Cheby.chebeval_mask"
   ],
   "note": "Over every field of characteristic not two; floating-point rounding is not modelled."
  },
  {
   "property": "C33",
   "status": "proved",
   "theorems": [
    "Verif.Cheby.chebeval_velocity",
    "Verif.Cheby.chebeval_hasDerivAt"
   ],
   "note": "Algebraic derivative over every field, analytic derivative over the reals."
  },
  {
   "property": "C34",
   "status": "proved",
   "theorems": [
    "Verif.Cheby.chebfit_endpoints",
    "Verif.Cheby.chebfit_endpoints_velocity",
    "Verif.Cheby.chebfit_joins"
   ],
   "note": "Exact arithmetic; invertibility is proved, not assumed."
  },
  {
   "property": "C35",
   "status": "partial",
   "theorems": [
    "Verif.Cheby.ephemerides_right_partial",
    "Verif.Cheby.blocks_covering",
    "Verif.Cheby.ephemerides_wrong_object",
    "Verif.Cheby.first_row_shifted",
    "Verif.Cheby.final_time_values"
   ],
   "note": "False when an object lacks a segment (ephemerides_wrong_object); holds when every time is covered by one segment per object in a common order."
  },
  {
   "property": "C36",
   "status": "proved",
   "theorems": [
    "Verif.Cheby.segments_tile",
    "Verif.Cheby.segments_exact"
   ],
   "note": "Decimal times exact; subdivision of failing segments is not modelled."
  },
  {
   "property": "C37",
   "status": "proved",
   "theorems": [
    "Verif.Names.sanitize_eq",
    "Verif.Names.sanitize_safe",
    "Verif.Names.sanitize_fixed",
    "Verif.Names.sanitize_idem",
    "Verif.Names.sanitize_collides"
   ],
   "note": ""
  },
  {
   "property": "C38",
   "status": "proved",
   "theorems": [
    "Verif.Bins.optimal_bins_limits",
    "Verif.Bins.optimal_bins_degenerate",
    "Verif.Bins.optimal_bins_rule"
   ],
   "note": ""
  },
  {
   "property": "C39",
   "status": "proved",
   "theorems": [
    "Verif.Dates.dayobs_int_iff",
    "Verif.Dates.dayobs_iso",
    "Verif.Dates.dayobs_stacker_round_trip"
   ],
   "note": ""
  },
  {
   "property": "C40",
   "status": "proved",
   "theorems": [
    "Verif.Dates.day_obs_agree"
   ],
   "note": "Exact rational times."
  },
  {
   "property": "C41",
   "status": "proved",
   "theorems": [
    "Verif.Metrics.full_range_smallest_arc",
    "Verif.Metrics.full_range_rotation",
    "Verif.Metrics.full_range_outside_window"
   ],
   "note": "For angles within less than a turn of each other, as documented; outside that the claim fails (full_range_outside_window)."
  },
  {
   "property": "C42",
   "status": "partial",
   "theorems": [
    "Verif.Metrics.count_explim_time",
    "Verif.Metrics.count_explim_partial",
    "Verif.Metrics.count_explim_short",
    "Verif.Metrics.explim_counts_false",
    "Verif.Metrics.frac_bounds",
    "Verif.Metrics.frac_sum",
    "Verif.Metrics.max_percent_spec",
    "Verif.Metrics.count_beyond_partial",
    "Verif.Metrics.count_beyond_two_fails",
    "Verif.Metrics.beyond_counts_false"
   ],
   "note": "Two thresholds fail on more than one visit (count_beyond_two_fails) and CountExplim can ignore accepted visits (explim_counts_false); the rest is proved. CountSubset and CountRatio are one-line numpy calls and not modelled."
  },
  {
   "property": "C43",
   "status": "proved",
   "theorems": [
    "Verif.Slicers.timeInterval_empty_not_reported"
   ],
   "note": "A defect stated as it is: the empty interval is not recognised as empty."
  },
  {
   "property": "C44",
   "status": "partial",
   "theorems": [
    "Verif.Bundles.groups_isolated_partial",
    "Verif.Bundles.groups_not_isolated"
   ],
   "note": "False in general (groups_not_isolated); proved when earlier groups write no column the later one reads or writes."
  },
  {
   "property": "C45",
   "status": "proved",
   "theorems": [
    "Verif.Stackers.hourAngle_range"
   ],
   "note": "pi is any positive number."
  },
  {
   "property": "C46",
   "status": "proved",
   "theorems": [
    "Verif.Stackers.pa_adds_undeclared_column",
    "Verif.Stackers.pa_uses_stale_ha"
   ],
   "note": "A defect stated as it is."
  },
  {
   "property": "C47",
   "status": "proved",
   "theorems": [
    "Verif.Stackers.overhead_spec",
    "Verif.Stackers.overhead_accounts"
   ],
   "note": ""
  },
  {
   "property": "C48",
   "status": "partial",
   "theorems": [
    "Verif.Stackers.saturation_nan_partial",
    "Verif.Stackers.saturation_wrong_row"
   ],
   "note": "False with several filters (saturation_wrong_row); proved: saturated visits always get NaN, and exactly these when all visits share one filter."
  },
  {
   "property": "C49",
   "status": "partial",
   "theorems": [
    "Verif.Stackers.nFollow_partial",
    "Verif.Stackers.nFollow_swapped"
   ],
   "note": "False of the code: latitude and longitude are exchanged (nFollow_swapped); the partial theorem gives exactly what is counted."
  },
  {
   "property": "C50",
   "status": "proved",
   "theorems": [
    "Verif.Stackers.noteRoot_spec",
    "Verif.Stackers.noteRootStored_spec"
   ],
   "note": ""
  },
  {
   "property": "C51",
   "status": "proved",
   "theorems": [
    "Verif.Db.summary_value_added",
    "Verif.Db.summary_rows_accumulate",
    "Verif.Db.summary_not_updated"
   ],
   "note": "A defect stated as it is."
  },
  {
   "property": "C52",
   "status": "partial",
   "theorems": [
    "Verif.Db.summaryName_stripped_partial",
    "Verif.Db.summaryName_collides",
    "Verif.Db.summaryName_keeps_commas"
   ],
   "note": "Comma removal and distinctness are false of the code (refuted)."
  },
  {
   "property": "C53",
   "status": "partial",
   "theorems": [
    "Verif.Db.update_crash_partial",
    "Verif.Db.update_crash_loses",
    "Verif.Db.update_not_atomic",
    "Verif.Db.update_crash_changes_id"
   ],
   "note": "Atomicity is false of the code (update_not_atomic)."
  },
  {
   "property": "C54",
   "status": "proved",
   "theorems": [
    "Verif.Archive.yaml_creation_time_ignored",
    "Verif.Archive.yaml_creation_time_lost"
   ],
   "note": "A defect stated as it is."
  },
  {
   "property": "C55",
   "status": "partial",
   "theorems": [
    "Verif.Archive.findable_partial",
    "Verif.Archive.missing_index_fails",
    "Verif.Archive.findable_false"
   ],
   "note": "False when an index is missing (missing_index_fails); exact when all are present."
  },
  {
   "property": "C56",
   "status": "partial",
   "theorems": [
    "Verif.Archive.record_complete_partial",
    "Verif.Archive.failed_record_leaves_row",
    "Verif.Archive.record_not_atomic"
   ],
   "note": "Atomicity is false of the code."
  },
  {
   "property": "C57",
   "status": "proved",
   "theorems": [
    "Verif.Archive.url_round_trip",
    "Verif.Archive.record_keeps_ok"
   ],
   "note": ""
  },
  {
   "property": "C58",
   "status": "proved",
   "theorems": [
    "Verif.Cheby.chebfit_optimal",
    "Verif.Cheby.chebfit_recovers"
   ],
   "note": "Exact arithmetic, ordered fields."
  },
  {
   "property": "C59",
   "status": "proved",
   "theorems": [
    "Verif.Cheby.unwrap_continuous",
    "Verif.Cheby.unwrap_sharp"
   ],
   "note": ""
  },
  {
   "property": "C60",
   "status": "proved",
   "theorems": [
    "Verif.Cheby.label_check_vacuous",
    "Verif.Cheby.unknown_object_zeros",
    "Verif.Cheby.caller_ids_overwritten"
   ],
   "note": "A defect stated as it is."
  },
  {
   "property": "C61",
   "status": "proved",
   "theorems": [
    "Verif.Cheby.gap_gives_zeros",
    "Verif.Cheby.outside_gives_nan",
    "Verif.Cheby.final_time_values",
    "Verif.Cheby.extrapolated_values"
   ],
   "note": "Includes the zero values as a defect stated as it is."
  },
  {
   "property": "C62",
   "status": "partial",
   "theorems": [
    "Verif.Cheby.round_length_partial",
    "Verif.Cheby.small_length_accepted",
    "Verif.Cheby.fits_span_false"
   ],
   "note": "The documented accuracy is missed by a factor of ten (fits_span_false)."
  },
  {
   "property": "C63",
   "status": "partial",
   "theorems": [
    "Verif.Bins.clip_partial",
    "Verif.Bins.retains_false",
    "Verif.Bins.pct_between",
    "Verif.Bins.pct_mono",
    "Verif.Bins.pct_below",
    "Verif.Bins.pct_above"
   ],
   "note": "False for small samples (retains_false)."
  },
  {
   "property": "C64",
   "status": "partial",
   "theorems": [
    "Verif.Dates.simulated_dates_partial",
    "Verif.Dates.last_night_missing",
    "Verif.Dates.dates_cover_false"
   ],
   "note": "False of the code (dates_cover_false)."
  },
  {
   "property": "C65",
   "status": "proved",
   "theorems": [
    "Verif.Dates.iso_le_iff",
    "Verif.Dates.on_nights_exact",
    "Verif.Dates.compact_selects_nothing"
   ],
   "note": ""
  },
  {
   "property": "C66",
   "status": "partial",
   "theorems": [
    "Verif.Dates.fetch_repeat_partial",
    "Verif.Dates.fetch_repeat_differs",
    "Verif.Dates.fetch_repeat_differs_kw",
    "Verif.Dates.fetch_tuple_fails"
   ],
   "note": "False when a list is passed (fetch_repeat_differs); holds if no dictionary is passed and the list is empty or already asks for the column."
  },
  {
   "property": "C67",
   "status": "proved",
   "theorems": [
    "Verif.Dates.find_latest_covers"
   ],
   "note": ""
  },
  {
   "property": "C68",
   "status": "partial",
   "theorems": [
    "Verif.Dates.sim_start_end_partial",
    "Verif.Dates.before_almanac_wraps",
    "Verif.Dates.starts_on_day_false"
   ],
   "note": "False for days before the almanac."
  },
  {
   "property": "C69",
   "status": "partial",
   "theorems": [
    "Verif.Metrics.rms_rotation_partial",
    "Verif.Metrics.rms_invariant_false"
   ],
   "note": "False with ties (rms_invariant_false); the squared scatter is modelled."
  },
  {
   "property": "C70",
   "status": "proved",
   "theorems": [
    "Verif.Metrics.noutliers_chebyshev"
   ],
   "note": ""
  },
  {
   "property": "C71",
   "status": "proved",
   "theorems": [
    "Verif.RealMetrics.coadd_single",
    "Verif.RealMetrics.coadd_replicate",
    "Verif.RealMetrics.coadd_perm",
    "Verif.RealMetrics.coadd_groups",
    "Verif.RealMetrics.coadd_more",
    "Verif.RealMetrics.coadd_bounds",
    "Verif.RealMetrics.coadd_other_filters",
    "Verif.RealMetrics.coadd_run_spec"
   ],
   "note": "Real arithmetic."
  },
  {
   "property": "C72",
   "status": "proved",
   "theorems": [
    "Verif.RealMetrics.spread_range",
    "Verif.RealMetrics.spread_rotation",
    "Verif.RealMetrics.spread_zero_iff"
   ],
   "note": "Real arithmetic."
  },
  {
   "property": "C73",
   "status": "proved",
   "theorems": [
    "Verif.RealMetrics.mean_angle_range",
    "Verif.RealMetrics.mean_angle_rotation",
    "Verif.RealMetrics.mean_angle_uniform",
    "Verif.RealMetrics.mean_angle_same",
    "Verif.RealMetrics.mean_turns_false"
   ],
   "note": "Real arithmetic."
  },
  {
   "property": "C74",
   "status": "proved",
   "theorems": [
    "Verif.Bundles.uniq_stackers_spec"
   ],
   "note": ""
  },
  {
   "property": "C75",
   "status": "proved",
   "theorems": [
    "Verif.Tech.nChanges_runs",
    "Verif.Tech.nChanges_zero_iff",
    "Verif.Tech.nChanges_bounds",
    "Verif.Tech.nChanges_order"
   ],
   "note": ""
  },
  {
   "property": "C76",
   "status": "partial",
   "theorems": [
    "Verif.Tech.minBetween_partial",
    "Verif.Tech.minTime_eq",
    "Verif.Tech.minBetween_false",
    "Verif.Tech.minBetween_single",
    "Verif.Tech.nFaster_eq",
    "Verif.Tech.changeTimes_spec"
   ],
   "note": "False of the code (minBetween_false, minBetween_single)."
  },
  {
   "property": "C77",
   "status": "proved",
   "theorems": [
    "Verif.Tech.maxWithin_spec",
    "Verif.Tech.changeTimes_spec"
   ],
   "note": ""
  },
  {
   "property": "C78",
   "status": "partial",
   "theorems": [
    "Verif.Tech.fractionOfPaired_partial",
    "Verif.Tech.isPaired_iff",
    "Verif.Tech.fractionOfPaired_false",
    "Verif.Tech.pairFraction_range"
   ],
   "note": "False at exact ties (fractionOfPaired_false)."
  },
  {
   "property": "C79",
   "status": "partial",
   "theorems": [
    "Verif.Tech.openFraction_range",
    "Verif.Tech.bruteOSF_not_fraction",
    "Verif.Tech.bruteOSF_partial"
   ],
   "note": "False for BruteOSF (bruteOSF_not_fraction)."
  },
  {
   "property": "C80",
   "status": "partial",
   "theorems": [
    "Verif.Groups.night_partial",
    "Verif.Groups.nightCount_good",
    "Verif.Groups.nightCount_close",
    "Verif.Groups.two_visits",
    "Verif.Groups.two_close_false",
    "Verif.Groups.atMost_false",
    "Verif.Groups.night_bound",
    "Verif.Groups.runGroups_spec"
   ],
   "note": "False of the code (two_close_false, atMost_false)."
  },
  {
   "property": "C81",
   "status": "proved",
   "theorems": [
    "Verif.Groups.nNights_spec",
    "Verif.Groups.nVisits_spec"
   ],
   "note": ""
  },
  {
   "property": "C82",
   "status": "partial",
   "theorems": [
    "Verif.Groups.maxSeq_partial",
    "Verif.Groups.nLunations_spec",
    "Verif.Groups.maxSeq_false"
   ],
   "note": "False for windows shorter than a lunation (maxSeq_false)."
  },
  {
   "property": "C83",
   "status": "partial",
   "theorems": [
    "Verif.Gaps.tGaps_all",
    "Verif.Gaps.pairDiffs_sorted",
    "Verif.Gaps.tGapsHist_total",
    "Verif.Gaps.tGapsPercent_range",
    "Verif.Gaps.nightGaps_partial",
    "Verif.Gaps.nightGaps_one_night",
    "Verif.Gaps.nightGapsDefined_false"
   ],
   "note": "False for Nightgaps on a single night (nightGapsDefined_false)."
  },
  {
   "property": "C84",
   "status": "partial",
   "theorems": [
    "Verif.Gaps.sampled_partial",
    "Verif.Gaps.sampledIff_false"
   ],
   "note": "The converse is false (sampledIff_false)."
  },
  {
   "property": "C85",
   "status": "proved",
   "theorems": [
    "Verif.Gaps.nightSpans_spec",
    "Verif.Gaps.intraGaps_eq",
    "Verif.Gaps.interGaps_eq",
    "Verif.Gaps.gaps_total"
   ],
   "note": "Reduction functions (median, percentile) are not modelled."
  },
  {
   "property": "C86",
   "status": "proved",
   "theorems": [
    "Verif.Gaps.template_spec"
   ],
   "note": ""
  },
  {
   "property": "C87",
   "status": "partial",
   "theorems": [
    "Verif.Gaps.uniformity_zero_iff",
    "Verif.Gaps.uniformity_partial",
    "Verif.Gaps.uniformity_above_one",
    "Verif.Gaps.general_partial",
    "Verif.Gaps.generalZero_false"
   ],
   "note": "False of the code (uniformity_above_one, generalZero_false)."
  },
  {
   "property": "C88",
   "status": "partial",
   "theorems": [
    "Verif.Vec.accumulate_value",
    "Verif.Vec.accumulate_next",
    "Verif.Vec.accumulate_partial",
    "Verif.Vec.count_value",
    "Verif.Vec.accumulates_false"
   ],
   "note": "False of the code (accumulates_false); accumulate_value and accumulate_next say what it gives."
  },
  {
   "property": "C89",
   "status": "proved",
   "theorems": [
    "Verif.Vec.uniformity_value",
    "Verif.Vec.uniformity_range",
    "Verif.Vec.uniformity_mono"
   ],
   "note": "For at least two visits and two bins."
  },
  {
   "property": "C90",
   "status": "proved",
   "theorems": [
    "Verif.Area.areaSummary_decreasing",
    "Verif.Area.areaSummary_increasing",
    "Verif.Area.areaSummary_short"
   ],
   "note": "With the default reduce functions."
  },
  {
   "property": "C91",
   "status": "proved",
   "theorems": [
    "Verif.Area.foNv_foArea",
    "Verif.Area.foNv_bad",
    "Verif.Area.foNv_median",
    "Verif.Area.foArea_bad"
   ],
   "note": ""
  },
  {
   "property": "C92",
   "status": "partial",
   "theorems": [
    "Verif.Area.threshold_partial",
    "Verif.Area.threshold_all",
    "Verif.Area.threshold_false",
    "Verif.Area.footprint_spec"
   ],
   "note": "False without limits if pixels have no value (threshold_false)."
  },
  {
   "property": "C93",
   "status": "proved",
   "theorems": [
    "Verif.Seasons.edges_spec",
    "Verif.Seasons.edges_tile",
    "Verif.Seasons.seasonLengths_spec",
    "Verif.Seasons.campaignLength_spec",
    "Verif.Seasons.long_spec"
   ],
   "note": "For seasons that do not decrease with time; calc_season itself is in another package."
  },
  {
   "property": "C94",
   "status": "partial",
   "theorems": [
    "Verif.Seasons.meanFrequency_spec",
    "Verif.Seasons.frequency_partial",
    "Verif.Seasons.frequency_false"
   ],
   "note": "False of the code (frequency_false)."
  },
  {
   "property": "C95",
   "status": "proved",
   "theorems": [
    "Verif.Strings.clip_number",
    "Verif.Strings.clip_other"
   ],
   "note": ""
  },
  {
   "property": "C96",
   "status": "partial",
   "theorems": [
    "Verif.Strings.stringCount_spec",
    "Verif.Strings.stringCount_error",
    "Verif.Strings.percent_sum",
    "Verif.Strings.countsAll_false"
   ],
   "note": "An exception is possible (countsAll_false)."
  },
  {
   "property": "C97",
   "status": "partial",
   "theorems": [
    "Verif.Strings.reduce_works",
    "Verif.Strings.reduce_partial",
    "Verif.Strings.reducesAll_false"
   ],
   "note": "False of the code (reducesAll_false)."
  },
  {
   "property": "C98",
   "status": "partial",
   "theorems": [
    "Verif.Pairs.pairs_partial",
    "Verif.Pairs.pairs_upper",
    "Verif.Pairs.pairs_found",
    "Verif.Pairs.countsPairs_false"
   ],
   "note": "The exact number is not given (countsPairs_false)."
  },
  {
   "property": "C99",
   "status": "proved",
   "theorems": [
    "Verif.Mo.mem_vis",
    "Verif.Mo.noSingles_spec",
    "Verif.Mo.noSingles_negative",
    "Verif.Mo.nNights_spec",
    "Verif.Mo.nNights_le",
    "Verif.Mo.noSingles_le",
    "Verif.Mo.noSingles_add",
    "Verif.Mo.counts_mono"
   ],
   "note": ""
  },
  {
   "property": "C100",
   "status": "proved",
   "theorems": [
    "Verif.Mo.obsArc_spec",
    "Verif.Mo.obsArc_nonneg",
    "Verif.Mo.obsArc_mono"
   ],
   "note": ""
  },
  {
   "property": "C101",
   "status": "partial",
   "theorems": [
    "Verif.Mo.activity_lt_one",
    "Verif.Mo.activity_partial",
    "Verif.Mo.activity_false"
   ],
   "note": "False of the code (activity_false); activity_partial gives the value."
  },
  {
   "property": "C102",
   "status": "partial",
   "theorems": [
    "Verif.Mo.anomaly_differ",
    "Verif.Mo.peri_bins",
    "Verif.Mo.period_partial"
   ],
   "note": "False of the code if the time of perihelion is used (anomaly_differ, peri_bins)."
  },
  {
   "property": "C103",
   "status": "partial",
   "theorems": [
    "Verif.Mo.magic_partial",
    "Verif.Mo.magic_false"
   ],
   "note": "For rows in order of nights; the value depends on the order (magic_false)."
  },
  {
   "property": "C104",
   "status": "partial",
   "theorems": [
    "Verif.Mo.highVelocityNights_partial",
    "Verif.Mo.highVelocityNights_false",
    "Verif.Mo.highVelocity_le",
    "Verif.Mo.fast_iff"
   ],
   "note": "The time returned need not be that of a detection (highVelocityNights_false)."
  },
  {
   "property": "C105",
   "status": "proved",
   "theorems": [
    "Verif.Mo.colorFlag_spec",
    "Verif.Mo.colorFlag_mono",
    "Verif.Mo.snrWeight_le",
    "Verif.Mo.colorAsteroid_mono",
    "Verif.Mo.colorAsteroid_needs"
   ],
   "note": ""
  },
  {
   "property": "C106",
   "status": "proved",
   "theorems": [
    "Verif.Mo.lightcurveColor_mono",
    "Verif.Mo.lightcurveColor_limit",
    "Verif.Mo.lightcurveColor_spec"
   ],
   "note": ""
  },
  {
   "property": "C107",
   "status": "partial",
   "theorems": [
    "Verif.Mo.instantaneous_partial",
    "Verif.Mo.instantaneous_sound_partial",
    "Verif.Mo.instantaneous_false"
   ],
   "note": "False of the code (instantaneous_false); instantaneous_partial says what is counted."
  },
  {
   "property": "C108",
   "status": "partial",
   "theorems": [
    "Verif.Mo.inversion_partial",
    "Verif.Mo.inversion_false"
   ],
   "note": "False around longitude zero (inversion_false)."
  },
  {
   "property": "C109",
   "status": "proved",
   "theorems": [
    "Verif.Mo.knownLoop_spec",
    "Verif.Mo.knownObjects_spec",
    "Verif.Mo.inPeriod_iff"
   ],
   "note": "Random numbers are arbitrary."
  },
  {
   "property": "C110",
   "status": "partial",
   "theorems": [
    "Verif.Mo.tracklet_partial",
    "Verif.Mo.tracklet_complete_partial",
    "Verif.Mo.tracklet_false",
    "Verif.Mo.single_never",
    "Verif.Mo.tracklets_eq"
   ],
   "note": "Some tracklets are missed (tracklet_false)."
  },
  {
   "property": "C111",
   "status": "proved",
   "theorems": [
    "Verif.Mo.run_none",
    "Verif.Mo.run_some"
   ],
   "note": "For rows in order of time, t_min positive."
  },
  {
   "property": "C112",
   "status": "partial",
   "theorems": [
    "Verif.Mo.foundRow_partial",
    "Verif.Mo.order_false",
    "Verif.Mo.row_false"
   ],
   "note": "Only for rows in order of time (order_false, row_false)."
  },
  {
   "property": "C113",
   "status": "partial",
   "theorems": [
    "Verif.Mo.foundNObs_partial",
    "Verif.Mo.foundNObs_false"
   ],
   "note": "One too small (foundNObs_partial, foundNObs_false)."
  },
  {
   "property": "C114",
   "status": "proved",
   "theorems": [
    "Verif.Gaps.maxGap_spec",
    "Verif.Gaps.maxGap_none"
   ],
   "note": ""
  },
  {
   "property": "C115",
   "status": "proved",
   "theorems": [
    "Verif.MoSum.integrate_value",
    "Verif.MoSum.integrate_length",
    "Verif.MoSum.integrate_scale",
    "Verif.MoSum.integrate_bounds",
    "Verif.MoSum.integrate_antitone"
   ],
   "note": ""
  },
  {
   "property": "C116",
   "status": "partial",
   "theorems": [
    "Verif.MoSum.hindex_partial",
    "Verif.MoSum.hindex_false",
    "Verif.MoSum.hindex_ignored",
    "Verif.MoSum.powerLaw_pos",
    "Verif.MoSum.powerLaw_ratio",
    "Verif.MoSum.anchor_free"
   ],
   "note": "False of the code (hindex_false, hindex_ignored)."
  },
  {
   "property": "C117",
   "status": "partial",
   "theorems": [
    "Verif.MoSum.complete_partial",
    "Verif.MoSum.complete_range",
    "Verif.MoSum.complete_mono",
    "Verif.MoSum.complete_masked",
    "Verif.MoSum.complete_false"
   ],
   "note": "Only for positive thresholds (complete_false)."
  },
  {
   "property": "C118",
   "status": "partial",
   "theorems": [
    "Verif.MoSum.binned_outside",
    "Verif.MoSum.binned_value",
    "Verif.MoSum.binned_partial",
    "Verif.MoSum.spread_false",
    "Verif.MoSum.hBins_spec",
    "Verif.MoSum.hBins_false"
   ],
   "note": "False of the code (spread_false, hBins_false)."
  },
  {
   "property": "C119",
   "status": "partial",
   "theorems": [
    "Verif.MoSum.completeAt_value",
    "Verif.MoSum.completeAt_mono",
    "Verif.MoSum.atTime_mono",
    "Verif.MoSum.last_partial",
    "Verif.MoSum.early_false"
   ],
   "note": "Early discoveries are not counted (early_false)."
  },
  {
   "property": "C120",
   "status": "partial",
   "theorems": [
    "Verif.MoSum.hIndex_spec",
    "Verif.MoSum.hIndex_default",
    "Verif.MoSum.stale_partial",
    "Verif.MoSum.stale_false",
    "Verif.MoSum.init_default"
   ],
   "note": "False of the code (stale_false, init_default)."
  },
  {
   "property": "C121",
   "status": "proved",
   "theorems": [
    "Verif.MoSum.valueAtH_spec",
    "Verif.MoSum.valueAtH_node",
    "Verif.MoSum.interp_node",
    "Verif.MoSum.interp_between",
    "Verif.MoSum.interp_ends",
    "Verif.MoSum.interp_mono",
    "Verif.MoSum.meanValueAtH_single",
    "Verif.MoSum.meanValueAtH_node",
    "Verif.MoSum.totalNumber_node",
    "Verif.MoSum.totalNumber_mono"
   ],
   "note": ""
  },
  {
   "property": "C122",
   "status": "proved",
   "theorems": [
    "Verif.Spectres.spectres_spec",
    "Verif.Spectres.spectres_bounds",
    "Verif.Spectres.spectres_const",
    "Verif.Spectres.spectres_self",
    "Verif.Spectres.spectres_smul",
    "Verif.Spectres.spectres_add",
    "Verif.Spectres.spectres_conserves"
   ],
   "note": ""
  },
  {
   "property": "C123",
   "status": "partial",
   "theorems": [
    "Verif.Spectres.spectres_inside_partial",
    "Verif.Spectres.spectres_inside_false",
    "Verif.Spectres.spectres_decreasing_false"
   ],
   "note": "False of the code (spectres_inside_false, spectres_decreasing_false)."
  },
  {
   "property": "C124",
   "status": "proved",
   "theorems": [
    "Verif.Sed.phi_integral",
    "Verif.Sed.phi_shape",
    "Verif.Sed.phi_nonneg",
    "Verif.Sed.calcFlux_bounds",
    "Verif.Sed.calcFlux_const",
    "Verif.Sed.calcFlux_scale",
    "Verif.Sed.calcFlux_throughput",
    "Verif.Sed.resample_grid"
   ],
   "note": ""
  },
  {
   "property": "C125",
   "status": "partial",
   "theorems": [
    "Verif.Sed.manyFlux_eq",
    "Verif.Sed.manyFlux_partial",
    "Verif.Sed.manyFlux_false"
   ],
   "note": "False of the code (manyFlux_false); manyFlux_eq gives the difference."
  },
  {
   "property": "C126",
   "status": "partial",
   "theorems": [
    "Verif.Sed.counts_partial",
    "Verif.Sed.counts_false",
    "Verif.Sed.calcAdu_scale"
   ],
   "note": "False of the code (counts_false)."
  },
  {
   "property": "C127",
   "status": "partial",
   "theorems": [
    "Verif.Sed.calcErgs_partial",
    "Verif.Sed.calcErgs_false"
   ],
   "note": "For uniform grids only (calcErgs_false)."
  },
  {
   "property": "C128",
   "status": "proved",
   "theorems": [
    "Verif.Sed.inSync",
    "Verif.Sed.calc_uses_present",
    "Verif.Sed.toFlambda_toFnu"
   ],
   "note": "For positive wavelengths."
  },
  {
   "property": "C129",
   "status": "partial",
   "theorems": [
    "Verif.Sed.redshift_partial",
    "Verif.Sed.redshift_back",
    "Verif.Sed.redshift_energy",
    "Verif.Sed.redshift_false"
   ],
   "note": "False for negative redshifts (redshift_false)."
  },
  {
   "property": "C130",
   "status": "proved",
   "theorems": [
    "Verif.Snr.mag_flux",
    "Verif.Snr.mag_hundred",
    "Verif.Snr.mag_lt",
    "Verif.Snr.calcMag_some",
    "Verif.Snr.scaledTo_mag",
    "Verif.Snr.flat_mag",
    "Verif.Snr.usable_default"
   ],
   "note": ""
  },
  {
   "property": "C131",
   "status": "partial",
   "theorems": [
    "Verif.Snr.flat_mag",
    "Verif.Snr.cleared_differs",
    "Verif.Snr.cleared_false"
   ],
   "note": "False after clear_sed (cleared_false)."
  },
  {
   "property": "C132",
   "status": "proved",
   "theorems": [
    "Verif.Snr.snr_exposures",
    "Verif.Snr.snr_gain",
    "Verif.Snr.noise_platescale",
    "Verif.Snr.fwhm_inverse"
   ],
   "note": ""
  },
  {
   "property": "C133",
   "status": "partial",
   "theorems": [
    "Verif.Snr.m5_partial",
    "Verif.Snr.m5_false",
    "Verif.Snr.m5_gain_false",
    "Verif.Snr.calcM5_exists",
    "Verif.Snr.camera_setting"
   ],
   "note": "For gain 1 only (m5_false, m5_gain_false)."
  },
  {
   "property": "C134",
   "status": "partial",
   "theorems": [
    "Verif.Snr.scaleSky_snr",
    "Verif.Snr.scaleSky_partial",
    "Verif.Snr.scaleSky_false",
    "Verif.Snr.skyCounts_negative"
   ],
   "note": "calc_m5 gives m5 for gain 1 only (scaleSky_false); the sky can be negative (skyCounts_negative)."
  },
  {
   "property": "C135",
   "status": "proved",
   "theorems": [
    "Verif.Snr.gamma_range",
    "Verif.Snr.snrM5_limit",
    "Verif.Snr.snrM5_decreasing",
    "Verif.Snr.snrM5_negative",
    "Verif.Snr.snr_agree"
   ],
   "note": ""
  },
  {
   "property": "C136",
   "status": "proved",
   "theorems": [
    "Verif.Snr.magErrorFromSnr_spec",
    "Verif.Snr.magErrorFromSnr_shift",
    "Verif.Snr.magError_spec",
    "Verif.Snr.magError_floor"
   ],
   "note": ""
  },
  {
   "property": "C137",
   "status": "proved",
   "theorems": [
    "Verif.Snr.astrometric_limit",
    "Verif.Snr.astrometric_spec"
   ],
   "note": ""
  },
  {
   "property": "C138",
   "status": "partial",
   "theorems": [
    "Verif.Snr.zp_counts",
    "Verif.Snr.zp_partial",
    "Verif.Snr.zp_false",
    "Verif.Snr.zp_exptime"
   ],
   "note": "For visits of one second only (zp_false)."
  },
  {
   "property": "C139",
   "status": "proved",
   "theorems": [
    "Verif.Snr.predictedZp_spec",
    "Verif.Snr.extinctionCoeff_neg"
   ],
   "note": ""
  },
  {
   "property": "C140",
   "status": "partial",
   "theorems": [
    "Verif.Dust.dims_partial",
    "Verif.Dust.dims_false",
    "Verif.Dust.brightens_false",
    "Verif.Dust.extinction_pos",
    "Verif.Dust.extinction_outside",
    "Verif.Dust.v_band"
   ],
   "note": "There is a hole at a single wavelength (dims_false) and r_v is not checked (brightens_false)."
  },
  {
   "property": "C141",
   "status": "proved",
   "theorems": [
    "Verif.Dust.factor_mag",
    "Verif.Dust.factor_lt_one",
    "Verif.Dust.addDust_add",
    "Verif.Dust.addDust_zero"
   ],
   "note": ""
  },
  {
   "property": "C142",
   "status": "partial",
   "theorems": [
    "Verif.Dust.choose_agree",
    "Verif.Dust.choose_partial",
    "Verif.Dust.choose_false",
    "Verif.Dust.choose_none"
   ],
   "note": "False for r_v of 3.1 (choose_false)."
  },
  {
   "property": "C143",
   "status": "partial",
   "theorems": [
    "Verif.Dust.ax1_bounds",
    "Verif.Dust.ax1_exists",
    "Verif.Dust.ax1_pos",
    "Verif.Dust.flatFrom_covers",
    "Verif.Dust.ax1_false",
    "Verif.Dust.narrow_sampled"
   ],
   "note": "Only for ref_ebv of 1 (ax1_false)."
  },
  {
   "property": "C144",
   "status": "proved",
   "theorems": [
    "Verif.Bandpass.read_spec",
    "Verif.Bandpass.read_none",
    "Verif.Bandpass.read_perm"
   ],
   "note": ""
  },
  {
   "property": "C145",
   "status": "proved",
   "theorems": [
    "Verif.Bandpass.resample_spec",
    "Verif.Bandpass.interp0_node",
    "Verif.Bandpass.interp0_outside",
    "Verif.Bandpass.interp0_bounds",
    "Verif.Bandpass.resample_range",
    "Verif.Bandpass.resample_self",
    "Verif.Bandpass.halfGrid_spec",
    "Verif.Bandpass.halfGrid_whole"
   ],
   "note": ""
  },
  {
   "property": "C146",
   "status": "proved",
   "theorems": [
    "Verif.Bandpass.list_spec",
    "Verif.Bandpass.list_perm",
    "Verif.Bandpass.list_range"
   ],
   "note": ""
  },
  {
   "property": "C147",
   "status": "partial",
   "theorems": [
    "Verif.Bandpass.multiply_partial",
    "Verif.Bandpass.multiply_false"
   ],
   "note": "For uniform grids only (multiply_false)."
  },
  {
   "property": "C148",
   "status": "partial",
   "theorems": [
    "Verif.Bandpass.imsim_unique",
    "Verif.Bandpass.imsim_partial",
    "Verif.Bandpass.imsim_false"
   ],
   "note": "There can be none (imsim_false)."
  },
  {
   "property": "C149",
   "status": "proved",
   "theorems": [
    "Verif.Bandpass.eff_eq",
    "Verif.Bandpass.eff_spec"
   ],
   "note": ""
  },
  {
   "property": "C150",
   "status": "partial",
   "theorems": [
    "Verif.SedFiles.reads_partial",
    "Verif.SedFiles.read_contents",
    "Verif.SedFiles.reads_false"
   ],
   "note": "Only while files do not change (reads_false)."
  },
  {
   "property": "C151",
   "status": "partial",
   "theorems": [
    "Verif.SedFiles.renorm_partial",
    "Verif.SedFiles.renorm_gap_partial",
    "Verif.SedFiles.renorm_false",
    "Verif.SedFiles.renormFnu_false",
    "Verif.SedFiles.multiply_partial"
   ],
   "note": "Always raises with default arguments (renorm_false) and for fnu (renormFnu_false)."
  },
  {
   "property": "C152",
   "status": "partial",
   "theorems": [
    "Verif.SedFiles.written_near",
    "Verif.SedFiles.write_partial",
    "Verif.SedFiles.write_false",
    "Verif.SedFiles.writeFnu_false"
   ],
   "note": "Only for steps of at least 0.01 nm (write_false), and never with fnu (writeFnu_false)."
  },
  {
   "property": "C153",
   "status": "partial",
   "theorems": [
    "Verif.SedFiles.construct_spec",
    "Verif.SedFiles.default_band",
    "Verif.SedFiles.default_sigma",
    "Verif.SedFiles.construct_other",
    "Verif.SedFiles.unknown_false"
   ],
   "note": "The comment about unknown bandpasses is wrong (unknown_false)."
  },
  {
   "property": "C154",
   "status": "proved",
   "theorems": [
    "Verif.MoStack.appMag_spec",
    "Verif.MoStack.combine_flux",
    "Verif.MoStack.combine_spec",
    "Verif.MoStack.combine_shift",
    "Verif.MoStack.coma_shift",
    "Verif.MoStack.comet_shift",
    "Verif.MoStack.comet_brighter"
   ],
   "note": ""
  },
  {
   "property": "C155",
   "status": "partial",
   "theorems": [
    "Verif.MoStack.coma_shift",
    "Verif.MoStack.coma_false"
   ],
   "note": "False of the code (coma_false)."
  },
  {
   "property": "C156",
   "status": "partial",
   "theorems": [
    "Verif.MoStack.cometParams_partial",
    "Verif.MoStack.cometParams_false"
   ],
   "note": "The documented key is not the one read (cometParams_false)."
  },
  {
   "property": "C157",
   "status": "partial",
   "theorems": [
    "Verif.MoStack.snr_limit",
    "Verif.MoStack.snr_decreasing",
    "Verif.MoStack.snr_partial",
    "Verif.MoStack.snr_false"
   ],
   "note": "False of the code (snr_false)."
  },
  {
   "property": "C158",
   "status": "proved",
   "theorems": [
    "Verif.MoStack.completeness_spec",
    "Verif.MoStack.vis_spec",
    "Verif.MoStack.run_append",
    "Verif.MoStack.runs_flatten",
    "Verif.MoStack.runs_false"
   ],
   "note": ""
  },
  {
   "property": "C159",
   "status": "proved",
   "theorems": [
    "Verif.MoStack.ecliptic_spec",
    "Verif.MoStack.ecliptic_deg",
    "Verif.MoStack.ecliptic_points"
   ],
   "note": ""
  },
  {
   "property": "C160",
   "status": "proved",
   "theorems": [
    "Verif.MoStack.logLinear_mag",
    "Verif.MoStack.phaseHg_spec"
   ],
   "note": ""
  },
  {
   "property": "C161",
   "status": "proved",
   "theorems": [
    "Verif.Stack2.teff_spec",
    "Verif.Stack2.teff_mono",
    "Verif.Stack2.teff_coadd"
   ],
   "note": ""
  },
  {
   "property": "C162",
   "status": "proved",
   "theorems": [
    "Verif.Stack2.m5Coadd_spec",
    "Verif.Stack2.m5Coadd_append",
    "Verif.Stack2.m5Coadd_perm",
    "Verif.Stack2.m5Coadd_replicate",
    "Verif.Stack2.m5Coadd_deeper"
   ],
   "note": ""
  },
  {
   "property": "C163",
   "status": "partial",
   "theorems": [
    "Verif.Stack2.coadd_partial",
    "Verif.Stack2.rows_partial",
    "Verif.Stack2.rows_unique_partial",
    "Verif.Stack2.coadd_false"
   ],
   "note": "Only for separated positions (coadd_false)."
  },
  {
   "property": "C164",
   "status": "proved",
   "theorems": [
    "Verif.Stack2.altAz_spec",
    "Verif.Stack2.sin_alt",
    "Verif.Stack2.wrapRa_spec"
   ],
   "note": "For latitudes other than the poles and directions other than the zenith."
  },
  {
   "property": "C165",
   "status": "partial",
   "theorems": [
    "Verif.Stack2.galactic_partial",
    "Verif.Stack2.galactic_false"
   ],
   "note": "For radians only (galactic_false)."
  },
  {
   "property": "C166",
   "status": "proved",
   "theorems": [
    "Verif.Stack2.normAirmass_spec",
    "Verif.Stack2.normAirmass_deg"
   ],
   "note": ""
  },
  {
   "property": "C167",
   "status": "partial",
   "theorems": [
    "Verif.Stack2.m5Optimal_spec",
    "Verif.Stack2.m5Optimal_moon",
    "Verif.Stack2.twilight_false"
   ],
   "note": "Twilight is not recognised (twilight_false)."
  },
  {
   "property": "C168",
   "status": "partial",
   "theorems": [
    "Verif.Stack2.m5Cols_false"
   ],
   "note": "False of the code (m5Cols_false)."
  },
  {
   "property": "C169",
   "status": "partial",
   "theorems": [
    "Verif.Stack2.maxGeoDist_partial",
    "Verif.Stack2.maxGeoDist_false"
   ],
   "note": "False if the object is seen at all distances (maxGeoDist_false)."
  },
  {
   "property": "C170",
   "status": "proved",
   "theorems": [
    "Verif.Stack2.helioXY_spec",
    "Verif.Stack2.cosAlpha_spec",
    "Verif.Stack2.flip_spec",
    "Verif.Stack2.halfval_false"
   ],
   "note": ""
  },
  {
   "property": "C171",
   "status": "proved",
   "theorems": [
    "Verif.Stack2.label_spec",
    "Verif.Stack2.label_full",
    "Verif.Stack2.label_empty"
   ],
   "note": ""
  },
  {
   "property": "C172",
   "status": "partial",
   "theorems": [
    "Verif.Stack2.dd_partial",
    "Verif.Stack2.dd_false"
   ],
   "note": "For short names that do not end in u (dd_false)."
  },
  {
   "property": "C173",
   "status": "proved",
   "theorems": [
    "Verif.Stack2.dcr_spec",
    "Verif.Stack2.dcr2_spec",
    "Verif.Stack2.dcr2_dcr"
   ],
   "note": ""
  },
  {
   "property": "C174",
   "status": "partial",
   "theorems": [
    "Verif.Stack2.dcr2Init_partial",
    "Verif.Stack2.dcr2Init_false"
   ],
   "note": "False of the code (dcr2Init_false)."
  },
  {
   "property": "C175",
   "status": "partial",
   "theorems": [
    "Verif.Orbits.set_ok_iff",
    "Verif.Orbits.set_stored",
    "Verif.Orbits.set_loaded",
    "Verif.Orbits.set_epoch_partial",
    "Verif.Orbits.set_epoch_false"
   ],
   "note": "Only the first epoch is checked (set_epoch_false)."
  },
  {
   "property": "C176",
   "status": "partial",
   "theorems": [
    "Verif.Orbits.set_err_orbits_partial",
    "Verif.Orbits.set_err_fmt",
    "Verif.Orbits.set_frame",
    "Verif.Orbits.set_twice_partial",
    "Verif.Orbits.set_err_false",
    "Verif.Orbits.set_frame_false",
    "Verif.Orbits.set_twice_false",
    "Verif.Orbits.set_again_false"
   ],
   "note": "False of the code (set_err_false, set_frame_false, set_twice_false, set_again_false)."
  },
  {
   "property": "C177",
   "status": "partial",
   "theorems": [
    "Verif.Orbits.eq_spec",
    "Verif.Orbits.eq_refl_partial",
    "Verif.Orbits.eq_new",
    "Verif.Orbits.eq_many",
    "Verif.Orbits.eq_false"
   ],
   "note": "Only formats and ids are compared (eq_false)."
  },
  {
   "property": "C178",
   "status": "partial",
   "theorems": [
    "Verif.Orbits.getItem_partial",
    "Verif.Orbits.iter_items",
    "Verif.Orbits.rows_all",
    "Verif.Orbits.getItem_false"
   ],
   "note": "For frames that show their format only (getItem_false)."
  },
  {
   "property": "C179",
   "status": "partial",
   "theorems": [
    "Verif.Orbits.sed_chance",
    "Verif.Orbits.sed_names",
    "Verif.Orbits.sed_mono",
    "Verif.Orbits.assign_a",
    "Verif.Orbits.assign_q",
    "Verif.Orbits.sedQ_spec",
    "Verif.Orbits.seed_new",
    "Verif.Orbits.seed_ignored",
    "Verif.Orbits.seed_false"
   ],
   "note": "The seed is ignored after the first draw (seed_false)."
  },
  {
   "property": "C180",
   "status": "partial",
   "theorems": [
    "Verif.Orbits.header_none",
    "Verif.Orbits.header_spec",
    "Verif.Orbits.header_empty",
    "Verif.Orbits.delim_nothing",
    "Verif.Orbits.delim_false"
   ],
   "note": "For blanks as delimiters only (delim_false)."
  },
  {
   "property": "C181",
   "status": "partial",
   "theorems": [
    "Verif.Orbits.rename_spec",
    "Verif.Orbits.rename_inUse",
    "Verif.Orbits.rename_S3MID",
    "Verif.Orbits.rename_false"
   ],
   "note": "Two names are not recognised (rename_false)."
  },
  {
   "property": "C182",
   "status": "partial",
   "theorems": [
    "Verif.Orbits.readEnd_ids",
    "Verif.Orbits.readEnd_no_ids_partial",
    "Verif.Orbits.readEnd_false"
   ],
   "note": "False of the code (readEnd_false)."
  },
  {
   "property": "C183",
   "status": "partial",
   "theorems": [
    "Verif.Orbits.update_spec_partial",
    "Verif.Orbits.update_false"
   ],
   "note": "H and g are not kept (update_false)."
  },
  {
   "property": "C184",
   "status": "proved",
   "theorems": [
    "Verif.Direct.rough_spec"
   ],
   "note": ""
  },
  {
   "property": "C185",
   "status": "proved",
   "theorems": [
    "Verif.Direct.objectRows_spec",
    "Verif.Direct.collect_spec",
    "Verif.Direct.run_spec",
    "Verif.Direct.found_nodup"
   ],
   "note": ""
  },
  {
   "property": "C186",
   "status": "partial",
   "theorems": [
    "Verif.Direct.found_complete",
    "Verif.Direct.run_complete_partial",
    "Verif.Direct.run_complete_false"
   ],
   "note": "Only for tolerances larger than the field (run_complete_false)."
  },
  {
   "property": "C187",
   "status": "proved",
   "theorems": [
    "Verif.Direct.nearest_spec",
    "Verif.Direct.covers_spec",
    "Verif.Direct.objectTol_spec"
   ],
   "note": ""
  },
  {
   "property": "C188",
   "status": "partial",
   "theorems": [
    "Verif.Direct.circle_unit",
    "Verif.Direct.rect_spec_partial",
    "Verif.Direct.rect_unit_false",
    "Verif.Direct.rect_false",
    "Verif.Direct.fov_spec",
    "Verif.Direct.info_partial",
    "Verif.Direct.info_false"
   ],
   "note": "False of the rectangle (rect_unit_false, rect_false) and of the info (info_false). The camera footprint is not modelled."
  },
  {
   "property": "C189",
   "status": "partial",
   "theorems": [
    "Verif.Direct.trail_nonneg",
    "Verif.Direct.trail_mono",
    "Verif.Direct.trail_order",
    "Verif.Direct.trail_order_false"
   ],
   "note": "The order of the losses is false for short trails (trail_order_false)."
  },
  {
   "property": "C190",
   "status": "partial",
   "theorems": [
    "Verif.Direct.eph_axes",
    "Verif.Direct.eph_rates",
    "Verif.Direct.generate_none_iff",
    "Verif.Direct.generate_case",
    "Verif.Direct.generate_err_partial",
    "Verif.Direct.generate_err_false"
   ],
   "note": "Errors are ignored for basic ephemerides (generate_err_false)."
  },
  {
   "property": "C191",
   "status": "partial",
   "theorems": [
    "Verif.Direct.copies_basic",
    "Verif.Direct.copies_full"
   ],
   "note": "False for type full (copies_full)."
  },
  {
   "property": "C192",
   "status": "proved",
   "theorems": [
    "Verif.Direct.unpack_pack",
    "Verif.Direct.pack_some_iff",
    "Verif.Direct.pack_false"
   ],
   "note": ""
  },
  {
   "property": "C193",
   "status": "proved",
   "theorems": [
    "Verif.Direct.colorLoop_spec",
    "Verif.Direct.colors_spec"
   ],
   "note": ""
  },
  {
   "property": "C194",
   "status": "proved",
   "theorems": [
    "Verif.Spatial.near_iff",
    "Verif.Spatial.slice_spec",
    "Verif.Spatial.slice_unit",
    "Verif.Spatial.slice_turn"
   ],
   "note": "The camera footprint is an arbitrary test of a visit."
  },
  {
   "property": "C195",
   "status": "partial",
   "theorems": [
    "Verif.Spatial.slicePoint_partial",
    "Verif.Spatial.slicePoint_false"
   ],
   "note": "False for common arrays whose length is the number of slices (slicePoint_false)."
  },
  {
   "property": "C196",
   "status": "proved",
   "theorems": [
    "Verif.Spatial.iter_spec",
    "Verif.Spatial.mask_spec",
    "Verif.Spatial.subset_slice",
    "Verif.Spatial.subset_point",
    "Verif.Spatial.subset_values",
    "Verif.Spatial.circle_spec",
    "Verif.Spatial.wfd_spec"
   ],
   "note": "For metrics with one number per slice; for several see C197."
  },
  {
   "property": "C197",
   "status": "partial",
   "theorems": [
    "Verif.Spatial.initialMask_spec",
    "Verif.Spatial.initialMask_partial",
    "Verif.Spatial.initialMask_false"
   ],
   "note": "False for several numbers per slice (initialMask_false)."
  },
  {
   "property": "C198",
   "status": "proved",
   "theorems": [
    "Verif.Spatial.userPoints_spec",
    "Verif.Spatial.userPoints_one"
   ],
   "note": ""
  },
  {
   "property": "C199",
   "status": "partial",
   "theorems": [
    "Verif.Spatial.eq_slices_partial",
    "Verif.Spatial.eq_slices_false",
    "Verif.Spatial.eq_refl",
    "Verif.Spatial.eq_symm_partial",
    "Verif.Spatial.eq_subset_full",
    "Verif.Spatial.eq_symm_false"
   ],
   "note": "False in general (eq_slices_false, eq_symm_false)."
  },
  {
   "property": "C200",
   "status": "partial",
   "theorems": [
    "Verif.Files.read_values",
    "Verif.Files.read_params",
    "Verif.Files.read_kept",
    "Verif.Files.read_params_false",
    "Verif.Files.read_fill_partial",
    "Verif.Files.read_fill_false",
    "Verif.Files.read_mo",
    "Verif.Files.read_movie"
   ],
   "note": "Values and slice points come back; parameters outside slicer_init and the fill value need not (read_params_false, read_fill_false, read_mo)."
  },
  {
   "property": "C201",
   "status": "partial",
   "theorems": [
    "Verif.Files.json_type",
    "Verif.Files.json_int_false",
    "Verif.Files.json_sky",
    "Verif.Files.json_bins",
    "Verif.Files.json_plain",
    "Verif.Files.json_plain_bins",
    "Verif.Files.json_bundle_false"
   ],
   "note": "Rows are proved for floating point values; integers, plain arrays of bins and bundles fail."
  },
  {
   "property": "C202",
   "status": "partial",
   "theorems": [
    "Verif.MoB.iter_spec",
    "Verif.MoB.iter_count",
    "Verif.MoB.nslice_spec",
    "Verif.MoB.eq_slices_partial",
    "Verif.MoB.eq_slices_false"
   ],
   "note": "Slices and counts are proved; equality is too coarse (eq_slices_false)."
  },
  {
   "property": "C203",
   "status": "proved",
   "theorems": [
    "Verif.MoB.find_spec",
    "Verif.MoB.compatible_iff"
   ],
   "note": ""
  },
  {
   "property": "C204",
   "status": "proved",
   "theorems": [
    "Verif.MoB.run_spec"
   ],
   "note": ""
  },
  {
   "property": "C205",
   "status": "partial",
   "theorems": [
    "Verif.MoB.alone_partial",
    "Verif.MoB.alone_false",
    "Verif.MoB.h_alone"
   ],
   "note": "False for bundles with different stackers (alone_false)."
  },
  {
   "property": "C206",
   "status": "partial",
   "theorems": [
    "Verif.MoB.label_false",
    "Verif.MoB.label_partial",
    "Verif.MoB.summary_spec"
   ],
   "note": "The label ignores the observations (label_false)."
  },
  {
   "property": "C207",
   "status": "partial",
   "theorems": [
    "Verif.StackEq.eq_refl",
    "Verif.StackEq.ne_iff",
    "Verif.StackEq.eq_new_partial",
    "Verif.StackEq.eq_used_false",
    "Verif.StackEq.eq_methods_false"
   ],
   "note": "False of stackers that were run and of those with public methods."
  },
  {
   "property": "C208",
   "status": "proved",
   "theorems": [
    "Verif.Transient.start_false"
   ],
   "note": "Stated as it is: the start is never usable."
  },
  {
   "property": "C209",
   "status": "proved",
   "theorems": [
    "Verif.Transient.lightCurve_spec",
    "Verif.Transient.fmod_spec",
    "Verif.Transient.run_single",
    "Verif.Transient.run_pre",
    "Verif.Transient.run_sections"
   ],
   "note": ""
  },
  {
   "property": "C210",
   "status": "partial",
   "theorems": [
    "Verif.Transient.run_all_partial",
    "Verif.Transient.all_false",
    "Verif.Transient.unseen_false"
   ],
   "note": "Transients that meet all criteria are counted; others are too (all_false, unseen_false)."
  },
  {
   "property": "C211",
   "status": "partial",
   "theorems": [
    "Verif.Transient.fraction_partial",
    "Verif.Transient.fraction_false",
    "Verif.Transient.fraction_phase_false"
   ],
   "note": "False in general (fraction_false, fraction_phase_false)."
  },
  {
   "property": "C212",
   "status": "partial",
   "theorems": [
    "Verif.Transient.tshifts_spec",
    "Verif.Transient.shift_partial",
    "Verif.Transient.shift_spec",
    "Verif.Transient.shift_false"
   ],
   "note": "False for shifted phases (shift_false)."
  },
  {
   "property": "C213",
   "status": "proved",
   "theorems": [
    "Verif.Periodic.maxGap_spec",
    "Verif.Periodic.maxGap_bounds",
    "Verif.Periodic.phaseGap_spec"
   ],
   "note": ""
  },
  {
   "property": "C214",
   "status": "proved",
   "theorems": [
    "Verif.Periodic.mean_false",
    "Verif.Periodic.single_false"
   ],
   "note": "Stated as it is."
  },
  {
   "property": "C215",
   "status": "partial",
   "theorems": [
    "Verif.Periodic.kuiper_spec",
    "Verif.Periodic.kuiper_rotate",
    "Verif.Periodic.kuiper_bounds",
    "Verif.Periodic.kuiper_zero_iff",
    "Verif.Periodic.kuiper_delta",
    "Verif.Periodic.kuiper_false"
   ],
   "note": "All but the documented meaning of one (kuiper_false)."
  },
  {
   "property": "C216",
   "status": "partial",
   "theorems": [
    "Verif.Periodic.cumulative_partial",
    "Verif.Periodic.cumulative_before",
    "Verif.Periodic.cumulative_false",
    "Verif.Periodic.cumulativePoints_spec"
   ],
   "note": "False between and before visits."
  },
  {
   "property": "C217",
   "status": "proved",
   "theorems": [
    "Verif.Periodic.yearCoverage_spec"
   ],
   "note": ""
  },
  {
   "property": "C218",
   "status": "partial",
   "theorems": [
    "Verif.Periodic.rapid_zero_iff",
    "Verif.Periodic.rapid_bounds",
    "Verif.Periodic.rapid_false"
   ],
   "note": "Not at most one (rapid_false)."
  },
  {
   "property": "C219",
   "status": "proved",
   "theorems": [
    "Verif.Periodic.nRevisits_spec",
    "Verif.Periodic.nRevisitsNormed_lt",
    "Verif.Periodic.nRevisits_pairs",
    "Verif.Periodic.rapidRevisit_spec"
   ],
   "note": "Times are taken to differ."
  },
  {
   "property": "C220",
   "status": "partial",
   "theorems": [
    "Verif.Periodic.visitGaps_sum",
    "Verif.Periodic.visitGaps_single",
    "Verif.Periodic.age_partial",
    "Verif.Periodic.age_false"
   ],
   "note": "The age is negative with later visits (age_false)."
  },
  {
   "property": "C221",
   "status": "proved",
   "theorems": [
    "Verif.Astro.m52snr_default",
    "Verif.Astro.m52snr_limit",
    "Verif.Astro.m52snr_mono",
    "Verif.Astro.astrom_bounds",
    "Verif.Astro.astrom_mono"
   ],
   "note": ""
  },
  {
   "property": "C222",
   "status": "proved",
   "theorems": [
    "Verif.Astro.sigmaSlope_spec",
    "Verif.Astro.sigmaSlope_nan_iff",
    "Verif.Astro.sigmaSlope_more"
   ],
   "note": ""
  },
  {
   "property": "C223",
   "status": "proved",
   "theorems": [
    "Verif.Astro.parallax_spec",
    "Verif.Astro.parallaxNorm_spec"
   ],
   "note": ""
  },
  {
   "property": "C224",
   "status": "partial",
   "theorems": [
    "Verif.Astro.pm_spec",
    "Verif.Astro.pm_norm_partial",
    "Verif.Astro.pm_norm_best",
    "Verif.Astro.pm_norm_order",
    "Verif.Astro.pm_norm_false"
   ],
   "note": "At most one for equal errors only (pm_norm_false, pm_norm_order)."
  },
  {
   "property": "C225",
   "status": "partial",
   "theorems": [
    "Verif.Astro.coverage_spec",
    "Verif.Astro.weightedR_spec",
    "Verif.Astro.theta_check_partial",
    "Verif.Astro.theta_accept",
    "Verif.Astro.theta_reject",
    "Verif.Astro.wraparound_false",
    "Verif.Astro.coverage_range"
   ],
   "note": "The test of angles is wrong (wraparound_false)."
  },
  {
   "property": "C226",
   "status": "partial",
   "theorems": [
    "Verif.Astro.degen_spec",
    "Verif.Astro.declared_partial",
    "Verif.Astro.declared_false"
   ],
   "note": "The filter column is not declared (declared_false). The fit is taken to find the exact solution."
  },
  {
   "property": "C227",
   "status": "proved",
   "theorems": [
    "Verif.Astro.dcr_spec"
   ],
   "note": ""
  },
  {
   "property": "C228",
   "status": "proved",
   "theorems": [
    "Verif.Astro.optimal_spec",
    "Verif.Astro.optimal_sign",
    "Verif.Astro.snr_weighted_spec"
   ],
   "note": ""
  },
  {
   "property": "C229",
   "status": "partial",
   "theorems": [
    "Verif.Astro.radius_spec",
    "Verif.Astro.radius_units_false"
   ],
   "note": "The unit is wrong (radius_units_false)."
  },
  {
   "property": "C230",
   "status": "partial",
   "theorems": [
    "Verif.Depth.exgal_partial",
    "Verif.Depth.exgal_more",
    "Verif.Depth.exgal_order",
    "Verif.Depth.exgal_false"
   ],
   "note": "For one band; false for several (exgal_false, exgal_order)."
  },
  {
   "property": "C231",
   "status": "partial",
   "theorems": [
    "Verif.Depth.withCuts_spec",
    "Verif.Depth.nVisits_spec",
    "Verif.Depth.rizTime_spec",
    "Verif.Depth.min_bands_false",
    "Verif.Depth.min_time_false"
   ],
   "note": "min_bands has no effect (min_bands_false); the limit of time is strict (min_time_false). The depth cut is taken to be above -666."
  },
  {
   "property": "C232",
   "status": "partial",
   "theorems": [
    "Verif.Depth.single_partial",
    "Verif.Depth.single_one",
    "Verif.Depth.single_index",
    "Verif.Depth.single_key",
    "Verif.Depth.single_false",
    "Verif.Depth.single_bad_false"
   ],
   "note": "Fails with default means and two bands (single_index, single_false), and for numeric bad values (single_bad_false)."
  },
  {
   "property": "C233",
   "status": "partial",
   "theorems": [
    "Verif.Depth.nested_spec",
    "Verif.Depth.nested_index",
    "Verif.Depth.nested_u",
    "Verif.Depth.nested_means_false",
    "Verif.Depth.nested_ignored_false",
    "Verif.Depth.multiband_spec"
   ],
   "note": "Means and unused bands are false (nested_means_false, nested_ignored_false). The bad value is taken to be NaN, as by default."
  },
  {
   "property": "C234",
   "status": "partial",
   "theorems": [
    "Verif.Depth.nestedRiz_spec",
    "Verif.Depth.nestedRiz_false"
   ],
   "note": "Only i is counted (nestedRiz_false)."
  },
  {
   "property": "C235",
   "status": "partial",
   "theorems": [
    "Verif.Depth.ngal_partial",
    "Verif.Depth.ngal_false",
    "Verif.Depth.nlc_spec",
    "Verif.Depth.nlc_false"
   ],
   "note": "For one filter; false for several (ngal_false). One more visit is needed (nlc_false)."
  },
  {
   "property": "C236",
   "status": "proved",
   "theorems": [
    "Verif.Template.template_spec",
    "Verif.Template.template_counts",
    "Verif.Template.template_fewer"
   ],
   "note": "The visits are taken in the order after the sort by time; percentiles are between 0 and 100."
  },
  {
   "property": "C237",
   "status": "proved",
   "theorems": [
    "Verif.Template.templateM5_spec",
    "Verif.Template.templateSeeing_sq",
    "Verif.Template.templateSeeing_bounds",
    "Verif.Template.diffM5_spec"
   ],
   "note": ""
  },
  {
   "property": "C238",
   "status": "proved",
   "theorems": [
    "Verif.Template.limits_spec",
    "Verif.Template.limits_red",
    "Verif.Template.percentile_qualifies"
   ],
   "note": "Zenith distances are less than 90 degrees."
  },
  {
   "property": "C239",
   "status": "partial",
   "theorems": [
    "Verif.Template.agn_cutoff",
    "Verif.Template.agn_cutoff_false",
    "Verif.Template.agn_mean",
    "Verif.Template.agn_few",
    "Verif.Template.agn_log",
    "Verif.Template.agn_gcd_inf"
   ],
   "note": "The cutoffs have no effect (agn_cutoff, agn_cutoff_false)."
  },
  {
   "property": "C240",
   "status": "partial",
   "theorems": [
    "Verif.Cosmo.power_spec",
    "Verif.Cosmo.power_split",
    "Verif.Cosmo.totalPower_spec",
    "Verif.Cosmo.monopole_false"
   ],
   "note": "The monopole flag has no effect (monopole_false). healpy is a parameter."
  },
  {
   "property": "C241",
   "status": "partial",
   "theorems": [
    "Verif.Cosmo.fit_least",
    "Verif.Cosmo.bias_sign",
    "Verif.Cosmo.bias_convert",
    "Verif.Cosmo.error_sky",
    "Verif.Cosmo.range_excess",
    "Verif.Cosmo.range_false",
    "Verif.Cosmo.full_sky_false"
   ],
   "note": "The greatest multipole is in one power only (range_false), and all of the sky is less than one (full_sky_false)."
  },
  {
   "property": "C242",
   "status": "partial",
   "theorems": [
    "Verif.Cosmo.simple_never",
    "Verif.Cosmo.simple_false",
    "Verif.Cosmo.grid_partial",
    "Verif.Cosmo.grid_false"
   ],
   "note": "No figure of merit is ever given (simple_never, simple_false)."
  },
  {
   "property": "C243",
   "status": "partial",
   "theorems": [
    "Verif.Cosmo.year_next",
    "Verif.Cosmo.year_false",
    "Verif.Cosmo.ratios_spec"
   ],
   "note": "The model is that of the next year (year_next, year_false). The quadratic fit is a parameter; bins are taken to have two redshifts at least."
  },
  {
   "property": "C244",
   "status": "partial",
   "theorems": [
    "Verif.Cosmo.region_spec",
    "Verif.Cosmo.stripiness_scale",
    "Verif.Cosmo.stripiness_swap",
    "Verif.Cosmo.stripes_spec",
    "Verif.Cosmo.stripes_const",
    "Verif.Cosmo.uniform_false"
   ],
   "note": "Uniform maps have stripes (uniform_false)."
  },
  {
   "property": "C245",
   "status": "partial",
   "theorems": [
    "Verif.Cosmo.expand_spec",
    "Verif.Cosmo.areaFrac_spec",
    "Verif.Cosmo.areaFrac_sum",
    "Verif.Cosmo.uniformArea_spec",
    "Verif.Cosmo.keepNot_spec",
    "Verif.Cosmo.disjoint_partial",
    "Verif.Cosmo.disjoint_false"
   ],
   "note": "Pixels below the cut are in both regions (disjoint_false). Clusters and the figure of merit are parameters."
  },
  {
   "property": "C246",
   "status": "partial",
   "theorems": [
    "Verif.Cosmo.dropouts_error",
    "Verif.Cosmo.dropouts_false"
   ],
   "note": "The classes cannot be used at all."
  },
  {
   "property": "C247",
   "status": "partial",
   "theorems": [
    "Verif.Selfcal.core_spec",
    "Verif.Selfcal.core_unique",
    "Verif.Selfcal.pass_le",
    "Verif.Selfcal.core_single",
    "Verif.Selfcal.single_false"
   ],
   "note": "False for a single observation, which is kept (core_single, single_false)."
  },
  {
   "property": "C248",
   "status": "proved",
   "theorems": [
    "Verif.Selfcal.clean_spec",
    "Verif.Selfcal.max_patch",
    "Verif.Selfcal.columns_spec"
   ],
   "note": ""
  },
  {
   "property": "C249",
   "status": "proved",
   "theorems": [
    "Verif.Selfcal.solve_least",
    "Verif.Selfcal.lsqr_exists",
    "Verif.Selfcal.chi2_shift",
    "Verif.Selfcal.recover",
    "Verif.Selfcal.solve_empty"
   ],
   "note": "The solver of scipy is taken to give a least squares solution; there is one (lsqr_exists)."
  },
  {
   "property": "C250",
   "status": "partial",
   "theorems": [
    "Verif.Selfcal.project_radius",
    "Verif.Selfcal.in_square",
    "Verif.Selfcal.cell_spec",
    "Verif.Selfcal.cell_range",
    "Verif.Selfcal.patch_unique",
    "Verif.Selfcal.catalog_partial",
    "Verif.Selfcal.catalog_false"
   ],
   "note": "False for catalogs with another radius (catalog_false)."
  },
  {
   "property": "C251",
   "status": "partial",
   "theorems": [
    "Verif.Selfcal.dmags_spec",
    "Verif.Selfcal.obsMag_spec",
    "Verif.Selfcal.obsMag_other",
    "Verif.Selfcal.noOffset_error",
    "Verif.Selfcal.noOffset_false",
    "Verif.Selfcal.same_key_false",
    "Verif.Selfcal.magErr_mono",
    "Verif.Selfcal.uncert_spec",
    "Verif.Selfcal.catalog_spec"
   ],
   "note": "NoOffset is an exception (noOffset_error, noOffset_false); offsets with the same key replace each other (same_key_false)."
  },
  {
   "property": "C252",
   "status": "proved",
   "theorems": [
    "Verif.Sat.zfill_length",
    "Verif.Sat.zfill_digits",
    "Verif.Sat.zfill_value",
    "Verif.Sat.fixed_length",
    "Verif.Sat.fixed_spec",
    "Verif.Sat.checksum_spec",
    "Verif.Sat.line1_spec",
    "Verif.Sat.line2_spec"
   ],
   "note": "Angles are given as their rounded decimals, rounding itself is not modelled."
  },
  {
   "property": "C253",
   "status": "proved",
   "theorems": [
    "Verif.Sat.places_length",
    "Verif.Sat.places_grid",
    "Verif.Sat.places_nodup",
    "Verif.Sat.create_spec",
    "Verif.Sat.presets",
    "Verif.Sat.meanMotion_spec",
    "Verif.Sat.meanMotion_lt"
   ],
   "note": "Random numbers are parameters."
  },
  {
   "property": "C254",
   "status": "proved",
   "theorems": [
    "Verif.Sat.visible_spec",
    "Verif.Sat.spot_spec",
    "Verif.Sat.avoid_spec"
   ],
   "note": "The positions of skyfield and the smoothing are parameters."
  },
  {
   "property": "C255",
   "status": "partial",
   "theorems": [
    "Verif.Sat.maps_partial",
    "Verif.Sat.maps_false",
    "Verif.Sat.nside_false"
   ],
   "note": "For nights other than -1 (maps_false); the resolution is ignored (nside_false)."
  },
  {
   "property": "C256",
   "status": "partial",
   "theorems": [
    "Verif.Sat.checkPointings_spec",
    "Verif.Sat.streaks_zero_iff",
    "Verif.Sat.short_zero",
    "Verif.Sat.short_false"
   ],
   "note": "False for short visits (short_zero, short_false). The length of a streak is a parameter."
  },
  {
   "property": "C257",
   "status": "partial",
   "theorems": [
    "Verif.Maps.ebv_spec",
    "Verif.Maps.dust_healpix",
    "Verif.Maps.ebv_reads",
    "Verif.Maps.read_once_false"
   ],
   "note": "Values hold for all histories; the map is read again by each call (ebv_reads, read_once_false)."
  },
  {
   "property": "C258",
   "status": "partial",
   "theorems": [
    "Verif.Maps.ebv3_first",
    "Verif.Maps.ebv3_stale",
    "Verif.Maps.ebv3_partial",
    "Verif.Maps.history_false",
    "Verif.Maps.repeat_false"
   ],
   "note": "Holds for the first call and for calls for one file (ebv3_partial); otherwise the first map is used (ebv3_stale, history_false, repeat_false)."
  },
  {
   "property": "C259",
   "status": "partial",
   "theorems": [
    "Verif.Maps.nearest_spec",
    "Verif.Maps.distAt_spec",
    "Verif.Maps.distAt_far",
    "Verif.Maps.distAt_single_partial",
    "Verif.Maps.single_map_false"
   ],
   "note": "One slice point and all slice points agree if no extinction is greater than the last (distAt_single_partial, single_map_false)."
  },
  {
   "property": "C260",
   "status": "proved",
   "theorems": [
    "Verif.Maps.key_roundtrip",
    "Verif.Maps.key_colon"
   ],
   "note": ""
  },
  {
   "property": "C261",
   "status": "partial",
   "theorems": [
    "Verif.Maps.gal_first",
    "Verif.Maps.gal_stale",
    "Verif.Maps.gal_path",
    "Verif.Maps.path_false",
    "Verif.Maps.gal_retry_false"
   ],
   "note": "Values of the first call; later directories are ignored (gal_stale, gal_path, path_false), missing files are remembered (gal_retry_false)."
  },
  {
   "property": "C262",
   "status": "partial",
   "theorems": [
    "Verif.Maps.uniq_spec",
    "Verif.Maps.all_run_partial",
    "Verif.Maps.all_run_false",
    "Verif.Maps.bundle_spec",
    "Verif.Maps.single_false",
    "Verif.Maps.stellar_spec"
   ],
   "note": "All maps are run if equal keys mean equal maps (all_run_partial, all_run_false); single maps fail (single_false)."
  },
  {
   "property": "C263",
   "status": "partial",
   "theorems": [
    "Verif.BaseM.fullName_inside",
    "Verif.BaseM.fullName_dotted",
    "Verif.BaseM.fullName_single",
    "Verif.BaseM.metric_spec",
    "Verif.BaseM.found_partial",
    "Verif.BaseM.found_false",
    "Verif.BaseM.addAll_ok_iff",
    "Verif.BaseM.once_spec",
    "Verif.BaseM.slicer_inj",
    "Verif.BaseM.base_map_false"
   ],
   "note": "Metrics of the same full name replace each other (found_false); BaseMap is registered (base_map_false)."
  },
  {
   "property": "C264",
   "status": "partial",
   "theorems": [
    "Verif.BaseM.colInfo_spec",
    "Verif.BaseM.source_partial",
    "Verif.BaseM.source_false",
    "Verif.BaseM.reg_spec"
   ],
   "note": "Sources need units for all columns (source_partial, source_false)."
  },
  {
   "property": "C265",
   "status": "partial",
   "theorems": [
    "Verif.BaseM.name_spec",
    "Verif.BaseM.removeFirst_suffix",
    "Verif.BaseM.dtype_spec",
    "Verif.BaseM.units_spec",
    "Verif.BaseM.units_unknown",
    "Verif.BaseM.unique_false",
    "Verif.BaseM.units_false"
   ],
   "note": "Names are not unique across classes (unique_false), the unit None is an exception (units_false)."
  },
  {
   "property": "C266",
   "status": "partial",
   "theorems": [
    "Verif.BaseM.reduces_partial",
    "Verif.BaseM.all_reduced_false",
    "Verif.BaseM.reduced_partial",
    "Verif.BaseM.all_ordered_false"
   ],
   "note": "For names with reduce_ in front and nowhere else (reduces_partial, reduced_partial)."
  },
  {
   "property": "C267",
   "status": "partial",
   "theorems": [
    "Verif.BaseM.file_partial",
    "Verif.BaseM.file_false",
    "Verif.BaseM.readAll_spec",
    "Verif.BaseM.readAll_values",
    "Verif.BaseM.read_back_false",
    "Verif.BaseM.visit_order",
    "Verif.BaseM.gaps_order_false"
   ],
   "note": "Any file of a reduced metric is an exception (readAll_spec, read_back_false)."
  },
  {
   "property": "C268",
   "status": "proved",
   "theorems": [
    "Verif.GalPlane.footprint_none",
    "Verif.GalPlane.footprint_thresholds",
    "Verif.GalPlane.footprint_spec",
    "Verif.GalPlane.footReduce_spec",
    "Verif.GalPlane.footReduce_mono",
    "Verif.GalPlane.footReduce_more"
   ],
   "note": ""
  },
  {
   "property": "C269",
   "status": "partial",
   "theorems": [
    "Verif.GalPlane.time_spec",
    "Verif.GalPlane.time_one_iff",
    "Verif.GalPlane.time_zero",
    "Verif.GalPlane.weights_one",
    "Verif.GalPlane.time_scale",
    "Verif.GalPlane.unexpected_masked",
    "Verif.GalPlane.unexpected_false",
    "Verif.GalPlane.bandReduce_spec",
    "Verif.GalPlane.bands_false",
    "Verif.GalPlane.bands_partial"
   ],
   "note": "A filter without priority is masked, not one (unexpected_false); functions of filters not in the list fail (bands_false, bands_partial)."
  },
  {
   "property": "C270",
   "status": "partial",
   "theorems": [
    "Verif.GalPlane.decay_eq_one",
    "Verif.GalPlane.decay_anti",
    "Verif.GalPlane.decay_mono",
    "Verif.GalPlane.intervals_eq",
    "Verif.GalPlane.intervals_none",
    "Verif.GalPlane.intervals_range",
    "Verif.GalPlane.intervals_mono",
    "Verif.GalPlane.intervals_perm",
    "Verif.GalPlane.intervals_shift",
    "Verif.GalPlane.more_false",
    "Verif.GalPlane.more_partial"
   ],
   "note": "A visit more can lower the mean (more_false)."
  },
  {
   "property": "C271",
   "status": "partial",
   "theorems": [
    "Verif.GalPlane.gaps_spec",
    "Verif.GalPlane.gaps_range",
    "Verif.GalPlane.gaps_none",
    "Verif.GalPlane.mag_ignored",
    "Verif.GalPlane.mag_false",
    "Verif.GalPlane.mag_partial",
    "Verif.GalPlane.maps_false",
    "Verif.GalPlane.maps_partial",
    "Verif.GalPlane.rows_after",
    "Verif.GalPlane.rows_false",
    "Verif.GalPlane.rows_partial"
   ],
   "note": "mag_limit is ignored, no map is named and the column of times is sorted in place."
  },
  {
   "property": "C272",
   "status": "partial",
   "theorems": [
    "Verif.SkyI.weights_node",
    "Verif.SkyI.weights_between",
    "Verif.SkyI.weights_high",
    "Verif.SkyI.weights_sum",
    "Verif.SkyI.lin_spec",
    "Verif.SkyI.lin_node",
    "Verif.SkyI.lin_bounds",
    "Verif.SkyI.single_spec",
    "Verif.SkyI.low_spec",
    "Verif.SkyI.edge_false",
    "Verif.SkyI.edge_partial"
   ],
   "note": "Below the grid the value is extrapolated towards the last grid point (low_spec, edge_false)."
  },
  {
   "property": "C273",
   "status": "proved",
   "theorems": [
    "Verif.SkyI.airglow_spec",
    "Verif.SkyI.pix_spec",
    "Verif.SkyI.zodiacal_spec",
    "Verif.SkyI.out_spec"
   ],
   "note": ""
  },
  {
   "property": "C274",
   "status": "partial",
   "theorems": [
    "Verif.SkyI.spec_node",
    "Verif.SkyI.node_false",
    "Verif.SkyI.node_partial",
    "Verif.SkyI.bounds_false",
    "Verif.SkyI.bounds_partial",
    "Verif.SkyI.mag_spec",
    "Verif.SkyI.mag_out"
   ],
   "note": "The value one becomes zero (node_false); zero is interpolated as one (bounds_false)."
  },
  {
   "property": "C275",
   "status": "proved",
   "theorems": [
    "Verif.SkyI.twilight_dark",
    "Verif.SkyI.twilight_zenith",
    "Verif.SkyI.twilight_pos",
    "Verif.SkyI.twilight_sun",
    "Verif.SkyI.twilight_symm",
    "Verif.SkyI.twilight_towards",
    "Verif.SkyI.twilightMag_spec",
    "Verif.SkyI.id_spec",
    "Verif.SkyI.back_spec",
    "Verif.SkyI.round_trip"
   ],
   "note": ""
  },
  {
   "property": "C276",
   "status": "partial",
   "theorems": [
    "Verif.SkyM.wrap_spec",
    "Verif.SkyM.wrap_unique",
    "Verif.SkyM.relMoon_spec",
    "Verif.SkyM.relMoon_arccos",
    "Verif.SkyM.relMoon_symm",
    "Verif.SkyM.airmass_alt",
    "Verif.SkyM.alt_airmass",
    "Verif.SkyM.setParams_spec",
    "Verif.SkyM.degrees_partial",
    "Verif.SkyM.degrees_false",
    "Verif.SkyM.targSep_spec"
   ],
   "note": "moon_targ_sep uses the unconverted azimuth of the moon (degrees_false, targSep_spec)."
  },
  {
   "property": "C277",
   "status": "partial",
   "theorems": [
    "Verif.SkyM.sky_spec",
    "Verif.SkyM.sky_sum",
    "Verif.SkyM.turn_on_error",
    "Verif.SkyM.turn_off",
    "Verif.SkyM.mask_false",
    "Verif.SkyM.mask_partial"
   ],
   "note": "With points out of range the wrong points are emptied (mask_false); a component off at construction cannot be turned on (turn_on_error)."
  },
  {
   "property": "C278",
   "status": "partial",
   "theorems": [
    "Verif.SkyM.fresh_spec",
    "Verif.SkyM.mags_partial",
    "Verif.SkyM.params_spec_false",
    "Verif.SkyM.params_mags_false",
    "Verif.SkyM.stale_spec",
    "Verif.SkyM.mag_one",
    "Verif.SkyM.mag_const",
    "Verif.SkyM.mag_brighter",
    "Verif.SkyM.mag_shift"
   ],
   "note": "Stale spectra with no point in range (params_spec_false), no ra after set_params (params_mags_false)."
  },
  {
   "property": "C279",
   "status": "partial",
   "theorems": [
    "Verif.SkyM.thin_spec",
    "Verif.SkyM.thin_gap",
    "Verif.SkyM.nan_false"
   ],
   "note": "Pixels without a number at a neighbour are not compared (nan_false)."
  },
  {
   "property": "C280",
   "status": "partial",
   "theorems": [
    "Verif.Cmp.freshName_fresh",
    "Verif.Cmp.normalize_missing",
    "Verif.Cmp.normalize_cells",
    "Verif.Cmp.normalize_value",
    "Verif.Cmp.normalize_spec",
    "Verif.Cmp.normalize_base",
    "Verif.Cmp.better_partial",
    "Verif.Cmp.worse_negative",
    "Verif.Cmp.better_false",
    "Verif.Cmp.radar_same",
    "Verif.Cmp.radar_reverse",
    "Verif.Cmp.reverse_false",
    "Verif.Cmp.grow_spec"
   ],
   "note": "Above one is not better for a negative baseline (better_false); reversing a column has no effect on ratios (reverse_false)."
  },
  {
   "property": "C281",
   "status": "partial",
   "theorems": [
    "Verif.Cmp.removeMissing_spec",
    "Verif.Cmp.expand_spec",
    "Verif.Cmp.select_spec",
    "Verif.Cmp.select_missing",
    "Verif.Cmp.once_false"
   ],
   "note": "A run of two families is listed twice (once_false)."
  },
  {
   "property": "C282",
   "status": "partial",
   "theorems": [
    "Verif.Cmp.mem_familyRuns",
    "Verif.Cmp.getRuns_spec",
    "Verif.Cmp.getRuns_row",
    "Verif.Cmp.one_row_partial",
    "Verif.Cmp.one_row_false"
   ],
   "note": "A run with two descriptions has two rows (one_row_false)."
  },
  {
   "property": "C283",
   "status": "partial",
   "theorems": [
    "Verif.Cmp.combine_spec",
    "Verif.Cmp.combine_missing",
    "Verif.Cmp.replace2_single",
    "Verif.Cmp.names_false",
    "Verif.Cmp.blanks_false"
   ],
   "note": "Names of different metrics can be the same (names_false) and have two blanks (blanks_false)."
  },
  {
   "property": "C284",
   "status": "proved",
   "theorems": [
    "Verif.Crowd.suffix_get",
    "Verif.Crowd.crowdErr_spec",
    "Verif.Crowd.crowdErr_scale",
    "Verif.Crowd.crowdErr_mono",
    "Verif.Crowd.interp_scale",
    "Verif.Crowd.crowdErrAt_spec",
    "Verif.Crowd.crowdErrAt_node"
   ],
   "note": "Real arithmetic; the map of stars is two lists."
  },
  {
   "property": "C285",
   "status": "partial",
   "theorems": [
    "Verif.Crowd.crowdMag_safe",
    "Verif.Crowd.crowdMag_early",
    "Verif.Crowd.last_false",
    "Verif.Crowd.crowdMag_mono",
    "Verif.Crowd.nstars_mono",
    "Verif.Crowd.magLimit_spec",
    "Verif.Crowd.limit_false",
    "Verif.Crowd.starDensity_mono",
    "Verif.Crowd.starDensity_node",
    "Verif.Crowd.starDensity_outside"
   ],
   "note": "The limit is a bin early (crowdMag_early, last_false) and the error at the limit from depth is too large (magLimit_spec, limit_false)."
  },
  {
   "property": "C286",
   "status": "partial",
   "theorems": [
    "Verif.ColSlope.check_spec",
    "Verif.ColSlope.three_implied",
    "Verif.ColSlope.run_spec",
    "Verif.ColSlope.run_columns"
   ],
   "note": "Columns other than the defaults are an exception (run_columns). int_binned_stat of rubin_scheduler is an assumption."
  },
  {
   "property": "C287",
   "status": "partial",
   "theorems": [
    "Verif.ColSlope.run2_spec",
    "Verif.ColSlope.once_false"
   ],
   "note": "A single night counts twice (once_false)."
  },
  {
   "property": "C288",
   "status": "partial",
   "theorems": [
    "Verif.ColSlope.vendor_spec",
    "Verif.ColSlope.vendor_empty",
    "Verif.ColSlope.uses_disjoint",
    "Verif.ColSlope.use_spec",
    "Verif.ColSlope.use_not_science",
    "Verif.ColSlope.use_array",
    "Verif.ColSlope.use_false"
   ],
   "note": "UseMetric raises on arrays (use_array, use_false); no chips count as both vendors (vendor_empty)."
  },
  {
   "property": "C289",
   "status": "partial",
   "theorems": [
    "Verif.ColSlope.dayCounts_sum",
    "Verif.ColSlope.cadence_spec",
    "Verif.ColSlope.cadence_day",
    "Verif.ColSlope.cadence_last",
    "Verif.ColSlope.cadence_false",
    "Verif.ColSlope.read_false"
   ],
   "note": "The last day is left out (cadence_last, cadence_false); undeclared columns (read_false)."
  },
  {
   "property": "C290",
   "status": "partial",
   "theorems": [
    "Verif.Web.select_spec",
    "Verif.Web.form_partial",
    "Verif.Web.form_false",
    "Verif.Web.select_form",
    "Verif.Web.groups_spec",
    "Verif.Web.types_false",
    "Verif.Web.order_false",
    "Verif.Web.info_false"
   ],
   "note": "Missing: names with an underscore or a plus are not given back by the form (form_false); the old name of a plot type does not find the new one (types_false); unique_metric_names sorts (order_false); a blank row has another column (info_false). get_json calls a method that does not exist and is not modelled."
  },
  {
   "property": "C291",
   "status": "proved",
   "theorems": [
    "Verif.Web.orderNames_spec",
    "Verif.Web.statDict_spec",
    "Verif.Web.plotDict_spec",
    "Verif.Web.statOrder_spec"
   ],
   "note": "All lists. plot_dict of a list of arrays is the same after concatenation and not modelled apart."
  },
  {
   "property": "C292",
   "status": "partial",
   "theorems": [
    "Verif.Web.order_rows",
    "Verif.Web.order_place",
    "Verif.Web.order_all",
    "Verif.Web.order_many",
    "Verif.Web.once_partial",
    "Verif.Web.once_false"
   ],
   "note": "Missing: a file that matches two filters is shown twice (once_false). Plots whose metric is not known are left out when filters have several plots."
  },
  {
   "property": "C293",
   "status": "partial",
   "theorems": [
    "Verif.Web.tracking_spec",
    "Verif.Web.read_once",
    "Verif.Web.fresh_false",
    "Verif.Web.stale_stays"
   ],
   "note": "Missing: if the database changes while it is read, old rows are kept with the new time (fresh_false) and stay (stale_stays). The database is otherwise taken not to change within a request."
  },
  {
   "property": "C294",
   "status": "partial",
   "theorems": [
    "Verif.Opsim.query_parse",
    "Verif.Opsim.sim_spec",
    "Verif.Opsim.guess_spec",
    "Verif.Opsim.full_overrides",
    "Verif.Opsim.remote_false",
    "Verif.Opsim.remote_error"
   ],
   "note": "Missing: strings that are not files are refused before URLs are looked at (remote_false, remote_error). Names without blanks, commas and semicolons; SQL by a small reader of queries; an empty list of columns is not a query."
  },
  {
   "property": "C295",
   "status": "partial",
   "theorems": [
    "Verif.Opsim.bench_scaled",
    "Verif.Opsim.bench_mono",
    "Verif.Opsim.total_false",
    "Verif.Opsim.total_ten"
   ],
   "note": "Missing: the total is not scaled and not the sum (total_false, total_ten)."
  },
  {
   "property": "C296",
   "status": "partial",
   "theorems": [
    "Verif.Opsim.depth_pos",
    "Verif.Opsim.depth_coadd",
    "Verif.Opsim.depth_mono_partial",
    "Verif.Opsim.mono_false",
    "Verif.Opsim.depth_none",
    "Verif.Opsim.coadded_spec",
    "Verif.Opsim.match_false"
   ],
   "note": "Missing: no visits have the depth of one (mono_false, depth_none); filters of the depths without visits are not looked at (match_false)."
  },
  {
   "property": "C297",
   "status": "proved",
   "theorems": [
    "Verif.Hourglass.blocks_cover",
    "Verif.Hourglass.blocks_spec",
    "Verif.Hourglass.block_filter"
   ],
   "note": "All lists of one visit or more."
  },
  {
   "property": "C298",
   "status": "partial",
   "theorems": [
    "Verif.Hourglass.midnight_nearest",
    "Verif.Hourglass.nearest_spec",
    "Verif.Hourglass.oneEach_keys",
    "Verif.Hourglass.oneEach_near",
    "Verif.Hourglass.repeat_false"
   ],
   "note": "Missing: two values of one midnight can be rounded apart and stay (repeat_false). The midnights come from astroplan."
  },
  {
   "property": "C299",
   "status": "partial",
   "theorems": [
    "Verif.Batches.means_unique",
    "Verif.Batches.both_means",
    "Verif.Batches.filter_means",
    "Verif.Batches.selects_unique",
    "Verif.Batches.bandList_spec",
    "Verif.Batches.filter_partition",
    "Verif.Batches.subset_partial",
    "Verif.Batches.subset_false",
    "Verif.Batches.glance_partial",
    "Verif.Batches.glance_false"
   ],
   "note": "Missing: for adjacent bands the extra condition is not in brackets, so that one with an or selects other bands (subset_false); the glance with an empty condition is no query (glance_false). Conditions are lists of tokens."
  },
  {
   "property": "C300",
   "status": "partial",
   "theorems": [
    "Verif.Batches.year_length",
    "Verif.Batches.year_unique_partial",
    "Verif.Batches.year_false",
    "Verif.Batches.before_mono",
    "Verif.Batches.first_years"
   ],
   "note": "Missing: the night numbered 0 is in no year (year_false); the first years of both differ (first_years)."
  },
  {
   "property": "C301",
   "status": "partial",
   "theorems": [
    "Verif.Batches.combine_laws",
    "Verif.Batches.combine_pair",
    "Verif.Batches.rstrip_spec",
    "Verif.Batches.short_partial",
    "Verif.Batches.short_false",
    "Verif.Batches.fractions_spec"
   ],
   "note": "Missing: rstrip takes off characters of the column from the name of the metric as well (short_false)."
  },
  {
   "property": "C302",
   "status": "partial",
   "theorems": [
    "Verif.Batches.captions_spec",
    "Verif.Batches.caption_false",
    "Verif.Batches.subset_label"
   ],
   "note": "Missing: captions have the labels of all filters before (caption_false); a condition without label is an exception (subset_label)."
  },
  {
   "property": "C303",
   "status": "partial",
   "theorems": [
    "Verif.Contrib.triplets_spec",
    "Verif.Contrib.triplets_perm",
    "Verif.Contrib.triplets_shift",
    "Verif.Contrib.triplets_mono",
    "Verif.Contrib.triplet_order",
    "Verif.Contrib.ratio_unread",
    "Verif.Contrib.ratio_false"
   ],
   "note": "Missing: the limits of the ratio are never read (ratio_unread, ratio_false)."
  },
  {
   "property": "C304",
   "status": "partial",
   "theorems": [
    "Verif.Contrib.tripletsBand_spec",
    "Verif.Contrib.reduceAll_spec",
    "Verif.Contrib.even_false"
   ],
   "note": "Missing: with the default RatioMin of one, evenly spaced visits are not counted (even_false). For DelMin not negative."
  },
  {
   "property": "C305",
   "status": "partial",
   "theorems": [
    "Verif.Contrib.numObs_spec",
    "Verif.Contrib.numObs_partial",
    "Verif.Contrib.numObs_false",
    "Verif.Contrib.numObs_ends",
    "Verif.Contrib.obsDiff_spec",
    "Verif.Contrib.obsDiff_total",
    "Verif.Contrib.intervals_mean",
    "Verif.Contrib.intervals_unbound"
   ],
   "note": "Missing: visits in windows that overlap count more than once (numObs_false); an unknown statistic is an unbound variable. The standard deviation is not modelled."
  },
  {
   "property": "C306",
   "status": "partial",
   "theorems": [
    "Verif.Contrib.sameGaps_spec",
    "Verif.Contrib.diffGaps_spec",
    "Verif.Contrib.zero_gap",
    "Verif.Contrib.diffGaps_symm",
    "Verif.Contrib.nearest_spec",
    "Verif.Contrib.nearest_length",
    "Verif.Contrib.nearest_false",
    "Verif.Contrib.all_some"
   ],
   "note": "Missing: pairs of visits in one filter at the same time have no gap, in two filters they have (zero_gap); with allgaps false a filter without visits is an exception (nearest_false)."
  },
  {
   "property": "C307",
   "status": "partial",
   "theorems": [
    "Verif.Contrib.fom_none",
    "Verif.Contrib.fom_top",
    "Verif.Contrib.fom_full",
    "Verif.Contrib.fom_more_false",
    "Verif.Contrib.fom_partial"
   ],
   "note": "Missing: a flat clipped histogram, as of a pair that reaches its clip everywhere, gives infinity for the whole point (fom_full); more gaps may lower it (fom_more_false)."
  },
  {
   "property": "C308",
   "status": "partial",
   "theorems": [
    "Verif.Grb.run_spec",
    "Verif.Grb.exists_mag",
    "Verif.Grb.last_draw",
    "Verif.Grb.fraction_bound",
    "Verif.Grb.phase_false",
    "Verif.Grb.first_false",
    "Verif.Grb.start_false",
    "Verif.Grb.band_false"
   ],
   "note": "Missing: counters are set to zero in each phase, so only the last counts while the number of bursts is that of all (run_spec, last_draw, fraction_bound, phase_false); the first visit is seen whatever the burst (first_false); a start that is given is an unbound variable (start_false)."
  },
  {
   "property": "C309",
   "status": "partial",
   "theorems": [
    "Verif.Grb.filtAvg_spec",
    "Verif.Grb.filtAvg_false"
   ],
   "note": "Missing: the entry for any filter is averaged as well (filtAvg_false); filtAvg_spec says what is averaged."
  },
  {
   "property": "C310",
   "status": "partial",
   "theorems": [
    "Verif.Stars.edges_spec",
    "Verif.Stars.volumes_equal",
    "Verif.Stars.volumes_sum",
    "Verif.Stars.distances_spec",
    "Verif.Stars.distances_within",
    "Verif.Stars.starcount_bounds"
   ],
   "note": "Missing: starcount calls eq_gal3, which uses names that astropy and numpy do not have (u.radians, np.rad) and raises; the theorems are for a direction that is already galactic."
  },
  {
   "property": "C311",
   "status": "partial",
   "theorems": [
    "Verif.Stars.imf_integral",
    "Verif.Stars.imf_add",
    "Verif.Stars.imf_pos",
    "Verif.Stars.fractions_sum",
    "Verif.Stars.fractions_sum_partial",
    "Verif.Stars.fractions_sum_false"
   ],
   "note": "Missing: the total of the range is overwritten by that of 0.2 to 1.04, so the fractions sum to one for this range only (fractions_sum, fractions_sum_false)."
  },
  {
   "property": "C312",
   "status": "proved",
   "theorems": [
    "Verif.Stars.stellardensity_pos",
    "Verif.Stars.stellardensity_parts",
    "Verif.Stars.halo_flattened",
    "Verif.Stars.disc_at_sun",
    "Verif.Stars.disk_shape"
   ],
   "note": "In the reals; at the centre of the galaxy the division by zero of the halo is zero in the model."
  },
  {
   "property": "C313",
   "status": "partial",
   "theorems": [
    "Verif.Stars.magError_spec",
    "Verif.Stars.noise_limit",
    "Verif.Stars.noise_calc_false",
    "Verif.Stars.magError_zero_false",
    "Verif.Stars.getDistance_spec"
   ],
   "note": "Missing: the function that noise_calc gives to the solver returns nothing (noise_calc_false), and a limit of zero is taken as no limit (magError_zero_false)."
  },
  {
   "property": "C314",
   "status": "partial",
   "theorems": [
    "Verif.Stars.normalise_spec",
    "Verif.Stars.eqGal_solves",
    "Verif.Stars.eqGal2_range",
    "Verif.Stars.eqGal2_false",
    "Verif.Stars.galCyn_spec",
    "Verif.Stars.rho_opposite"
   ],
   "note": "Missing: eq_gal2 compares radians with 32.9319 degrees, so all longitudes are from 180 to 360 (eqGal2_range, eqGal2_false); the angle of gal_cyn is the same for opposite directions (rho_opposite). The solver of eq_gal is an input."
  },
  {
   "property": "C315",
   "status": "proved",
   "theorems": [
    "Verif.Stars.specType_anti",
    "Verif.Stars.absMag_mono",
    "Verif.Stars.specType_table",
    "Verif.Stars.specType_ends",
    "Verif.Stars.absMag_table",
    "Verif.Stars.absMag_range",
    "Verif.Stars.pick_spec",
    "Verif.Stars.reach_mono"
   ],
   "note": "In the rationals; the interpolation of scipy is the one of the model."
  },
  {
   "property": "C316",
   "status": "proved",
   "theorems": [
    "Verif.Lens.amp_gt_one",
    "Verif.Lens.amp_shape",
    "Verif.Lens.amp_impact",
    "Verif.Lens.amp_peak",
    "Verif.Lens.magnitude_brighter"
   ],
   "note": "In the reals, for positive impact parameters."
  },
  {
   "property": "C317",
   "status": "partial",
   "theorems": [
    "Verif.Lens.fsfb_inverted",
    "Verif.Lens.fsfb_peak_false"
   ],
   "note": "Missing: microlensing_amplification_fsfb already gives a magnitude, of which the logarithm is taken again, so such an event is faintest at its peak (fsfb_inverted, fsfb_peak_false)."
  },
  {
   "property": "C318",
   "status": "partial",
   "theorems": [
    "Verif.Lens.infoPeak_max",
    "Verif.Lens.infoPeak_snr_false"
   ],
   "note": "Missing: it is the time for a constant error of the flux (infoPeak_max), not for a constant signal-to-noise ratio (infoPeak_snr_false)."
  },
  {
   "property": "C319",
   "status": "partial",
   "theorems": [
    "Verif.Lens.coeffs_derivatives",
    "Verif.Lens.coeffsFsfb_derivatives",
    "Verif.Lens.first_is_te_false"
   ],
   "note": "Missing: the first is the derivative by t0 and the third that by te (first_is_te_false), so the variance read for te is that of t0."
  },
  {
   "property": "C320",
   "status": "partial",
   "theorems": [
    "Verif.Lens.fisher_psd",
    "Verif.Lens.fisher_add",
    "Verif.Lens.fisher_event",
    "Verif.Lens.fisher_flux_zero",
    "Verif.Lens.fisher_flux_false",
    "Verif.Lens.fisherRun_last"
   ],
   "note": "Missing: entries of the fluxes are written to a copy and stay zero (fisher_flux_zero, fisher_flux_false); run uses the visits of the last filter for every filter (fisherRun_last)."
  },
  {
   "property": "C321",
   "status": "partial",
   "theorems": [
    "Verif.Lens.detect_pairs",
    "Verif.Lens.detected_spec",
    "Verif.Lens.detect_points_false"
   ],
   "note": "Missing: what is counted are pairs of visits in a filter whose magnitudes differ by detect_sigma times the error (detect_pairs), so an event may be detected with no point above the depth (detect_points_false)."
  },
  {
   "property": "C322",
   "status": "partial",
   "theorems": [
    "Verif.Lens.npts_spec",
    "Verif.Lens.npts_false",
    "Verif.Lens.times_spec",
    "Verif.Lens.times_false"
   ],
   "note": "Missing: points are counted within one crossing time and not at the peak (npts_spec, npts_false), and times are from the first visit of the point (times_spec, times_false)."
  },
  {
   "property": "C323",
   "status": "proved",
   "theorems": [
    "Verif.Lens.draw_spec",
    "Verif.Lens.draw_first",
    "Verif.Lens.densest_never"
   ],
   "note": "A defect, proved as it is."
  },
  {
   "property": "C324",
   "status": "partial",
   "theorems": [
    "Verif.Kne.prePeak_spec",
    "Verif.Kne.prePeak_false",
    "Verif.Kne.someColor_spec",
    "Verif.Kne.someColorPu_spec",
    "Verif.Kne.tde_mono",
    "Verif.Kne.tenDays_false"
   ],
   "note": "Missing: pre_peak needs one visit more than pts_needed (prePeak_false), and the three filters are needed within five days of the peak and not ten (tenDays_false)."
  },
  {
   "property": "C325",
   "status": "partial",
   "theorems": [
    "Verif.Kne.quality_spec",
    "Verif.Kne.quality_false"
   ],
   "note": "Missing: an event seen every other night has the score 1/2 (quality_false); quality_spec says what the score is. For a range that holds the five days about the peak."
  },
  {
   "property": "C326",
   "status": "proved",
   "theorems": [
    "Verif.Kne.outside_unseen",
    "Verif.Kne.after_unseen",
    "Verif.Kne.appMag_node",
    "Verif.Kne.kn_spec",
    "Verif.Kne.color_two"
   ],
   "note": "For depths up to 99 and no negative extinction or distance modulus."
  },
  {
   "property": "C327",
   "status": "partial",
   "theorems": [
    "Verif.Kne.rate_spec",
    "Verif.Kne.ztf_spec",
    "Verif.Kne.ztf_bands",
    "Verif.Kne.ztf_empty",
    "Verif.Kne.ztf_more_false"
   ],
   "note": "Missing: more visits may lose a kilonova (ztf_more_false); with no visit needed and none there is an exception (ztf_empty)."
  },
  {
   "property": "C328",
   "status": "partial",
   "theorems": [
    "Verif.Kne.presto_spec",
    "Verif.Kne.presto_two",
    "Verif.Kne.choose_spec",
    "Verif.Kne.coords_dmag",
    "Verif.Kne.coords_same_time"
   ],
   "note": "Missing: for two detections at the same time the change is zero whatever the magnitudes (coords_same_time)."
  },
  {
   "property": "C329",
   "status": "partial",
   "theorems": [
    "Verif.Kne.scores_spec",
    "Verif.Kne.loadHash_partial",
    "Verif.Kne.loadHash_false",
    "Verif.Kne.loadHash_unknown",
    "Verif.Kne.keepRegion_spec"
   ],
   "note": "Missing: the table kept is that of the first file for a region, whatever file is asked for later (loadHash_false); events at the latitude of the cut are in neither region (keepRegion_spec). The search in the table is not modelled."
  },
  {
   "property": "C330",
   "status": "partial",
   "theorems": [
    "Verif.Kne.rndm_spec",
    "Verif.Kne.rndm_volume_false",
    "Verif.Kne.fileIndx_spec",
    "Verif.Kne.knPop_partial",
    "Verif.Kne.knPop_false"
   ],
   "note": "Missing: with positions given the seed is not used and the population depends on what was drawn before (knPop_false). The exponent used is not that of a uniform volume (rndm_volume_false). That uniform_sphere, which is not in this repository, seeds the generator is a hypothesis of knPop_partial."
  },
  {
   "property": "C331",
   "status": "partial",
   "theorems": [
    "Verif.Kne.kne_all",
    "Verif.Kne.kne_spec",
    "Verif.Kne.kne_mem",
    "Verif.Kne.kne_once_false",
    "Verif.Kne.kne_key"
   ],
   "note": "Missing: a file is returned once for each set of parameters that it has (kne_spec, kne_once_false); a file without the parameter is an exception (kne_key). The parsing of the names is not modelled."
  },
  {
   "property": "C332",
   "status": "proved",
   "theorems": [
    "Verif.Xrb.fred_peak",
    "Verif.Xrb.fred_shape",
    "Verif.Xrb.lightcurve_peak",
    "Verif.Xrb.lightcurve_outside"
   ],
   "note": "In the reals; the infinity at the start of the outburst is none."
  },
  {
   "property": "C333",
   "status": "partial",
   "theorems": [
    "Verif.Xrb.end_bright",
    "Verif.Xrb.faded_false"
   ],
   "note": "Missing: the logarithm of the amplitude is added to the times and does not multiply them, so that outbursts end while bright (end_bright, faded_false)."
  },
  {
   "property": "C334",
   "status": "proved",
   "theorems": [
    "Verif.Xrb.detectable_spec",
    "Verif.Xrb.visible_interval",
    "Verif.Xrb.possible_spec"
   ],
   "note": "For positive rise and decay times, amplitudes and durations."
  },
  {
   "property": "C335",
   "status": "partial",
   "theorems": [
    "Verif.Xrb.detected_during",
    "Verif.Xrb.detect_spec",
    "Verif.Xrb.meanTime_spec",
    "Verif.Xrb.meanTime_false",
    "Verif.Xrb.reduceMean_spec"
   ],
   "note": "Missing: the start and end of the visible time are among the times, so that the mean is the visible duration over one more than the number of detections, wherever these are (meanTime_spec, meanTime_false)."
  },
  {
   "property": "C336",
   "status": "partial",
   "theorems": [
    "Verif.Xrb.tauRise_spec",
    "Verif.Xrb.pop_seed",
    "Verif.Xrb.tauRise_false"
   ],
   "note": "Missing: the parameters of outbursts are from a generator with the seed 42 whatever the seed (pop_seed), and half of the rise times from the state of np.random (tauRise_false)."
  },
  {
   "property": "C337",
   "status": "partial",
   "theorems": [
    "Verif.Yso.density_pos",
    "Verif.Yso.density_sym",
    "Verif.Yso.density_latitude",
    "Verif.Yso.density_longitude",
    "Verif.Yso.disc_total",
    "Verif.Yso.pole_false",
    "Verif.Yso.rGalac_partial"
   ],
   "note": "Missing: the distance from the axis of the galaxy is that of a star in the plane, so that at the pole the density depends on the longitude (pole_false)."
  },
  {
   "property": "C338",
   "status": "partial",
   "theorems": [
    "Verif.Yso.count_mono",
    "Verif.Yso.count_bound",
    "Verif.Yso.count_add",
    "Verif.Yso.skyArea_field",
    "Verif.Yso.run_outside",
    "Verif.Yso.run_inside",
    "Verif.Yso.outside_false"
   ],
   "note": "quad is the integral. Missing: beyond the limit the value is badval, which is zero by default only (outside_false)."
  },
  {
   "property": "C339",
   "status": "partial",
   "theorems": [
    "Verif.Yso.dist2_spec",
    "Verif.Yso.dist2_empty",
    "Verif.Yso.distance_spec",
    "Verif.Yso.unobserved_zero",
    "Verif.Yso.effective_mono",
    "Verif.Yso.unobserved_first",
    "Verif.Yso.unobserved_false"
   ],
   "note": "With the extinction of the whole line of sight. Missing: with the three-dimensional one the distance in a filter without visits is the first of the map (unobserved_first, unobserved_false)."
  },
  {
   "property": "C340",
   "status": "proved",
   "theorems": [
    "Verif.PerStar.mag_periodic",
    "Verif.PerStar.lightcurve_spec",
    "Verif.PerStar.lightcurve_unobserved",
    "Verif.PerStar.phase_days"
   ],
   "note": ""
  },
  {
   "property": "C341",
   "status": "partial",
   "theorems": [
    "Verif.PerStar.recovered_iff",
    "Verif.PerStar.run_spec",
    "Verif.PerStar.run_range",
    "Verif.PerStar.run_few",
    "Verif.PerStar.few_bands",
    "Verif.PerStar.good_mono",
    "Verif.PerStar.good_truth",
    "Verif.PerStar.slice_false"
   ],
   "note": "The results of curve_fit are inputs. Missing: without a slice point an exception is raised (slice_false)."
  },
  {
   "property": "C342",
   "status": "partial",
   "theorems": [
    "Verif.PerStar.subrun_zero",
    "Verif.PerStar.modulation_zero",
    "Verif.PerStar.modulation_nan",
    "Verif.PerStar.modulation_false"
   ],
   "note": "Missing: the number of points is taken from the size of the object that is fitted, which is one, so nothing is ever fitted and the value is zero or nan (modulation_zero, modulation_nan, modulation_false)."
  },
  {
   "property": "C343",
   "status": "partial",
   "theorems": [
    "Verif.PerStar.window_mem",
    "Verif.PerStar.window_cover",
    "Verif.PerStar.window_twice",
    "Verif.PerStar.window_none",
    "Verif.PerStar.partition_false"
   ],
   "note": "Missing: a visit at the end of an interval is in two (window_twice) and one after the last whole interval in none (window_none, partition_false)."
  },
  {
   "property": "C344",
   "status": "partial",
   "theorems": [
    "Verif.PerStar.windowVal_le",
    "Verif.PerStar.periodic_spec",
    "Verif.PerStar.purity_range",
    "Verif.PerStar.purity_alias",
    "Verif.PerStar.periodic_no_float"
   ],
   "note": "Missing: only with a numpy older than version 1.24, as np.float is used (periodic_no_float)."
  },
  {
   "property": "C345",
   "status": "partial",
   "theorems": [
    "Verif.PerStar.varDepth_spec",
    "Verif.PerStar.varDepth_bright",
    "Verif.PerStar.varDepth_false",
    "Verif.PerStar.scan_last"
   ],
   "note": "The thresholds and the interpolation are inputs. Missing: for a mean depth of 16 or less an exception is raised (varDepth_bright, varDepth_false)."
  },
  {
   "property": "C346",
   "status": "partial",
   "theorems": [
    "Verif.Surf.limit_cases",
    "Verif.Surf.limit_false",
    "Verif.Surf.limit_partial",
    "Verif.Surf.limit_margin",
    "Verif.Surf.margin_sharp",
    "Verif.Surf.warning_false"
   ],
   "note": "Proved: each limiting case is right for its noise alone, the ratio at the limit is at least nsigma divided by the root of three, and a source 2.5 log 2 magnitudes brighter reaches nsigma. Missing: with all the noise the limit never reaches nsigma (limit_false), and the 0.38 magnitudes of the warning are not enough (warning_false)."
  },
  {
   "property": "C347",
   "status": "partial",
   "theorems": [
    "Verif.Surf.run_one",
    "Verif.Surf.run_more",
    "Verif.Surf.one_filter_false",
    "Verif.Surf.run_mixed",
    "Verif.Surf.options",
    "Verif.Surf.skySat_spec"
   ],
   "note": "Missing: the exception for several filters is made and not raised (one_filter_false, run_mixed); extinctions given alone are ignored and zero points given alone raise (options)."
  },
  {
   "property": "C348",
   "status": "partial",
   "theorems": [
    "Verif.Few.cumulative_spec",
    "Verif.Few.qso_spec",
    "Verif.Few.qso_none",
    "Verif.Few.zmax_default"
   ],
   "note": "The spline is any function through the nodes; the depth is an input. Missing: where saturation is fainter than the depth the count is negative (qso_spec), and without visits in the filter an exception is raised (qso_none)."
  },
  {
   "property": "C349",
   "status": "partial",
   "theorems": [
    "Verif.Few.sfWeight_default",
    "Verif.Few.weight_false",
    "Verif.Few.sf_few",
    "Verif.Few.sf_bounds",
    "Verif.Few.sfGaps_spec",
    "Verif.Few.sf_perm"
   ],
   "note": "Without the rounding to half precision; mad_std is an input. Missing: weights that are given are not kept and an exception is raised (weight_false)."
  },
  {
   "property": "C350",
   "status": "partial",
   "theorems": [
    "Verif.Few.colors_cases",
    "Verif.Few.colors_false",
    "Verif.Few.bdSnr_eq",
    "Verif.Few.bdSnr_anti",
    "Verif.Few.bdSnr_more",
    "Verif.Few.bd_between",
    "Verif.Few.bd_beyond",
    "Verif.Few.bd_bad",
    "Verif.Few.bd_more",
    "Verif.Few.volume_ball"
   ],
   "note": "Missing: the colours of L3 are a tuple, with which the metric cannot be made (colors_false); beyond the largest distance the value is extrapolated (bd_beyond)."
  },
  {
   "property": "C351",
   "status": "proved",
   "theorems": [
    "Verif.Few.nightTimes_spec",
    "Verif.Few.nightTimes_nil"
   ],
   "note": "Without the positions."
  },
  {
   "property": "C352",
   "status": "proved",
   "theorems": [
    "Verif.Few.detect_bounds",
    "Verif.Few.chi1_constant",
    "Verif.Few.detect_constant",
    "Verif.Few.constant_cases",
    "Verif.Few.detect_needs",
    "Verif.Few.starsOf_length",
    "Verif.Few.starsOf_get"
   ],
   "note": "The survival function of the F distribution is an input that is one for values that are not positive."
  },
  {
   "property": "C353",
   "status": "proved",
   "theorems": [
    "Verif.SnN.getseason_spec",
    "Verif.SnN.getseason_next",
    "Verif.SnN.getseason_first"
   ],
   "note": "For the times after the sort."
  },
  {
   "property": "C354",
   "status": "partial",
   "theorems": [
    "Verif.SnN.coadd_keys",
    "Verif.SnN.coadd_totals",
    "Verif.SnN.coadd_depth_le",
    "Verif.SnN.coadd_depth_eq",
    "Verif.SnN.coadd_single",
    "Verif.SnN.coadd_single_iff",
    "Verif.SnN.coadd_single_false",
    "Verif.SnN.coadd_time"
   ],
   "note": "The depth is right for visits of the median exposure time with one depth, and never too deep for visits of the median exposure time. Missing: a visit alone in its night and filter whose exposure time is not the median gets another depth (coadd_single_iff, coadd_single_false)."
  },
  {
   "property": "C355",
   "status": "proved",
   "theorems": [
    "Verif.SnN.t0_window",
    "Verif.SnN.keptZ_iff",
    "Verif.SnN.keptZ_mono",
    "Verif.SnN.keptZ_default"
   ],
   "note": "The tables are lists of redshifts of one season."
  },
  {
   "property": "C356",
   "status": "partial",
   "theorems": [
    "Verif.SnN.calcDaymax_grid",
    "Verif.SnN.calcDaymax_step_gt",
    "Verif.SnN.calcDaymax_step_false",
    "Verif.SnN.calcDaymax_short"
   ],
   "note": "Missing: the step is always longer than daymax_step (calcDaymax_step_gt, calcDaymax_step_false)."
  },
  {
   "property": "C357",
   "status": "partial",
   "theorems": [
    "Verif.SnN.epochs_spec",
    "Verif.SnN.epochs_one",
    "Verif.SnN.epochs_none",
    "Verif.SnN.epochs_false",
    "Verif.SnN.epochs_cut_partial"
   ],
   "note": "Proved for two points or more, and cuts of two epochs or more are right. Missing: a single point counts as no epoch (epochs_one, epochs_false)."
  },
  {
   "property": "C358",
   "status": "proved",
   "theorems": [
    "Verif.SnN.t0s_spec",
    "Verif.SnN.pointsOf_mem",
    "Verif.SnN.sampled_iff",
    "Verif.SnN.efficiencies_sel",
    "Verif.SnN.effi_bounds",
    "Verif.SnN.effi_ends",
    "Verif.SnN.efficiencies_unseen"
   ],
   "note": "For cuts of two epochs or more. The variance of the colour is an input; supernovae without a point of the least signal to noise are not in the total (efficiencies_unseen)."
  },
  {
   "property": "C359",
   "status": "proved",
   "theorems": [
    "Verif.SnN.zlim_spec",
    "Verif.SnN.zlim_between",
    "Verif.SnN.zlim_zero",
    "Verif.SnN.zlim_first_only"
   ],
   "note": "Without the rounding to six decimals. With all supernovae at the first redshift the value is -1, too (zlim_first_only)."
  },
  {
   "property": "C360",
   "status": "partial",
   "theorems": [
    "Verif.SnN.getNsn_sum",
    "Verif.SnN.getNsn_last_bin",
    "Verif.SnN.getNsn_bounds",
    "Verif.SnN.finalRow_none",
    "Verif.SnN.finalRow_sum",
    "Verif.SnN.nsnOf_low",
    "Verif.SnN.n_sn_false",
    "Verif.SnN.n_sn_partial"
   ],
   "note": "Missing: one bin wholly above the limit is counted (getNsn_last_bin), and a season with a mean efficiency of at most 0.02 counts -1, so that the number can be negative (n_sn_false)."
  },
  {
   "property": "C361",
   "status": "partial",
   "theorems": [
    "Verif.SnN.snRate_bin",
    "Verif.SnN.snRate_length",
    "Verif.SnN.snRate_reach",
    "Verif.SnN.snRate_nonneg",
    "Verif.SnN.snRate_area",
    "Verif.SnN.edgeDuration_spec",
    "Verif.SnN.expected_at_zmin",
    "Verif.SnN.given_bins",
    "Verif.SnN.given_bins_false",
    "Verif.SnN.made_bins"
   ],
   "note": "The comoving volume is an input. Missing: bins that are given do not fit (given_bins_false); at zmin itself none is expected (expected_at_zmin)."
  },
  {
   "property": "C362",
   "status": "proved",
   "theorems": [
    "Verif.SnN.perrett_spec",
    "Verif.SnN.perrett_err",
    "Verif.SnN.capped_rates",
    "Verif.SnN.snRateOf_known",
    "Verif.SnN.snRateOf_names"
   ],
   "note": "For arrays of redshifts; another name gives None."
  },
  {
   "property": "C363",
   "status": "proved",
   "theorems": [
    "Verif.SnN.varColor_spec",
    "Verif.SnN.varColor_solves",
    "Verif.SnN.sigmas_eq",
    "Verif.SnN.sigmas_none"
   ],
   "note": "In exact arithmetic."
  },
  {
   "property": "C364",
   "status": "proved",
   "theorems": [
    "Verif.SnN.loadCached_ok",
    "Verif.SnN.loadAll_data",
    "Verif.SnN.loadAll_reads"
   ],
   "note": "The files do not change; one thread."
  },
  {
   "property": "C365",
   "status": "proved",
   "theorems": [
    "Verif.SnN.flagged_iff",
    "Verif.SnN.flat_zip",
    "Verif.SnN.byRow_flat",
    "Verif.SnN.tile_get"
   ],
   "note": "The fluxes are inputs."
  },
  {
   "property": "C366",
   "status": "partial",
   "theorems": [
    "Verif.SnN.nLensed_spec",
    "Verif.SnN.nLensed_anti",
    "Verif.SnN.seasonLensed_skip",
    "Verif.SnN.seasonLensed_none",
    "Verif.SnN.lensedRun_num",
    "Verif.SnN.lensedRun_nothing",
    "Verif.SnN.lensed_zero_false",
    "Verif.SnN.lensed_nan_false"
   ],
   "note": "calc_season belongs to another package: the season is an input. Missing: visits none of which is deep enough give -666, not zero (lensed_zero_false); a season all of whose visits are in one night makes the value not a number (lensed_nan_false)."
  },
  {
   "property": "C367",
   "status": "partial",
   "theorems": [
    "Verif.PlotH.setBundles_spec",
    "Verif.PlotH.ordered_stay",
    "Verif.PlotH.order_false",
    "Verif.PlotH.same_band_reversed",
    "Verif.PlotH.forder_spec",
    "Verif.PlotH.insert_spec"
   ],
   "note": "Missing: bundles which are not given in the order of the bands are not put into it (order_false, same_band_reversed)."
  },
  {
   "property": "C368",
   "status": "partial",
   "theorems": [
    "Verif.PlotH.resolve_spec",
    "Verif.PlotH.documented_partial",
    "Verif.PlotH.documented_false",
    "Verif.PlotH.history",
    "Verif.PlotH.leak",
    "Verif.PlotH.userDict_spec"
   ],
   "note": "Missing: labels of the axes made by the handler replace those set before (documented_false). The check of C369 comes after it."
  },
  {
   "property": "C369",
   "status": "partial",
   "theorems": [
    "Verif.PlotH.checkDicts_spec",
    "Verif.PlotH.check_agrees",
    "Verif.PlotH.limits_lost",
    "Verif.PlotH.color_max_dropped"
   ],
   "note": "For values that are not None. Missing: limits of an axis are dropped although the bundles agree (limits_lost), and so are different limits of the colours (color_max_dropped)."
  },
  {
   "property": "C370",
   "status": "partial",
   "theorems": [
    "Verif.PlotH.displayOrder_bounds",
    "Verif.PlotH.displayOrder_false",
    "Verif.PlotH.displayGroup_spec"
   ],
   "note": "Missing: the place depends on the order of the bundles (displayOrder_false)."
  },
  {
   "property": "C371",
   "status": "partial",
   "theorems": [
    "Verif.PlotH.combine_raises_iff",
    "Verif.PlotH.combine_subset_false",
    "Verif.PlotH.combine_complete_partial",
    "Verif.PlotH.combine_complete_false"
   ],
   "note": "The splitting of a label into phrases and words is a parameter. Missing: labels whose phrases are all in the others (combine_raises_iff), and several phrases of one label (combine_complete_false)."
  },
  {
   "property": "C372",
   "status": "partial",
   "theorems": [
    "Verif.PlotH.jointName_bands",
    "Verif.PlotH.jointName_false",
    "Verif.PlotH.jointName_one",
    "Verif.PlotH.jointName_uneven"
   ],
   "note": "Missing: names that differ in other words than bands (jointName_false)."
  },
  {
   "property": "C373",
   "status": "partial",
   "theorems": [
    "Verif.PlotH.guessColor_band",
    "Verif.PlotH.random_colors",
    "Verif.PlotH.band_colors_false",
    "Verif.PlotH.own_color",
    "Verif.PlotH.guessColor_last"
   ],
   "note": "Missing: constraints without the word filter (random_colors, band_colors_false)."
  },
  {
   "property": "C374",
   "status": "proved",
   "theorems": [
    "Verif.PlotH.plot_spec",
    "Verif.PlotH.plot_refused"
   ],
   "note": "Drawing is not modelled."
  },
  {
   "property": "C375",
   "status": "proved",
   "theorems": [
    "Verif.PlotH.applyZpNorm_spec"
   ],
   "note": "In any field."
  },
  {
   "property": "C376",
   "status": "partial",
   "theorems": [
    "Verif.Plotters.colorLims_user",
    "Verif.Plotters.colorLims_range",
    "Verif.Plotters.colorLims_data",
    "Verif.Plotters.colorLims_empty",
    "Verif.Plotters.colorLims_range_false"
   ],
   "note": "Missing: a range when the user gives one limit (colorLims_range_false)."
  },
  {
   "property": "C377",
   "status": "partial",
   "theorems": [
    "Verif.Plotters.histBins_edges",
    "Verif.Plotters.histBins_narrow",
    "Verif.Plotters.histBins_covers_false",
    "Verif.Plotters.histBins_covers_partial"
   ],
   "note": "Missing: ranges that are not whole numbers of bins (histBins_covers_false)."
  },
  {
   "property": "C378",
   "status": "proved",
   "theorems": [
    "Verif.Plotters.skyLon_range",
    "Verif.Plotters.skyLon_turns",
    "Verif.Plotters.skyLon_unique"
   ],
   "note": "Any ordered field with a floor."
  },
  {
   "property": "C379",
   "status": "partial",
   "theorems": [
    "Verif.Plotters.pairBars_spec",
    "Verif.Plotters.pairBars_total",
    "Verif.Plotters.pairBars_total_false",
    "Verif.Plotters.pairBars_short"
   ],
   "note": "Whole numbers of visits. Missing: the nights with the most visits (pairBars_short)."
  },
  {
   "property": "C380",
   "status": "partial",
   "theorems": [
    "Verif.Plotters.twoDMap_spec",
    "Verif.Plotters.twoDMap_twice",
    "Verif.Plotters.twoDMap_unchanged_false",
    "Verif.Plotters.twoDMap_unchanged_partial"
   ],
   "note": "Missing: a colour minimum (twoDMap_unchanged_false)."
  },
  {
   "property": "C381",
   "status": "partial",
   "theorems": [
    "Verif.Plotters.oneDSubset_ndslicer",
    "Verif.Plotters.oneDSubset_partial",
    "Verif.Plotters.oneDSubset_false",
    "Verif.Plotters.oneDSubset_two",
    "Verif.Plotters.oneDSubset_total"
   ],
   "note": "Missing: the slicer of the package (oneDSubset_ndslicer) and other numbers of bins (oneDSubset_false)."
  },
  {
   "property": "C382",
   "status": "partial",
   "theorems": [
    "Verif.Plotters.twoDSubset_partial",
    "Verif.Plotters.twoDSubset_transposed",
    "Verif.Plotters.twoDSubset_false"
   ],
   "note": "Missing: the x axis first (twoDSubset_transposed); the missing attribute is in C381."
  },
  {
   "property": "C383",
   "status": "proved",
   "theorems": [
    "Verif.Plotters.orbitLookups_default",
    "Verif.Plotters.orbitLookups_hvals"
   ],
   "note": "The keys that are looked up on the way."
  },
  {
   "property": "C384",
   "status": "partial",
   "theorems": [
    "Verif.Plotters.hIndex_spec",
    "Verif.Plotters.hIndex_narrow",
    "Verif.Plotters.hIndex_step_false",
    "Verif.Plotters.hIndex_step_partial"
   ],
   "note": "Missing: a range of less than one magnitude (hIndex_narrow)."
  },
  {
   "property": "C385",
   "status": "proved",
   "theorems": [
    "Verif.Plotters.diameter_formula",
    "Verif.Plotters.diameter_unit",
    "Verif.Plotters.diameter_five"
   ],
   "note": "Over the reals."
  },
  {
   "property": "C386",
   "status": "proved",
   "theorems": [
    "Verif.Plotters.foCurve_get",
    "Verif.Plotters.foCurve_area",
    "Verif.Plotters.foCurve_bounds"
   ],
   "note": "Masked values are left out before."
  },
  {
   "property": "C387",
   "status": "proved",
   "theorems": [
    "Verif.Plotters.summaryHist_bin",
    "Verif.Plotters.summaryHist_total",
    "Verif.Plotters.summaryHist_cumulative"
   ],
   "note": "For the metric SumMetric."
  },
  {
   "property": "C388",
   "status": "proved",
   "theorems": [
    "Verif.Dwarf.fakeLF_total",
    "Verif.Dwarf.sumLuminosity_spec",
    "Verif.Dwarf.distMod_spec"
   ],
   "note": "Over the reals; counts above zero."
  },
  {
   "property": "C389",
   "status": "partial",
   "theorems": [
    "Verif.Dwarf.limitDwarf_spec",
    "Verif.Dwarf.limitDwarf_exists_false",
    "Verif.Dwarf.limitDwarf_exists_partial"
   ],
   "note": "Missing: dwarfs of which no star is seen (limitDwarf_exists_false)."
  },
  {
   "property": "C390",
   "status": "partial",
   "theorems": [
    "Verif.Dwarf.starDensity_default",
    "Verif.Dwarf.starDensity_depth_false",
    "Verif.Dwarf.starsRequired_spec",
    "Verif.Dwarf.starsRequired_missing"
   ],
   "note": "Missing: the depth has no effect (starDensity_depth_false)."
  },
  {
   "property": "C391",
   "status": "partial",
   "theorems": [
    "Verif.Dwarf.distValue_spec",
    "Verif.Dwarf.distValue_documented_false",
    "Verif.Dwarf.distValue_unit_false",
    "Verif.Dwarf.distValue_partial"
   ],
   "note": "Missing: numbers (distValue_documented_false) and other units (distValue_unit_false)."
  },
  {
   "property": "C392",
   "status": "partial",
   "theorems": [
    "Verif.Dwarf.bandCorrection_colors",
    "Verif.Dwarf.galCount_all",
    "Verif.Dwarf.galCount_unknown",
    "Verif.Dwarf.galCount_cfht",
    "Verif.Dwarf.galTotal_spec",
    "Verif.Dwarf.galTotal_bins_false",
    "Verif.Dwarf.galTotal_bins_partial"
   ],
   "note": "The integral is a parameter. Missing: small totals (galTotal_bins_false)."
  },
  {
   "property": "C393",
   "status": "proved",
   "theorems": [
    "Verif.Dwarf.stellarMags_spec",
    "Verif.Dwarf.stellarMags_known",
    "Verif.Dwarf.table_redder"
   ],
   "note": "Rational numbers."
  },
  {
   "property": "C394",
   "status": "partial",
   "theorems": [
    "Verif.SedT.setupAll_start",
    "Verif.SedT.setupAll_first",
    "Verif.SedT.start_documented_false",
    "Verif.SedT.start_documented_partial",
    "Verif.SedT.setupAll_years"
   ],
   "note": "Missing: points after the first (start_documented_false)."
  },
  {
   "property": "C395",
   "status": "partial",
   "theorems": [
    "Verif.SedT.epoch_range",
    "Verif.SedT.ident_zero",
    "Verif.SedT.same_transient_partial",
    "Verif.SedT.same_transient_false",
    "Verif.SedT.same_transient_split",
    "Verif.SedT.shifts_spec"
   ],
   "note": "Missing: shifts (same_transient_false)."
  },
  {
   "property": "C396",
   "status": "proved",
   "theorems": [
    "Verif.SedT.detected_spec",
    "Verif.SedT.run_spec"
   ],
   "note": "The limit of the time between bands is in C397; the visits of one number are taken to be next to each other, as they are sorted by time."
  },
  {
   "property": "C397",
   "status": "partial",
   "theorems": [
    "Verif.SedT.inTime_sound",
    "Verif.SedT.inTime_partial",
    "Verif.SedT.inTime_never",
    "Verif.SedT.inTime_documented_false"
   ],
   "note": "For detections in order of their phase. Missing: the last detection (inTime_documented_false)."
  },
  {
   "property": "C398",
   "status": "partial",
   "theorems": [
    "Verif.SedT.mkRows_known",
    "Verif.SedT.mkRows_get",
    "Verif.SedT.thresholds_documented_false"
   ],
   "note": "Missing: bands without a threshold (thresholds_documented_false)."
  },
  {
   "property": "C399",
   "status": "partial",
   "theorems": [
    "Verif.SsPipe.saved_place",
    "Verif.SsPipe.saved_iff",
    "Verif.SsPipe.makeObs_partial",
    "Verif.SsPipe.makeObs_false",
    "Verif.SsPipe.makeObs_name"
   ],
   "note": "Paths without links and parent directories. Missing: relative directories (makeObs_false)."
  },
  {
   "property": "C400",
   "status": "partial",
   "theorems": [
    "Verif.SsPipe.line_chain",
    "Verif.SsPipe.pairs_partial",
    "Verif.SsPipe.pairs_false",
    "Verif.SsPipe.pairs_spec"
   ],
   "note": "Missing: names with the word tracking (pairs_false)."
  },
  {
   "property": "C401",
   "status": "proved",
   "theorems": [
    "Verif.SsPipe.script_known",
    "Verif.SsPipe.objtypes_known",
    "Verif.SsPipe.objtypes_differ"
   ],
   "note": "Lookup in the dicts of the script."
  },
  {
   "property": "C402",
   "status": "proved",
   "theorems": [
    "Verif.SsPipe.split_usage",
    "Verif.SsPipe.split_file",
    "Verif.SsPipe.splitDir_agrees"
   ],
   "note": "Stated as it is: the commands for parts are refused."
  },
  {
   "property": "C403",
   "status": "partial",
   "theorems": [
    "Verif.SsPipe.calc_iff",
    "Verif.SsPipe.calc_optional_false",
    "Verif.SsPipe.calc_cases"
   ],
   "note": "Missing: runs without the file of the simulation (calc_optional_false)."
  },
  {
   "property": "C404",
   "status": "proved",
   "theorems": [
    "Verif.SsPipe.hRange_spec",
    "Verif.SsPipe.hRange_exact",
    "Verif.SsPipe.defaults_valid",
    "Verif.SsPipe.popDefaults_total",
    "Verif.SsPipe.char_iff",
    "Verif.SsPipe.population_alias",
    "Verif.SsPipe.defaults_outer"
   ],
   "note": "Rational numbers; case of ASCII letters."
  },
  {
   "property": "C405",
   "status": "partial",
   "theorems": [
    "Verif.SsPipe.joins_iff",
    "Verif.SsPipe.combine_never",
    "Verif.SsPipe.sameSlicer_iff",
    "Verif.SsPipe.sameSlicer_false",
    "Verif.SsPipe.joinValues_spec",
    "Verif.SsPipe.join_mask_false",
    "Verif.SsPipe.splitDir_root"
   ],
   "note": "Missing: the joined bundle (combine_never) and the masks (join_mask_false)."
  },
  {
   "property": "C406",
   "status": "proved",
   "theorems": [
    "Verif.SsPipe.times_spec",
    "Verif.SsPipe.times_ends",
    "Verif.SsPipe.selected_iff",
    "Verif.SsPipe.selected_sub",
    "Verif.SsPipe.figroot_spec"
   ],
   "note": "Patterns of glob in the metadata are left out."
  },
  {
   "property": "C407",
   "status": "partial",
   "theorems": [
    "Verif.SsPipe.compMark_spec",
    "Verif.SsPipe.fracMarks_single_partial",
    "Verif.SsPipe.fracMarks_kept",
    "Verif.SsPipe.fracMarks_false",
    "Verif.SsPipe.fracMarks_none"
   ],
   "note": "Missing: more than one bundle (fracMarks_false)."
  },
  {
   "property": "C408",
   "status": "proved",
   "theorems": [
    "Verif.SsPipe.compKind_iff",
    "Verif.SsPipe.compKind_kind"
   ],
   "note": "Names as lists of letters."
  },
  {
   "property": "C409",
   "status": "partial",
   "theorems": [
    "Verif.Tools.common_spec",
    "Verif.Tools.resolve_rel",
    "Verif.Tools.resolve_iff",
    "Verif.Tools.addToDb_partial",
    "Verif.Tools.looked_default",
    "Verif.Tools.show_default",
    "Verif.Tools.addToDb_false"
   ],
   "note": "Directories without links. Missing: databases elsewhere (addToDb_false, show_default)."
  },
  {
   "property": "C410",
   "status": "partial",
   "theorems": [
    "Verif.Tools.opened_partial",
    "Verif.Tools.opened_iff",
    "Verif.Tools.opened_false"
   ],
   "note": "Missing: other current directories (opened_false)."
  },
  {
   "property": "C411",
   "status": "partial",
   "theorems": [
    "Verif.Tools.startRun_spec",
    "Verif.Tools.startRun_new",
    "Verif.Tools.startRun_first_partial",
    "Verif.Tools.dataPage_never"
   ],
   "note": "Missing: databases with runs (startRun_new) and the data (dataPage_never)."
  },
  {
   "property": "C412",
   "status": "proved",
   "theorems": [
    "Verif.Tools.runComment_spec",
    "Verif.Tools.runGroup_spec"
   ],
   "note": "Strings as lists of letters."
  },
  {
   "property": "C413",
   "status": "partial",
   "theorems": [
    "Verif.Tools.versions_partial",
    "Verif.Tools.versions_stale",
    "Verif.Tools.versions_false",
    "Verif.Tools.versions_ok_iff",
    "Verif.Tools.versionOf_spec"
   ],
   "note": "Missing: results without rows (versions_false)."
  },
  {
   "property": "C414",
   "status": "partial",
   "theorems": [
    "Verif.Tools.dbFiles_iff",
    "Verif.Tools.metaFiles_iff",
    "Verif.Tools.job_file_partial",
    "Verif.Tools.job_file_false",
    "Verif.Tools.job_dir_partial",
    "Verif.Tools.afterAll_spec",
    "Verif.Tools.afterAll_partial",
    "Verif.Tools.afterAll_false"
   ],
   "note": "Missing: names with more than one .db (afterAll_false) and files elsewhere (job_file_false)."
  },
  {
   "property": "C415",
   "status": "proved",
   "theorems": [
    "Verif.Tools.testing_spec",
    "Verif.Tools.baseline_spec"
   ],
   "note": "Names and versions as they are."
  },
  {
   "property": "C416",
   "status": "partial",
   "theorems": [
    "Verif.SnSnr.SNR_no_fakes",
    "Verif.SnSnr.SNR_run",
    "Verif.SnSnr.SNR_columns",
    "Verif.SnSnr.SNR_rate",
    "Verif.SnSnr.SNR_regular_false"
   ],
   "note": "Missing: any value for regular cadences (SNR_run, SNR_regular_false)."
  },
  {
   "property": "C417",
   "status": "partial",
   "theorems": [
    "Verif.SnSnr.SNR_season_info",
    "Verif.SnSnr.SNR_moved",
    "Verif.SnSnr.SNR_moved_start",
    "Verif.SnSnr.SNR_checked",
    "Verif.SnSnr.SNR_checked_false"
   ],
   "note": "Missing: a single season (SNR_checked_false)."
  },
  {
   "property": "C418",
   "status": "partial",
   "theorems": [
    "Verif.SnSnr.SNR_days",
    "Verif.SnSnr.SNR_season_of",
    "Verif.SnSnr.SNR_info_of",
    "Verif.SnSnr.SNR_info_false"
   ],
   "note": "Missing: seasons in another order (SNR_info_false)."
  },
  {
   "property": "C419",
   "status": "proved",
   "theorems": [
    "Verif.SnSnr.SNR_quadrature",
    "Verif.SnSnr.SNR_more",
    "Verif.SnSnr.SNR_five"
   ],
   "note": "The light curve is any function."
  },
  {
   "property": "C420",
   "status": "proved",
   "theorems": [
    "Verif.SnSnr.SNR_fake_times",
    "Verif.SnSnr.SNR_fake_number",
    "Verif.SnSnr.SNR_fake_depth",
    "Verif.SnSnr.SNR_fakes",
    "Verif.SnSnr.SNR_coadd"
   ],
   "note": "Real numbers for floats."
  },
  {
   "property": "C421",
   "status": "proved",
   "theorems": [
    "Verif.SnSnr.SNR_lim",
    "Verif.SnSnr.SNR_contour",
    "Verif.SnSnr.SNR_last_file"
   ],
   "note": "Contours and interpolation are not modelled."
  },
  {
   "property": "C422",
   "status": "partial",
   "theorems": [
    "Verif.Proto.index_spec",
    "Verif.Proto.index_fresh",
    "Verif.Proto.index_sequence",
    "Verif.Proto.index_race",
    "Verif.Proto.index_no_race"
   ],
   "note": "Proved for one program at a time; two at once get the same directory."
  },
  {
   "property": "C423",
   "status": "partial",
   "theorems": [
    "Verif.Proto.transfer_spec",
    "Verif.Proto.transfer_fail",
    "Verif.Proto.transfer_fail_false"
   ],
   "note": "A failed transfer leaves no metadata unless they list themselves."
  },
  {
   "property": "C424",
   "status": "partial",
   "theorems": [
    "Verif.Proto.check_spec",
    "Verif.Proto.check_exported",
    "Verif.Proto.made_check_partial",
    "Verif.Proto.made_check_false",
    "Verif.Proto.check_changed"
   ],
   "note": "False for exported simulations and for a file named like the metadata."
  },
  {
   "property": "C425",
   "status": "partial",
   "theorems": [
    "Verif.Proto.made_files_partial",
    "Verif.Proto.made_files_false",
    "Verif.Proto.cli_types",
    "Verif.Proto.cli_false"
   ],
   "note": "False for files of one name; the command line loses the types."
  },
  {
   "property": "C426",
   "status": "proved",
   "theorems": [
    "Verif.Proto.read_direct",
    "Verif.Proto.read_order",
    "Verif.Proto.read_verify"
   ],
   "note": "For archives with no URI twice and days since 1900; with verification also for values in the compilation that are those of the archive."
  },
  {
   "property": "C427",
   "status": "partial",
   "theorems": [
    "Verif.Proto.cache_sound",
    "Verif.Proto.archive_keeps",
    "Verif.Proto.cache_false"
   ],
   "note": "Proved for windows within the nights that are compiled; false for longer ones."
  },
  {
   "property": "C428",
   "status": "partial",
   "theorems": [
    "Verif.Proto.compile_ok_iff",
    "Verif.Proto.compile_first_only",
    "Verif.Proto.tables_spec",
    "Verif.Proto.tables_round_partial",
    "Verif.Proto.tables_round_false"
   ],
   "note": "The round trip holds with all dates and the same keys in all files; what happens otherwise is proved. Values are never None or NaN."
  },
  {
   "property": "C429",
   "status": "proved",
   "theorems": [
    "Verif.Proto.differences_nil",
    "Verif.Proto.differences_mem"
   ],
   "note": "The comparison of values is arbitrary."
  },
  {
   "property": "C430",
   "status": "partial",
   "theorems": [
    "Verif.Proto.find_spec",
    "Verif.Proto.find_raises",
    "Verif.Proto.find_exported",
    "Verif.Proto.find_read",
    "Verif.Proto.find_latest_partial",
    "Verif.Proto.find_latest_false"
   ],
   "note": "The most recent one only among those of one day."
  },
  {
   "property": "C431",
   "status": "partial",
   "theorems": [
    "Verif.Proto.fetch_none",
    "Verif.Proto.fetch_some",
    "Verif.Proto.tap_ahead",
    "Verif.Proto.ages"
   ],
   "note": "TypeError instead of no visits."
  },
  {
   "property": "C432",
   "status": "proved",
   "theorems": [
    "Verif.Snapshot.overhead_min",
    "Verif.Snapshot.overhead_value",
    "Verif.Snapshot.overhead_warn",
    "Verif.Snapshot.overhead_unchecked"
   ],
   "note": ""
  },
  {
   "property": "C433",
   "status": "partial",
   "theorems": [
    "Verif.Snapshot.slew_value",
    "Verif.Snapshot.slew_nonneg",
    "Verif.Snapshot.slewLoc_negative",
    "Verif.Snapshot.slewLoc_false",
    "Verif.Snapshot.slew_array"
   ],
   "note": "False for a negative location without a scale."
  },
  {
   "property": "C434",
   "status": "partial",
   "theorems": [
    "Verif.Snapshot.cli_results",
    "Verif.Snapshot.cli_default",
    "Verif.Snapshot.cli_false",
    "Verif.Snapshot.anom_iff"
   ],
   "note": "False without a directory for the results."
  },
  {
   "property": "C435",
   "status": "partial",
   "theorems": [
    "Verif.Snapshot.drive_value",
    "Verif.Snapshot.drive_saved",
    "Verif.Snapshot.drive_path",
    "Verif.Snapshot.drive_never",
    "Verif.Snapshot.drive_index"
   ],
   "note": "False that the archived directory is given to the caller. That ResourcePath has no keyword forceDirctory and that the simulator gives rewards just if they are recorded is knowledge of other packages."
  },
  {
   "property": "C436",
   "status": "partial",
   "theorems": [
    "Verif.Snapshot.config_scheduler_partial",
    "Verif.Snapshot.config_function",
    "Verif.Snapshot.config_unused",
    "Verif.Snapshot.config_false"
   ],
   "note": "False for configurations with the function only."
  },
  {
   "property": "C437",
   "status": "proved",
   "theorems": [
    "Verif.Snapshot.scheduler_spec",
    "Verif.Snapshot.scheduler_noScript"
   ],
   "note": ""
  },
  {
   "property": "C438",
   "status": "partial",
   "theorems": [
    "Verif.Snapshot.codec_spec",
    "Verif.Snapshot.snapshot_round_partial",
    "Verif.Snapshot.snapshot_compressed",
    "Verif.Snapshot.snapshot_round_false",
    "Verif.Snapshot.snapshot_others"
   ],
   "note": "False for compressed files."
  },
  {
   "property": "C439",
   "status": "partial",
   "theorems": [
    "Verif.Snapshot.toHdf_spec",
    "Verif.Snapshot.toHdf_empty",
    "Verif.Snapshot.toHdf_false"
   ],
   "note": "False for databases without tables."
  },
  {
   "property": "C440",
   "status": "partial",
   "theorems": [
    "Verif.Snapshot.round_trip",
    "Verif.Snapshot.existing_error",
    "Verif.Snapshot.default_paths_false",
    "Verif.Snapshot.failing_leaves"
   ],
   "note": "The round trip to a new file is proved; to the default path it fails."
  },
  {
   "property": "C441",
   "status": "proved",
   "theorems": [
    "Verif.Snapshot.conda_lookup",
    "Verif.Snapshot.conda_none",
    "Verif.Snapshot.conda_sorted",
    "Verif.Snapshot.conda_cached"
   ],
   "note": ""
  },
  {
   "property": "C442",
   "status": "partial",
   "theorems": [
    "Verif.VsOps.call_succeeds",
    "Verif.VsOps.no_insert_no_error",
    "Verif.VsOps.at_most_five",
    "Verif.VsOps.connections_reused_false"
   ],
   "note": "When calls succeed, with the invariant, is for all sequences of calls; that connections are reused is false for insertions of statistics."
  },
  {
   "property": "C443",
   "status": "partial",
   "theorems": [
    "Verif.VsOps.conn_value",
    "Verif.VsOps.conn_other",
    "Verif.VsOps.dict_kept_partial",
    "Verif.VsOps.dict_kept_false"
   ],
   "note": "The order of the sources is for all input; the dictionary of the caller is modified unless all is given."
  },
  {
   "property": "C444",
   "status": "proved",
   "theorems": [
    "Verif.VsOps.days_error",
    "Verif.VsOps.days_given",
    "Verif.VsOps.days_spec",
    "Verif.VsOps.stats_rows",
    "Verif.VsOps.stats_row",
    "Verif.VsOps.stats_total"
   ],
   "note": "The standard deviation is not in the model."
  },
  {
   "property": "C445",
   "status": "proved",
   "theorems": [
    "Verif.VsOps.insert_spec",
    "Verif.VsOps.keys_unique",
    "Verif.VsOps.insert_first",
    "Verif.VsOps.insert_again"
   ],
   "note": "The primary key is that of the schema."
  },
  {
   "property": "C446",
   "status": "partial",
   "theorems": [
    "Verif.VsOps.mixed_ok",
    "Verif.VsOps.mixed_fails",
    "Verif.VsOps.mixed_atomic_false"
   ],
   "note": "A call that fails leaves a row; the same two steps are in record_completed_metadata."
  },
  {
   "property": "C447",
   "status": "proved",
   "theorems": [
    "Verif.VsOps.hex_round",
    "Verif.VsOps.update_hash",
    "Verif.VsOps.update_only",
    "Verif.VsOps.update_fails",
    "Verif.VsOps.update_bad_hash"
   ],
   "note": "Casts of the database are not in the model."
  },
  {
   "property": "C448",
   "status": "partial",
   "theorems": [
    "Verif.VsOps.proto_error",
    "Verif.VsOps.proto_time",
    "Verif.VsOps.made_up",
    "Verif.VsOps.proto_urls",
    "Verif.VsOps.import_ignores"
   ],
   "note": "What the function returns is as documented; the import ignores the time."
  },
  {
   "property": "C449",
   "status": "partial",
   "theorems": [
    "Verif.VsOps.archive_round",
    "Verif.VsOps.archive_ok",
    "Verif.VsOps.suffixes",
    "Verif.VsOps.copy_round",
    "Verif.VsOps.dest_kept",
    "Verif.VsOps.other_suffix_false"
   ],
   "note": "False for suffixes that are not among the four."
  },
  {
   "property": "C450",
   "status": "proved",
   "theorems": [
    "Verif.VsOps.tap_spec",
    "Verif.VsOps.tap_day",
    "Verif.VsOps.tap_age_given",
    "Verif.VsOps.tap_age",
    "Verif.VsOps.tap_age_ahead"
   ],
   "note": "The almanac is an arbitrary one with sunsets between noon and midnight (UTC)."
  },
  {
   "property": "C451",
   "status": "partial",
   "theorems": [
    "Verif.VsOps.nominal_first",
    "Verif.VsOps.nominal_visits_partial",
    "Verif.VsOps.no_visits_error",
    "Verif.VsOps.no_sim",
    "Verif.VsOps.recorded_first",
    "Verif.VsOps.recorded_kept",
    "Verif.VsOps.nominal_visits_false"
   ],
   "note": "The number is right if the first column has no missing value and there are visits."
  },
  {
   "property": "C452",
   "status": "partial",
   "theorems": [
    "Verif.LensCmp.parse_name",
    "Verif.LensCmp.parse_short",
    "Verif.LensCmp.parse_name_false"
   ],
   "note": "Proved for names in which MicrolensingMetric occurs once, with parts without underscores; negation proved for a run with it in its name."
  },
  {
   "property": "C453",
   "status": "partial",
   "theorems": [
    "Verif.LensCmp.ranges_bins",
    "Verif.LensCmp.ranges_nested_false",
    "Verif.LensCmp.ranges_shared_start"
   ],
   "note": "Proved for bins whose limits both grow; negation proved for bins that lie in one another."
  },
  {
   "property": "C454",
   "status": "partial",
   "theorems": [
    "Verif.LensCmp.series_spec",
    "Verif.LensCmp.fom_refused",
    "Verif.LensCmp.fom_once",
    "Verif.LensCmp.fom_every_batch_false"
   ],
   "note": "Proved when the figure is drawn, with the exact condition for it; negation proved for every set of results."
  },
  {
   "property": "C455",
   "status": "partial",
   "theorems": [
    "Verif.LensCmp.detected_fisher_cells",
    "Verif.LensCmp.fisher_npts_cells",
    "Verif.LensCmp.detected_npts_cells",
    "Verif.LensCmp.cells_total",
    "Verif.LensCmp.cells_partition_false"
   ],
   "note": "The cells are given for all events; negation proved for the claim that every event is in one of them."
  },
  {
   "property": "C456",
   "status": "partial",
   "theorems": [
    "Verif.LensCmp.compare_ignores",
    "Verif.LensCmp.compare_partial",
    "Verif.LensCmp.compare_label_false"
   ],
   "note": "Proved for ten points and events that meet no limit exactly; negation proved for other numbers."
  },
  {
   "property": "C457",
   "status": "partial",
   "theorems": [
    "Verif.LensCmp.results_mask",
    "Verif.LensCmp.results_zero",
    "Verif.LensCmp.results_empty",
    "Verif.LensCmp.results_masked_false"
   ],
   "note": "Proved with zeros under the mask, with the excess of the third; negation proved for the fraction of characterized events."
  },
  {
   "property": "C458",
   "status": "partial",
   "theorems": [
    "Verif.LensCmp.results_dbs",
    "Verif.LensCmp.results_dbs_partial",
    "Verif.LensCmp.results_dbs_false"
   ],
   "note": "Negation proved; the intended result is proved for a class with the method."
  },
  {
   "property": "C459",
   "status": "partial",
   "theorems": [
    "Verif.Small.nights_with_n",
    "Verif.Small.nights_perm",
    "Verif.Small.nights_minimum_false"
   ],
   "note": "Counted as the class says; the argument is documented as a minimum, which nights_minimum_false refutes."
  },
  {
   "property": "C460",
   "status": "proved",
   "theorems": [
    "Verif.Small.match_spec",
    "Verif.Small.match_empty"
   ],
   "note": "Without stars or solutions it is a ValueError."
  },
  {
   "property": "C461",
   "status": "partial",
   "theorems": [
    "Verif.Small.uniformity_zero_point",
    "Verif.Small.residMap_pixels",
    "Verif.Small.uniformity_spec",
    "Verif.Small.mad_affine",
    "Verif.Small.uniformity_fractions",
    "Verif.Small.uniformity_high_false",
    "Verif.Small.uniformity_columns_false"
   ],
   "note": "The fraction at high latitudes is divided by the number of all pixels, and the columns are asked for under other names than those read."
  },
  {
   "property": "C462",
   "status": "proved",
   "theorems": [
    "Verif.Small.pixCounts_eq",
    "Verif.Small.pixCounts_nonneg"
   ],
   "note": "The integral is an arbitrary functional; the completeness an arbitrary function."
  },
  {
   "property": "C463",
   "status": "partial",
   "theorems": [
    "Verif.Small.depthLimited_partial",
    "Verif.Small.depthLimited_other",
    "Verif.Small.depthLimited_false"
   ],
   "note": "Holds with the default bad value; with another one the bad value of the inner metric is not recognised."
  },
  {
   "property": "C464",
   "status": "proved",
   "theorems": [
    "Verif.Small.fluxNorm_spec",
    "Verif.Small.fluxNorm_flux",
    "Verif.Small.fluxNorm_unique",
    "Verif.Small.fluxNorm_error"
   ],
   "note": "Over the reals."
  },
  {
   "property": "C465",
   "status": "proved",
   "theorems": [
    "Verif.Small.colMap_names",
    "Verif.Small.colMap_error",
    "Verif.Small.colMap_default",
    "Verif.Small.colMap_case",
    "Verif.Small.readObs_cols",
    "Verif.Small.readObs_builtin",
    "Verif.Small.readObs_missing",
    "Verif.Small.readObs_caller"
   ],
   "note": "Lower case is that of ASCII letters; the entries of the dictionaries that are not names of columns are left out; the query itself is not modelled here."
  },
  {
   "property": "C466",
   "status": "proved",
   "theorems": [
    "Verif.Small.starCount_type_error",
    "Verif.Small.starCount_never",
    "Verif.Small.starCountMass_position",
    "Verif.Small.starCountMass_order_false"
   ],
   "note": "Stated as it is; the count itself is an arbitrary function."
  },
  {
   "property": "C467",
   "status": "partial",
   "theorems": [
    "Verif.Eso.visibleFast_partial",
    "Verif.Eso.visibleFast_mono",
    "Verif.Eso.visibleFast_always",
    "Verif.Eso.visibleFast_total_false"
   ],
   "note": "The altitudes are arbitrary functions. The time may exceed the interval by one sampling interval."
  },
  {
   "property": "C468",
   "status": "partial",
   "theorems": [
    "Verif.Eso.visible_partial",
    "Verif.Eso.visible_error",
    "Verif.Eso.visible_total_false"
   ],
   "note": "The altitudes are arbitrary functions. ValueError on a date without a sample below the limit."
  },
  {
   "property": "C469",
   "status": "proved",
   "theorems": [
    "Verif.Eso.merged_eq",
    "Verif.Eso.merged_le",
    "Verif.Eso.merged_one",
    "Verif.Eso.merged_two"
   ],
   "note": "Over the reals."
  },
  {
   "property": "C470",
   "status": "proved",
   "theorems": [
    "Verif.Eso.parts_flatten",
    "Verif.Eso.parts_balanced",
    "Verif.Eso.load_files",
    "Verif.Eso.load_eleven_false"
   ],
   "note": "linspace with integers is taken as exact division rounded down."
  },
  {
   "property": "C471",
   "status": "proved",
   "theorems": [
    "Verif.Eso.zodi_index",
    "Verif.Eso.moon_index"
   ],
   "note": "Spectra are not in the model, only the keys of the rows."
  },
  {
   "property": "C472",
   "status": "proved",
   "theorems": [
    "Verif.Eso.templates_read",
    "Verif.Eso.zodi_latitude",
    "Verif.Eso.zodi_latitude_false"
   ],
   "note": "Stated as it is; angles in degrees."
  },
  {
   "property": "C473",
   "status": "partial",
   "theorems": [
    "Verif.Eso.allSky_rows",
    "Verif.Eso.allSky_mjd",
    "Verif.Eso.allSky_date_false",
    "Verif.Eso.diode_rows",
    "Verif.Eso.diode_default"
   ],
   "note": "The argument is not a date. Rounding of the time to six decimals in the query of diode_sky_db is left out."
  },
  {
   "property": "C474",
   "status": "proved",
   "theorems": [
    "Verif.Eso.images_spec",
    "Verif.Eso.images_sound"
   ],
   "note": "The distance and the test for a point in a polygon are arbitrary functions."
  },
  {
   "property": "C475",
   "status": "proved",
   "theorems": [
    "Verif.HgPlot.civil_spec",
    "Verif.HgPlot.civil_noon"
   ],
   "note": "From the time of the clock; the offset from UTC is constant."
  },
  {
   "property": "C476",
   "status": "partial",
   "theorems": [
    "Verif.HgPlot.solar_partial",
    "Verif.HgPlot.solar_row",
    "Verif.HgPlot.solar_false"
   ],
   "note": "The row is wrong between the noon of the clock and the mean solar noon. UT1 = UTC."
  },
  {
   "property": "C477",
   "status": "partial",
   "theorems": [
    "Verif.HgPlot.row_eq",
    "Verif.HgPlot.month_partial",
    "Verif.HgPlot.month_disjoint",
    "Verif.HgPlot.month_cover",
    "Verif.HgPlot.month_row_false"
   ],
   "note": "Proved away from noon; refuted next to it."
  },
  {
   "property": "C478",
   "status": "partial",
   "theorems": [
    "Verif.HgPlot.mapColors_equal",
    "Verif.HgPlot.mapColors_partial",
    "Verif.HgPlot.yearColors_limits",
    "Verif.HgPlot.yearColors_error",
    "Verif.HgPlot.yearColors_bar_false",
    "Verif.HgPlot.yearColors_none_false"
   ],
   "note": "Proved for given limits and months with different values; refuted otherwise. The colour map itself is not modelled."
  },
  {
   "property": "C479",
   "status": "partial",
   "theorems": [
    "Verif.HgPlot.categoryColors_partial",
    "Verif.HgPlot.categoryColors_gray",
    "Verif.HgPlot.monthMaps_assigned",
    "Verif.HgPlot.monthMaps_false"
   ],
   "note": "use_colors is empty, as in the calls of the plots. Colours that are not assigned differ between months."
  },
  {
   "property": "C480",
   "status": "proved",
   "theorems": [
    "Verif.HgPlot.legend_wanted",
    "Verif.HgPlot.legend_all"
   ],
   "note": "Handles are arbitrary values."
  },
  {
   "property": "C481",
   "status": "proved",
   "theorems": [
    "Verif.HgPlot.lines_spec"
   ],
   "note": "The days of the points go with their hours in the same way and are left out."
  },
  {
   "property": "C482",
   "status": "proved",
   "theorems": [
    "Verif.HgPlot.transit_step",
    "Verif.HgPlot.transit_exact",
    "Verif.HgPlot.transit_moon"
   ],
   "note": "The hour angle is taken as linear in time."
  },
  {
   "property": "C483",
   "status": "partial",
   "theorems": [
    "Verif.HgPlot.rows_agree",
    "Verif.HgPlot.rows_shift",
    "Verif.HgPlot.rows_false"
   ],
   "note": "True exactly for y_min = 1/2."
  },
  {
   "property": "C484",
   "status": "proved",
   "theorems": [
    "Verif.HgPlot.plot_kind"
   ],
   "note": "Stated as it is."
  },
  {
   "property": "C485",
   "status": "partial",
   "theorems": [
    "Verif.BunSet.stackers_spec",
    "Verif.BunSet.summary_spec",
    "Verif.BunSet.plotters_partial",
    "Verif.BunSet.plotters_false"
   ],
   "note": "One plotter, which the documentation allows, is a TypeError."
  },
  {
   "property": "C486",
   "status": "partial",
   "theorems": [
    "Verif.BunSet.setPlot_spec",
    "Verif.BunSet.setPlot_good",
    "Verif.BunSet.reducedPlot_spec",
    "Verif.BunSet.reducedPlot_title_false"
   ],
   "note": "The title and labels of the parent are kept, which the comment excludes."
  },
  {
   "property": "C487",
   "status": "partial",
   "theorems": [
    "Verif.BunSet.display_entry",
    "Verif.BunSet.display_caption",
    "Verif.BunSet.displays_keys",
    "Verif.BunSet.caption_spec",
    "Verif.BunSet.caption_none",
    "Verif.BunSet.display_none_false",
    "Verif.BunSet.caption_stale_false",
    "Verif.BunSet.reduced_display"
   ],
   "note": "Numbers in captions are texts. Refuted for later changes of the plot dictionary and for None."
  },
  {
   "property": "C488",
   "status": "partial",
   "theorems": [
    "Verif.BunSet.label_given",
    "Verif.BunSet.label_chars",
    "Verif.BunSet.label_band",
    "Verif.BunSet.label_equals",
    "Verif.BunSet.label_collides_false",
    "Verif.BunSet.label_blanks_false"
   ],
   "note": "Refuted for several blanks and different constraints."
  },
  {
   "property": "C489",
   "status": "partial",
   "theorems": [
    "Verif.BunSet.round_trip",
    "Verif.BunSet.round_root",
    "Verif.BunSet.made_root",
    "Verif.BunSet.round_units",
    "Verif.BunSet.round_units_false"
   ],
   "note": "The format of the file is not modelled here (C200). The units are lost."
  },
  {
   "property": "C490",
   "status": "partial",
   "theorems": [
    "Verif.BunSet.db_file_partial",
    "Verif.BunSet.db_row_stays",
    "Verif.BunSet.db_suffix_false",
    "Verif.BunSet.db_display_first"
   ],
   "note": "Proved without suffix and for a new row."
  },
  {
   "property": "C491",
   "status": "partial",
   "theorems": [
    "Verif.BunSet.plot_spec",
    "Verif.BunSet.plot_given",
    "Verif.BunSet.plot_false"
   ],
   "note": "A given plotter is an AttributeError."
  },
  {
   "property": "C492",
   "status": "proved",
   "theorems": [
    "Verif.BunSet.current_spec",
    "Verif.BunSet.cols_spec",
    "Verif.BunSet.partition",
    "Verif.BunSet.runAll_once"
   ],
   "note": "All constraints have data; names and file roots of reduced bundles are not keys of the group."
  },
  {
   "property": "C493",
   "status": "partial",
   "theorems": [
    "Verif.BunSet.reduced_partial",
    "Verif.BunSet.reduced_named",
    "Verif.BunSet.reduced_false"
   ],
   "note": "Proved for new and different names, and for one bundle whose name is there."
  },
  {
   "property": "C494",
   "status": "proved",
   "theorems": [
    "Verif.BunSet.plots_spec",
    "Verif.BunSet.plots_stop"
   ],
   "note": "plot_all itself is not modelled here."
  },
  {
   "property": "C495",
   "status": "partial",
   "theorems": [
    "Verif.SkyPlot.circle_same_points",
    "Verif.SkyPlot.circle_no_jumps_partial",
    "Verif.SkyPlot.circle_no_jumps_false",
    "Verif.SkyPlot.bearings_mem",
    "Verif.SkyPlot.bearings_end_partial",
    "Verif.SkyPlot.bearings_past",
    "Verif.SkyPlot.bearings_end_false"
   ],
   "note": "The position of the points (astropy) is not modelled; bearings are whole degrees."
  },
  {
   "property": "C496",
   "status": "proved",
   "theorems": [
    "Verif.SkyPlot.subplot_forms",
    "Verif.SkyPlot.skyproj_reused",
    "Verif.SkyPlot.skyproj_distinct"
   ],
   "note": "Figures stay in use, so that the weak references do not go."
  },
  {
   "property": "C497",
   "status": "partial",
   "theorems": [
    "Verif.SkyPlot.healpix_length",
    "Verif.SkyPlot.healpix_pixel_partial",
    "Verif.SkyPlot.healpix_masked_false",
    "Verif.SkyPlot.healpix_sum"
   ],
   "note": "_healbin of rubin_scheduler is modelled from its use. Refuted for masked points."
  },
  {
   "property": "C498",
   "status": "proved",
   "theorems": [
    "Verif.SkyPlot.scale_log",
    "Verif.SkyPlot.scale_asked",
    "Verif.SkyPlot.scale_limits",
    "Verif.SkyPlot.drawn_above",
    "Verif.SkyPlot.drawn_all",
    "Verif.SkyPlot.colorbar_fits"
   ],
   "note": "The norm is a text; orientations are in small letters."
  },
  {
   "property": "C499",
   "status": "proved",
   "theorems": [
    "Verif.SkyPlot.init_old_gone",
    "Verif.SkyPlot.init_new",
    "Verif.SkyPlot.init_other",
    "Verif.SkyPlot.init_all_or_nothing",
    "Verif.SkyPlot.old_header"
   ],
   "note": "The values and the mask are passed on as they are."
  },
  {
   "property": "C500",
   "status": "proved",
   "theorems": [
    "Verif.SkyPlot.radar_even",
    "Verif.SkyPlot.radar_range",
    "Verif.SkyPlot.radar_distinct",
    "Verif.SkyPlot.radar_top",
    "Verif.SkyPlot.radar_closed",
    "Verif.SkyPlot.radar_one",
    "Verif.SkyPlot.radar_frame",
    "Verif.SkyPlot.radar_frame_top",
    "Verif.SkyPlot.radar_colours"
   ],
   "note": "Drawing is not modelled."
  },
  {
   "property": "C501",
   "status": "partial",
   "theorems": [
    "Verif.SkyPlot.oned_points",
    "Verif.SkyPlot.bins_lengths",
    "Verif.SkyPlot.oned_ymin_given",
    "Verif.SkyPlot.oned_ymin_zero_partial",
    "Verif.SkyPlot.oned_ymin_zero_false",
    "Verif.SkyPlot.oned_colour",
    "Verif.SkyPlot.oned_defaults_false"
   ],
   "note": "The mask is an array of the length of the values."
  },
  {
   "property": "C502",
   "status": "partial",
   "theorems": [
    "Verif.SkyPlot.neo_count",
    "Verif.SkyPlot.nearest_iff",
    "Verif.SkyPlot.neo_outward",
    "Verif.SkyPlot.neo_cover",
    "Verif.SkyPlot.neo_apart_false"
   ],
   "note": "An object exactly between two directions, which is an exception, is left out."
  },
  {
   "property": "C503",
   "status": "partial",
   "theorems": [
    "Verif.SkyPlot.dl_skip",
    "Verif.SkyPlot.dl_all",
    "Verif.SkyPlot.dl_content",
    "Verif.SkyPlot.dl_dir",
    "Verif.SkyPlot.dl_returns",
    "Verif.SkyPlot.dl_metadata_false"
   ],
   "note": "The network always answers; directories are made."
  },
  {
   "property": "C504",
   "status": "partial",
   "theorems": [
    "Verif.SkyPlot.table_subset",
    "Verif.SkyPlot.table_none",
    "Verif.SkyPlot.table_none_false",
    "Verif.SkyPlot.table_no_summary"
   ],
   "note": "Rows and rounding are not modelled."
  },
  {
   "property": "C505",
   "status": "partial",
   "theorems": [
    "Verif.SkyPlot.plot_runs",
    "Verif.SkyPlot.plot_no_summary_false",
    "Verif.SkyPlot.plot_missing_run"
   ],
   "note": "plot_run_metric is not modelled here."
  },
  {
   "property": "C506",
   "status": "proved",
   "theorems": [
    "Verif.Batch2.squeeze_split",
    "Verif.Batch2.root_metric",
    "Verif.Batch2.root_info",
    "Verif.Batch2.root_run",
    "Verif.Batch2.root_slicer",
    "Verif.Batch2.makeDict_eq"
   ],
   "note": ""
  },
  {
   "property": "C507",
   "status": "proved",
   "theorems": [
    "Verif.Batch2.band_root",
    "Verif.Batch2.perBand_dict",
    "Verif.Batch2.altaz_dict",
    "Verif.Batch2.seasons_dict"
   ],
   "note": "The condition per band is not part of the names."
  },
  {
   "property": "C508",
   "status": "partial",
   "theorems": [
    "Verif.Batch2.timeGaps_dict",
    "Verif.Batch2.timeGaps_subgroup_partial",
    "Verif.Batch2.timeGaps_subgroup_false"
   ],
   "note": "Missing: the subgroup of the single bands (timeGaps_subgroup_false)."
  },
  {
   "property": "C509",
   "status": "partial",
   "theorems": [
    "Verif.Batch2.metadata_dict_partial",
    "Verif.Batch2.metadata_dict_false"
   ],
   "note": "For valueName=None and slicers whose four letters stay as they are in file names. Missing: UniSlicer (metadata_dict_false)."
  },
  {
   "property": "C510",
   "status": "proved",
   "theorems": [
    "Verif.Batch2.slew_dict",
    "Verif.Batch2.slew_label",
    "Verif.Batch2.slew_label_false"
   ],
   "note": "Stated as it is."
  },
  {
   "property": "C511",
   "status": "proved",
   "theorems": [
    "Verif.Batch2.changes_dict",
    "Verif.Batch2.whole_name_false",
    "Verif.Batch2.change_label"
   ],
   "note": "Stated as it is."
  },
  {
   "property": "C512",
   "status": "partial",
   "theorems": [
    "Verif.Batch2.shutter_dict",
    "Verif.Batch2.fullRange_nights",
    "Verif.Batch2.nights_false"
   ],
   "note": "Missing: the number of nights from start to finish (nights_false)."
  },
  {
   "property": "C513",
   "status": "partial",
   "theorems": [
    "Verif.Batch2.lightcurve_spec",
    "Verif.Batch2.lightcurve_fractions",
    "Verif.Batch2.lightcurve_empty",
    "Verif.Batch2.lightcurve_total_false"
   ],
   "note": "Missing: an empty footprint (lightcurve_total_false)."
  },
  {
   "property": "C514",
   "status": "partial",
   "theorems": [
    "Verif.Batch2.micro_error",
    "Verif.Batch2.micro_fraction_partial",
    "Verif.Batch2.micro_more_false",
    "Verif.Batch2.micro_total"
   ],
   "note": "Missing: equality (micro_more_false). All values are finite."
  },
  {
   "property": "C515",
   "status": "proved",
   "theorems": [
    "Verif.SedCache.generate_lookup"
   ],
   "note": "Paths do not end in a slash."
  },
  {
   "property": "C516",
   "status": "partial",
   "theorems": [
    "Verif.SedCache.validate_partial",
    "Verif.SedCache.fresh_valid_partial",
    "Verif.SedCache.fresh_valid_false"
   ],
   "note": "Missing: relative paths (fresh_valid_false)."
  },
  {
   "property": "C517",
   "status": "partial",
   "theorems": [
    "Verif.SedCache.refused",
    "Verif.SedCache.refused_false"
   ],
   "note": "Stated as it is; missing: the claim itself (refused_false)."
  },
  {
   "property": "C518",
   "status": "partial",
   "theorems": [
    "Verif.SedCache.reuse_iff",
    "Verif.SedCache.reuse_exact",
    "Verif.SedCache.reuse_false"
   ],
   "note": "Missing: paths with white space (reuse_false)."
  },
  {
   "property": "C519",
   "status": "proved",
   "theorems": [
    "Verif.SedCache.find_class",
    "Verif.SedCache.load_refused",
    "Verif.SedCache.load_written",
    "Verif.SedCache.second_call"
   ],
   "note": "Where numpy 2 keeps _reconstruct is not part of the repository."
  },
  {
   "property": "C520",
   "status": "partial",
   "theorems": [
    "Verif.SedCache.stale",
    "Verif.SedCache.stale_false"
   ],
   "note": "Missing: updates in the same directory (stale_false)."
  },
  {
   "property": "C521",
   "status": "proved",
   "theorems": [
    "Verif.SedCache.limits"
   ],
   "note": "For a call that generates the cache; one that reads it applies the same function."
  },
  {
   "property": "C522",
   "status": "partial",
   "theorems": [
    "Verif.SedCache.eq_iff_partial",
    "Verif.SedCache.eq_symm_false"
   ],
   "note": "Missing: an empty flux (eq_symm_false)."
  },
  {
   "property": "C523",
   "status": "partial",
   "theorems": [
    "Verif.SedCache.cleared_iff",
    "Verif.SedCache.cleared_badval",
    "Verif.SedCache.zeropoints",
    "Verif.SedCache.cleared_false"
   ],
   "note": "Missing: the zeropoint (cleared_false)."
  },
  {
   "property": "C524",
   "status": "proved",
   "theorems": [
    "Verif.SedCache.parse_name"
   ],
   "note": "Conversion of digits to numbers is not modelled."
  },
  {
   "property": "C525",
   "status": "proved",
   "theorems": [
    "Verif.SedCache.match_closest"
   ],
   "note": ""
  },
  {
   "property": "C526",
   "status": "partial",
   "theorems": [
    "Verif.SedCache.close_raises",
    "Verif.SedCache.close_false",
    "Verif.SedCache.stored_iff"
   ],
   "note": "Missing: any result (close_false)."
  },
  {
   "property": "C527",
   "status": "partial",
   "theorems": [
    "Verif.SedCache.setup_phi",
    "Verif.SedCache.setup_phi_false"
   ],
   "note": "Missing: ranges that exceed whole steps by at most half a step (setup_phi_false). A grid of one wavelength, which numpy would repeat, is left out."
  },
  {
   "property": "C528",
   "status": "proved",
   "theorems": [
    "Verif.SedCache.segments_spec",
    "Verif.SedCache.metric_segments"
   ],
   "note": ""
  },
  {
   "property": "C529",
   "status": "partial",
   "theorems": [
    "Verif.SkyS.computed_keys",
    "Verif.SkyS.computed_last",
    "Verif.SkyS.computed_fresh_partial",
    "Verif.SkyS.computed_fresh_false",
    "Verif.SkyS.computed_mixed",
    "Verif.SkyS.computed_refused",
    "Verif.SkyS.computed_moon"
   ],
   "note": "Exactly for calls with coordinates that are not refused, with twilight, moon and zodiacal light on. Missing: set_params and components that are off (computed_fresh_false)."
  },
  {
   "property": "C530",
   "status": "proved",
   "theorems": [
    "Verif.SkyS.recalc_file",
    "Verif.SkyS.recalc_idem",
    "Verif.SkyS.recalc_extra",
    "Verif.SkyS.recalc_files"
   ],
   "note": "calc_mag is a parameter."
  },
  {
   "property": "C531",
   "status": "partial",
   "theorems": [
    "Verif.SkyS.nearestIn_spec",
    "Verif.SkyS.lastBin_spec",
    "Verif.SkyS.enquiry_outside",
    "Verif.SkyS.enquiry_partial",
    "Verif.SkyS.enquiry_bands",
    "Verif.SkyS.enquiry_false"
   ],
   "note": "When the table has all pairs of times. Missing: tables without some (enquiry_false)."
  },
  {
   "property": "C532",
   "status": "proved",
   "theorems": [
    "Verif.SkyS.presto_run"
   ],
   "note": "The scores of a light curve are a parameter; see C329 for them."
  },
  {
   "property": "C533",
   "status": "proved",
   "theorems": [
    "Verif.SkyS.dms_spec",
    "Verif.SkyS.telescopes_spec",
    "Verif.SkyS.telescopes_mono",
    "Verif.SkyS.telescopes_total",
    "Verif.SkyS.places_nonzero"
   ],
   "note": ""
  },
  {
   "property": "C534",
   "status": "proved",
   "theorems": [
    "Verif.SkyS.createSubset_spec",
    "Verif.SkyS.createSubset_total"
   ],
   "note": ""
  },
  {
   "property": "C535",
   "status": "proved",
   "theorems": [
    "Verif.SkyS.familyCols_spec"
   ],
   "note": ""
  },
  {
   "property": "C536",
   "status": "proved",
   "theorems": [
    "Verif.SkyS.gatherOut_spec"
   ],
   "note": ""
  },
  {
   "property": "C537",
   "status": "proved",
   "theorems": [
    "Verif.SkyS.pointing_spec",
    "Verif.SkyS.pointing_other",
    "Verif.SkyS.track_spec"
   ],
   "note": ""
  },
  {
   "property": "C538",
   "status": "proved",
   "theorems": [
    "Verif.SkyS.xyDict_spec"
   ],
   "note": ""
  },
  {
   "property": "C539",
   "status": "partial",
   "theorems": [
    "Verif.SkyS.stamp_partial",
    "Verif.SkyS.stamp_arg",
    "Verif.SkyS.stamp_missing",
    "Verif.SkyS.stamp_false"
   ],
   "note": "For tables of pandas and arrays. Missing: dictionaries (stamp_false)."
  },
  {
   "property": "C540",
   "status": "proved",
   "theorems": [
    "Verif.SkyS.power_spec"
   ],
   "note": ""
  },
  {
   "property": "C541",
   "status": "proved",
   "theorems": [
    "Verif.SkyS.strip_marks",
    "Verif.SkyS.strip_spec"
   ],
   "note": ""
  },
  {
   "property": "C542",
   "status": "proved",
   "theorems": [
    "Verif.SkyS.probes_perm",
    "Verif.SkyS.probes_spec"
   ],
   "note": "The emulator is a parameter, and so is the median, of which only that order does not matter is used."
  },
  {
   "property": "C543",
   "status": "partial",
   "theorems": [
    "Verif.SkyS.ecliptic_partial",
    "Verif.SkyS.ecliptic_false"
   ],
   "note": "At equinoxes and solstices, with sign and range elsewhere. Missing: all other points (ecliptic_false)."
  },
  {
   "property": "C544",
   "status": "proved",
   "theorems": [
    "Verif.SkyS.zone_spec"
   ],
   "note": ""
  },
  {
   "property": "C545",
   "status": "partial",
   "theorems": [
    "Verif.SkyS.paths_spec",
    "Verif.SkyS.paths_doc_false"
   ],
   "note": "One row for each satellite. Missing: the documented shape (paths_doc_false)."
  },
  {
   "property": "C546",
   "status": "proved",
   "theorems": [
    "Verif.SkyS.dustKeys_spec",
    "Verif.SkyS.dustLook_spec"
   ],
   "note": ""
  },
  {
   "property": "C547",
   "status": "partial",
   "theorems": [
    "Verif.Batch3.rapid_spec",
    "Verif.Batch3.rapid_partial",
    "Verif.Batch3.rapid_false"
   ],
   "note": "What the metric computes exactly; one means that the requirement is met if no two visits are nearer than 40 seconds. Missing: shorter times, and the converse (rapid_false)."
  },
  {
   "property": "C548",
   "status": "partial",
   "theorems": [
    "Verif.Batch3.area_spec",
    "Verif.Batch3.area_partial",
    "Verif.Batch3.area_false"
   ],
   "note": "When every pixel has visits. Missing: pixels without, where it is always too large (area_false)."
  },
  {
   "property": "C549",
   "status": "partial",
   "theorems": [
    "Verif.Batch3.parallax_percentile_partial",
    "Verif.Batch3.motion_percentile",
    "Verif.Batch3.motion_percentile_false"
   ],
   "note": "For the parallax. Missing: the proper motion (motion_percentile_false)."
  },
  {
   "property": "C550",
   "status": "partial",
   "theorems": [
    "Verif.Batch3.y_partial",
    "Verif.Batch3.y_false"
   ],
   "note": "For the column filter and conditions without or outside of brackets. Missing: all others (y_false)."
  },
  {
   "property": "C551",
   "status": "proved",
   "theorems": [
    "Verif.Batch3.first_year"
   ],
   "note": "night is a whole number. An empty text as extra condition, which is not None, is not a condition that means anything and not covered."
  },
  {
   "property": "C552",
   "status": "partial",
   "theorems": [
    "Verif.Batch3.ddf_extra_partial",
    "Verif.Batch3.ddf_extra_general",
    "Verif.Batch3.ddf_extra_false"
   ],
   "note": "For the metrics other than the four, with a condition without or outside of brackets. Missing: these four (ddf_extra_false)."
  },
  {
   "property": "C553",
   "status": "partial",
   "theorems": [
    "Verif.Batch3.season_bundles",
    "Verif.Batch3.median_season_false",
    "Verif.Batch3.labels_partial"
   ],
   "note": "For the other metrics of a field. Missing: the median season length (median_season_false)."
  },
  {
   "property": "C554",
   "status": "partial",
   "theorems": [
    "Verif.Batch3.field_band",
    "Verif.Batch3.field_all_partial",
    "Verif.Batch3.field_all_false"
   ],
   "note": "For each band, and for all bands with a condition without or outside of brackets. Missing: conditions with or (field_all_false)."
  },
  {
   "property": "C555",
   "status": "proved",
   "theorems": [
    "Verif.Batch3.point_slicer_false",
    "Verif.Batch3.wfd_all_visits"
   ],
   "note": "The defect, stated as it is."
  },
  {
   "property": "C556",
   "status": "proved",
   "theorems": [
    "Verif.Batch3.field_pixels"
   ],
   "note": "The test of the distance is a parameter."
  },
  {
   "property": "C557",
   "status": "partial",
   "theorems": [
    "Verif.Batch3.teff_partial",
    "Verif.Batch3.teff_bands",
    "Verif.Batch3.teff_uni_false",
    "Verif.Batch3.teff_night_false"
   ],
   "note": "Different names with another slicer than UniSlicer. Missing: a bundle per night (teff_night_false), a UniSlicer (teff_uni_false)."
  },
  {
   "property": "C558",
   "status": "proved",
   "theorems": [
    "Verif.Batch3.phase_gap_false",
    "Verif.Batch3.phase_gap_keywords"
   ],
   "note": "The defect, stated as it is."
  },
  {
   "property": "C559",
   "status": "partial",
   "theorems": [
    "Verif.Batch3.replaced_partial",
    "Verif.Batch3.replaced_false"
   ],
   "note": "When the name of the column does not occur before its place. Missing: when it does (replaced_false)."
  },
  {
   "property": "C560",
   "status": "proved",
   "theorems": [
    "Verif.Odds.comments_spec",
    "Verif.Odds.comments_mem"
   ],
   "note": "Up to the order of the rows, which SQL does not fix. Constraints of the tables are not modelled."
  },
  {
   "property": "C561",
   "status": "proved",
   "theorems": [
    "Verif.Odds.versions_all",
    "Verif.Odds.versions_mem",
    "Verif.Odds.versions_order"
   ],
   "note": "The order if each package is recorded once for the simulation."
  },
  {
   "property": "C562",
   "status": "proved",
   "theorems": [
    "Verif.Odds.written_inj",
    "Verif.Odds.prenight_spec"
   ],
   "note": "For the same destination, and names of telescopes that are single names of directories. JSON is not modelled."
  },
  {
   "property": "C563",
   "status": "partial",
   "theorems": [
    "Verif.Odds.throughput_back_partial",
    "Verif.Odds.throughput_header_raises",
    "Verif.Odds.throughput_back_false"
   ],
   "note": "Without header or with a header of one line. Missing: headers of several lines (throughput_back_false)."
  },
  {
   "property": "C564",
   "status": "proved",
   "theorems": [
    "Verif.Odds.tdc_cadence",
    "Verif.Odds.tdc_season",
    "Verif.Odds.tdc_shallow",
    "Verif.Odds.tdc_given"
   ],
   "note": "For visits in the order of time; the metrics compared have a shortest exposure time that all visits meet."
  },
  {
   "property": "C565",
   "status": "proved",
   "theorems": [
    "Verif.Odds.tdc_pos",
    "Verif.Odds.tdc_faster",
    "Verif.Odds.tdc_longer",
    "Verif.Odds.tdc_campaign",
    "Verif.Odds.tdc_norm"
   ],
   "note": "Over the real numbers."
  },
  {
   "property": "C566",
   "status": "proved",
   "theorems": [
    "Verif.Odds.withStat_spec",
    "Verif.Odds.withAny_spec",
    "Verif.Odds.withAny_union"
   ],
   "note": ""
  },
  {
   "property": "C567",
   "status": "proved",
   "theorems": [
    "Verif.Odds.nameLabels_spec",
    "Verif.Odds.nameLabels_first"
   ],
   "note": ""
  },
  {
   "property": "C568",
   "status": "proved",
   "theorems": [
    "Verif.Odds.snr_spec",
    "Verif.Odds.snr_perm",
    "Verif.Odds.snr_dims"
   ],
   "note": "The error before the random factor."
  },
  {
   "property": "C569",
   "status": "partial",
   "theorems": [
    "Verif.Odds.clouds_clear_partial",
    "Verif.Odds.clouds_raises",
    "Verif.Odds.clouds_false"
   ],
   "note": "Under a clear sky. Missing: clouds (clouds_false); the class says that it is not fully implemented."
  },
  {
   "property": "C570",
   "status": "proved",
   "theorems": [
    "Verif.Odds.galaxyCounts_raises",
    "Verif.Odds.galaxyCounts_false"
   ],
   "note": "The defect, stated as it is."
  },
  {
   "property": "C571",
   "status": "proved",
   "theorems": [
    "Verif.Odds.lmxb_spec",
    "Verif.Odds.lmxb_periods",
    "Verif.Odds.lmxb_near",
    "Verif.Odds.lmxb_brighter"
   ],
   "note": "Over the real numbers; random numbers are parameters."
  },
  {
   "property": "C572",
   "status": "proved",
   "theorems": [
    "Verif.MoBatch.batches",
    "Verif.MoBatch.root_ne"
   ],
   "note": "File names as in C506; children of the bundles are not modelled."
  },
  {
   "property": "C573",
   "status": "proved",
   "theorems": [
    "Verif.MoBatch.window_mono",
    "Verif.MoBatch.quick_nested"
   ],
   "note": "For any order of the rows."
  },
  {
   "property": "C574",
   "status": "partial",
   "theorems": [
    "Verif.MoBatch.nested",
    "Verif.MoBatch.four_nested",
    "Verif.MoBatch.single_pair",
    "Verif.MoBatch.single_nested",
    "Verif.MoBatch.triplets_false"
   ],
   "note": "False of triplets (triplets_false): they may take 120 minutes, pairs 90. For rows in order of time, because of C112."
  },
  {
   "property": "C575",
   "status": "partial",
   "theorems": [
    "Verif.MoBatch.snr_partial",
    "Verif.MoBatch.snr_false"
   ],
   "note": "False in general (snr_false)."
  },
  {
   "property": "C576",
   "status": "partial",
   "theorems": [
    "Verif.MoBatch.single_night",
    "Verif.MoBatch.single_iff",
    "Verif.MoBatch.single_misses",
    "Verif.MoBatch.single_le_pair",
    "Verif.MoBatch.single_false"
   ],
   "note": "False (single_false); what is counted is single_iff."
  },
  {
   "property": "C577",
   "status": "partial",
   "theorems": [
    "Verif.MoBatch.char_iff",
    "Verif.MoBatch.char_partial",
    "Verif.MoBatch.char_default",
    "Verif.MoBatch.fmt0_near",
    "Verif.MoBatch.char_false"
   ],
   "note": "False of windows with the same rounding (char_false). Windows and bins are not negative."
  },
  {
   "property": "C578",
   "status": "partial",
   "theorems": [
    "Verif.MoBatch.over_time_partial",
    "Verif.MoBatch.against_h",
    "Verif.MoBatch.has_iff",
    "Verif.MoBatch.mem_all",
    "Verif.MoBatch.over_time_false",
    "Verif.MoBatch.all_false"
   ],
   "note": "False with Time in other parts of a key (over_time_false) and of all curves (all_false). Plotting itself is not modelled."
  },
  {
   "property": "C579",
   "status": "proved",
   "theorems": [
    "Verif.Meanz.lambert_area",
    "Verif.Meanz.lambert_dist",
    "Verif.Meanz.lambert_inj",
    "Verif.Meanz.lambert_north",
    "Verif.Meanz.lambert_inside"
   ],
   "note": "Real numbers instead of floats."
  },
  {
   "property": "C580",
   "status": "partial",
   "theorems": [
    "Verif.Meanz.run_year",
    "Verif.Meanz.year_error",
    "Verif.Meanz.year_false"
   ],
   "note": "False as documented (year_false): the table of the following year is used (run_year)."
  },
  {
   "property": "C581",
   "status": "partial",
   "theorems": [
    "Verif.Meanz.run_partial",
    "Verif.Meanz.lineFit_sum",
    "Verif.Meanz.lineFit_length",
    "Verif.Meanz.far_error",
    "Verif.Meanz.far_false"
   ],
   "note": "False with bins beyond the limit (far_false, far_error). The scatter of depths and the curve are parameters."
  },
  {
   "property": "C582",
   "status": "proved",
   "theorems": [
    "Verif.Meanz.run_scale",
    "Verif.Meanz.run_uniform",
    "Verif.Meanz.lineFit_scale"
   ],
   "note": "The scatter of depths is a parameter."
  },
  {
   "property": "C583",
   "status": "proved",
   "theorems": [
    "Verif.Meanz.apply_array",
    "Verif.Meanz.apply_one"
   ],
   "note": "Conversion to the dtype of the metric is not modelled."
  },
  {
   "property": "C584",
   "status": "proved",
   "theorems": [
    "Verif.Meanz.restart_error"
   ],
   "note": "A statement on two constant lists of names, evaluated by the kernel."
  },
  {
   "property": "C585",
   "status": "proved",
   "theorems": [
    "Verif.SumPlots.mesh_cells",
    "Verif.SumPlots.mesh_T",
    "Verif.SumPlots.limits_spec"
   ],
   "note": "The normalisation is a parameter (C280). Limits given as a list and automatic limits are not modelled."
  },
  {
   "property": "C586",
   "status": "partial",
   "theorems": [
    "Verif.SumPlots.uncert_sep",
    "Verif.SumPlots.uncert_common",
    "Verif.SumPlots.palette_user",
    "Verif.SumPlots.palette_after",
    "Verif.SumPlots.palette_false",
    "Verif.SumPlots.dash_false",
    "Verif.SumPlots.style_false"
   ],
   "note": "False in part (palette_false, dash_false, style_false); what is drawn is uncert_sep and uncert_common. What matplotlib accepts as colours, lines and markers is not modelled."
  },
  {
   "property": "C587",
   "status": "proved",
   "theorems": [
    "Verif.SumPlots.shade_spec",
    "Verif.SumPlots.shade_none"
   ],
   "note": "Limits of the axes are a parameter."
  },
  {
   "property": "C588",
   "status": "partial",
   "theorems": [
    "Verif.SumPlots.lines_partial",
    "Verif.SumPlots.lines_single",
    "Verif.SumPlots.lines_key",
    "Verif.SumPlots.lines_false"
   ],
   "note": "False of families with one run (lines_false, lines_single). That pandas gives a row, not a table, for a label that occurs once is part of the model."
  },
  {
   "property": "C589",
   "status": "partial",
   "theorems": [
    "Verif.SharedSlice.value_at",
    "Verif.SharedSlice.values_length",
    "Verif.SharedSlice.later",
    "Verif.SharedSlice.alone_partial",
    "Verif.SharedSlice.alone_order_partial",
    "Verif.SharedSlice.harmless_iff",
    "Verif.SharedSlice.harmless_order_iff",
    "Verif.SharedSlice.dust_false",
    "Verif.SharedSlice.clip_false"
   ],
   "note": "False: the metrics of dust_false and clip_false of the package change the values of others. Right for bundles after metrics that do not write (alone_partial) or only reorder (alone_order_partial). C11 and C12 are about metrics that do not write. Exceptions and the cache are not modelled here."
  },
  {
   "property": "C590",
   "status": "partial",
   "theorems": [
    "Verif.SharedSlice.addDust_eq",
    "Verif.SharedSlice.snn_alone",
    "Verif.SharedSlice.dust_adds",
    "Verif.SharedSlice.dust_false",
    "Verif.SharedSlice.snn_harmless_partial"
   ],
   "note": "False for other bundles (dust_false, dust_adds); the metric alone is right (snn_alone). A band without an extinction, a KeyError, is not modelled."
  },
  {
   "property": "C591",
   "status": "partial",
   "theorems": [
    "Verif.SharedSlice.clip_adds",
    "Verif.SharedSlice.clip_false",
    "Verif.SharedSlice.clip_harmless_partial"
   ],
   "note": "False for other bundles (clip_false, clip_adds); the metric alone is C95 and C96."
  },
  {
   "property": "C592",
   "status": "proved",
   "theorems": [
    "Verif.SharedSlice.slices_alone",
    "Verif.SharedSlice.slice_none",
    "Verif.SharedSlice.reading_harmless",
    "Verif.SharedSlice.sorting_harmless",
    "Verif.SharedSlice.sort_eq",
    "Verif.SharedSlice.sorting_alone"
   ],
   "note": "That indexing with numbers or truth values is a copy is part of the model."
  },
  {
   "property": "C593",
   "status": "partial",
   "theorems": [
    "Verif.NightStats.sims_partial",
    "Verif.NightStats.sims_age",
    "Verif.NightStats.sims_no_tags_false"
   ],
   "note": "False without tags (sims_no_tags_false). The default of the date is not modelled (C40)."
  },
  {
   "property": "C594",
   "status": "partial",
   "theorems": [
    "Verif.NightStats.stats_none",
    "Verif.NightStats.stats_rows",
    "Verif.NightStats.objectAgg_mem",
    "Verif.NightStats.stats_all_partial",
    "Verif.NightStats.stats_all_false"
   ],
   "note": "False for statistics of both kinds (stats_all_false). The package itself writes only statistics that are not accumulated. That the last value of a key is kept by JSONB_OBJECT_AGG is part of the model."
  },
  {
   "property": "C595",
   "status": "partial",
   "theorems": [
    "Verif.OrbitPlots.digitize_iff",
    "Verif.OrbitPlots.inBin_unique",
    "Verif.OrbitPlots.inBin_exists",
    "Verif.OrbitPlots.cells_spec",
    "Verif.OrbitPlots.ownVals_length",
    "Verif.OrbitPlots.own_all_partial",
    "Verif.OrbitPlots.own_false"
   ],
   "note": "False for objects with an H each (own_false). The drawing itself, filling of masked values and the choice of bins (C383) are not modelled."
  },
  {
   "property": "C596",
   "status": "partial",
   "theorems": [
    "Verif.OrbitPlots.points_iff",
    "Verif.OrbitPlots.points_own_false"
   ],
   "note": "False for objects with an H each (points_own_false)."
  },
  {
   "property": "C597",
   "status": "partial",
   "theorems": [
    "Verif.OrbitPlots.mark_iff",
    "Verif.OrbitPlots.mark_false",
    "Verif.OrbitPlots.dict_same"
   ],
   "note": "False for the key of the batches (mark_false, dict_same). The value of the completeness at the mark is C407."
  },
  {
   "property": "C598",
   "status": "partial",
   "theorems": [
    "Verif.ChebyFit.search_iff",
    "Verif.ChebyFit.calc_length_iff",
    "Verif.ChebyFit.given_iff",
    "Verif.ChebyFit.guess_bounds",
    "Verif.ChebyFit.length_error_false"
   ],
   "note": "False for the error (length_error_false). The residual is that of one object; for several the code takes a percentile, so that some may have larger ones. Rounding of lengths is C62."
  },
  {
   "property": "C599",
   "status": "partial",
   "theorems": [
    "Verif.ChebyFit.segments_good_partial",
    "Verif.ChebyFit.subdivide_good",
    "Verif.ChebyFit.subdivide_ends",
    "Verif.ChebyFit.no_length_false"
   ],
   "note": "False for segments without a length (no_length_false). Ends of segments are taken as exact; the grid of times is C36. subdivide_ends needs residuals that grow with the length."
  },
  {
   "property": "C600",
   "status": "partial",
   "theorems": [
    "Verif.ChebyFit.rows",
    "Verif.ChebyFit.vmag_false",
    "Verif.ChebyFit.failed_false"
   ],
   "note": "False for the magnitude (vmag_false) and for names (failed_false)."
  },
  {
   "property": "C601",
   "status": "partial",
   "theorems": [
    "Verif.ChebyFit.append_false",
    "Verif.ChebyFit.write_partial"
   ],
   "note": "False with append (append_false). The format of numbers is not modelled."
  },
  {
   "property": "C602",
   "status": "proved",
   "theorems": [
    "Verif.SnResult.run_some_iff",
    "Verif.SnResult.number_sum",
    "Verif.SnResult.zlim_bounds",
    "Verif.SnResult.bad_season",
    "Verif.SnResult.order_free",
    "Verif.SnResult.reductions",
    "Verif.SnResult.median_perm",
    "Verif.SnResult.median_bounds"
   ],
   "note": "Redshift limits and numbers of a season are parameters here."
  },
  {
   "property": "C603",
   "status": "partial",
   "theorems": [
    "Verif.SnResult.seasonZ_pos",
    "Verif.SnResult.checkDur_iff",
    "Verif.SnResult.number_nonneg_partial",
    "Verif.SnResult.sentinel_false"
   ],
   "note": "False for the sentinel (sentinel_false)."
  },
  {
   "property": "C604",
   "status": "proved",
   "theorems": [
    "Verif.SnPoints.point_iff",
    "Verif.SnPoints.point_row",
    "Verif.SnPoints.length_le"
   ],
   "note": "Interpolated fluxes and rounding of redshifts are parameters."
  },
  {
   "property": "C605",
   "status": "proved",
   "theorems": [
    "Verif.SnPoints.snr_floor",
    "Verif.SnPoints.cut_void",
    "Verif.SnPoints.snr_lt_five",
    "Verif.SnPoints.cut_five",
    "Verif.SnPoints.before_after",
    "Verif.SnPoints.before_time"
   ],
   "note": "The documentation of SNNSNMetric names 5 as the default; the code has 1. Stated as it is."
  },
  {
   "property": "C606",
   "status": "partial",
   "theorems": [
    "Verif.TwiSpec.ratio_between",
    "Verif.TwiSpec.ratio_red",
    "Verif.TwiSpec.ratio_blue",
    "Verif.TwiSpec.blue_negative",
    "Verif.TwiSpec.nonneg_false"
   ],
   "note": "Not negative is false (nonneg_false). Fluxes in filters are parameters."
  },
  {
   "property": "C607",
   "status": "partial",
   "theorems": [
    "Verif.TwiSpec.spec_points",
    "Verif.TwiSpec.high_sun",
    "Verif.TwiSpec.alone_false"
   ],
   "note": "False with the sun above the limit (alone_false, high_sun)."
  },
  {
   "property": "C608",
   "status": "proved",
   "theorems": [
    "Verif.Moon.value_mean",
    "Verif.Moon.value_sum",
    "Verif.Moon.pixel_node",
    "Verif.Moon.pixel_bounds"
   ],
   "note": "Neighbours of a point on the sphere are an input; interpolation in one dimension is that of C272."
  },
  {
   "property": "C609",
   "status": "partial",
   "theorems": [
    "Verif.Moon.one_moon",
    "Verif.Moon.high_moon",
    "Verif.Moon.alone_false"
   ],
   "note": "False for calls with several altitudes of the moon (alone_false), and above the grid (high_moon)."
  },
  {
   "property": "C610",
   "status": "proved",
   "theorems": [
    "Verif.PlotNames.title_shared",
    "Verif.PlotNames.title_joint"
   ],
   "note": "Joint names are those of another property."
  },
  {
   "property": "C611",
   "status": "partial",
   "theorems": [
    "Verif.PlotNames.legend_changing",
    "Verif.PlotNames.legend_each",
    "Verif.PlotNames.distinct_partial",
    "Verif.PlotNames.distinct_false"
   ],
   "note": "False for names with blanks (distinct_false)."
  },
  {
   "property": "C612",
   "status": "partial",
   "theorems": [
    "Verif.FracColors.no_color",
    "Verif.FracColors.asteroid_distinct",
    "Verif.FracColors.default_blue",
    "Verif.FracColors.outer_partial",
    "Verif.FracColors.outer_false"
   ],
   "note": "False for the fraction with three filters (outer_false)."
  },
  {
   "property": "C613",
   "status": "partial",
   "theorems": [
    "Verif.HCurves.median_half",
    "Verif.HCurves.clone_curve",
    "Verif.HCurves.curves_values",
    "Verif.HCurves.curves_ordered",
    "Verif.HCurves.own_error"
   ],
   "note": "Right with cloned H; false for objects with their own H (own_error)."
  },
  {
   "property": "C614",
   "status": "partial",
   "theorems": [
    "Verif.HCurves.one_first",
    "Verif.HCurves.one_row",
    "Verif.HCurves.reduced_partial",
    "Verif.HCurves.reduced_false"
   ],
   "note": "False with one H for several objects (reduced_false)."
  }
 ]
}
