# id -> (status, theorems, note); read by props.py after props_data.py
SL = "Verif.Slicers."
BU = "Verif.Bundles."
RC = "Verif.ReqCols."
ST = "Verif.Stackers."
MA = "Verif.Masked."
DB = "Verif.Db."
AR = "Verif.Archive."
CH = "Verif.Cheby."
NA = "Verif.Names."
BI = "Verif.Bins."
DA = "Verif.Dates."
ME = "Verif.Metrics."
RM = "Verif.RealMetrics."
TE = "Verif.Tech."
GR = "Verif.Groups."
GA = "Verif.Gaps."
VE = "Verif.Vec."
AA = "Verif.Area."
SS = "Verif.Seasons."
SR = "Verif.Strings."
PA = "Verif.Pairs."
MT = "Verif.Mo."
MS = "Verif.MoSum."
SP = "Verif.Spectres."
SD = "Verif.Sed."
SN = "Verif.Snr."
DU = "Verif.Dust."
BP = "Verif.Bandpass."
SF = "Verif.SedFiles."
MK = "Verif.MoStack."
S2 = "Verif.Stack2."
OB = "Verif.Orbits."
DO = "Verif.Direct."
SPA = "Verif.Spatial."
FIL = "Verif.Files."
MOB = "Verif.MoB."
SEQ = "Verif.StackEq."
TRA = "Verif.Transient."
AST = "Verif.Astro."
HCV = "Verif.HCurves."
FCL = "Verif.FracColors."
PNM = "Verif.PlotNames."
MNL = "Verif.Moon."
TWS = "Verif.TwiSpec."
SPT = "Verif.SnPoints."
SRS = "Verif.SnResult."
CFT = "Verif.ChebyFit."
OPL = "Verif.OrbitPlots."
NST = "Verif.NightStats."
SHS = "Verif.SharedSlice."
SPL = "Verif.SumPlots."
MNZ = "Verif.Meanz."
MBT = "Verif.MoBatch."
ODD = "Verif.Odds."
BT3 = "Verif.Batch3."
SKS = "Verif.SkyS."
SDC = "Verif.SedCache."
BT2 = "Verif.Batch2."
SKP = "Verif.SkyPlot."
BNS = "Verif.BunSet."
HGP = "Verif.HgPlot."
ESO = "Verif.Eso."
SML = "Verif.Small."
LCM = "Verif.LensCmp."
VSO = "Verif.VsOps."
SNP = "Verif.Snapshot."
PRT = "Verif.Proto."
SNS = "Verif.SnSnr."
TLS = "Verif.Tools."
SSP = "Verif.SsPipe."
SDT = "Verif.SedT."
DWF = "Verif.Dwarf."
PLO = "Verif.Plotters."
PLH = "Verif.PlotH."
SNN = "Verif.SnN."
FEW = "Verif.Few."
SRF = "Verif.Surf."
PST = "Verif.PerStar."
YSO = "Verif.Yso."
XRB = "Verif.Xrb."
KNE = "Verif.Kne."
LEN = "Verif.Lens."
STA = "Verif.Stars."
GRB = "Verif.Grb."
CTB = "Verif.Contrib."
BAT = "Verif.Batches."
HRG = "Verif.Hourglass."
OPS = "Verif.Opsim."
WEB = "Verif.Web."
CSL = "Verif.ColSlope."
CRW = "Verif.Crowd."
CMP = "Verif.Cmp."
SKM = "Verif.SkyM."
SKI = "Verif.SkyI."
GPM = "Verif.GalPlane."
BM = "Verif.BaseM."
MAP = "Verif.Maps."
SAT = "Verif.Sat."
SCA = "Verif.Selfcal."
COS = "Verif.Cosmo."
TPL = "Verif.Template."
DEP = "Verif.Depth."
PER = "Verif.Periodic."
STATUS = {
 "C01": ("proved", [SL+"oneD_slice_exact"], "Values idealised as a linear order (no NaN)."),
 "C02": ("proved", [SL+"oneD_partition", SL+"oneD_concat_perm"], ""),
 "C03": ("partial", [SL+"oneD_last_bin_closed_partial", SL+"oneD_last_bin_closed_false", SL+"oneD_last_edge_dropped", SL+"oneD_auto_bins_drop_maximum"],
   "The documented claim is false of the code: refuted by oneD_last_bin_closed_false, and oneD_last_edge_dropped shows every value equal to the last edge is lost. Kept: all bins for values below the last edge."),
 "C04": ("proved", [SL+"nd_partition"], ""),
 "C05": ("proved", [SL+"movie_cumulative", SL+"movie_step_partition"], ""),
 "C06": ("partial", [SL+"timeInterval_shifted_partial", SL+"timeInterval_slice_never_own_window"],
   "The documented claim is false of the code: no slice ever holds a visit of its own window. The partial theorem gives exactly what each slice holds."),
 "C07": ("proved", [SL+"block_partition"], ""),
 "C08": ("partial", [SL+"visitInterval_sorted_partial", SL+"visitInterval_mismatch"],
   "False for unsorted input (refuted); proved for strictly time-sorted input."),
 "C09": ("proved", [SL+"visitInterval_each_once", SL+"uni_selects_all"], ""),
 "C10": ("proved", [SL+"slicer_iteration", SL+"slicer_iteration_run"], ""),
 "C43": ("proved", [SL+"timeInterval_empty_not_reported"], "A defect stated as it is: the empty interval is not recognised as empty."),
 "C11": ("proved", [BU+"cache_transparent", BU+"cache_bounded"], "For metrics determined by the set of visits (the documented condition for caching) that do not write into the visits (C589)."),
 "C12": ("proved", [BU+"run_values_and_masks"], "For metrics that do not write into the visits they are given; C589 is about those that do."),
 "C13": ("partial", [BU+"groups_cover_partial", BU+"groups_ok_partial", BU+"groups_ok_of_equivalence", BU+"groups_ok_false", BU+"groups_pairwise_false", BU+"groups_unique_false", BU+"group_clobbers_column", BU+"maps_ignored"],
   "False of the code in general (groups_ok_false, groups_pairwise_false, groups_unique_false, group_clobbers_column). Kept: every bundle is run; groups are right when compatibility behaves as an equivalence on the bundles at hand."),
 "C14": ("proved", [RC+"reqCols_terminates", RC+"reqCols_closed"], "Python set iteration order is an arbitrary enumeration."),
 "C15": ("partial", [RC+"stacker_order_partial", RC+"stacker_order_false", RC+"dependency_runs_too_late"],
   "False of the code (stacker_order_false; dependency_runs_too_late in general). Kept: right order when no added default stacker has dependencies of its own."),
 "C16": ("proved", [ST+"stacker_run_frame", ST+"zenith_ha_wellBehaved", ST+"stacker_recomputes", ST+"zenith_override"],
   "For stackers whose _run writes only declared columns; that hypothesis is discharged for the zenith-distance and hour-angle stackers and fails for the parallactic-angle stacker (C46)."),
 "C17": ("proved", [MA+"reduce_spec", MA+"summary_spec", MA+"masked_noninterference"], ""),
 "C44": ("partial", [BU+"groups_isolated_partial", BU+"groups_not_isolated"], "False in general (groups_not_isolated); proved when earlier groups write no column the later one reads or writes."),
 "C45": ("proved", [ST+"hourAngle_range"], "pi is any positive number."),
 "C46": ("proved", [ST+"pa_adds_undeclared_column", ST+"pa_uses_stale_ha"], "A defect stated as it is."),
 "C47": ("proved", [ST+"overhead_spec", ST+"overhead_accounts"], ""),
 "C48": ("partial", [ST+"saturation_nan_partial", ST+"saturation_wrong_row"], "False with several filters (saturation_wrong_row); proved: saturated visits always get NaN, and exactly these when all visits share one filter."),
 "C49": ("partial", [ST+"nFollow_partial", ST+"nFollow_swapped"], "False of the code: latitude and longitude are exchanged (nFollow_swapped); the partial theorem gives exactly what is counted."),
 "C50": ("proved", [ST+"noteRoot_spec", ST+"noteRootStored_spec"], ""),
 "C18": ("proved", [DB+"metrics_key_unique", DB+"metric_id_stable", DB+"metric_id_injective"], "None and the string NULL are the same value for the database; identity is meant after that conversion."),
 "C19": ("proved", [DB+"display_one_to_one"], ""),
 "C20": ("proved", [DB+"plots_spec"], ""),
 "C21": ("partial", [DB+"summary_table_partial", DB+"summary_table_lost", DB+"summary_table_drops_rest"],
   "False of the code: the retry counter is shared (summary_table_lost, summary_table_drops_rest). Proved for every schedule: only a prefix is stored, each value once; everything if fewer than ntry failures occur in the call. A failed attempt is assumed to leave the session usable."),
 "C22": ("proved", [DB+"tracking_refines", DB+"addRun_returns", DB+"run_id_reused"], "Directories are compared after relpath; a missing directory counts as the directory NULL."),
 "C51": ("proved", [DB+"summary_value_added", DB+"summary_rows_accumulate", DB+"summary_not_updated"], "A defect stated as it is."),
 "C52": ("partial", [DB+"summaryName_stripped_partial", DB+"summaryName_collides", DB+"summaryName_keeps_commas"], "Comma removal and distinctness are false of the code (refuted)."),
 "C53": ("partial", [DB+"update_crash_partial", DB+"update_crash_loses", DB+"update_not_atomic", DB+"update_crash_changes_id"], "Atomicity is false of the code (update_not_atomic)."),
 "C23": ("proved", [AR+"tags_set", AR+"untag_spec"], "For calls one after another."),
 "C24": ("proved", [AR+"concurrent_tag_holds", AR+"concurrent_untag_removes", AR+"concurrent_tag_duplicates"], "Interleavings of the two statements of a call; includes the duplicate that concurrent calls can leave."),
 "C25": ("proved", [AR+"files_registered", AR+"register_fails_iff"], ""),
 "C26": ("partial", [AR+"archive_integrity_partial", AR+"refused_add_breaks", AR+"crash_breaks", AR+"name_clash_breaks", AR+"add_file_other_sequence"],
   "False of the code (refused_add_breaks, crash_breaks in general; name_clash_breaks without any failing call). Proved for histories without crashes in which names determine types and repeated types use update; other sequences are never touched."),
 "C27": ("partial", [AR+"conda_recorded_partial", AR+"conda_checked_false", AR+"conda_no_value_error", AR+"conda_lone_arguments"], "The documented error never happens (conda_no_value_error). Proved for both or neither argument."),
 "C28": ("partial", [AR+"sims_on_nights_partial", AR+"sims_on_nights_untagged", AR+"sims_exact_false"], "False with an empty tag list, where the call always fails; exact with tags."),
 "C29": ("partial", [AR+"yaml_round_trip_partial", AR+"yaml_dates_lost", AR+"yaml_round_trip_iff"], "Dates are always lost; yaml_round_trip_iff says exactly when the full statement holds. Importing needs an observations file."),
 "C30": ("proved", [AR+"daily_ids", AR+"daily_id_unique", AR+"get_sim_uuid_spec", AR+"daily_id_rank", AR+"daily_id_after_adding", AR+"daily_id_stable", AR+"daily_id_tie", AR+"creation_day_noon"], "With equal creation times the numbering is up to the database (daily_id_tie); stability is for distinct creation times."),
 "C31": ("proved", [AR+"select_latest", AR+"select_none_iff"], "The clock may advance between rows."),
 "C54": ("proved", [AR+"yaml_creation_time_ignored", AR+"yaml_creation_time_lost"], "A defect stated as it is."),
 "C55": ("partial", [AR+"findable_partial", AR+"missing_index_fails", AR+"findable_false"], "False when an index is missing (missing_index_fails); exact when all are present."),
 "C56": ("partial", [AR+"record_complete_partial", AR+"failed_record_leaves_row", AR+"record_not_atomic"], "Atomicity is false of the code."),
 "C57": ("proved", [AR+"url_round_trip", AR+"record_keeps_ok"], ""),
 "C32": ("proved", [CH+"chebeval_value", CH+"chebeval_no_velocity", CH+"chebeval_mask"], "Over every field of characteristic not two; floating-point rounding is not modelled."),
 "C33": ("proved", [CH+"chebeval_velocity", CH+"chebeval_hasDerivAt"], "Algebraic derivative over every field, analytic derivative over the reals."),
 "C34": ("proved", [CH+"chebfit_endpoints", CH+"chebfit_endpoints_velocity", CH+"chebfit_joins"], "Exact arithmetic; invertibility is proved, not assumed."),
 "C35": ("partial", [CH+"ephemerides_right_partial", CH+"blocks_covering", CH+"ephemerides_wrong_object", CH+"first_row_shifted", CH+"final_time_values"], "False when an object lacks a segment (ephemerides_wrong_object); holds when every time is covered by one segment per object in a common order."),
 "C36": ("proved", [CH+"segments_tile", CH+"segments_exact"], "Decimal times exact; subdivision of failing segments is not modelled."),
 "C58": ("proved", [CH+"chebfit_optimal", CH+"chebfit_recovers"], "Exact arithmetic, ordered fields."),
 "C59": ("proved", [CH+"unwrap_continuous", CH+"unwrap_sharp"], ""),
 "C60": ("proved", [CH+"label_check_vacuous", CH+"unknown_object_zeros", CH+"caller_ids_overwritten"], "A defect stated as it is."),
 "C61": ("proved", [CH+"gap_gives_zeros", CH+"outside_gives_nan", CH+"final_time_values", CH+"extrapolated_values"], "Includes the zero values as a defect stated as it is."),
 "C62": ("partial", [CH+"round_length_partial", CH+"small_length_accepted", CH+"fits_span_false"], "The documented accuracy is missed by a factor of ten (fits_span_false)."),
 "C37": ("proved", [NA+"sanitize_eq", NA+"sanitize_safe", NA+"sanitize_fixed", NA+"sanitize_idem", NA+"sanitize_collides"], ""),
 "C38": ("proved", [BI+"optimal_bins_limits", BI+"optimal_bins_degenerate", BI+"optimal_bins_rule"], ""),
 "C39": ("proved", [DA+"dayobs_int_iff", DA+"dayobs_iso", DA+"dayobs_stacker_round_trip"], ""),
 "C40": ("proved", [DA+"day_obs_agree"], "Exact rational times."),
 "C41": ("proved", [ME+"full_range_smallest_arc", ME+"full_range_rotation", ME+"full_range_outside_window"], "For angles within less than a turn of each other, as documented; outside that the claim fails (full_range_outside_window)."),
 "C42": ("partial", [ME+"count_explim_time", ME+"count_explim_partial", ME+"count_explim_short", ME+"explim_counts_false", ME+"frac_bounds", ME+"frac_sum", ME+"max_percent_spec", ME+"count_beyond_partial", ME+"count_beyond_two_fails", ME+"beyond_counts_false"],
   "Two thresholds fail on more than one visit (count_beyond_two_fails) and CountExplim can ignore accepted visits (explim_counts_false); the rest is proved. CountSubset and CountRatio are one-line numpy calls and not modelled."),
 "C63": ("partial", [BI+"clip_partial", BI+"retains_false", BI+"pct_between", BI+"pct_mono", BI+"pct_below", BI+"pct_above"], "False for small samples (retains_false)."),
 "C64": ("partial", [DA+"simulated_dates_partial", DA+"last_night_missing", DA+"dates_cover_false"], "False of the code (dates_cover_false)."),
 "C65": ("proved", [DA+"iso_le_iff", DA+"on_nights_exact", DA+"compact_selects_nothing"], ""),
 "C66": ("partial", [DA+"fetch_repeat_partial", DA+"fetch_repeat_differs", DA+"fetch_repeat_differs_kw", DA+"fetch_tuple_fails"], "False when a list is passed (fetch_repeat_differs); holds if no dictionary is passed and the list is empty or already asks for the column."),
 "C67": ("proved", [DA+"find_latest_covers"], ""),
 "C68": ("partial", [DA+"sim_start_end_partial", DA+"before_almanac_wraps", DA+"starts_on_day_false"], "False for days before the almanac."),
 "C69": ("partial", [ME+"rms_rotation_partial", ME+"rms_invariant_false"], "False with ties (rms_invariant_false); the squared scatter is modelled."),
 "C70": ("proved", [ME+"noutliers_chebyshev"], ""),
 "C71": ("proved", [RM+"coadd_single", RM+"coadd_replicate", RM+"coadd_perm", RM+"coadd_groups", RM+"coadd_more", RM+"coadd_bounds", RM+"coadd_other_filters", RM+"coadd_run_spec"], "Real arithmetic."),
 "C72": ("proved", [RM+"spread_range", RM+"spread_rotation", RM+"spread_zero_iff"], "Real arithmetic."),
 "C73": ("proved", [RM+"mean_angle_range", RM+"mean_angle_rotation", RM+"mean_angle_uniform", RM+"mean_angle_same", RM+"mean_turns_false"], "Real arithmetic."),
 "C74": ("proved", [BU+"uniq_stackers_spec"], ""),
 "C75": ("proved", [TE+"nChanges_runs", TE+"nChanges_zero_iff", TE+"nChanges_bounds", TE+"nChanges_order"], ""),
 "C76": ("partial", [TE+"minBetween_partial", TE+"minTime_eq", TE+"minBetween_false", TE+"minBetween_single", TE+"nFaster_eq", TE+"changeTimes_spec"], "False of the code (minBetween_false, minBetween_single)."),
 "C77": ("proved", [TE+"maxWithin_spec", TE+"changeTimes_spec"], ""),
 "C78": ("partial", [TE+"fractionOfPaired_partial", TE+"isPaired_iff", TE+"fractionOfPaired_false", TE+"pairFraction_range"], "False at exact ties (fractionOfPaired_false)."),
 "C79": ("partial", [TE+"openFraction_range", TE+"bruteOSF_not_fraction", TE+"bruteOSF_partial"], "False for BruteOSF (bruteOSF_not_fraction)."),
 "C80": ("partial", [GR+"night_partial", GR+"nightCount_good", GR+"nightCount_close", GR+"two_visits", GR+"two_close_false", GR+"atMost_false", GR+"night_bound", GR+"runGroups_spec"], "False of the code (two_close_false, atMost_false)."),
 "C81": ("proved", [GR+"nNights_spec", GR+"nVisits_spec"], ""),
 "C82": ("partial", [GR+"maxSeq_partial", GR+"nLunations_spec", GR+"maxSeq_false"], "False for windows shorter than a lunation (maxSeq_false)."),
 "C83": ("partial", [GA+"tGaps_all", GA+"pairDiffs_sorted", GA+"tGapsHist_total", GA+"tGapsPercent_range", GA+"nightGaps_partial", GA+"nightGaps_one_night", GA+"nightGapsDefined_false"], "False for Nightgaps on a single night (nightGapsDefined_false)."),
 "C84": ("partial", [GA+"sampled_partial", GA+"sampledIff_false"], "The converse is false (sampledIff_false)."),
 "C85": ("proved", [GA+"nightSpans_spec", GA+"intraGaps_eq", GA+"interGaps_eq", GA+"gaps_total"], "Reduction functions (median, percentile) are not modelled."),
 "C86": ("proved", [GA+"template_spec"], ""),
 "C87": ("partial", [GA+"uniformity_zero_iff", GA+"uniformity_partial", GA+"uniformity_above_one", GA+"general_partial", GA+"generalZero_false"], "False of the code (uniformity_above_one, generalZero_false)."),
 "C88": ("partial", [VE+"accumulate_value", VE+"accumulate_next", VE+"accumulate_partial", VE+"count_value", VE+"accumulates_false"], "False of the code (accumulates_false); accumulate_value and accumulate_next say what it gives."),
 "C89": ("proved", [VE+"uniformity_value", VE+"uniformity_range", VE+"uniformity_mono"], "For at least two visits and two bins."),
 "C90": ("proved", [AA+"areaSummary_decreasing", AA+"areaSummary_increasing", AA+"areaSummary_short"], "With the default reduce functions."),
 "C91": ("proved", [AA+"foNv_foArea", AA+"foNv_bad", AA+"foNv_median", AA+"foArea_bad"], ""),
 "C92": ("partial", [AA+"threshold_partial", AA+"threshold_all", AA+"threshold_false", AA+"footprint_spec"], "False without limits if pixels have no value (threshold_false)."),
 "C93": ("proved", [SS+"edges_spec", SS+"edges_tile", SS+"seasonLengths_spec", SS+"campaignLength_spec", SS+"long_spec"], "For seasons that do not decrease with time; calc_season itself is in another package."),
 "C94": ("partial", [SS+"meanFrequency_spec", SS+"frequency_partial", SS+"frequency_false"], "False of the code (frequency_false)."),
 "C95": ("proved", [SR+"clip_number", SR+"clip_other"], ""),
 "C96": ("partial", [SR+"stringCount_spec", SR+"stringCount_error", SR+"percent_sum", SR+"countsAll_false"], "An exception is possible (countsAll_false)."),
 "C97": ("partial", [SR+"reduce_works", SR+"reduce_partial", SR+"reducesAll_false"], "False of the code (reducesAll_false)."),
 "C98": ("partial", [PA+"pairs_partial", PA+"pairs_upper", PA+"pairs_found", PA+"countsPairs_false"], "The exact number is not given (countsPairs_false)."),
 "C99": ("proved", [MT+"mem_vis", MT+"noSingles_spec", MT+"noSingles_negative", MT+"nNights_spec", MT+"nNights_le", MT+"noSingles_le", MT+"noSingles_add", MT+"counts_mono"], ""),
 "C100": ("proved", [MT+"obsArc_spec", MT+"obsArc_nonneg", MT+"obsArc_mono"], ""),
 "C101": ("partial", [MT+"activity_lt_one", MT+"activity_partial", MT+"activity_false"], "False of the code (activity_false); activity_partial gives the value."),
 "C102": ("partial", [MT+"anomaly_differ", MT+"peri_bins", MT+"period_partial"], "False of the code if the time of perihelion is used (anomaly_differ, peri_bins)."),
 "C103": ("partial", [MT+"magic_partial", MT+"magic_false"], "For rows in order of nights; the value depends on the order (magic_false)."),
 "C104": ("partial", [MT+"highVelocityNights_partial", MT+"highVelocityNights_false", MT+"highVelocity_le", MT+"fast_iff"], "The time returned need not be that of a detection (highVelocityNights_false)."),
 "C105": ("proved", [MT+"colorFlag_spec", MT+"colorFlag_mono", MT+"snrWeight_le", MT+"colorAsteroid_mono", MT+"colorAsteroid_needs"], ""),
 "C106": ("proved", [MT+"lightcurveColor_mono", MT+"lightcurveColor_limit", MT+"lightcurveColor_spec"], ""),
 "C107": ("partial", [MT+"instantaneous_partial", MT+"instantaneous_sound_partial", MT+"instantaneous_false"], "False of the code (instantaneous_false); instantaneous_partial says what is counted."),
 "C108": ("partial", [MT+"inversion_partial", MT+"inversion_false"], "False around longitude zero (inversion_false)."),
 "C109": ("proved", [MT+"knownLoop_spec", MT+"knownObjects_spec", MT+"inPeriod_iff"], "Random numbers are arbitrary."),
 "C110": ("partial", [MT+"tracklet_partial", MT+"tracklet_complete_partial", MT+"tracklet_false", MT+"single_never", MT+"tracklets_eq"], "Some tracklets are missed (tracklet_false)."),
 "C111": ("proved", [MT+"run_none", MT+"run_some"], "For rows in order of time, t_min positive."),
 "C112": ("partial", [MT+"foundRow_partial", MT+"order_false", MT+"row_false"], "Only for rows in order of time (order_false, row_false)."),
 "C113": ("partial", [MT+"foundNObs_partial", MT+"foundNObs_false"], "One too small (foundNObs_partial, foundNObs_false)."),
 "C114": ("proved", [GA+"maxGap_spec", GA+"maxGap_none"], ""),
 "C115": ("proved", [MS+"integrate_value", MS+"integrate_length", MS+"integrate_scale", MS+"integrate_bounds", MS+"integrate_antitone"], ""),
 "C116": ("partial", [MS+"hindex_partial", MS+"hindex_false", MS+"hindex_ignored", MS+"powerLaw_pos", MS+"powerLaw_ratio", MS+"anchor_free"], "False of the code (hindex_false, hindex_ignored)."),
 "C117": ("partial", [MS+"complete_partial", MS+"complete_range", MS+"complete_mono", MS+"complete_masked", MS+"complete_false"], "Only for positive thresholds (complete_false)."),
 "C118": ("partial", [MS+"binned_outside", MS+"binned_value", MS+"binned_partial", MS+"spread_false", MS+"hBins_spec", MS+"hBins_false"], "False of the code (spread_false, hBins_false)."),
 "C119": ("partial", [MS+"completeAt_value", MS+"completeAt_mono", MS+"atTime_mono", MS+"last_partial", MS+"early_false"], "Early discoveries are not counted (early_false)."),
 "C120": ("partial", [MS+"hIndex_spec", MS+"hIndex_default", MS+"stale_partial", MS+"stale_false", MS+"init_default"], "False of the code (stale_false, init_default)."),
 "C121": ("proved", [MS+"valueAtH_spec", MS+"valueAtH_node", MS+"interp_node", MS+"interp_between", MS+"interp_ends", MS+"interp_mono", MS+"meanValueAtH_single", MS+"meanValueAtH_node", MS+"totalNumber_node", MS+"totalNumber_mono"], ""),
 "C122": ("proved", [SP+"spectres_spec", SP+"spectres_bounds", SP+"spectres_const", SP+"spectres_self", SP+"spectres_smul", SP+"spectres_add", SP+"spectres_conserves"], ""),
 "C123": ("partial", [SP+"spectres_inside_partial", SP+"spectres_inside_false", SP+"spectres_decreasing_false"], "False of the code (spectres_inside_false, spectres_decreasing_false)."),
 "C124": ("proved", [SD+"phi_integral", SD+"phi_shape", SD+"phi_nonneg", SD+"calcFlux_bounds", SD+"calcFlux_const", SD+"calcFlux_scale", SD+"calcFlux_throughput", SD+"resample_grid"], ""),
 "C125": ("partial", [SD+"manyFlux_eq", SD+"manyFlux_partial", SD+"manyFlux_false"], "False of the code (manyFlux_false); manyFlux_eq gives the difference."),
 "C126": ("partial", [SD+"counts_partial", SD+"counts_false", SD+"calcAdu_scale"], "False of the code (counts_false)."),
 "C127": ("partial", [SD+"calcErgs_partial", SD+"calcErgs_false"], "For uniform grids only (calcErgs_false)."),
 "C128": ("proved", [SD+"inSync", SD+"calc_uses_present", SD+"toFlambda_toFnu"], "For positive wavelengths."),
 "C129": ("partial", [SD+"redshift_partial", SD+"redshift_back", SD+"redshift_energy", SD+"redshift_false"], "False for negative redshifts (redshift_false)."),
 "C130": ("proved", [SN+"mag_flux", SN+"mag_hundred", SN+"mag_lt", SN+"calcMag_some", SN+"scaledTo_mag", SN+"flat_mag", SN+"usable_default"], ""),
 "C131": ("partial", [SN+"flat_mag", SN+"cleared_differs", SN+"cleared_false"], "False after clear_sed (cleared_false)."),
 "C132": ("proved", [SN+"snr_exposures", SN+"snr_gain", SN+"noise_platescale", SN+"fwhm_inverse"], ""),
 "C133": ("partial", [SN+"m5_partial", SN+"m5_false", SN+"m5_gain_false", SN+"calcM5_exists", SN+"camera_setting"], "For gain 1 only (m5_false, m5_gain_false)."),
 "C134": ("partial", [SN+"scaleSky_snr", SN+"scaleSky_partial", SN+"scaleSky_false", SN+"skyCounts_negative"], "calc_m5 gives m5 for gain 1 only (scaleSky_false); the sky can be negative (skyCounts_negative)."),
 "C135": ("proved", [SN+"gamma_range", SN+"snrM5_limit", SN+"snrM5_decreasing", SN+"snrM5_negative", SN+"snr_agree"], ""),
 "C136": ("proved", [SN+"magErrorFromSnr_spec", SN+"magErrorFromSnr_shift", SN+"magError_spec", SN+"magError_floor"], ""),
 "C137": ("proved", [SN+"astrometric_limit", SN+"astrometric_spec"], ""),
 "C138": ("partial", [SN+"zp_counts", SN+"zp_partial", SN+"zp_false", SN+"zp_exptime"], "For visits of one second only (zp_false)."),
 "C139": ("proved", [SN+"predictedZp_spec", SN+"extinctionCoeff_neg"], ""),
 "C140": ("partial", [DU+"dims_partial", DU+"dims_false", DU+"brightens_false", DU+"extinction_pos", DU+"extinction_outside", DU+"v_band"], "There is a hole at a single wavelength (dims_false) and r_v is not checked (brightens_false)."),
 "C141": ("proved", [DU+"factor_mag", DU+"factor_lt_one", DU+"addDust_add", DU+"addDust_zero"], ""),
 "C142": ("partial", [DU+"choose_agree", DU+"choose_partial", DU+"choose_false", DU+"choose_none"], "False for r_v of 3.1 (choose_false)."),
 "C143": ("partial", [DU+"ax1_bounds", DU+"ax1_exists", DU+"ax1_pos", DU+"flatFrom_covers", DU+"ax1_false", DU+"narrow_sampled"], "Only for ref_ebv of 1 (ax1_false)."),
 "C144": ("proved", [BP+"read_spec", BP+"read_none", BP+"read_perm"], ""),
 "C145": ("proved", [BP+"resample_spec", BP+"interp0_node", BP+"interp0_outside", BP+"interp0_bounds", BP+"resample_range", BP+"resample_self", BP+"halfGrid_spec", BP+"halfGrid_whole"], ""),
 "C146": ("proved", [BP+"list_spec", BP+"list_perm", BP+"list_range"], ""),
 "C147": ("partial", [BP+"multiply_partial", BP+"multiply_false"], "For uniform grids only (multiply_false)."),
 "C148": ("partial", [BP+"imsim_unique", BP+"imsim_partial", BP+"imsim_false"], "There can be none (imsim_false)."),
 "C149": ("proved", [BP+"eff_eq", BP+"eff_spec"], ""),
 "C150": ("partial", [SF+"reads_partial", SF+"read_contents", SF+"reads_false"], "Only while files do not change (reads_false)."),
 "C151": ("partial", [SF+"renorm_partial", SF+"renorm_gap_partial", SF+"renorm_false", SF+"renormFnu_false", SF+"multiply_partial"], "Always raises with default arguments (renorm_false) and for fnu (renormFnu_false)."),
 "C152": ("partial", [SF+"written_near", SF+"write_partial", SF+"write_false", SF+"writeFnu_false"], "Only for steps of at least 0.01 nm (write_false), and never with fnu (writeFnu_false)."),
 "C153": ("partial", [SF+"construct_spec", SF+"default_band", SF+"default_sigma", SF+"construct_other", SF+"unknown_false"], "The comment about unknown bandpasses is wrong (unknown_false)."),
 "C154": ("proved", [MK+"appMag_spec", MK+"combine_flux", MK+"combine_spec", MK+"combine_shift", MK+"coma_shift", MK+"comet_shift", MK+"comet_brighter"], ""),
 "C155": ("partial", [MK+"coma_shift", MK+"coma_false"], "False of the code (coma_false)."),
 "C156": ("partial", [MK+"cometParams_partial", MK+"cometParams_false"], "The documented key is not the one read (cometParams_false)."),
 "C157": ("partial", [MK+"snr_limit", MK+"snr_decreasing", MK+"snr_partial", MK+"snr_false"], "False of the code (snr_false)."),
 "C158": ("proved", [MK+"completeness_spec", MK+"vis_spec", MK+"run_append", MK+"runs_flatten", MK+"runs_false"], ""),
 "C159": ("proved", [MK+"ecliptic_spec", MK+"ecliptic_deg", MK+"ecliptic_points"], ""),
 "C160": ("proved", [MK+"logLinear_mag", MK+"phaseHg_spec"], ""),
 "C161": ("proved", [S2+"teff_spec", S2+"teff_mono", S2+"teff_coadd"], ""),
 "C162": ("proved", [S2+"m5Coadd_spec", S2+"m5Coadd_append", S2+"m5Coadd_perm", S2+"m5Coadd_replicate", S2+"m5Coadd_deeper"], ""),
 "C163": ("partial", [S2+"coadd_partial", S2+"rows_partial", S2+"rows_unique_partial", S2+"coadd_false"], "Only for separated positions (coadd_false)."),
 "C164": ("proved", [S2+"altAz_spec", S2+"sin_alt", S2+"wrapRa_spec"], "For latitudes other than the poles and directions other than the zenith."),
 "C165": ("partial", [S2+"galactic_partial", S2+"galactic_false"], "For radians only (galactic_false)."),
 "C166": ("proved", [S2+"normAirmass_spec", S2+"normAirmass_deg"], ""),
 "C167": ("partial", [S2+"m5Optimal_spec", S2+"m5Optimal_moon", S2+"twilight_false"], "Twilight is not recognised (twilight_false)."),
 "C168": ("partial", [S2+"m5Cols_false"], "False of the code (m5Cols_false)."),
 "C169": ("partial", [S2+"maxGeoDist_partial", S2+"maxGeoDist_false"], "False if the object is seen at all distances (maxGeoDist_false)."),
 "C170": ("proved", [S2+"helioXY_spec", S2+"cosAlpha_spec", S2+"flip_spec", S2+"halfval_false"], ""),
 "C171": ("proved", [S2+"label_spec", S2+"label_full", S2+"label_empty"], ""),
 "C172": ("partial", [S2+"dd_partial", S2+"dd_false"], "For short names that do not end in u (dd_false)."),
 "C173": ("proved", [S2+"dcr_spec", S2+"dcr2_spec", S2+"dcr2_dcr"], ""),
 "C174": ("partial", [S2+"dcr2Init_partial", S2+"dcr2Init_false"], "False of the code (dcr2Init_false)."),
 "C175": ("partial", [OB+"set_ok_iff", OB+"set_stored", OB+"set_loaded", OB+"set_epoch_partial", OB+"set_epoch_false"], "Only the first epoch is checked (set_epoch_false)."),
 "C176": ("partial", [OB+"set_err_orbits_partial", OB+"set_err_fmt", OB+"set_frame", OB+"set_twice_partial", OB+"set_err_false", OB+"set_frame_false", OB+"set_twice_false", OB+"set_again_false"], "False of the code (set_err_false, set_frame_false, set_twice_false, set_again_false)."),
 "C177": ("partial", [OB+"eq_spec", OB+"eq_refl_partial", OB+"eq_new", OB+"eq_many", OB+"eq_false"], "Only formats and ids are compared (eq_false)."),
 "C178": ("partial", [OB+"getItem_partial", OB+"iter_items", OB+"rows_all", OB+"getItem_false"], "For frames that show their format only (getItem_false)."),
 "C179": ("partial", [OB+"sed_chance", OB+"sed_names", OB+"sed_mono", OB+"assign_a", OB+"assign_q", OB+"sedQ_spec", OB+"seed_new", OB+"seed_ignored", OB+"seed_false"], "The seed is ignored after the first draw (seed_false)."),
 "C180": ("partial", [OB+"header_none", OB+"header_spec", OB+"header_empty", OB+"delim_nothing", OB+"delim_false"], "For blanks as delimiters only (delim_false)."),
 "C181": ("partial", [OB+"rename_spec", OB+"rename_inUse", OB+"rename_S3MID", OB+"rename_false"], "Two names are not recognised (rename_false)."),
 "C182": ("partial", [OB+"readEnd_ids", OB+"readEnd_no_ids_partial", OB+"readEnd_false"], "False of the code (readEnd_false)."),
 "C183": ("partial", [OB+"update_spec_partial", OB+"update_false"], "H and g are not kept (update_false)."),
 "C184": ("proved", [DO+"rough_spec"], ""),
 "C185": ("proved", [DO+"objectRows_spec", DO+"collect_spec", DO+"run_spec", DO+"found_nodup"], ""),
 "C186": ("partial", [DO+"found_complete", DO+"run_complete_partial", DO+"run_complete_false"], "Only for tolerances larger than the field (run_complete_false)."),
 "C187": ("proved", [DO+"nearest_spec", DO+"covers_spec", DO+"objectTol_spec"], ""),
 "C188": ("partial", [DO+"circle_unit", DO+"rect_spec_partial", DO+"rect_unit_false", DO+"rect_false", DO+"fov_spec", DO+"info_partial", DO+"info_false"], "False of the rectangle (rect_unit_false, rect_false) and of the info (info_false). The camera footprint is not modelled."),
 "C189": ("partial", [DO+"trail_nonneg", DO+"trail_mono", DO+"trail_order", DO+"trail_order_false"], "The order of the losses is false for short trails (trail_order_false)."),
 "C190": ("partial", [DO+"eph_axes", DO+"eph_rates", DO+"generate_none_iff", DO+"generate_case", DO+"generate_err_partial", DO+"generate_err_false"], "Errors are ignored for basic ephemerides (generate_err_false)."),
 "C191": ("partial", [DO+"copies_basic", DO+"copies_full"], "False for type full (copies_full)."),
 "C192": ("proved", [DO+"unpack_pack", DO+"pack_some_iff", DO+"pack_false"], ""),
 "C193": ("proved", [DO+"colorLoop_spec", DO+"colors_spec"], ""),
 "C194": ("proved", [SPA+"near_iff", SPA+"slice_spec", SPA+"slice_unit", SPA+"slice_turn"], "The camera footprint is an arbitrary test of a visit."),
 "C195": ("partial", [SPA+"slicePoint_partial", SPA+"slicePoint_false"], "False for common arrays whose length is the number of slices (slicePoint_false)."),
 "C196": ("proved", [SPA+"iter_spec", SPA+"mask_spec", SPA+"subset_slice", SPA+"subset_point", SPA+"subset_values", SPA+"circle_spec", SPA+"wfd_spec"], "For metrics with one number per slice; for several see C197."),
 "C197": ("partial", [SPA+"initialMask_spec", SPA+"initialMask_partial", SPA+"initialMask_false"], "False for several numbers per slice (initialMask_false)."),
 "C198": ("proved", [SPA+"userPoints_spec", SPA+"userPoints_one"], ""),
 "C199": ("partial", [SPA+"eq_slices_partial", SPA+"eq_slices_false", SPA+"eq_refl", SPA+"eq_symm_partial", SPA+"eq_subset_full", SPA+"eq_symm_false"], "False in general (eq_slices_false, eq_symm_false)."),
 "C200": ("partial", [FIL+"read_values", FIL+"read_params", FIL+"read_kept", FIL+"read_params_false", FIL+"read_fill_partial", FIL+"read_fill_false", FIL+"read_mo", FIL+"read_movie"], "Values and slice points come back; parameters outside slicer_init and the fill value need not (read_params_false, read_fill_false, read_mo)."),
 "C201": ("partial", [FIL+"json_type", FIL+"json_int_false", FIL+"json_sky", FIL+"json_bins", FIL+"json_plain", FIL+"json_plain_bins", FIL+"json_bundle_false"], "Rows are proved for floating point values; integers, plain arrays of bins and bundles fail."),
 "C202": ("partial", [MOB+"iter_spec", MOB+"iter_count", MOB+"nslice_spec", MOB+"eq_slices_partial", MOB+"eq_slices_false"], "Slices and counts are proved; equality is too coarse (eq_slices_false)."),
 "C203": ("proved", [MOB+"find_spec", MOB+"compatible_iff"], ""),
 "C204": ("proved", [MOB+"run_spec"], ""),
 "C205": ("partial", [MOB+"alone_partial", MOB+"alone_false", MOB+"h_alone"], "False for bundles with different stackers (alone_false)."),
 "C206": ("partial", [MOB+"label_false", MOB+"label_partial", MOB+"summary_spec"], "The label ignores the observations (label_false)."),
 "C207": ("partial", [SEQ+"eq_refl", SEQ+"ne_iff", SEQ+"eq_new_partial", SEQ+"eq_used_false", SEQ+"eq_methods_false"], "False of stackers that were run and of those with public methods."),
 "C208": ("proved", [TRA+"start_false"], "Stated as it is: the start is never usable."),
 "C209": ("proved", [TRA+"lightCurve_spec", TRA+"fmod_spec", TRA+"run_single", TRA+"run_pre", TRA+"run_sections"], ""),
 "C210": ("partial", [TRA+"run_all_partial", TRA+"all_false", TRA+"unseen_false"], "Transients that meet all criteria are counted; others are too (all_false, unseen_false)."),
 "C211": ("partial", [TRA+"fraction_partial", TRA+"fraction_false", TRA+"fraction_phase_false"], "False in general (fraction_false, fraction_phase_false)."),
 "C212": ("partial", [TRA+"tshifts_spec", TRA+"shift_partial", TRA+"shift_spec", TRA+"shift_false"], "False for shifted phases (shift_false)."),
 "C213": ("proved", [PER+"maxGap_spec", PER+"maxGap_bounds", PER+"phaseGap_spec"], ""),
 "C214": ("proved", [PER+"mean_false", PER+"single_false"], "Stated as it is."),
 "C215": ("partial", [PER+"kuiper_spec", PER+"kuiper_rotate", PER+"kuiper_bounds", PER+"kuiper_zero_iff", PER+"kuiper_delta", PER+"kuiper_false"], "All but the documented meaning of one (kuiper_false)."),
 "C216": ("partial", [PER+"cumulative_partial", PER+"cumulative_before", PER+"cumulative_false", PER+"cumulativePoints_spec"], "False between and before visits."),
 "C217": ("proved", [PER+"yearCoverage_spec"], ""),
 "C218": ("partial", [PER+"rapid_zero_iff", PER+"rapid_bounds", PER+"rapid_false"], "Not at most one (rapid_false)."),
 "C219": ("proved", [PER+"nRevisits_spec", PER+"nRevisitsNormed_lt", PER+"nRevisits_pairs", PER+"rapidRevisit_spec"], "Times are taken to differ."),
 "C220": ("partial", [PER+"visitGaps_sum", PER+"visitGaps_single", PER+"age_partial", PER+"age_false"], "The age is negative with later visits (age_false)."),
 "C221": ("proved", [AST+x for x in ("m52snr_default","m52snr_limit","m52snr_mono","astrom_bounds","astrom_mono")], ""),
 "C222": ("proved", [AST+"sigmaSlope_spec", AST+"sigmaSlope_nan_iff", AST+"sigmaSlope_more"], ""),
 "C223": ("proved", [AST+"parallax_spec", AST+"parallaxNorm_spec"], ""),
 "C224": ("partial", [AST+"pm_spec", AST+"pm_norm_partial", AST+"pm_norm_best", AST+"pm_norm_order", AST+"pm_norm_false"], "At most one for equal errors only (pm_norm_false, pm_norm_order)."),
 "C225": ("partial", [AST+"coverage_spec", AST+"weightedR_spec", AST+"theta_check_partial", AST+"theta_accept", AST+"theta_reject", AST+"wraparound_false", AST+"coverage_range"], "The test of angles is wrong (wraparound_false)."),
 "C226": ("partial", [AST+"degen_spec", AST+"declared_partial", AST+"declared_false"], "The filter column is not declared (declared_false). The fit is taken to find the exact solution."),
 "C227": ("proved", [AST+"dcr_spec"], ""),
 "C228": ("proved", [AST+"optimal_spec", AST+"optimal_sign", AST+"snr_weighted_spec"], ""),
 "C229": ("partial", [AST+"radius_spec", AST+"radius_units_false"], "The unit is wrong (radius_units_false)."),
 "C230": ("partial", [DEP+"exgal_partial", DEP+"exgal_more", DEP+"exgal_order", DEP+"exgal_false"], "For one band; false for several (exgal_false, exgal_order)."),
 "C231": ("partial", [DEP+x for x in ("withCuts_spec","nVisits_spec","rizTime_spec","min_bands_false","min_time_false")], "min_bands has no effect (min_bands_false); the limit of time is strict (min_time_false). The depth cut is taken to be above -666."),
 "C232": ("partial", [DEP+x for x in ("single_partial","single_one","single_index","single_key","single_false","single_bad_false")], "Fails with default means and two bands (single_index, single_false), and for numeric bad values (single_bad_false)."),
 "C233": ("partial", [DEP+x for x in ("nested_spec","nested_index","nested_u","nested_means_false","nested_ignored_false","multiband_spec")], "Means and unused bands are false (nested_means_false, nested_ignored_false). The bad value is taken to be NaN, as by default."),
 "C234": ("partial", [DEP+"nestedRiz_spec", DEP+"nestedRiz_false"], "Only i is counted (nestedRiz_false)."),
 "C235": ("partial", [DEP+"ngal_partial", DEP+"ngal_false", DEP+"nlc_spec", DEP+"nlc_false"], "For one filter; false for several (ngal_false). One more visit is needed (nlc_false)."),
 "C236": ("proved", [TPL+"template_spec", TPL+"template_counts", TPL+"template_fewer"], "The visits are taken in the order after the sort by time; percentiles are between 0 and 100."),
 "C237": ("proved", [TPL+x for x in ("templateM5_spec","templateSeeing_sq","templateSeeing_bounds","diffM5_spec")], ""),
 "C238": ("proved", [TPL+"limits_spec", TPL+"limits_red", TPL+"percentile_qualifies"], "Zenith distances are less than 90 degrees."),
 "C239": ("partial", [TPL+x for x in ("agn_cutoff","agn_cutoff_false","agn_mean","agn_few","agn_log","agn_gcd_inf")], "The cutoffs have no effect (agn_cutoff, agn_cutoff_false)."),
 "C240": ("partial", [COS+x for x in ("power_spec","power_split","totalPower_spec","monopole_false")], "The monopole flag has no effect (monopole_false). healpy is a parameter."),
 "C241": ("partial", [COS+x for x in ("fit_least","bias_sign","bias_convert","error_sky","range_excess","range_false","full_sky_false")], "The greatest multipole is in one power only (range_false), and all of the sky is less than one (full_sky_false)."),
 "C242": ("partial", [COS+x for x in ("simple_never","simple_false","grid_partial","grid_false")], "No figure of merit is ever given (simple_never, simple_false)."),
 "C243": ("partial", [COS+x for x in ("year_next","year_false","ratios_spec")], "The model is that of the next year (year_next, year_false). The quadratic fit is a parameter; bins are taken to have two redshifts at least."),
 "C244": ("partial", [COS+x for x in ("region_spec","stripiness_scale","stripiness_swap","stripes_spec","stripes_const","uniform_false")], "Uniform maps have stripes (uniform_false)."),
 "C245": ("partial", [COS+x for x in ("expand_spec","areaFrac_spec","areaFrac_sum","uniformArea_spec","keepNot_spec","disjoint_partial","disjoint_false")], "Pixels below the cut are in both regions (disjoint_false). Clusters and the figure of merit are parameters."),
 "C246": ("partial", [COS+"dropouts_error", COS+"dropouts_false"], "The classes cannot be used at all."),
 "C247": ("partial", [SCA+x for x in ("core_spec","core_unique","pass_le","core_single","single_false")], "False for a single observation, which is kept (core_single, single_false)."),
 "C248": ("proved", [SCA+x for x in ("clean_spec","max_patch","columns_spec")], ""),
 "C249": ("proved", [SCA+x for x in ("solve_least","lsqr_exists","chi2_shift","recover","solve_empty")], "The solver of scipy is taken to give a least squares solution; there is one (lsqr_exists)."),
 "C250": ("partial", [SCA+x for x in ("project_radius","in_square","cell_spec","cell_range","patch_unique","catalog_partial","catalog_false")], "False for catalogs with another radius (catalog_false)."),
 "C251": ("partial", [SCA+x for x in ("dmags_spec","obsMag_spec","obsMag_other","noOffset_error","noOffset_false","same_key_false","magErr_mono","uncert_spec","catalog_spec")], "NoOffset is an exception (noOffset_error, noOffset_false); offsets with the same key replace each other (same_key_false)."),
 "C252": ("proved", [SAT+x for x in ("zfill_length","zfill_digits","zfill_value","fixed_length","fixed_spec","checksum_spec","line1_spec","line2_spec")], "Angles are given as their rounded decimals, rounding itself is not modelled."),
 "C253": ("proved", [SAT+x for x in ("places_length","places_grid","places_nodup","create_spec","presets","meanMotion_spec","meanMotion_lt")], "Random numbers are parameters."),
 "C254": ("proved", [SAT+x for x in ("visible_spec","spot_spec","avoid_spec")], "The positions of skyfield and the smoothing are parameters."),
 "C255": ("partial", [SAT+x for x in ("maps_partial","maps_false","nside_false")], "For nights other than -1 (maps_false); the resolution is ignored (nside_false)."),
 "C256": ("partial", [SAT+x for x in ("checkPointings_spec","streaks_zero_iff","short_zero","short_false")], "False for short visits (short_zero, short_false). The length of a streak is a parameter."),
 "C257": ("partial", [MAP+x for x in ("ebv_spec","dust_healpix","ebv_reads","read_once_false")], "Values hold for all histories; the map is read again by each call (ebv_reads, read_once_false)."),
 "C258": ("partial", [MAP+x for x in ("ebv3_first","ebv3_stale","ebv3_partial","history_false","repeat_false")], "Holds for the first call and for calls for one file (ebv3_partial); otherwise the first map is used (ebv3_stale, history_false, repeat_false)."),
 "C259": ("partial", [MAP+x for x in ("nearest_spec","distAt_spec","distAt_far","distAt_single_partial","single_map_false")], "One slice point and all slice points agree if no extinction is greater than the last (distAt_single_partial, single_map_false)."),
 "C260": ("proved", [MAP+x for x in ("key_roundtrip","key_colon")], ""),
 "C261": ("partial", [MAP+x for x in ("gal_first","gal_stale","gal_path","path_false","gal_retry_false")], "Values of the first call; later directories are ignored (gal_stale, gal_path, path_false), missing files are remembered (gal_retry_false)."),
 "C262": ("partial", [MAP+x for x in ("uniq_spec","all_run_partial","all_run_false","bundle_spec","single_false","stellar_spec")], "All maps are run if equal keys mean equal maps (all_run_partial, all_run_false); single maps fail (single_false)."),
 "C263": ("partial", [BM+x for x in ("fullName_inside","fullName_dotted","fullName_single","metric_spec","found_partial","found_false","addAll_ok_iff","once_spec","slicer_inj","base_map_false")], "Metrics of the same full name replace each other (found_false); BaseMap is registered (base_map_false)."),
 "C264": ("partial", [BM+x for x in ("colInfo_spec","source_partial","source_false","reg_spec")], "Sources need units for all columns (source_partial, source_false)."),
 "C265": ("partial", [BM+x for x in ("name_spec","removeFirst_suffix","dtype_spec","units_spec","units_unknown","unique_false","units_false")], "Names are not unique across classes (unique_false), the unit None is an exception (units_false)."),
 "C266": ("partial", [BM+x for x in ("reduces_partial","all_reduced_false","reduced_partial","all_ordered_false")], "For names with reduce_ in front and nowhere else (reduces_partial, reduced_partial)."),
 "C267": ("partial", [BM+x for x in ("file_partial","file_false","readAll_spec","readAll_values","read_back_false","visit_order","gaps_order_false")], "Any file of a reduced metric is an exception (readAll_spec, read_back_false)."),
 "C268": ("proved", [GPM+x for x in ("footprint_none","footprint_thresholds","footprint_spec","footReduce_spec","footReduce_mono","footReduce_more")], ""),
 "C269": ("partial", [GPM+x for x in ("time_spec","time_one_iff","time_zero","weights_one","time_scale","unexpected_masked","unexpected_false","bandReduce_spec","bands_false","bands_partial")], "A filter without priority is masked, not one (unexpected_false); functions of filters not in the list fail (bands_false, bands_partial)."),
 "C270": ("partial", [GPM+x for x in ("decay_eq_one","decay_anti","decay_mono","intervals_eq","intervals_none","intervals_range","intervals_mono","intervals_perm","intervals_shift","more_false","more_partial")], "A visit more can lower the mean (more_false)."),
 "C271": ("partial", [GPM+x for x in ("gaps_spec","gaps_range","gaps_none","mag_ignored","mag_false","mag_partial","maps_false","maps_partial","rows_after","rows_false","rows_partial")], "mag_limit is ignored, no map is named and the column of times is sorted in place."),
 "C272": ("partial", [SKI+x for x in ("weights_node","weights_between","weights_high","weights_sum","lin_spec","lin_node","lin_bounds","single_spec","low_spec","edge_false","edge_partial")], "Below the grid the value is extrapolated towards the last grid point (low_spec, edge_false)."),
 "C273": ("proved", [SKI+x for x in ("airglow_spec","pix_spec","zodiacal_spec","out_spec")], ""),
 "C274": ("partial", [SKI+x for x in ("spec_node","node_false","node_partial","bounds_false","bounds_partial","mag_spec","mag_out")], "The value one becomes zero (node_false); zero is interpolated as one (bounds_false)."),
 "C275": ("proved", [SKI+x for x in ("twilight_dark","twilight_zenith","twilight_pos","twilight_sun","twilight_symm","twilight_towards","twilightMag_spec","id_spec","back_spec","round_trip")], ""),
 "C276": ("partial", [SKM+x for x in ("wrap_spec","wrap_unique","relMoon_spec","relMoon_arccos","relMoon_symm","airmass_alt","alt_airmass","setParams_spec","degrees_partial","degrees_false","targSep_spec")], "moon_targ_sep uses the unconverted azimuth of the moon (degrees_false, targSep_spec)."),
 "C277": ("partial", [SKM+x for x in ("sky_spec","sky_sum","turn_on_error","turn_off","mask_false","mask_partial")], "With points out of range the wrong points are emptied (mask_false); a component off at construction cannot be turned on (turn_on_error)."),
 "C278": ("partial", [SKM+x for x in ("fresh_spec","mags_partial","params_spec_false","params_mags_false","stale_spec","mag_one","mag_const","mag_brighter","mag_shift")], "Stale spectra with no point in range (params_spec_false), no ra after set_params (params_mags_false)."),
 "C279": ("partial", [SKM+x for x in ("thin_spec","thin_gap","nan_false")], "Pixels without a number at a neighbour are not compared (nan_false)."),
 "C280": ("partial", [CMP+x for x in ("freshName_fresh","normalize_missing","normalize_cells","normalize_value","normalize_spec","normalize_base","better_partial","worse_negative","better_false","radar_same","radar_reverse","reverse_false","grow_spec")], "Above one is not better for a negative baseline (better_false); reversing a column has no effect on ratios (reverse_false)."),
 "C281": ("partial", [CMP+x for x in ("removeMissing_spec","expand_spec","select_spec","select_missing","once_false")], "A run of two families is listed twice (once_false)."),
 "C282": ("partial", [CMP+x for x in ("mem_familyRuns","getRuns_spec","getRuns_row","one_row_partial","one_row_false")], "A run with two descriptions has two rows (one_row_false)."),
 "C283": ("partial", [CMP+x for x in ("combine_spec","combine_missing","replace2_single","names_false","blanks_false")], "Names of different metrics can be the same (names_false) and have two blanks (blanks_false)."),
 "C284": ("proved", [CRW+x for x in ("suffix_get","crowdErr_spec","crowdErr_scale","crowdErr_mono","interp_scale","crowdErrAt_spec","crowdErrAt_node")], "Real arithmetic; the map of stars is two lists."),
 "C285": ("partial", [CRW+x for x in ("crowdMag_safe","crowdMag_early","last_false","crowdMag_mono","nstars_mono","magLimit_spec","limit_false","starDensity_mono","starDensity_node","starDensity_outside")], "The limit is a bin early (crowdMag_early, last_false) and the error at the limit from depth is too large (magLimit_spec, limit_false)."),
 "C286": ("partial", [CSL+x for x in ("check_spec","three_implied","run_spec","run_columns")], "Columns other than the defaults are an exception (run_columns). int_binned_stat of rubin_scheduler is an assumption."),
 "C287": ("partial", [CSL+x for x in ("run2_spec","once_false")], "A single night counts twice (once_false)."),
 "C288": ("partial", [CSL+x for x in ("vendor_spec","vendor_empty","uses_disjoint","use_spec","use_not_science","use_array","use_false")], "UseMetric raises on arrays (use_array, use_false); no chips count as both vendors (vendor_empty)."),
 "C289": ("partial", [CSL+x for x in ("dayCounts_sum","cadence_spec","cadence_day","cadence_last","cadence_false","read_false")], "The last day is left out (cadence_last, cadence_false); undeclared columns (read_false)."),
 "C290": ("partial", [WEB+x for x in ("select_spec","form_partial","form_false","select_form","groups_spec","types_false","order_false","info_false")], "Missing: names with an underscore or a plus are not given back by the form (form_false); the old name of a plot type does not find the new one (types_false); unique_metric_names sorts (order_false); a blank row has another column (info_false). get_json calls a method that does not exist and is not modelled."),
 "C291": ("proved", [WEB+x for x in ("orderNames_spec","statDict_spec","plotDict_spec","statOrder_spec")], "All lists. plot_dict of a list of arrays is the same after concatenation and not modelled apart."),
 "C292": ("partial", [WEB+x for x in ("order_rows","order_place","order_all","order_many","once_partial","once_false")], "Missing: a file that matches two filters is shown twice (once_false). Plots whose metric is not known are left out when filters have several plots."),
 "C293": ("partial", [WEB+x for x in ("tracking_spec","read_once","fresh_false","stale_stays")], "Missing: if the database changes while it is read, old rows are kept with the new time (fresh_false) and stay (stale_stays). The database is otherwise taken not to change within a request."),
 "C294": ("partial", [OPS+x for x in ("query_parse","sim_spec","guess_spec","full_overrides","remote_false","remote_error")], "Missing: strings that are not files are refused before URLs are looked at (remote_false, remote_error). Names without blanks, commas and semicolons; SQL by a small reader of queries; an empty list of columns is not a query."),
 "C295": ("partial", [OPS+x for x in ("bench_scaled","bench_mono","total_false","total_ten")], "Missing: the total is not scaled and not the sum (total_false, total_ten)."),
 "C296": ("partial", [OPS+x for x in ("depth_pos","depth_coadd","depth_mono_partial","mono_false","depth_none","coadded_spec","match_false")], "Missing: no visits have the depth of one (mono_false, depth_none); filters of the depths without visits are not looked at (match_false)."),
 "C297": ("proved", [HRG+x for x in ("blocks_cover","blocks_spec","block_filter")], "All lists of one visit or more."),
 "C298": ("partial", [HRG+x for x in ("midnight_nearest","nearest_spec","oneEach_keys","oneEach_near","repeat_false")], "Missing: two values of one midnight can be rounded apart and stay (repeat_false). The midnights come from astroplan."),
 "C299": ("partial", [BAT+x for x in ("means_unique","both_means","filter_means","selects_unique","bandList_spec","filter_partition","subset_partial","subset_false","glance_partial","glance_false")], "Missing: for adjacent bands the extra condition is not in brackets, so that one with an or selects other bands (subset_false); the glance with an empty condition is no query (glance_false). Conditions are lists of tokens."),
 "C300": ("partial", [BAT+x for x in ("year_length","year_unique_partial","year_false","before_mono","first_years")], "Missing: the night numbered 0 is in no year (year_false); the first years of both differ (first_years)."),
 "C301": ("partial", [BAT+x for x in ("combine_laws","combine_pair","rstrip_spec","short_partial","short_false","fractions_spec")], "Missing: rstrip takes off characters of the column from the name of the metric as well (short_false)."),
 "C302": ("partial", [BAT+x for x in ("captions_spec","caption_false","subset_label")], "Missing: captions have the labels of all filters before (caption_false); a condition without label is an exception (subset_label)."),
 "C303": ("partial", [CTB+x for x in ("triplets_spec","triplets_perm","triplets_shift","triplets_mono","triplet_order","ratio_unread","ratio_false")], "Missing: the limits of the ratio are never read (ratio_unread, ratio_false)."),
 "C304": ("partial", [CTB+x for x in ("tripletsBand_spec","reduceAll_spec","even_false")], "Missing: with the default RatioMin of one, evenly spaced visits are not counted (even_false). For DelMin not negative."),
 "C305": ("partial", [CTB+x for x in ("numObs_spec","numObs_partial","numObs_false","numObs_ends","obsDiff_spec","obsDiff_total","intervals_mean","intervals_unbound")], "Missing: visits in windows that overlap count more than once (numObs_false); an unknown statistic is an unbound variable. The standard deviation is not modelled."),
 "C306": ("partial", [CTB+x for x in ("sameGaps_spec","diffGaps_spec","zero_gap","diffGaps_symm","nearest_spec","nearest_length","nearest_false","all_some")], "Missing: pairs of visits in one filter at the same time have no gap, in two filters they have (zero_gap); with allgaps false a filter without visits is an exception (nearest_false)."),
 "C307": ("partial", [CTB+x for x in ("fom_none","fom_top","fom_full","fom_more_false","fom_partial")], "Missing: a flat clipped histogram, as of a pair that reaches its clip everywhere, gives infinity for the whole point (fom_full); more gaps may lower it (fom_more_false)."),
 "C308": ("partial", [GRB+x for x in ("run_spec","exists_mag","last_draw","fraction_bound","phase_false","first_false","start_false","band_false")], "Missing: counters are set to zero in each phase, so only the last counts while the number of bursts is that of all (run_spec, last_draw, fraction_bound, phase_false); the first visit is seen whatever the burst (first_false); a start that is given is an unbound variable (start_false)."),
 "C309": ("partial", [GRB+x for x in ("filtAvg_spec","filtAvg_false")], "Missing: the entry for any filter is averaged as well (filtAvg_false); filtAvg_spec says what is averaged."),
 "C310": ("partial", [STA+x for x in ("edges_spec","volumes_equal","volumes_sum","distances_spec","distances_within","starcount_bounds")], "Missing: starcount calls eq_gal3, which uses names that astropy and numpy do not have (u.radians, np.rad) and raises; the theorems are for a direction that is already galactic."),
 "C311": ("partial", [STA+x for x in ("imf_integral","imf_add","imf_pos","fractions_sum","fractions_sum_partial","fractions_sum_false")], "Missing: the total of the range is overwritten by that of 0.2 to 1.04, so the fractions sum to one for this range only (fractions_sum, fractions_sum_false)."),
 "C312": ("proved", [STA+x for x in ("stellardensity_pos","stellardensity_parts","halo_flattened","disc_at_sun","disk_shape")], "In the reals; at the centre of the galaxy the division by zero of the halo is zero in the model."),
 "C313": ("partial", [STA+x for x in ("magError_spec","noise_limit","noise_calc_false","magError_zero_false","getDistance_spec")], "Missing: the function that noise_calc gives to the solver returns nothing (noise_calc_false), and a limit of zero is taken as no limit (magError_zero_false)."),
 "C314": ("partial", [STA+x for x in ("normalise_spec","eqGal_solves","eqGal2_range","eqGal2_false","galCyn_spec","rho_opposite")], "Missing: eq_gal2 compares radians with 32.9319 degrees, so all longitudes are from 180 to 360 (eqGal2_range, eqGal2_false); the angle of gal_cyn is the same for opposite directions (rho_opposite). The solver of eq_gal is an input."),
 "C315": ("proved", [STA+x for x in ("specType_anti","absMag_mono","specType_table","specType_ends","absMag_table","absMag_range","pick_spec","reach_mono")], "In the rationals; the interpolation of scipy is the one of the model."),
 "C316": ("proved", [LEN+x for x in ("amp_gt_one","amp_shape","amp_impact","amp_peak","magnitude_brighter")], "In the reals, for positive impact parameters."),
 "C317": ("partial", [LEN+x for x in ("fsfb_inverted","fsfb_peak_false")], "Missing: microlensing_amplification_fsfb already gives a magnitude, of which the logarithm is taken again, so such an event is faintest at its peak (fsfb_inverted, fsfb_peak_false)."),
 "C318": ("partial", [LEN+x for x in ("infoPeak_max","infoPeak_snr_false")], "Missing: it is the time for a constant error of the flux (infoPeak_max), not for a constant signal-to-noise ratio (infoPeak_snr_false)."),
 "C319": ("partial", [LEN+x for x in ("coeffs_derivatives","coeffsFsfb_derivatives","first_is_te_false")], "Missing: the first is the derivative by t0 and the third that by te (first_is_te_false), so the variance read for te is that of t0."),
 "C320": ("partial", [LEN+x for x in ("fisher_psd","fisher_add","fisher_event","fisher_flux_zero","fisher_flux_false","fisherRun_last")], "Missing: entries of the fluxes are written to a copy and stay zero (fisher_flux_zero, fisher_flux_false); run uses the visits of the last filter for every filter (fisherRun_last)."),
 "C321": ("partial", [LEN+x for x in ("detect_pairs","detected_spec","detect_points_false")], "Missing: what is counted are pairs of visits in a filter whose magnitudes differ by detect_sigma times the error (detect_pairs), so an event may be detected with no point above the depth (detect_points_false)."),
 "C322": ("partial", [LEN+x for x in ("npts_spec","npts_false","times_spec","times_false")], "Missing: points are counted within one crossing time and not at the peak (npts_spec, npts_false), and times are from the first visit of the point (times_spec, times_false)."),
 "C323": ("proved", [LEN+x for x in ("draw_spec","draw_first","densest_never")], "A defect, proved as it is."),
 "C324": ("partial", [KNE+x for x in ("prePeak_spec","prePeak_false","someColor_spec","someColorPu_spec","tde_mono","tenDays_false")], "Missing: pre_peak needs one visit more than pts_needed (prePeak_false), and the three filters are needed within five days of the peak and not ten (tenDays_false)."),
 "C325": ("partial", [KNE+x for x in ("quality_spec","quality_false")], "Missing: an event seen every other night has the score 1/2 (quality_false); quality_spec says what the score is. For a range that holds the five days about the peak."),
 "C326": ("proved", [KNE+x for x in ("outside_unseen","after_unseen","appMag_node","kn_spec","color_two")], "For depths up to 99 and no negative extinction or distance modulus."),
 "C327": ("partial", [KNE+x for x in ("rate_spec","ztf_spec","ztf_bands","ztf_empty","ztf_more_false")], "Missing: more visits may lose a kilonova (ztf_more_false); with no visit needed and none there is an exception (ztf_empty)."),
 "C328": ("partial", [KNE+x for x in ("presto_spec","presto_two","choose_spec","coords_dmag","coords_same_time")], "Missing: for two detections at the same time the change is zero whatever the magnitudes (coords_same_time)."),
 "C329": ("partial", [KNE+x for x in ("scores_spec","loadHash_partial","loadHash_false","loadHash_unknown","keepRegion_spec")], "Missing: the table kept is that of the first file for a region, whatever file is asked for later (loadHash_false); events at the latitude of the cut are in neither region (keepRegion_spec). The search in the table is not modelled."),
 "C330": ("partial", [KNE+x for x in ("rndm_spec","rndm_volume_false","fileIndx_spec","knPop_partial","knPop_false")], "Missing: with positions given the seed is not used and the population depends on what was drawn before (knPop_false). The exponent used is not that of a uniform volume (rndm_volume_false). That uniform_sphere, which is not in this repository, seeds the generator is a hypothesis of knPop_partial."),
 "C331": ("partial", [KNE+x for x in ("kne_all","kne_spec","kne_mem","kne_once_false","kne_key")], "Missing: a file is returned once for each set of parameters that it has (kne_spec, kne_once_false); a file without the parameter is an exception (kne_key). The parsing of the names is not modelled."),
 "C332": ("proved", [XRB+x for x in ("fred_peak","fred_shape","lightcurve_peak","lightcurve_outside")], "In the reals; the infinity at the start of the outburst is none."),
 "C333": ("partial", [XRB+x for x in ("end_bright","faded_false")], "Missing: the logarithm of the amplitude is added to the times and does not multiply them, so that outbursts end while bright (end_bright, faded_false)."),
 "C334": ("proved", [XRB+x for x in ("detectable_spec","visible_interval","possible_spec")], "For positive rise and decay times, amplitudes and durations."),
 "C335": ("partial", [XRB+x for x in ("detected_during","detect_spec","meanTime_spec","meanTime_false","reduceMean_spec")], "Missing: the start and end of the visible time are among the times, so that the mean is the visible duration over one more than the number of detections, wherever these are (meanTime_spec, meanTime_false)."),
 "C336": ("partial", [XRB+x for x in ("tauRise_spec","pop_seed","tauRise_false")], "Missing: the parameters of outbursts are from a generator with the seed 42 whatever the seed (pop_seed), and half of the rise times from the state of np.random (tauRise_false)."),
 "C337": ("partial", [YSO+x for x in ("density_pos","density_sym","density_latitude","density_longitude","disc_total","pole_false","rGalac_partial")], "Missing: the distance from the axis of the galaxy is that of a star in the plane, so that at the pole the density depends on the longitude (pole_false)."),
 "C338": ("partial", [YSO+x for x in ("count_mono","count_bound","count_add","skyArea_field","run_outside","run_inside","outside_false")], "quad is the integral. Missing: beyond the limit the value is badval, which is zero by default only (outside_false)."),
 "C339": ("partial", [YSO+x for x in ("dist2_spec","dist2_empty","distance_spec","unobserved_zero","effective_mono","unobserved_first","unobserved_false")], "With the extinction of the whole line of sight. Missing: with the three-dimensional one the distance in a filter without visits is the first of the map (unobserved_first, unobserved_false)."),
 "C340": ("proved", [PST+x for x in ("mag_periodic","lightcurve_spec","lightcurve_unobserved","phase_days")], ""),
 "C341": ("partial", [PST+x for x in ("recovered_iff","run_spec","run_range","run_few","few_bands","good_mono","good_truth","slice_false")], "The results of curve_fit are inputs. Missing: without a slice point an exception is raised (slice_false)."),
 "C342": ("partial", [PST+x for x in ("subrun_zero","modulation_zero","modulation_nan","modulation_false")], "Missing: the number of points is taken from the size of the object that is fitted, which is one, so nothing is ever fitted and the value is zero or nan (modulation_zero, modulation_nan, modulation_false)."),
 "C343": ("partial", [PST+x for x in ("window_mem","window_cover","window_twice","window_none","partition_false")], "Missing: a visit at the end of an interval is in two (window_twice) and one after the last whole interval in none (window_none, partition_false)."),
 "C344": ("partial", [PST+x for x in ("windowVal_le","periodic_spec","purity_range","purity_alias","periodic_no_float")], "Missing: only with a numpy older than version 1.24, as np.float is used (periodic_no_float)."),
 "C345": ("partial", [PST+x for x in ("varDepth_spec","varDepth_bright","varDepth_false","scan_last")], "The thresholds and the interpolation are inputs. Missing: for a mean depth of 16 or less an exception is raised (varDepth_bright, varDepth_false)."),
 "C346": ("partial", [SRF+x for x in ("limit_cases","limit_false","limit_partial","limit_margin","margin_sharp","warning_false")], "Proved: each limiting case is right for its noise alone, the ratio at the limit is at least nsigma divided by the root of three, and a source 2.5 log 2 magnitudes brighter reaches nsigma. Missing: with all the noise the limit never reaches nsigma (limit_false), and the 0.38 magnitudes of the warning are not enough (warning_false)."),
 "C347": ("partial", [SRF+x for x in ("run_one","run_more","one_filter_false","run_mixed","options","skySat_spec")], "Missing: the exception for several filters is made and not raised (one_filter_false, run_mixed); extinctions given alone are ignored and zero points given alone raise (options)."),
 "C348": ("partial", [FEW+x for x in ("cumulative_spec","qso_spec","qso_none","zmax_default")], "The spline is any function through the nodes; the depth is an input. Missing: where saturation is fainter than the depth the count is negative (qso_spec), and without visits in the filter an exception is raised (qso_none)."),
 "C349": ("partial", [FEW+x for x in ("sfWeight_default","weight_false","sf_few","sf_bounds","sfGaps_spec","sf_perm")], "Without the rounding to half precision; mad_std is an input. Missing: weights that are given are not kept and an exception is raised (weight_false)."),
 "C350": ("partial", [FEW+x for x in ("colors_cases","colors_false","bdSnr_eq","bdSnr_anti","bdSnr_more","bd_between","bd_beyond","bd_bad","bd_more","volume_ball")], "Missing: the colours of L3 are a tuple, with which the metric cannot be made (colors_false); beyond the largest distance the value is extrapolated (bd_beyond)."),
 "C351": ("proved", [FEW+x for x in ("nightTimes_spec","nightTimes_nil")], "Without the positions."),
 "C352": ("proved", [FEW+x for x in ("detect_bounds","chi1_constant","detect_constant","constant_cases","detect_needs","starsOf_length","starsOf_get")], "The survival function of the F distribution is an input that is one for values that are not positive."),
 "C353": ("proved", [SNN+x for x in ("getseason_spec","getseason_next","getseason_first")], "For the times after the sort."),
 "C354": ("partial", [SNN+x for x in ("coadd_keys","coadd_totals","coadd_depth_le","coadd_depth_eq","coadd_single","coadd_single_iff","coadd_single_false","coadd_time")], "The depth is right for visits of the median exposure time with one depth, and never too deep for visits of the median exposure time. Missing: a visit alone in its night and filter whose exposure time is not the median gets another depth (coadd_single_iff, coadd_single_false)."),
 "C355": ("proved", [SNN+x for x in ("t0_window","keptZ_iff","keptZ_mono","keptZ_default")], "The tables are lists of redshifts of one season."),
 "C356": ("partial", [SNN+x for x in ("calcDaymax_grid","calcDaymax_step_gt","calcDaymax_step_false","calcDaymax_short")], "Missing: the step is always longer than daymax_step (calcDaymax_step_gt, calcDaymax_step_false)."),
 "C357": ("partial", [SNN+x for x in ("epochs_spec","epochs_one","epochs_none","epochs_false","epochs_cut_partial")], "Proved for two points or more, and cuts of two epochs or more are right. Missing: a single point counts as no epoch (epochs_one, epochs_false)."),
 "C358": ("proved", [SNN+x for x in ("t0s_spec","pointsOf_mem","sampled_iff","efficiencies_sel","effi_bounds","effi_ends","efficiencies_unseen")], "For cuts of two epochs or more. The variance of the colour is an input; supernovae without a point of the least signal to noise are not in the total (efficiencies_unseen)."),
 "C359": ("proved", [SNN+x for x in ("zlim_spec","zlim_between","zlim_zero","zlim_first_only")], "Without the rounding to six decimals. With all supernovae at the first redshift the value is -1, too (zlim_first_only)."),
 "C360": ("partial", [SNN+x for x in ("getNsn_sum","getNsn_last_bin","getNsn_bounds","finalRow_none","finalRow_sum","nsnOf_low","n_sn_false","n_sn_partial")], "Missing: one bin wholly above the limit is counted (getNsn_last_bin), and a season with a mean efficiency of at most 0.02 counts -1, so that the number can be negative (n_sn_false)."),
 "C361": ("partial", [SNN+x for x in ("snRate_bin","snRate_length","snRate_reach","snRate_nonneg","snRate_area","edgeDuration_spec","expected_at_zmin","given_bins","given_bins_false","made_bins")], "The comoving volume is an input. Missing: bins that are given do not fit (given_bins_false); at zmin itself none is expected (expected_at_zmin)."),
 "C362": ("proved", [SNN+x for x in ("perrett_spec","perrett_err","capped_rates","snRateOf_known","snRateOf_names")], "For arrays of redshifts; another name gives None."),
 "C363": ("proved", [SNN+x for x in ("varColor_spec","varColor_solves","sigmas_eq","sigmas_none")], "In exact arithmetic."),
 "C364": ("proved", [SNN+x for x in ("loadCached_ok","loadAll_data","loadAll_reads")], "The files do not change; one thread."),
 "C365": ("proved", [SNN+x for x in ("flagged_iff","flat_zip","byRow_flat","tile_get")], "The fluxes are inputs."),
 "C366": ("partial", [SNN+x for x in ("nLensed_spec","nLensed_anti","seasonLensed_skip","seasonLensed_none","lensedRun_num","lensedRun_nothing","lensed_zero_false","lensed_nan_false")], "calc_season belongs to another package: the season is an input. Missing: visits none of which is deep enough give -666, not zero (lensed_zero_false); a season all of whose visits are in one night makes the value not a number (lensed_nan_false)."),
 "C367": ("partial", [PLH+x for x in ("setBundles_spec","ordered_stay","order_false","same_band_reversed","forder_spec","insert_spec")], "Missing: bundles which are not given in the order of the bands are not put into it (order_false, same_band_reversed)."),
 "C368": ("partial", [PLH+x for x in ("resolve_spec","documented_partial","documented_false","history","leak","userDict_spec")], "Missing: labels of the axes made by the handler replace those set before (documented_false). The check of C369 comes after it."),
 "C369": ("partial", [PLH+x for x in ("checkDicts_spec","check_agrees","limits_lost","color_max_dropped")], "For values that are not None. Missing: limits of an axis are dropped although the bundles agree (limits_lost), and so are different limits of the colours (color_max_dropped)."),
 "C370": ("partial", [PLH+x for x in ("displayOrder_bounds","displayOrder_false","displayGroup_spec")], "Missing: the place depends on the order of the bundles (displayOrder_false)."),
 "C371": ("partial", [PLH+x for x in ("combine_raises_iff","combine_subset_false","combine_complete_partial","combine_complete_false")], "The splitting of a label into phrases and words is a parameter. Missing: labels whose phrases are all in the others (combine_raises_iff), and several phrases of one label (combine_complete_false)."),
 "C372": ("partial", [PLH+x for x in ("jointName_bands","jointName_false","jointName_one","jointName_uneven")], "Missing: names that differ in other words than bands (jointName_false)."),
 "C373": ("partial", [PLH+x for x in ("guessColor_band","random_colors","band_colors_false","own_color","guessColor_last")], "Missing: constraints without the word filter (random_colors, band_colors_false)."),
 "C374": ("proved", [PLH+x for x in ("plot_spec","plot_refused")], "Drawing is not modelled."),
 "C375": ("proved", [PLH+x for x in ("applyZpNorm_spec",)], "In any field."),
 "C376": ("partial", [PLO+x for x in ("colorLims_user","colorLims_range","colorLims_data","colorLims_empty","colorLims_range_false")], "Missing: a range when the user gives one limit (colorLims_range_false)."),
 "C377": ("partial", [PLO+x for x in ("histBins_edges","histBins_narrow","histBins_covers_false","histBins_covers_partial")], "Missing: ranges that are not whole numbers of bins (histBins_covers_false)."),
 "C378": ("proved", [PLO+x for x in ("skyLon_range","skyLon_turns","skyLon_unique")], "Any ordered field with a floor."),
 "C379": ("partial", [PLO+x for x in ("pairBars_spec","pairBars_total","pairBars_total_false","pairBars_short")], "Whole numbers of visits. Missing: the nights with the most visits (pairBars_short)."),
 "C380": ("partial", [PLO+x for x in ("twoDMap_spec","twoDMap_twice","twoDMap_unchanged_false","twoDMap_unchanged_partial")], "Missing: a colour minimum (twoDMap_unchanged_false)."),
 "C381": ("partial", [PLO+x for x in ("oneDSubset_ndslicer","oneDSubset_partial","oneDSubset_false","oneDSubset_two","oneDSubset_total")], "Missing: the slicer of the package (oneDSubset_ndslicer) and other numbers of bins (oneDSubset_false)."),
 "C382": ("partial", [PLO+x for x in ("twoDSubset_partial","twoDSubset_transposed","twoDSubset_false")], "Missing: the x axis first (twoDSubset_transposed); the missing attribute is in C381."),
 "C383": ("proved", [PLO+x for x in ("orbitLookups_default","orbitLookups_hvals")], "The keys that are looked up on the way."),
 "C384": ("partial", [PLO+x for x in ("hIndex_spec","hIndex_narrow","hIndex_step_false","hIndex_step_partial")], "Missing: a range of less than one magnitude (hIndex_narrow)."),
 "C385": ("proved", [PLO+x for x in ("diameter_formula","diameter_unit","diameter_five")], "Over the reals."),
 "C386": ("proved", [PLO+x for x in ("foCurve_get","foCurve_area","foCurve_bounds")], "Masked values are left out before."),
 "C387": ("proved", [PLO+x for x in ("summaryHist_bin","summaryHist_total","summaryHist_cumulative")], "For the metric SumMetric."),
 "C388": ("proved", [DWF+x for x in ("fakeLF_total","sumLuminosity_spec","distMod_spec")], "Over the reals; counts above zero."),
 "C389": ("partial", [DWF+x for x in ("limitDwarf_spec","limitDwarf_exists_false","limitDwarf_exists_partial")], "Missing: dwarfs of which no star is seen (limitDwarf_exists_false)."),
 "C390": ("partial", [DWF+x for x in ("starDensity_default","starDensity_depth_false","starsRequired_spec","starsRequired_missing")], "Missing: the depth has no effect (starDensity_depth_false)."),
 "C391": ("partial", [DWF+x for x in ("distValue_spec","distValue_documented_false","distValue_unit_false","distValue_partial")], "Missing: numbers (distValue_documented_false) and other units (distValue_unit_false)."),
 "C392": ("partial", [DWF+x for x in ("bandCorrection_colors","galCount_all","galCount_unknown","galCount_cfht","galTotal_spec","galTotal_bins_false","galTotal_bins_partial")], "The integral is a parameter. Missing: small totals (galTotal_bins_false)."),
 "C393": ("proved", [DWF+x for x in ("stellarMags_spec","stellarMags_known","table_redder")], "Rational numbers."),
 "C394": ("partial", [SDT+x for x in ("setupAll_start","setupAll_first","start_documented_false","start_documented_partial","setupAll_years")], "Missing: points after the first (start_documented_false)."),
 "C395": ("partial", [SDT+x for x in ("epoch_range","ident_zero","same_transient_partial","same_transient_false","same_transient_split","shifts_spec")], "Missing: shifts (same_transient_false)."),
 "C396": ("proved", [SDT+x for x in ("detected_spec","run_spec")], "The limit of the time between bands is in C397; the visits of one number are taken to be next to each other, as they are sorted by time."),
 "C397": ("partial", [SDT+x for x in ("inTime_sound","inTime_partial","inTime_never","inTime_documented_false")], "For detections in order of their phase. Missing: the last detection (inTime_documented_false)."),
 "C398": ("partial", [SDT+x for x in ("mkRows_known","mkRows_get","thresholds_documented_false")], "Missing: bands without a threshold (thresholds_documented_false)."),
 "C399": ("partial", [SSP+x for x in ("saved_place","saved_iff","makeObs_partial","makeObs_false","makeObs_name")], "Paths without links and parent directories. Missing: relative directories (makeObs_false)."),
 "C400": ("partial", [SSP+x for x in ("line_chain","pairs_partial","pairs_false","pairs_spec")], "Missing: names with the word tracking (pairs_false)."),
 "C401": ("proved", [SSP+x for x in ("script_known","objtypes_known","objtypes_differ")], "Lookup in the dicts of the script."),
 "C402": ("proved", [SSP+x for x in ("split_usage","split_file","splitDir_agrees")], "Stated as it is: the commands for parts are refused."),
 "C403": ("partial", [SSP+x for x in ("calc_iff","calc_optional_false","calc_cases")], "Missing: runs without the file of the simulation (calc_optional_false)."),
 "C404": ("proved", [SSP+x for x in ("hRange_spec","hRange_exact","defaults_valid","popDefaults_total","char_iff","population_alias","defaults_outer")], "Rational numbers; case of ASCII letters."),
 "C405": ("partial", [SSP+x for x in ("joins_iff","combine_never","sameSlicer_iff","sameSlicer_false","joinValues_spec","join_mask_false","splitDir_root")], "Missing: the joined bundle (combine_never) and the masks (join_mask_false)."),
 "C406": ("proved", [SSP+x for x in ("times_spec","times_ends","selected_iff","selected_sub","figroot_spec")], "Patterns of glob in the metadata are left out."),
 "C407": ("partial", [SSP+x for x in ("compMark_spec","fracMarks_single_partial","fracMarks_kept","fracMarks_false","fracMarks_none")], "Missing: more than one bundle (fracMarks_false)."),
 "C408": ("proved", [SSP+x for x in ("compKind_iff","compKind_kind")], "Names as lists of letters."),
 "C409": ("partial", [TLS+x for x in ("common_spec","resolve_rel","resolve_iff","addToDb_partial","looked_default","show_default","addToDb_false")], "Directories without links. Missing: databases elsewhere (addToDb_false, show_default)."),
 "C410": ("partial", [TLS+x for x in ("opened_partial","opened_iff","opened_false")], "Missing: other current directories (opened_false)."),
 "C411": ("partial", [TLS+x for x in ("startRun_spec","startRun_new","startRun_first_partial","dataPage_never")], "Missing: databases with runs (startRun_new) and the data (dataPage_never)."),
 "C412": ("proved", [TLS+x for x in ("runComment_spec","runGroup_spec")], "Strings as lists of letters."),
 "C413": ("partial", [TLS+x for x in ("versions_partial","versions_stale","versions_false","versions_ok_iff","versionOf_spec")], "Missing: results without rows (versions_false)."),
 "C414": ("partial", [TLS+x for x in ("dbFiles_iff","metaFiles_iff","job_file_partial","job_file_false","job_dir_partial","afterAll_spec","afterAll_partial","afterAll_false")], "Missing: names with more than one .db (afterAll_false) and files elsewhere (job_file_false)."),
 "C415": ("proved", [TLS+x for x in ("testing_spec","baseline_spec")], "Names and versions as they are."),
 "C416": ("partial", [SNS+x for x in ("SNR_no_fakes","SNR_run","SNR_columns","SNR_rate","SNR_regular_false")], "Missing: any value for regular cadences (SNR_run, SNR_regular_false)."),
 "C417": ("partial", [SNS+x for x in ("SNR_season_info","SNR_moved","SNR_moved_start","SNR_checked","SNR_checked_false")], "Missing: a single season (SNR_checked_false)."),
 "C418": ("partial", [SNS+x for x in ("SNR_days","SNR_season_of","SNR_info_of","SNR_info_false")], "Missing: seasons in another order (SNR_info_false)."),
 "C419": ("proved", [SNS+x for x in ("SNR_quadrature","SNR_more","SNR_five")], "The light curve is any function."),
 "C420": ("proved", [SNS+x for x in ("SNR_fake_times","SNR_fake_number","SNR_fake_depth","SNR_fakes","SNR_coadd")], "Real numbers for floats."),
 "C421": ("proved", [SNS+x for x in ("SNR_lim","SNR_contour","SNR_last_file")], "Contours and interpolation are not modelled."),
 "C422": ("partial", [PRT+x for x in ("index_spec","index_fresh","index_sequence","index_race","index_no_race")], "Proved for one program at a time; two at once get the same directory."),
 "C423": ("partial", [PRT+x for x in ("transfer_spec","transfer_fail","transfer_fail_false")], "A failed transfer leaves no metadata unless they list themselves."),
 "C424": ("partial", [PRT+x for x in ("check_spec","check_exported","made_check_partial","made_check_false","check_changed")], "False for exported simulations and for a file named like the metadata."),
 "C425": ("partial", [PRT+x for x in ("made_files_partial","made_files_false","cli_types","cli_false")], "False for files of one name; the command line loses the types."),
 "C426": ("proved", [PRT+x for x in ("read_direct","read_order","read_verify")], "For archives with no URI twice and days since 1900; with verification also for values in the compilation that are those of the archive."),
 "C427": ("partial", [PRT+x for x in ("cache_sound","archive_keeps","cache_false")], "Proved for windows within the nights that are compiled; false for longer ones."),
 "C428": ("partial", [PRT+x for x in ("compile_ok_iff","compile_first_only","tables_spec","tables_round_partial","tables_round_false")], "The round trip holds with all dates and the same keys in all files; what happens otherwise is proved. Values are never None or NaN."),
 "C429": ("proved", [PRT+x for x in ("differences_nil","differences_mem")], "The comparison of values is arbitrary."),
 "C430": ("partial", [PRT+x for x in ("find_spec","find_raises","find_exported","find_read","find_latest_partial","find_latest_false")], "The most recent one only among those of one day."),
 "C431": ("partial", [PRT+x for x in ("fetch_none","fetch_some","tap_ahead","ages")], "TypeError instead of no visits."),
 "C432": ("proved", [SNP+x for x in ("overhead_min","overhead_value","overhead_warn","overhead_unchecked")], ""),
 "C433": ("partial", [SNP+x for x in ("slew_value","slew_nonneg","slewLoc_negative","slewLoc_false","slew_array")], "False for a negative location without a scale."),
 "C434": ("partial", [SNP+x for x in ("cli_results","cli_default","cli_false","anom_iff")], "False without a directory for the results."),
 "C435": ("partial", [SNP+x for x in ("drive_value","drive_saved","drive_path","drive_never","drive_index")], "False that the archived directory is given to the caller. That ResourcePath has no keyword forceDirctory and that the simulator gives rewards just if they are recorded is knowledge of other packages."),
 "C436": ("partial", [SNP+x for x in ("config_scheduler_partial","config_function","config_unused","config_false")], "False for configurations with the function only."),
 "C437": ("proved", [SNP+x for x in ("scheduler_spec","scheduler_noScript")], ""),
 "C438": ("partial", [SNP+x for x in ("codec_spec","snapshot_round_partial","snapshot_compressed","snapshot_round_false","snapshot_others")], "False for compressed files."),
 "C439": ("partial", [SNP+x for x in ("toHdf_spec","toHdf_empty","toHdf_false")], "False for databases without tables."),
 "C440": ("partial", [SNP+x for x in ("round_trip","existing_error","default_paths_false","failing_leaves")], "The round trip to a new file is proved; to the default path it fails."),
 "C441": ("proved", [SNP+x for x in ("conda_lookup","conda_none","conda_sorted","conda_cached")], ""),
 "C442": ("partial", [VSO+x for x in ("call_succeeds", "no_insert_no_error", "at_most_five", "connections_reused_false")], "When calls succeed, with the invariant, is for all sequences of calls; that connections are reused is false for insertions of statistics."),
 "C443": ("partial", [VSO+x for x in ("conn_value", "conn_other", "dict_kept_partial", "dict_kept_false")], "The order of the sources is for all input; the dictionary of the caller is modified unless all is given."),
 "C444": ("proved", [VSO+x for x in ("days_error", "days_given", "days_spec", "stats_rows", "stats_row", "stats_total")], "The standard deviation is not in the model."),
 "C445": ("proved", [VSO+x for x in ("insert_spec", "keys_unique", "insert_first", "insert_again")], "The primary key is that of the schema."),
 "C446": ("partial", [VSO+x for x in ("mixed_ok", "mixed_fails", "mixed_atomic_false")], "A call that fails leaves a row; the same two steps are in record_completed_metadata."),
 "C447": ("proved", [VSO+x for x in ("hex_round", "update_hash", "update_only", "update_fails", "update_bad_hash")], "Casts of the database are not in the model."),
 "C448": ("partial", [VSO+x for x in ("proto_error", "proto_time", "made_up", "proto_urls", "import_ignores")], "What the function returns is as documented; the import ignores the time."),
 "C449": ("partial", [VSO+x for x in ("archive_round", "archive_ok", "suffixes", "copy_round", "dest_kept", "other_suffix_false")], "False for suffixes that are not among the four."),
 "C450": ("proved", [VSO+x for x in ("tap_spec", "tap_day", "tap_age_given", "tap_age", "tap_age_ahead")], "The almanac is an arbitrary one with sunsets between noon and midnight (UTC)."),
 "C451": ("partial", [VSO+x for x in ("nominal_first", "nominal_visits_partial", "no_visits_error", "no_sim", "recorded_first", "recorded_kept", "nominal_visits_false")], "The number is right if the first column has no missing value and there are visits."),
 "C452": ("partial", [LCM+x for x in ("parse_name", "parse_short", "parse_name_false")], "Proved for names in which MicrolensingMetric occurs once, with parts without underscores; negation proved for a run with it in its name."),
 "C453": ("partial", [LCM+x for x in ("ranges_bins", "ranges_nested_false", "ranges_shared_start")], "Proved for bins whose limits both grow; negation proved for bins that lie in one another."),
 "C454": ("partial", [LCM+x for x in ("series_spec", "fom_refused", "fom_once", "fom_every_batch_false")], "Proved when the figure is drawn, with the exact condition for it; negation proved for every set of results."),
 "C455": ("partial", [LCM+x for x in ("detected_fisher_cells", "fisher_npts_cells", "detected_npts_cells", "cells_total", "cells_partition_false")], "The cells are given for all events; negation proved for the claim that every event is in one of them."),
 "C456": ("partial", [LCM+x for x in ("compare_ignores", "compare_partial", "compare_label_false")], "Proved for ten points and events that meet no limit exactly; negation proved for other numbers."),
 "C457": ("partial", [LCM+x for x in ("results_mask", "results_zero", "results_empty", "results_masked_false")], "Proved with zeros under the mask, with the excess of the third; negation proved for the fraction of characterized events."),
 "C458": ("partial", [LCM+x for x in ("results_dbs", "results_dbs_partial", "results_dbs_false")], "Negation proved; the intended result is proved for a class with the method."),
 "C459": ("partial", [SML+x for x in ("nights_with_n", "nights_perm", "nights_minimum_false")], "Counted as the class says; the argument is documented as a minimum, which nights_minimum_false refutes."),
 "C460": ("proved", [SML+x for x in ("match_spec", "match_empty")], "Without stars or solutions it is a ValueError."),
 "C461": ("partial", [SML+x for x in ("uniformity_zero_point", "residMap_pixels", "uniformity_spec", "mad_affine", "uniformity_fractions", "uniformity_high_false", "uniformity_columns_false")], "The fraction at high latitudes is divided by the number of all pixels, and the columns are asked for under other names than those read."),
 "C462": ("proved", [SML+x for x in ("pixCounts_eq", "pixCounts_nonneg")], "The integral is an arbitrary functional; the completeness an arbitrary function."),
 "C463": ("partial", [SML+x for x in ("depthLimited_partial", "depthLimited_other", "depthLimited_false")], "Holds with the default bad value; with another one the bad value of the inner metric is not recognised."),
 "C464": ("proved", [SML+x for x in ("fluxNorm_spec", "fluxNorm_flux", "fluxNorm_unique", "fluxNorm_error")], "Over the reals."),
 "C465": ("proved", [SML+x for x in ("colMap_names", "colMap_error", "colMap_default", "colMap_case", "readObs_cols", "readObs_builtin", "readObs_missing", "readObs_caller")], "Lower case is that of ASCII letters; the entries of the dictionaries that are not names of columns are left out; the query itself is not modelled here."),
 "C466": ("proved", [SML+x for x in ("starCount_type_error", "starCount_never", "starCountMass_position", "starCountMass_order_false")], "Stated as it is; the count itself is an arbitrary function."),
 "C467": ("partial", [ESO+x for x in ("visibleFast_partial", "visibleFast_mono", "visibleFast_always", "visibleFast_total_false")], "The altitudes are arbitrary functions. The time may exceed the interval by one sampling interval."),
 "C468": ("partial", [ESO+x for x in ("visible_partial", "visible_error", "visible_total_false")], "The altitudes are arbitrary functions. ValueError on a date without a sample below the limit."),
 "C469": ("proved", [ESO+x for x in ("merged_eq", "merged_le", "merged_one", "merged_two")], "Over the reals."),
 "C470": ("proved", [ESO+x for x in ("parts_flatten", "parts_balanced", "load_files", "load_eleven_false")], "linspace with integers is taken as exact division rounded down."),
 "C471": ("proved", [ESO+x for x in ("zodi_index", "moon_index")], "Spectra are not in the model, only the keys of the rows."),
 "C472": ("proved", [ESO+x for x in ("templates_read", "zodi_latitude", "zodi_latitude_false")], "Stated as it is; angles in degrees."),
 "C473": ("partial", [ESO+x for x in ("allSky_rows", "allSky_mjd", "allSky_date_false", "diode_rows", "diode_default")], "The argument is not a date. Rounding of the time to six decimals in the query of diode_sky_db is left out."),
 "C474": ("proved", [ESO+x for x in ("images_spec", "images_sound")], "The distance and the test for a point in a polygon are arbitrary functions."),
 "C475": ("proved", [HGP+x for x in ("civil_spec", "civil_noon")], "From the time of the clock; the offset from UTC is constant."),
 "C476": ("partial", [HGP+x for x in ("solar_partial", "solar_row", "solar_false")], "The row is wrong between the noon of the clock and the mean solar noon. UT1 = UTC."),
 "C477": ("partial", [HGP+x for x in ("row_eq", "month_partial", "month_disjoint", "month_cover", "month_row_false")], "Proved away from noon; refuted next to it."),
 "C478": ("partial", [HGP+x for x in ("mapColors_equal", "mapColors_partial", "yearColors_limits", "yearColors_error", "yearColors_bar_false", "yearColors_none_false")], "Proved for given limits and months with different values; refuted otherwise. The colour map itself is not modelled."),
 "C479": ("partial", [HGP+x for x in ("categoryColors_partial", "categoryColors_gray", "monthMaps_assigned", "monthMaps_false")], "use_colors is empty, as in the calls of the plots. Colours that are not assigned differ between months."),
 "C480": ("proved", [HGP+x for x in ("legend_wanted", "legend_all")], "Handles are arbitrary values."),
 "C481": ("proved", [HGP+"lines_spec"], "The days of the points go with their hours in the same way and are left out."),
 "C482": ("proved", [HGP+x for x in ("transit_step", "transit_exact", "transit_moon")], "The hour angle is taken as linear in time."),
 "C483": ("partial", [HGP+x for x in ("rows_agree", "rows_shift", "rows_false")], "True exactly for y_min = 1/2."),
 "C484": ("proved", [HGP+"plot_kind"], "Stated as it is."),
 "C485": ("partial", [BNS+x for x in ("stackers_spec", "summary_spec", "plotters_partial", "plotters_false")], "One plotter, which the documentation allows, is a TypeError."),
 "C486": ("partial", [BNS+x for x in ("setPlot_spec", "setPlot_good", "reducedPlot_spec", "reducedPlot_title_false")], "The title and labels of the parent are kept, which the comment excludes."),
 "C487": ("partial", [BNS+x for x in ("display_entry", "display_caption", "displays_keys", "caption_spec", "caption_none", "display_none_false", "caption_stale_false", "reduced_display")], "Numbers in captions are texts. Refuted for later changes of the plot dictionary and for None."),
 "C488": ("partial", [BNS+x for x in ("label_given", "label_chars", "label_band", "label_equals", "label_collides_false", "label_blanks_false")], "Refuted for several blanks and different constraints."),
 "C489": ("partial", [BNS+x for x in ("round_trip", "round_root", "made_root", "round_units", "round_units_false")], "The format of the file is not modelled here (C200). The units are lost."),
 "C490": ("partial", [BNS+x for x in ("db_file_partial", "db_row_stays", "db_suffix_false", "db_display_first")], "Proved without suffix and for a new row."),
 "C491": ("partial", [BNS+x for x in ("plot_spec", "plot_given", "plot_false")], "A given plotter is an AttributeError."),
 "C492": ("proved", [BNS+x for x in ("current_spec", "cols_spec", "partition", "runAll_once")], "All constraints have data; names and file roots of reduced bundles are not keys of the group."),
 "C493": ("partial", [BNS+x for x in ("reduced_partial", "reduced_named", "reduced_false")], "Proved for new and different names, and for one bundle whose name is there."),
 "C494": ("proved", [BNS+x for x in ("plots_spec", "plots_stop")], "plot_all itself is not modelled here."),
 "C495": ("partial", [SKP+x for x in ("circle_same_points", "circle_no_jumps_partial", "circle_no_jumps_false", "bearings_mem", "bearings_end_partial", "bearings_past", "bearings_end_false")], "The position of the points (astropy) is not modelled; bearings are whole degrees."),
 "C496": ("proved", [SKP+x for x in ("subplot_forms", "skyproj_reused", "skyproj_distinct")], "Figures stay in use, so that the weak references do not go."),
 "C497": ("partial", [SKP+x for x in ("healpix_length", "healpix_pixel_partial", "healpix_masked_false", "healpix_sum")], "_healbin of rubin_scheduler is modelled from its use. Refuted for masked points."),
 "C498": ("proved", [SKP+x for x in ("scale_log", "scale_asked", "scale_limits", "drawn_above", "drawn_all", "colorbar_fits")], "The norm is a text; orientations are in small letters."),
 "C499": ("proved", [SKP+x for x in ("init_old_gone", "init_new", "init_other", "init_all_or_nothing", "old_header")], "The values and the mask are passed on as they are."),
 "C500": ("proved", [SKP+x for x in ("radar_even", "radar_range", "radar_distinct", "radar_top", "radar_closed", "radar_one", "radar_frame", "radar_frame_top", "radar_colours")], "Drawing is not modelled."),
 "C501": ("partial", [SKP+x for x in ("oned_points", "bins_lengths", "oned_ymin_given", "oned_ymin_zero_partial", "oned_ymin_zero_false", "oned_colour", "oned_defaults_false")], "The mask is an array of the length of the values."),
 "C502": ("partial", [SKP+x for x in ("neo_count", "nearest_iff", "neo_outward", "neo_cover", "neo_apart_false")], "An object exactly between two directions, which is an exception, is left out."),
 "C503": ("partial", [SKP+x for x in ("dl_skip", "dl_all", "dl_content", "dl_dir", "dl_returns", "dl_metadata_false")], "The network always answers; directories are made."),
 "C504": ("partial", [SKP+x for x in ("table_subset", "table_none", "table_none_false", "table_no_summary")], "Rows and rounding are not modelled."),
 "C505": ("partial", [SKP+x for x in ("plot_runs", "plot_no_summary_false", "plot_missing_run")], "plot_run_metric is not modelled here."),
 "C506": ("proved", [BT2+x for x in ("squeeze_split", "root_metric", "root_info", "root_run", "root_slicer", "makeDict_eq")], ""),
 "C507": ("proved", [BT2+x for x in ("band_root", "perBand_dict", "altaz_dict", "seasons_dict")], "The condition per band is not part of the names."),
 "C508": ("partial", [BT2+x for x in ("timeGaps_dict", "timeGaps_subgroup_partial", "timeGaps_subgroup_false")], "Missing: the subgroup of the single bands (timeGaps_subgroup_false)."),
 "C509": ("partial", [BT2+x for x in ("metadata_dict_partial", "metadata_dict_false")], "For valueName=None and slicers whose four letters stay as they are in file names. Missing: UniSlicer (metadata_dict_false)."),
 "C510": ("proved", [BT2+x for x in ("slew_dict", "slew_label", "slew_label_false")], "Stated as it is."),
 "C511": ("proved", [BT2+x for x in ("changes_dict", "whole_name_false", "change_label")], "Stated as it is."),
 "C512": ("partial", [BT2+x for x in ("shutter_dict", "fullRange_nights", "nights_false")], "Missing: the number of nights from start to finish (nights_false)."),
 "C513": ("partial", [BT2+x for x in ("lightcurve_spec", "lightcurve_fractions", "lightcurve_empty", "lightcurve_total_false")], "Missing: an empty footprint (lightcurve_total_false)."),
 "C514": ("partial", [BT2+x for x in ("micro_error", "micro_fraction_partial", "micro_more_false", "micro_total")], "Missing: equality (micro_more_false). All values are finite."),
 "C515": ("proved", [SDC+x for x in ("generate_lookup",)], "Paths do not end in a slash."),
 "C516": ("partial", [SDC+x for x in ("validate_partial", "fresh_valid_partial", "fresh_valid_false")], "Missing: relative paths (fresh_valid_false)."),
 "C517": ("partial", [SDC+x for x in ("refused", "refused_false")], "Stated as it is; missing: the claim itself (refused_false)."),
 "C518": ("partial", [SDC+x for x in ("reuse_iff", "reuse_exact", "reuse_false")], "Missing: paths with white space (reuse_false)."),
 "C519": ("proved", [SDC+x for x in ("find_class", "load_refused", "load_written", "second_call")], "Where numpy 2 keeps _reconstruct is not part of the repository."),
 "C520": ("partial", [SDC+x for x in ("stale", "stale_false")], "Missing: updates in the same directory (stale_false)."),
 "C521": ("proved", [SDC+x for x in ("limits",)], "For a call that generates the cache; one that reads it applies the same function."),
 "C522": ("partial", [SDC+x for x in ("eq_iff_partial", "eq_symm_false")], "Missing: an empty flux (eq_symm_false)."),
 "C523": ("partial", [SDC+x for x in ("cleared_iff", "cleared_badval", "zeropoints", "cleared_false")], "Missing: the zeropoint (cleared_false)."),
 "C524": ("proved", [SDC+x for x in ("parse_name",)], "Conversion of digits to numbers is not modelled."),
 "C525": ("proved", [SDC+x for x in ("match_closest",)], ""),
 "C526": ("partial", [SDC+x for x in ("close_raises", "close_false", "stored_iff")], "Missing: any result (close_false)."),
 "C527": ("partial", [SDC+x for x in ("setup_phi", "setup_phi_false")], "Missing: ranges that exceed whole steps by at most half a step (setup_phi_false). A grid of one wavelength, which numpy would repeat, is left out."),
 "C528": ("proved", [SDC+x for x in ("segments_spec", "metric_segments")], ""),
    "C529": ("partial", [SKS+x for x in ("computed_keys", "computed_last", "computed_fresh_partial", "computed_fresh_false", "computed_mixed", "computed_refused", "computed_moon")], "Exactly for calls with coordinates that are not refused, with twilight, moon and zodiacal light on. Missing: set_params and components that are off (computed_fresh_false)."),
    "C530": ("proved", [SKS+x for x in ("recalc_file", "recalc_idem", "recalc_extra", "recalc_files")], "calc_mag is a parameter."),
    "C531": ("partial", [SKS+x for x in ("nearestIn_spec", "lastBin_spec", "enquiry_outside", "enquiry_partial", "enquiry_bands", "enquiry_false")], "When the table has all pairs of times. Missing: tables without some (enquiry_false)."),
    "C532": ("proved", [SKS+x for x in ("presto_run",)], "The scores of a light curve are a parameter; see C329 for them."),
    "C533": ("proved", [SKS+x for x in ("dms_spec", "telescopes_spec", "telescopes_mono", "telescopes_total", "places_nonzero")], ""),
    "C534": ("proved", [SKS+x for x in ("createSubset_spec", "createSubset_total")], ""),
    "C535": ("proved", [SKS+x for x in ("familyCols_spec",)], ""),
    "C536": ("proved", [SKS+x for x in ("gatherOut_spec",)], ""),
    "C537": ("proved", [SKS+x for x in ("pointing_spec", "pointing_other", "track_spec")], ""),
    "C538": ("proved", [SKS+x for x in ("xyDict_spec",)], ""),
    "C539": ("partial", [SKS+x for x in ("stamp_partial", "stamp_arg", "stamp_missing", "stamp_false")], "For tables of pandas and arrays. Missing: dictionaries (stamp_false)."),
    "C540": ("proved", [SKS+x for x in ("power_spec",)], ""),
    "C541": ("proved", [SKS+x for x in ("strip_marks", "strip_spec")], ""),
    "C542": ("proved", [SKS+x for x in ("probes_perm", "probes_spec")], "The emulator is a parameter, and so is the median, of which only that order does not matter is used."),
    "C543": ("partial", [SKS+x for x in ("ecliptic_partial", "ecliptic_false")], "At equinoxes and solstices, with sign and range elsewhere. Missing: all other points (ecliptic_false)."),
    "C544": ("proved", [SKS+x for x in ("zone_spec",)], ""),
    "C545": ("partial", [SKS+x for x in ("paths_spec", "paths_doc_false")], "One row for each satellite. Missing: the documented shape (paths_doc_false)."),
    "C546": ("proved", [SKS+x for x in ("dustKeys_spec", "dustLook_spec")], ""),
    "C547": ("partial", [BT3+x for x in ("rapid_spec", "rapid_partial", "rapid_false")], "What the metric computes exactly; one means that the requirement is met if no two visits are nearer than 40 seconds. Missing: shorter times, and the converse (rapid_false)."),
    "C548": ("partial", [BT3+x for x in ("area_spec", "area_partial", "area_false")], "When every pixel has visits. Missing: pixels without, where it is always too large (area_false)."),
    "C549": ("partial", [BT3+x for x in ("parallax_percentile_partial", "motion_percentile", "motion_percentile_false")], "For the parallax. Missing: the proper motion (motion_percentile_false)."),
    "C550": ("partial", [BT3+x for x in ("y_partial", "y_false")], "For the column filter and conditions without or outside of brackets. Missing: all others (y_false)."),
    "C551": ("proved", [BT3+x for x in ("first_year",)], "night is a whole number. An empty text as extra condition, which is not None, is not a condition that means anything and not covered."),
    "C552": ("partial", [BT3+x for x in ("ddf_extra_partial", "ddf_extra_general", "ddf_extra_false")], "For the metrics other than the four, with a condition without or outside of brackets. Missing: these four (ddf_extra_false)."),
    "C553": ("partial", [BT3+x for x in ("season_bundles", "median_season_false", "labels_partial")], "For the other metrics of a field. Missing: the median season length (median_season_false)."),
    "C554": ("partial", [BT3+x for x in ("field_band", "field_all_partial", "field_all_false")], "For each band, and for all bands with a condition without or outside of brackets. Missing: conditions with or (field_all_false)."),
    "C555": ("proved", [BT3+x for x in ("point_slicer_false", "wfd_all_visits")], "The defect, stated as it is."),
    "C556": ("proved", [BT3+x for x in ("field_pixels",)], "The test of the distance is a parameter."),
    "C557": ("partial", [BT3+x for x in ("teff_partial", "teff_bands", "teff_uni_false", "teff_night_false")], "Different names with another slicer than UniSlicer. Missing: a bundle per night (teff_night_false), a UniSlicer (teff_uni_false)."),
    "C558": ("proved", [BT3+x for x in ("phase_gap_false", "phase_gap_keywords")], "The defect, stated as it is."),
    "C559": ("partial", [BT3+x for x in ("replaced_partial", "replaced_false")], "When the name of the column does not occur before its place. Missing: when it does (replaced_false)."),
    "C560": ("proved", [ODD+x for x in ("comments_spec", "comments_mem")], "Up to the order of the rows, which SQL does not fix. Constraints of the tables are not modelled."),
    "C561": ("proved", [ODD+x for x in ("versions_all", "versions_mem", "versions_order")], "The order if each package is recorded once for the simulation."),
    "C562": ("proved", [ODD+x for x in ("written_inj", "prenight_spec")], "For the same destination, and names of telescopes that are single names of directories. JSON is not modelled."),
    "C563": ("partial", [ODD+x for x in ("throughput_back_partial", "throughput_header_raises", "throughput_back_false")], "Without header or with a header of one line. Missing: headers of several lines (throughput_back_false)."),
    "C564": ("proved", [ODD+x for x in ("tdc_cadence", "tdc_season", "tdc_shallow", "tdc_given")], "For visits in the order of time; the metrics compared have a shortest exposure time that all visits meet."),
    "C565": ("proved", [ODD+x for x in ("tdc_pos", "tdc_faster", "tdc_longer", "tdc_campaign", "tdc_norm")], "Over the real numbers."),
    "C566": ("proved", [ODD+x for x in ("withStat_spec", "withAny_spec", "withAny_union")], ""),
    "C567": ("proved", [ODD+x for x in ("nameLabels_spec", "nameLabels_first")], ""),
    "C568": ("proved", [ODD+x for x in ("snr_spec", "snr_perm", "snr_dims")], "The error before the random factor."),
    "C569": ("partial", [ODD+x for x in ("clouds_clear_partial", "clouds_raises", "clouds_false")], "Under a clear sky. Missing: clouds (clouds_false); the class says that it is not fully implemented."),
    "C570": ("proved", [ODD+x for x in ("galaxyCounts_raises", "galaxyCounts_false")], "The defect, stated as it is."),
    "C571": ("proved", [ODD+x for x in ("lmxb_spec", "lmxb_periods", "lmxb_near", "lmxb_brighter")], "Over the real numbers; random numbers are parameters."),
    "C572": ("proved", [MBT+x for x in ("batches", "root_ne")], "File names as in C506; children of the bundles are not modelled."),
    "C573": ("proved", [MBT+x for x in ("window_mono", "quick_nested")], "For any order of the rows."),
    "C574": ("partial", [MBT+x for x in ("nested", "four_nested", "single_pair", "single_nested", "triplets_false")], "False of triplets (triplets_false): they may take 120 minutes, pairs 90. For rows in order of time, because of C112."),
    "C575": ("partial", [MBT+x for x in ("snr_partial", "snr_false")], "False in general (snr_false)."),
    "C576": ("partial", [MBT+x for x in ("single_night", "single_iff", "single_misses", "single_le_pair", "single_false")], "False (single_false); what is counted is single_iff."),
    "C577": ("partial", [MBT+x for x in ("char_iff", "char_partial", "char_default", "fmt0_near", "char_false")], "False of windows with the same rounding (char_false). Windows and bins are not negative."),
    "C578": ("partial", [MBT+x for x in ("over_time_partial", "against_h", "has_iff", "mem_all", "over_time_false", "all_false")], "False with Time in other parts of a key (over_time_false) and of all curves (all_false). Plotting itself is not modelled."),
    "C579": ("proved", [MNZ+x for x in ("lambert_area", "lambert_dist", "lambert_inj", "lambert_north", "lambert_inside")], "Real numbers instead of floats."),
    "C580": ("partial", [MNZ+x for x in ("run_year", "year_error", "year_false")], "False as documented (year_false): the table of the following year is used (run_year)."),
    "C581": ("partial", [MNZ+x for x in ("run_partial", "lineFit_sum", "lineFit_length", "far_error", "far_false")], "False with bins beyond the limit (far_false, far_error). The scatter of depths and the curve are parameters."),
    "C582": ("proved", [MNZ+x for x in ("run_scale", "run_uniform", "lineFit_scale")], "The scatter of depths is a parameter."),
    "C583": ("proved", [MNZ+x for x in ("apply_array", "apply_one")], "Conversion to the dtype of the metric is not modelled."),
    "C584": ("proved", [MNZ+x for x in ("restart_error",)], "A statement on two constant lists of names, evaluated by the kernel."),
    "C585": ("proved", [SPL+x for x in ("mesh_cells", "mesh_T", "limits_spec")], "The normalisation is a parameter (C280). Limits given as a list and automatic limits are not modelled."),
    "C586": ("partial", [SPL+x for x in ("uncert_sep", "uncert_common", "palette_user", "palette_after", "palette_false", "dash_false", "style_false")], "False in part (palette_false, dash_false, style_false); what is drawn is uncert_sep and uncert_common. What matplotlib accepts as colours, lines and markers is not modelled."),
    "C587": ("proved", [SPL+x for x in ("shade_spec", "shade_none")], "Limits of the axes are a parameter."),
    "C588": ("partial", [SPL+x for x in ("lines_partial", "lines_single", "lines_key", "lines_false")], "False of families with one run (lines_false, lines_single). That pandas gives a row, not a table, for a label that occurs once is part of the model."),
    "C589": ("partial", [SHS+x for x in ("value_at", "values_length", "later", "alone_partial", "alone_order_partial", "harmless_iff", "harmless_order_iff", "dust_false", "clip_false")], "False: the metrics of dust_false and clip_false of the package change the values of others. Right for bundles after metrics that do not write (alone_partial) or only reorder (alone_order_partial). C11 and C12 are about metrics that do not write. Exceptions and the cache are not modelled here."),
    "C590": ("partial", [SHS+x for x in ("addDust_eq", "snn_alone", "dust_adds", "dust_false", "snn_harmless_partial")], "False for other bundles (dust_false, dust_adds); the metric alone is right (snn_alone). A band without an extinction, a KeyError, is not modelled."),
    "C591": ("partial", [SHS+x for x in ("clip_adds", "clip_false", "clip_harmless_partial")], "False for other bundles (clip_false, clip_adds); the metric alone is C95 and C96."),
    "C592": ("proved", [SHS+x for x in ("slices_alone", "slice_none", "reading_harmless", "sorting_harmless", "sort_eq", "sorting_alone")], "That indexing with numbers or truth values is a copy is part of the model."),
    "C593": ("partial", [NST+x for x in ("sims_partial", "sims_age", "sims_no_tags_false")], "False without tags (sims_no_tags_false). The default of the date is not modelled (C40)."),
    "C594": ("partial", [NST+x for x in ("stats_none", "stats_rows", "objectAgg_mem", "stats_all_partial", "stats_all_false")], "False for statistics of both kinds (stats_all_false). The package itself writes only statistics that are not accumulated. That the last value of a key is kept by JSONB_OBJECT_AGG is part of the model."),
    "C595": ("partial", [OPL+x for x in ("digitize_iff", "inBin_unique", "inBin_exists", "cells_spec", "ownVals_length", "own_all_partial", "own_false")], "False for objects with an H each (own_false). The drawing itself, filling of masked values and the choice of bins (C383) are not modelled."),
    "C596": ("partial", [OPL+x for x in ("points_iff", "points_own_false")], "False for objects with an H each (points_own_false)."),
    "C597": ("partial", [OPL+x for x in ("mark_iff", "mark_false", "dict_same")], "False for the key of the batches (mark_false, dict_same). The value of the completeness at the mark is C407."),
    "C598": ("partial", [CFT+x for x in ("search_iff", "calc_length_iff", "given_iff", "guess_bounds", "length_error_false")], "False for the error (length_error_false). The residual is that of one object; for several the code takes a percentile, so that some may have larger ones. Rounding of lengths is C62."),
    "C599": ("partial", [CFT+x for x in ("segments_good_partial", "subdivide_good", "subdivide_ends", "no_length_false")], "False for segments without a length (no_length_false). Ends of segments are taken as exact; the grid of times is C36. subdivide_ends needs residuals that grow with the length."),
    "C600": ("partial", [CFT+x for x in ("rows", "vmag_false", "failed_false")], "False for the magnitude (vmag_false) and for names (failed_false)."),
    "C601": ("partial", [CFT+x for x in ("append_false", "write_partial")], "False with append (append_false). The format of numbers is not modelled."),
    "C602": ("proved", [SRS+x for x in ("run_some_iff", "number_sum", "zlim_bounds", "bad_season", "order_free", "reductions", "median_perm", "median_bounds")], "Redshift limits and numbers of a season are parameters here."),
    "C603": ("partial", [SRS+x for x in ("seasonZ_pos", "checkDur_iff", "number_nonneg_partial", "sentinel_false")], "False for the sentinel (sentinel_false)."),
    "C604": ("proved", [SPT+x for x in ("point_iff", "point_row", "length_le")], "Interpolated fluxes and rounding of redshifts are parameters."),
    "C605": ("proved", [SPT+x for x in ("snr_floor", "cut_void", "snr_lt_five", "cut_five", "before_after", "before_time")], "The documentation of SNNSNMetric names 5 as the default; the code has 1. Stated as it is."),
    "C606": ("partial", [TWS+x for x in ("ratio_between", "ratio_red", "ratio_blue", "blue_negative", "nonneg_false")], "Not negative is false (nonneg_false). Fluxes in filters are parameters."),
    "C607": ("partial", [TWS+x for x in ("spec_points", "high_sun", "alone_false")], "False with the sun above the limit (alone_false, high_sun)."),
    "C608": ("proved", [MNL+x for x in ("value_mean", "value_sum", "pixel_node", "pixel_bounds")], "Neighbours of a point on the sphere are an input; interpolation in one dimension is that of C272."),
    "C609": ("partial", [MNL+x for x in ("one_moon", "high_moon", "alone_false")], "False for calls with several altitudes of the moon (alone_false), and above the grid (high_moon)."),
    "C610": ("proved", [PNM+x for x in ("title_shared", "title_joint")], "Joint names are those of another property."),
    "C611": ("partial", [PNM+x for x in ("legend_changing", "legend_each", "distinct_partial", "distinct_false")], "False for names with blanks (distinct_false)."),
    "C612": ("partial", [FCL+x for x in ("no_color", "asteroid_distinct", "default_blue", "outer_partial", "outer_false")], "False for the fraction with three filters (outer_false)."),
    "C613": ("partial", [HCV+x for x in ("median_half", "clone_curve", "curves_values", "curves_ordered", "own_error")], "Right with cloned H; false for objects with their own H (own_error)."),
    "C614": ("partial", [HCV+x for x in ("one_first", "one_row", "reduced_partial", "reduced_false")], "False with one H for several objects (reduced_false)."),
}
