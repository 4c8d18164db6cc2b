{
"Verif.Archive.add_file_other_sequence": [
"propext",
"Quot.sound"
],
"Verif.Archive.archive_integrity_partial": [
"propext",
"Quot.sound"
],
"Verif.Archive.concurrent_tag_duplicates": [
"propext",
"Classical.choice",
"Quot.sound"
],
"Verif.Archive.concurrent_tag_holds": [
"propext",
"Quot.sound"
],
"Verif.Archive.concurrent_untag_removes": [
"propext",
"Quot.sound"
],
"Verif.Archive.conda_checked_false": [
"propext"
],
"Verif.Archive.conda_lone_arguments": [
"propext"
],
"Verif.Archive.conda_no_value_error": [
"propext"
],
"Verif.Archive.conda_recorded_partial": [
"propext",
"Quot.sound"
],
"Verif.Archive.crash_breaks": [
"propext"
],
"Verif.Archive.creation_day_noon": [
"propext",
"Classical.choice",
"Quot.sound"
],
"Verif.Archive.daily_id_after_adding": [
"propext",
"Classical.choice",
"Quot.sound"
],
"Verif.Archive.daily_id_rank": [
"propext",
"Classical.choice",
"Quot.sound"
],
"Verif.Archive.daily_id_stable": [
"propext",
"Classical.choice",
"Quot.sound"
],
"Verif.Archive.daily_id_tie": [
"propext",
"Classical.choice",
"Quot.sound"
],
"Verif.Archive.daily_id_unique": [
"propext",
"Classical.choice",
"Quot.sound"
],
"Verif.Archive.daily_ids": [
"propext",
"Quot.sound"
],
"Verif.Archive.failed_record_leaves_row": [],
"Verif.Archive.files_registered": [
"propext",
"Quot.sound"
],
"Verif.Archive.findable_false": [
"propext",
"Quot.sound"
],
"Verif.Archive.findable_partial": [
"propext",
"Classical.choice",
"Quot.sound"
],
"Verif.Archive.get_sim_uuid_spec": [
"propext",
"Classical.choice",
"Quot.sound"
],
"Verif.Archive.missing_index_fails": [
"propext",
"Quot.sound"
],
"Verif.Archive.name_clash_breaks": [
"propext"
],
"Verif.Archive.record_complete_partial": [
"propext",
"Quot.sound"
],
"Verif.Archive.record_keeps_ok": [
"propext",
"Quot.sound"
],
"Verif.Archive.record_not_atomic": [
"propext"
],
"Verif.Archive.refused_add_breaks": [
"propext",
"Quot.sound"
],
"Verif.Archive.register_fails_iff": [
"propext",
"Quot.sound"
],
"Verif.Archive.select_latest": [
"propext",
"Classical.choice",
"Quot.sound"
],
"Verif.Archive.select_none_iff": [
"propext",
"Classical.choice",
"Quot.sound"
],
"Verif.Archive.sims_exact_false": [
"propext",
"Classical.choice",
"Quot.sound"
],
"Verif.Archive.sims_on_nights_partial": [
"propext",
"Classical.choice",
"Quot.sound"
],
"Verif.Archive.sims_on_nights_untagged": [
"propext",
"Classical.choice",
"Quot.sound"
],
"Verif.Archive.tags_set": [
"propext",
"Classical.choice",
"Quot.sound"
],
"Verif.Archive.untag_spec": [
"propext",
"Quot.sound"
],
"Verif.Archive.url_round_trip": [
"propext",
"Classical.choice",
"Quot.sound"
],
"Verif.Archive.yaml_creation_time_ignored": [
"propext",
"Classical.choice",
"Quot.sound"
],
"Verif.Archive.yaml_creation_time_lost": [
"propext",
"Classical.choice",
"Quot.sound"
],
"Verif.Archive.yaml_dates_lost": [
"propext",
"Classical.choice",
"Quot.sound"
],
"Verif.Archive.yaml_round_trip_iff": [
"propext",
"Classical.choice",
"Quot.sound"
],
"Verif.Archive.yaml_round_trip_partial": [
"propext",
"Classical.choice",
"Quot.sound"
],
"Verif.Area.areaSummary_decreasing": [
"propext",
"Classical.choice",
"Quot.sound"
],
"Verif.Area.areaSummary_increasing": [
"propext",
"Classical.choice",
"Quot.sound"
],
"Verif.Area.areaSummary_short": [
"propext",
"Classical.choice",
"Quot.sound"
],
"Verif.Area.foArea_bad": [
"propext",
"Classical.choice",
"Quot.sound"
],
"Verif.Area.foNv_bad": [
"propext",
"Classical.choice",
"Quot.sound"
],
"Verif.Area.foNv_foArea": [
"propext",
"Classical.choice",
"Quot.sound"
],
"Verif.Area.foNv_median": [
"propext",
"Classical.choice",
"Quot.sound"
],
"Verif.Area.footprint_spec": [
"propext",
"Classical.choice",
"Quot.sound"
],
"Verif.Area.threshold_all": [
"propext",
"Classical.choice",
"Quot.sound"
],
"Verif.Area.threshold_false": [
"propext",
"Classical.choice",
"Quot.sound"
],
"Verif.Area.threshold_partial": [
"propext",
"Classical.choice",
"Quot.sound"
],
"Verif.Astro.astrom_bounds": [
"propext",
"Classical.choice",
"Quot.sound"
],
"Verif.Astro.astrom_mono": [
"propext",
"Classical.choice",
"Quot.sound"
],
"Verif.Astro.coverage_range": [
"propext",
"Classical.choice",
"Quot.sound"
],
"Verif.Astro.coverage_spec": [
"propext",
"Classical.choice",
"Quot.sound"
],
"Verif.Astro.dcr_spec": [
"propext",
"Classical.choice",
"Quot.sound"
],
"Verif.Astro.declared_false": [
"propext"
],
"Verif.Astro.declared_partial": [
"propext"
],
"Verif.Astro.degen_spec": [
"propext",
"Classical.choice",
"Quot.sound"
],
"Verif.Astro.m52snr_default": [
"propext",
"Classical.choice",
"Quot.sound"
],
"Verif.Astro.m52snr_limit": [
"propext",
"Classical.choice",
"Quot.sound"
],
"Verif.Astro.m52snr_mono": [
"propext",
"Classical.choice",
"Quot.sound"
],
"Verif.Astro.optimal_sign": [
"propext",
"Classical.choice",
"Quot.sound"
],
"Verif.Astro.optimal_spec": [
"propext",
"Classical.choice",
"Quot.sound"
],
"Verif.Astro.parallaxNorm_spec": [
"propext",
"Classical.choice",
"Quot.sound"
],
"Verif.Astro.parallax_spec": [
"propext",
"Classical.choice",
"Quot.sound"
],
"Verif.Astro.pm_norm_best": [
"propext",
"Classical.choice",
"Quot.sound"
],
"Verif.Astro.pm_norm_false": [
"propext",
"Classical.choice",
"Quot.sound"
],
"Verif.Astro.pm_norm_order": [
"propext",
"Classical.choice",
"Quot.sound"
],
"Verif.Astro.pm_norm_partial": [
"propext",
"Classical.choice",
"Quot.sound"
],
"Verif.Astro.pm_spec": [
"propext",
"Classical.choice",
"Quot.sound"
],
"Verif.Astro.radius_spec": [
"propext",
"Classical.choice",
"Quot.sound"
],
"Verif.Astro.radius_units_false": [
"propext",
"Classical.choice",
"Quot.sound"
],
"Verif.Astro.sigmaSlope_more": [
"propext",
"Classical.choice",
"Quot.sound"
],
"Verif.Astro.sigmaSlope_nan_iff": [
"propext",
"Classical.choice",
"Quot.sound"
],
"Verif.Astro.sigmaSlope_spec": [
"propext",
"Classical.choice",
"Quot.sound"
],
"Verif.Astro.snr_weighted_spec": [
"propext",
"Classical.choice",
"Quot.sound"
],
"Verif.Astro.theta_accept": [
"propext",
"Classical.choice",
"Quot.sound"
],
"Verif.Astro.theta_check_partial": [
"propext",
"Classical.choice",
"Quot.sound"
],
"Verif.Astro.theta_reject": [
"propext",
"Classical.choice",
"Quot.sound"
],
"Verif.Astro.weightedR_spec": [
"propext",
"Classical.choice",
"Quot.sound"
],
"Verif.Astro.wraparound_false": [
"propext",
"Classical.choice",
"Quot.sound"
],
"Verif.Bandpass.eff_eq": [
"propext",
"Classical.choice",
"Quot.sound"
],
"Verif.Bandpass.eff_spec": [
"propext",
"Classical.choice",
"Quot.sound"
],
"Verif.Bandpass.halfGrid_spec": [
"propext",
"Classical.choice",
"Quot.sound"
],
"Verif.Bandpass.halfGrid_whole": [
"propext",
"Classical.choice",
"Quot.sound"
],
"Verif.Bandpass.imsim_false": [
"propext",
"Classical.choice",
"Quot.sound"
],
"Verif.Bandpass.imsim_partial": [
"propext",
"Quot.sound"
],
"Verif.Bandpass.imsim_unique": [
"propext",
"Classical.choice",
"Quot.sound"
],
"Verif.Bandpass.interp0_bounds": [
"propext",
"Classical.choice",
"Quot.sound"
],
"Verif.Bandpass.interp0_node": [
"propext",
"Classical.choice",
"Quot.sound"
],
"Verif.Bandpass.interp0_outside": [
"propext",
"Classical.choice",
"Quot.sound"
],
"Verif.Bandpass.list_perm": [
"propext",
"Classical.choice",
"Quot.sound"
],
"Verif.Bandpass.list_range": [
"propext",
"Classical.choice",
"Quot.sound"
],
"Verif.Bandpass.list_spec": [
"propext",
"Classical.choice",
"Quot.sound"
],
"Verif.Bandpass.multiply_false": [
"propext",
"Classical.choice",
"Quot.sound"
],
"Verif.Bandpass.multiply_partial": [
"propext",
"Classical.choice",
"Quot.sound"
],
"Verif.Bandpass.read_none": [
"propext",
"Quot.sound"
],
"Verif.Bandpass.read_perm": [
"propext",
"Classical.choice",
"Quot.sound"
],
"Verif.Bandpass.read_spec": [
"propext",
"Classical.choice",
"Quot.sound"
],
"Verif.Bandpass.resample_range": [
"propext",
"Classical.choice",
"Quot.sound"
],
"Verif.Bandpass.resample_self": [
"propext",
"Classical.choice",
"Quot.sound"
],
"Verif.Bandpass.resample_spec": [
"propext",
"Classical.choice",
"Quot.sound"
],
"Verif.BaseM.addAll_ok_iff": [
"propext",
"Quot.sound"
],
"Verif.BaseM.all_ordered_false": [
"propext",
"Classical.choice",
"Quot.sound"
],
"Verif.BaseM.all_reduced_false": [
"propext",
"Classical.choice",
"Quot.sound"
],
"Verif.BaseM.base_map_false": [
"propext",
"Classical.choice",
"Quot.sound"
],
"Verif.BaseM.colInfo_spec": [
"propext",
"Quot.sound"
],
"Verif.BaseM.dtype_spec": [
"propext",
"Classical.choice",
"Quot.sound"
],
"Verif.BaseM.file_false": [
"propext",
"Classical.choice",
"Quot.sound"
],
"Verif.BaseM.file_partial": [
"propext",
"Classical.choice",
"Quot.sound"
],
"Verif.BaseM.found_false": [
"propext",
"Classical.choice",
"Quot.sound"
],
"Verif.BaseM.found_partial": [
"propext",
"Classical.choice",
"Quot.sound"
],
"Verif.BaseM.fullName_dotted": [
"propext",
"Quot.sound"
],
"Verif.BaseM.fullName_inside": [
"propext",
"Quot.sound"
],
"Verif.BaseM.fullName_single": [
"propext",
"Quot.sound"
],
"Verif.BaseM.gaps_order_false": [
"propext",
"Classical.choice",
"Quot.sound"
],
"Verif.BaseM.metric_spec": [
"propext",
"Classical.choice",
"Quot.sound"
],
"Verif.BaseM.name_spec": [
"propext",
"Classical.choice",
"Quot.sound"
],
"Verif.BaseM.once_spec": [
"propext",
"Quot.sound"
],
"Verif.BaseM.readAll_spec": [
"propext",
"Classical.choice",
"Quot.sound"
],
"Verif.BaseM.readAll_values": [
"propext",
"Classical.choice",
"Quot.sound"
],
"Verif.BaseM.read_back_false": [
"propext",
"Classical.choice",
"Quot.sound"
],
"Verif.BaseM.reduced_partial": [
"propext",
"Classical.choice",
"Quot.sound"
],
"Verif.BaseM.reduces_partial": [
"propext",
"Classical.choice",
"Quot.sound"
],
"Verif.BaseM.reg_spec": [
"propext",
"Quot.sound"
],
"Verif.BaseM.removeFirst_suffix": [
"propext",
"Quot.sound"
],
"Verif.BaseM.slicer_inj": [
"propext",
"Quot.sound"
],
"Verif.BaseM.source_false": [
"propext",
"Classical.choice",
"Quot.sound"
],
"Verif.BaseM.source_partial": [
"propext",
"Classical.choice",
"Quot.sound"
],
"Verif.BaseM.unique_false": [
"propext",
"Classical.choice",
"Quot.sound"
],
"Verif.BaseM.units_false": [
"propext",
"Classical.choice",
"Quot.sound"
],
"Verif.BaseM.units_spec": [
"propext",
"Quot.sound"
],
"Verif.BaseM.units_unknown": [
"propext",
"Quot.sound"
],
"Verif.BaseM.visit_order": [
"propext",
"Classical.choice",
"Quot.sound"
],
"Verif.Batch2.altaz_dict": [
"propext",
"Classical.choice",
"Quot.sound"
],
"Verif.Batch2.band_root": [
"propext",
"Classical.choice",
"Quot.sound"
],
"Verif.Batch2.change_label": [
"propext"
],
"Verif.Batch2.changes_dict": [
"propext",
"Classical.choice",
"Quot.sound"
],
"Verif.Batch2.fullRange_nights": [
"propext",
"Classical.choice",
"Quot.sound"
],
"Verif.Batch2.lightcurve_empty": [
"propext",
"Classical.choice",
"Quot.sound"
],
"Verif.Batch2.lightcurve_fractions": [
"propext",
"Classical.choice",
"Quot.sound"
],
"Verif.Batch2.lightcurve_spec": [
"propext",
"Classical.choice",
"Quot.sound"
],
"Verif.Batch2.lightcurve_total_false": [
"propext",
"Classical.choice",
"Quot.sound"
],
"Verif.Batch2.makeDict_eq": [
"propext",
"Quot.sound"
],
"Verif.Batch2.metadata_dict_false": [
"propext",
"Classical.choice",
"Quot.sound"
],
"Verif.Batch2.metadata_dict_partial": [
"propext",
"Classical.choice",
"Quot.sound"
],
"Verif.Batch2.micro_error": [
"propext",
"Quot.sound"
],
"Verif.Batch2.micro_fraction_partial": [
"propext",
"Classical.choice",
"Quot.sound"
],
"Verif.Batch2.micro_more_false": [
"propext",
"Classical.choice",
"Quot.sound"
],
"Verif.Batch2.micro_total": [
"propext",
"Classical.choice",
"Quot.sound"
],
"Verif.Batch2.nights_false": [
"propext",
"Classical.choice",
"Quot.sound"
],
"Verif.Batch2.perBand_dict": [
"propext",
"Classical.choice",
"Quot.sound"
],
"Verif.Batch2.root_info": [
"propext",
"Quot.sound"
],
"Verif.Batch2.root_metric": [
"propext",
"Quot.sound"
],
"Verif.Batch2.root_run": [
"propext",
"Quot.sound"
],
"Verif.Batch2.root_slicer": [
"propext",
"Quot.sound"
],
"Verif.Batch2.seasons_dict": [
"propext",
"Classical.choice",
"Quot.sound"
],
"Verif.Batch2.shutter_dict": [
"propext",
"Classical.choice",
"Quot.sound"
],
"Verif.Batch2.slew_dict": [
"propext",
"Classical.choice",
"Quot.sound"
],
"Verif.Batch2.slew_label": [
"propext",
"Classical.choice",
"Quot.sound"
],
"Verif.Batch2.slew_label_false": [
"propext",
"Classical.choice",
"Quot.sound"
],
"Verif.Batch2.squeeze_split": [
"propext",
"Quot.sound"
],
"Verif.Batch2.timeGaps_dict": [
"propext",
"Classical.choice",
"Quot.sound"
],
"Verif.Batch2.timeGaps_subgroup_false": [
"propext",
"Classical.choice",
"Quot.sound"
],
"Verif.Batch2.timeGaps_subgroup_partial": [
"propext",
"Classical.choice",
"Quot.sound"
],
"Verif.Batch2.whole_name_false": [
"propext",
"Classical.choice",
"Quot.sound"
],
"Verif.Batch3.area_false": [
"propext",
"Classical.choice",
"Quot.sound"
],
"Verif.Batch3.area_partial": [
"propext",
"Classical.choice",
"Quot.sound"
],
"Verif.Batch3.area_spec": [
"propext",
"Classical.choice",
"Quot.sound"
],
"Verif.Batch3.ddf_extra_false": [
"propext"
],
"Verif.Batch3.ddf_extra_general": [
"propext",
"Quot.sound"
],
"Verif.Batch3.ddf_extra_partial": [
"propext",
"Quot.sound"
],
"Verif.Batch3.field_all_false": [
"propext"
],
"Verif.Batch3.field_all_partial": [
"propext"
],
"Verif.Batch3.field_band": [
"propext",
"Quot.sound"
],
"Verif.Batch3.field_pixels": [
"propext",
"Classical.choice",
"Quot.sound"
],
"Verif.Batch3.first_year": [
"propext",
"Classical.choice",
"Quot.sound"
],
"Verif.Batch3.labels_partial": [
"propext",
"Quot.sound"
],
"Verif.Batch3.median_season_false": [
"propext",
"Quot.sound"
],
"Verif.Batch3.motion_percentile": [
"propext",
"Classical.choice",
"Quot.sound"
],
"Verif.Batch3.motion_percentile_false": [
"propext",
"Classical.choice",
"Quot.sound"
],
"Verif.Batch3.parallax_percentile_partial": [
"propext",
"Classical.choice",
"Quot.sound"
],
"Verif.Batch3.phase_gap_false": [],
"Verif.Batch3.phase_gap_keywords": [],
"Verif.Batch3.point_slicer_false": [
"propext",
"Classical.choice",
"Quot.sound"
],
"Verif.Batch3.rapid_false": [
"propext",
"Classical.choice",
"Quot.sound"
],
"Verif.Batch3.rapid_partial": [
"propext",
"Classical.choice",
"Quot.sound"
],
"Verif.Batch3.rapid_spec": [
"propext",
"Classical.choice",
"Quot.sound"
],
"Verif.Batch3.replaced_false": [
"propext",
"Classical.choice",
"Quot.sound"
],
"Verif.Batch3.replaced_partial": [
"propext",
"Classical.choice",
"Quot.sound"
],
"Verif.Batch3.season_bundles": [
"propext",
"Quot.sound"
],
"Verif.Batch3.teff_bands": [
"propext",
"Classical.choice",
"Quot.sound"
],
"Verif.Batch3.teff_night_false": [
"propext",
"Classical.choice",
"Quot.sound"
],
"Verif.Batch3.teff_partial": [
"propext",
"Classical.choice",
"Quot.sound"
],
"Verif.Batch3.teff_uni_false": [
"propext",
"Classical.choice",
"Quot.sound"
],
"Verif.Batch3.wfd_all_visits": [
"propext",
"Quot.sound"
],
"Verif.Batch3.y_false": [
"propext",
"Classical.choice",
"Quot.sound"
],
"Verif.Batch3.y_partial": [
"propext",
"Quot.sound"
],
"Verif.Batches.bandList_spec": [
"propext",
"Classical.choice",
"Quot.sound"
],
"Verif.Batches.before_mono": [
"propext",
"Quot.sound"
],
"Verif.Batches.both_means": [
"propext",
"Quot.sound"
],
"Verif.Batches.caption_false": [
"propext",
"Classical.choice",
"Quot.sound"
],
"Verif.Batches.captions_spec": [
"propext",
"Classical.choice",
"Quot.sound"
],
"Verif.Batches.combine_laws": [
"propext"
],
"Verif.Batches.combine_pair": [
"propext",
"Classical.choice",
"Quot.sound"
],
"Verif.Batches.filter_means": [
"propext",
"Quot.sound"
],
"Verif.Batches.filter_partition": [
"propext",
"Classical.choice",
"Quot.sound"
],
"Verif.Batches.first_years": [],
"Verif.Batches.fractions_spec": [
"propext",
"Classical.choice",
"Quot.sound"
],
"Verif.Batches.glance_false": [
"propext"
],
"Verif.Batches.glance_partial": [
"propext",
"Quot.sound"
],
"Verif.Batches.means_unique": [
"propext"
],
"Verif.Batches.rstrip_spec": [
"propext"
],
"Verif.Batches.selects_unique": [
"propext"
],
"Verif.Batches.short_false": [
"propext",
"Classical.choice",
"Quot.sound"
],
"Verif.Batches.short_partial": [
"propext"
],
"Verif.Batches.subset_false": [
"propext",
"Quot.sound"
],
"Verif.Batches.subset_label": [
"propext"
],
"Verif.Batches.subset_partial": [
"propext",
"Quot.sound"
],
"Verif.Batches.year_false": [
"propext"
],
"Verif.Batches.year_length": [
"propext",
"Quot.sound"
],
"Verif.Batches.year_unique_partial": [
"propext",
"Classical.choice",
"Quot.sound"
],
"Verif.Bins.clip_partial": [
"propext",
"Classical.choice",
"Quot.sound"
],
"Verif.Bins.optimal_bins_degenerate": [
"propext",
"Classical.choice",
"Quot.sound"
],
"Verif.Bins.optimal_bins_limits": [
"propext",
"Classical.choice",
"Quot.sound"
],
"Verif.Bins.optimal_bins_rule": [
"propext",
"Classical.choice",
"Quot.sound"
],
"Verif.Bins.pct_above": [
"propext",
"Classical.choice",
"Quot.sound"
],
"Verif.Bins.pct_below": [
"propext",
"Classical.choice",
"Quot.sound"
],
"Verif.Bins.pct_between": [
"propext",
"Classical.choice",
"Quot.sound"
],
"Verif.Bins.pct_mono": [
"propext",
"Classical.choice",
"Quot.sound"
],
"Verif.Bins.retains_false": [
"propext",
"Classical.choice",
"Quot.sound"
],
"Verif.BunSet.caption_none": [
"propext"
],
"Verif.BunSet.caption_spec": [
"propext"
],
"Verif.BunSet.caption_stale_false": [
"propext"
],
"Verif.BunSet.cols_spec": [
"propext",
"Classical.choice",
"Quot.sound"
],
"Verif.BunSet.current_spec": [
"propext"
],
"Verif.BunSet.db_display_first": [
"propext",
"Classical.choice",
"Quot.sound"
],
"Verif.BunSet.db_file_partial": [
"propext",
"Classical.choice",
"Quot.sound"
],
"Verif.BunSet.db_row_stays": [
"propext",
"Classical.choice",
"Quot.sound"
],
"Verif.BunSet.db_suffix_false": [
"propext",
"Classical.choice",
"Quot.sound"
],
"Verif.BunSet.display_caption": [
"propext",
"Classical.choice",
"Quot.sound"
],
"Verif.BunSet.display_entry": [
"propext",
"Classical.choice",
"Quot.sound"
],
"Verif.BunSet.display_none_false": [
"propext"
],
"Verif.BunSet.displays_keys": [
"propext",
"Classical.choice",
"Quot.sound"
],
"Verif.BunSet.label_band": [
"propext",
"Classical.choice",
"Quot.sound"
],
"Verif.BunSet.label_blanks_false": [
"propext",
"Classical.choice",
"Quot.sound"
],
"Verif.BunSet.label_chars": [
"propext",
"Classical.choice",
"Quot.sound"
],
"Verif.BunSet.label_collides_false": [
"propext",
"Classical.choice",
"Quot.sound"
],
"Verif.BunSet.label_equals": [
"propext",
"Classical.choice",
"Quot.sound"
],
"Verif.BunSet.label_given": [
"propext",
"Classical.choice",
"Quot.sound"
],
"Verif.BunSet.made_root": [
"propext",
"Classical.choice",
"Quot.sound"
],
"Verif.BunSet.partition": [
"propext",
"Classical.choice",
"Quot.sound"
],
"Verif.BunSet.plot_false": [
"propext"
],
"Verif.BunSet.plot_given": [],
"Verif.BunSet.plot_spec": [
"propext",
"Classical.choice",
"Quot.sound"
],
"Verif.BunSet.plots_spec": [
"propext",
"Quot.sound"
],
"Verif.BunSet.plots_stop": [
"propext"
],
"Verif.BunSet.plotters_false": [
"propext"
],
"Verif.BunSet.plotters_partial": [
"propext"
],
"Verif.BunSet.reducedPlot_spec": [
"propext",
"Classical.choice",
"Quot.sound"
],
"Verif.BunSet.reducedPlot_title_false": [],
"Verif.BunSet.reduced_display": [
"propext",
"Classical.choice",
"Quot.sound"
],
"Verif.BunSet.reduced_false": [
"propext",
"Quot.sound"
],
"Verif.BunSet.reduced_named": [
"propext",
"Classical.choice",
"Quot.sound"
],
"Verif.BunSet.reduced_partial": [
"propext",
"Classical.choice",
"Quot.sound"
],
"Verif.BunSet.round_root": [
"propext",
"Classical.choice",
"Quot.sound"
],
"Verif.BunSet.round_trip": [
"propext",
"Classical.choice",
"Quot.sound"
],
"Verif.BunSet.round_units": [
"propext",
"Classical.choice",
"Quot.sound"
],
"Verif.BunSet.round_units_false": [
"propext",
"Classical.choice",
"Quot.sound"
],
"Verif.BunSet.runAll_once": [
"propext",
"Classical.choice",
"Quot.sound"
],
"Verif.BunSet.setPlot_good": [
"propext",
"Classical.choice",
"Quot.sound"
],
"Verif.BunSet.setPlot_spec": [
"propext",
"Classical.choice",
"Quot.sound"
],
"Verif.BunSet.stackers_spec": [
"propext"
],
"Verif.BunSet.summary_spec": [
"propext"
],
"Verif.Bundles.cache_bounded": [
"propext",
"Classical.choice",
"Quot.sound"
],
"Verif.Bundles.cache_transparent": [
"propext",
"Classical.choice",
"Quot.sound"
],
"Verif.Bundles.group_clobbers_column": [
"propext"
],
"Verif.Bundles.groups_cover_partial": [
"propext",
"Quot.sound"
],
"Verif.Bundles.groups_isolated_partial": [
"propext",
"Quot.sound"
],
"Verif.Bundles.groups_not_isolated": [
"propext"
],
"Verif.Bundles.groups_ok_false": [
"propext",
"Quot.sound"
],
"Verif.Bundles.groups_ok_of_equivalence": [
"propext",
"Quot.sound"
],
"Verif.Bundles.groups_ok_partial": [
"propext",
"Quot.sound"
],
"Verif.Bundles.groups_pairwise_false": [
"propext"
],
"Verif.Bundles.groups_unique_false": [
"propext"
],
"Verif.Bundles.maps_ignored": [],
"Verif.Bundles.run_values_and_masks": [
"propext",
"Classical.choice",
"Quot.sound"
],
"Verif.Bundles.uniq_stackers_spec": [
"propext",
"Quot.sound"
],
"Verif.Cheby.blocks_covering": [
"propext"
],
"Verif.Cheby.caller_ids_overwritten": [
"propext"
],
"Verif.Cheby.chebeval_hasDerivAt": [
"propext",
"Classical.choice",
"Quot.sound"
],
"Verif.Cheby.chebeval_mask": [
"propext",
"Classical.choice",
"Quot.sound"
],
"Verif.Cheby.chebeval_no_velocity": [
"propext",
"Classical.choice",
"Quot.sound"
],
"Verif.Cheby.chebeval_value": [
"propext",
"Classical.choice",
"Quot.sound"
],
"Verif.Cheby.chebeval_velocity": [
"propext",
"Classical.choice",
"Quot.sound"
],
"Verif.Cheby.chebfit_endpoints": [
"propext",
"Classical.choice",
"Quot.sound"
],
"Verif.Cheby.chebfit_endpoints_velocity": [
"propext",
"Classical.choice",
"Quot.sound"
],
"Verif.Cheby.chebfit_joins": [
"propext",
"Classical.choice",
"Quot.sound"
],
"Verif.Cheby.chebfit_optimal": [
"propext",
"Classical.choice",
"Quot.sound"
],
"Verif.Cheby.chebfit_recovers": [
"propext",
"Classical.choice",
"Quot.sound"
],
"Verif.Cheby.ephemerides_right_partial": [
"propext",
"Quot.sound"
],
"Verif.Cheby.ephemerides_wrong_object": [
"propext"
],
"Verif.Cheby.extrapolated_values": [
"propext",
"Classical.choice",
"Quot.sound"
],
"Verif.Cheby.final_time_values": [
"propext",
"Classical.choice",
"Quot.sound"
],
"Verif.Cheby.first_row_shifted": [
"propext",
"Classical.choice",
"Quot.sound"
],
"Verif.Cheby.fits_span_false": [
"propext",
"Quot.sound"
],
"Verif.Cheby.gap_gives_zeros": [
"propext",
"Classical.choice",
"Quot.sound"
],
"Verif.Cheby.label_check_vacuous": [
"propext",
"Quot.sound"
],
"Verif.Cheby.outside_gives_nan": [
"propext",
"Classical.choice",
"Quot.sound"
],
"Verif.Cheby.round_length_partial": [
"propext",
"Quot.sound"
],
"Verif.Cheby.segments_exact": [
"propext",
"Quot.sound"
],
"Verif.Cheby.segments_tile": [
"propext",
"Quot.sound"
],
"Verif.Cheby.small_length_accepted": [
"propext",
"Quot.sound"
],
"Verif.Cheby.unknown_object_zeros": [
"propext",
"Quot.sound"
],
"Verif.Cheby.unwrap_continuous": [
"propext",
"Classical.choice",
"Quot.sound"
],
"Verif.Cheby.unwrap_sharp": [
"propext",
"Classical.choice",
"Quot.sound"
],
"Verif.ChebyFit.append_false": [
"propext"
],
"Verif.ChebyFit.calc_length_iff": [
"propext",
"Classical.choice",
"Quot.sound"
],
"Verif.ChebyFit.failed_false": [
"propext",
"Quot.sound"
],
"Verif.ChebyFit.given_iff": [
"propext"
],
"Verif.ChebyFit.guess_bounds": [
"propext",
"Classical.choice",
"Quot.sound"
],
"Verif.ChebyFit.length_error_false": [
"propext"
],
"Verif.ChebyFit.no_length_false": [
"propext",
"Quot.sound"
],
"Verif.ChebyFit.rows": [
"propext",
"Quot.sound"
],
"Verif.ChebyFit.search_iff": [
"propext",
"Classical.choice",
"Quot.sound"
],
"Verif.ChebyFit.segments_good_partial": [
"propext",
"Classical.choice",
"Quot.sound"
],
"Verif.ChebyFit.subdivide_ends": [
"propext",
"Classical.choice",
"Quot.sound"
],
"Verif.ChebyFit.subdivide_good": [
"propext",
"Classical.choice",
"Quot.sound"
],
"Verif.ChebyFit.vmag_false": [
"propext",
"Quot.sound"
],
"Verif.ChebyFit.write_partial": [
"propext"
],
"Verif.Cmp.better_false": [
"propext",
"Classical.choice",
"Quot.sound"
],
"Verif.Cmp.better_partial": [
"propext",
"Classical.choice",
"Quot.sound"
],
"Verif.Cmp.blanks_false": [
"propext",
"Classical.choice",
"Quot.sound"
],
"Verif.Cmp.combine_missing": [
"propext",
"Quot.sound"
],
"Verif.Cmp.combine_spec": [
"propext",
"Quot.sound"
],
"Verif.Cmp.expand_spec": [
"propext",
"Quot.sound"
],
"Verif.Cmp.freshName_fresh": [
"propext",
"Classical.choice",
"Quot.sound"
],
"Verif.Cmp.getRuns_row": [
"propext",
"Quot.sound"
],
"Verif.Cmp.getRuns_spec": [
"propext",
"Classical.choice",
"Quot.sound"
],
"Verif.Cmp.grow_spec": [
"propext",
"Classical.choice",
"Quot.sound"
],
"Verif.Cmp.mem_familyRuns": [
"propext",
"Quot.sound"
],
"Verif.Cmp.names_false": [
"propext",
"Classical.choice",
"Quot.sound"
],
"Verif.Cmp.normalize_base": [
"propext",
"Classical.choice",
"Quot.sound"
],
"Verif.Cmp.normalize_cells": [
"propext",
"Classical.choice",
"Quot.sound"
],
"Verif.Cmp.normalize_missing": [
"propext",
"Classical.choice",
"Quot.sound"
],
"Verif.Cmp.normalize_spec": [
"propext",
"Classical.choice",
"Quot.sound"
],
"Verif.Cmp.normalize_value": [
"propext",
"Classical.choice",
"Quot.sound"
],
"Verif.Cmp.once_false": [
"propext"
],
"Verif.Cmp.one_row_false": [],
"Verif.Cmp.one_row_partial": [
"propext",
"Classical.choice",
"Quot.sound"
],
"Verif.Cmp.radar_reverse": [
"propext",
"Classical.choice",
"Quot.sound"
],
"Verif.Cmp.radar_same": [
"propext",
"Classical.choice",
"Quot.sound"
],
"Verif.Cmp.removeMissing_spec": [
"propext",
"Classical.choice",
"Quot.sound"
],
"Verif.Cmp.replace2_single": [
"propext",
"Classical.choice",
"Quot.sound"
],
"Verif.Cmp.reverse_false": [
"propext",
"Classical.choice",
"Quot.sound"
],
"Verif.Cmp.select_missing": [
"propext",
"Quot.sound"
],
"Verif.Cmp.select_spec": [
"propext",
"Classical.choice",
"Quot.sound"
],
"Verif.Cmp.worse_negative": [
"propext",
"Classical.choice",
"Quot.sound"
],
"Verif.ColSlope.cadence_day": [
"propext",
"Quot.sound"
],
"Verif.ColSlope.cadence_false": [
"propext",
"Classical.choice",
"Quot.sound"
],
"Verif.ColSlope.cadence_last": [
"propext",
"Classical.choice",
"Quot.sound"
],
"Verif.ColSlope.cadence_spec": [
"propext",
"Classical.choice",
"Quot.sound"
],
"Verif.ColSlope.check_spec": [
"propext",
"Classical.choice",
"Quot.sound"
],
"Verif.ColSlope.dayCounts_sum": [
"propext",
"Classical.choice",
"Quot.sound"
],
"Verif.ColSlope.once_false": [
"propext",
"Classical.choice",
"Quot.sound"
],
"Verif.ColSlope.read_false": [
"propext"
],
"Verif.ColSlope.run2_spec": [
"propext",
"Classical.choice",
"Quot.sound"
],
"Verif.ColSlope.run_columns": [
"propext",
"Quot.sound"
],
"Verif.ColSlope.run_spec": [
"propext",
"Classical.choice",
"Quot.sound"
],
"Verif.ColSlope.three_implied": [
"propext",
"Classical.choice",
"Quot.sound"
],
"Verif.ColSlope.use_array": [
"propext",
"Classical.choice",
"Quot.sound"
],
"Verif.ColSlope.use_false": [
"propext",
"Classical.choice",
"Quot.sound"
],
"Verif.ColSlope.use_not_science": [
"propext",
"Classical.choice",
"Quot.sound"
],
"Verif.ColSlope.use_spec": [
"propext",
"Classical.choice",
"Quot.sound"
],
"Verif.ColSlope.uses_disjoint": [
"propext",
"Classical.choice",
"Quot.sound"
],
"Verif.ColSlope.vendor_empty": [
"propext"
],
"Verif.ColSlope.vendor_spec": [
"propext",
"Classical.choice",
"Quot.sound"
],
"Verif.Contrib.all_some": [
"propext",
"Quot.sound"
],
"Verif.Contrib.diffGaps_spec": [
"propext",
"Classical.choice",
"Quot.sound"
],
"Verif.Contrib.diffGaps_symm": [
"propext",
"Classical.choice",
"Quot.sound"
],
"Verif.Contrib.even_false": [
"propext",
"Classical.choice",
"Quot.sound"
],
"Verif.Contrib.fom_full": [
"propext",
"Classical.choice",
"Quot.sound"
],
"Verif.Contrib.fom_more_false": [
"propext",
"Classical.choice",
"Quot.sound"
],
"Verif.Contrib.fom_none": [
"propext",
"Classical.choice",
"Quot.sound"
],
"Verif.Contrib.fom_partial": [
"propext",
"Classical.choice",
"Quot.sound"
],
"Verif.Contrib.fom_top": [
"propext",
"Classical.choice",
"Quot.sound"
],
"Verif.Contrib.intervals_mean": [
"propext",
"Classical.choice",
"Quot.sound"
],
"Verif.Contrib.intervals_unbound": [
"propext",
"Classical.choice",
"Quot.sound"
],
"Verif.Contrib.nearest_false": [
"propext",
"Classical.choice",
"Quot.sound"
],
"Verif.Contrib.nearest_length": [
"propext",
"Quot.sound"
],
"Verif.Contrib.nearest_spec": [
"propext",
"Classical.choice",
"Quot.sound"
],
"Verif.Contrib.numObs_ends": [
"propext",
"Quot.sound"
],
"Verif.Contrib.numObs_false": [
"propext",
"Classical.choice",
"Quot.sound"
],
"Verif.Contrib.numObs_partial": [
"propext",
"Quot.sound"
],
"Verif.Contrib.numObs_spec": [
"propext",
"Quot.sound"
],
"Verif.Contrib.obsDiff_spec": [
"propext",
"Classical.choice",
"Quot.sound"
],
"Verif.Contrib.obsDiff_total": [
"propext",
"Classical.choice",
"Quot.sound"
],
"Verif.Contrib.ratio_false": [
"propext",
"Classical.choice",
"Quot.sound"
],
"Verif.Contrib.ratio_unread": [
"propext",
"Classical.choice",
"Quot.sound"
],
"Verif.Contrib.reduceAll_spec": [
"propext",
"Classical.choice",
"Quot.sound"
],
"Verif.Contrib.sameGaps_spec": [
"propext",
"Classical.choice",
"Quot.sound"
],
"Verif.Contrib.triplet_order": [
"propext",
"Classical.choice",
"Quot.sound"
],
"Verif.Contrib.tripletsBand_spec": [
"propext",
"Classical.choice",
"Quot.sound"
],
"Verif.Contrib.triplets_mono": [
"propext",
"Classical.choice",
"Quot.sound"
],
"Verif.Contrib.triplets_perm": [
"propext",
"Classical.choice",
"Quot.sound"
],
"Verif.Contrib.triplets_shift": [
"propext",
"Classical.choice",
"Quot.sound"
],
"Verif.Contrib.triplets_spec": [
"propext",
"Classical.choice",
"Quot.sound"
],
"Verif.Contrib.zero_gap": [
"propext",
"Classical.choice",
"Quot.sound"
],
"Verif.Cosmo.areaFrac_spec": [
"propext",
"Classical.choice",
"Quot.sound"
],
"Verif.Cosmo.areaFrac_sum": [
"propext",
"Classical.choice",
"Quot.sound"
],
"Verif.Cosmo.bias_convert": [
"propext",
"Classical.choice",
"Quot.sound"
],
"Verif.Cosmo.bias_sign": [
"propext",
"Classical.choice",
"Quot.sound"
],
"Verif.Cosmo.disjoint_false": [
"propext",
"Classical.choice",
"Quot.sound"
],
"Verif.Cosmo.disjoint_partial": [
"propext",
"Classical.choice",
"Quot.sound"
],
"Verif.Cosmo.dropouts_error": [
"propext",
"Classical.choice",
"Quot.sound"
],
"Verif.Cosmo.dropouts_false": [
"propext",
"Classical.choice",
"Quot.sound"
],
"Verif.Cosmo.error_sky": [
"propext",
"Classical.choice",
"Quot.sound"
],
"Verif.Cosmo.expand_spec": [
"propext",
"Classical.choice",
"Quot.sound"
],
"Verif.Cosmo.fit_least": [
"propext",
"Classical.choice",
"Quot.sound"
],
"Verif.Cosmo.full_sky_false": [
"propext",
"Classical.choice",
"Quot.sound"
],
"Verif.Cosmo.grid_false": [],
"Verif.Cosmo.grid_partial": [],
"Verif.Cosmo.keepNot_spec": [
"propext",
"Classical.choice",
"Quot.sound"
],
"Verif.Cosmo.monopole_false": [
"propext",
"Classical.choice",
"Quot.sound"
],
"Verif.Cosmo.power_spec": [
"propext",
"Classical.choice",
"Quot.sound"
],
"Verif.Cosmo.power_split": [
"propext",
"Classical.choice",
"Quot.sound"
],
"Verif.Cosmo.range_excess": [
"propext",
"Classical.choice",
"Quot.sound"
],
"Verif.Cosmo.range_false": [
"propext",
"Classical.choice",
"Quot.sound"
],
"Verif.Cosmo.ratios_spec": [
"propext",
"Classical.choice",
"Quot.sound"
],
"Verif.Cosmo.region_spec": [
"propext",
"Classical.choice",
"Quot.sound"
],
"Verif.Cosmo.simple_false": [
"propext",
"Classical.choice",
"Quot.sound"
],
"Verif.Cosmo.simple_never": [
"propext",
"Classical.choice",
"Quot.sound"
],
"Verif.Cosmo.stripes_const": [
"propext",
"Classical.choice",
"Quot.sound"
],
"Verif.Cosmo.stripes_spec": [
"propext",
"Classical.choice",
"Quot.sound"
],
"Verif.Cosmo.stripiness_scale": [
"propext",
"Classical.choice",
"Quot.sound"
],
"Verif.Cosmo.stripiness_swap": [
"propext",
"Classical.choice",
"Quot.sound"
],
"Verif.Cosmo.totalPower_spec": [
"propext",
"Classical.choice",
"Quot.sound"
],
"Verif.Cosmo.uniformArea_spec": [
"propext",
"Classical.choice",
"Quot.sound"
],
"Verif.Cosmo.uniform_false": [
"propext",
"Classical.choice",
"Quot.sound"
],
"Verif.Cosmo.year_false": [
"propext",
"Classical.choice",
"Quot.sound"
],
"Verif.Cosmo.year_next": [
"propext",
"Classical.choice",
"Quot.sound"
],
"Verif.Crowd.crowdErrAt_node": [
"propext",
"Classical.choice",
"Quot.sound"
],
"Verif.Crowd.crowdErrAt_spec": [
"propext",
"Classical.choice",
"Quot.sound"
],
"Verif.Crowd.crowdErr_mono": [
"propext",
"Classical.choice",
"Quot.sound"
],
"Verif.Crowd.crowdErr_scale": [
"propext",
"Classical.choice",
"Quot.sound"
],
"Verif.Crowd.crowdErr_spec": [
"propext",
"Classical.choice",
"Quot.sound"
],
"Verif.Crowd.crowdMag_early": [
"propext",
"Classical.choice",
"Quot.sound"
],
"Verif.Crowd.crowdMag_mono": [
"propext",
"Classical.choice",
"Quot.sound"
],
"Verif.Crowd.crowdMag_safe": [
"propext",
"Classical.choice",
"Quot.sound"
],
"Verif.Crowd.interp_scale": [
"propext",
"Classical.choice",
"Quot.sound"
],
"Verif.Crowd.last_false": [
"propext",
"Classical.choice",
"Quot.sound"
],
"Verif.Crowd.limit_false": [
"propext",
"Classical.choice",
"Quot.sound"
],
"Verif.Crowd.magLimit_spec": [
"propext",
"Classical.choice",
"Quot.sound"
],
"Verif.Crowd.nstars_mono": [
"propext",
"Classical.choice",
"Quot.sound"
],
"Verif.Crowd.starDensity_mono": [
"propext",
"Classical.choice",
"Quot.sound"
],
"Verif.Crowd.starDensity_node": [
"propext",
"Classical.choice",
"Quot.sound"
],
"Verif.Crowd.starDensity_outside": [
"propext",
"Classical.choice",
"Quot.sound"
],
"Verif.Crowd.suffix_get": [
"propext",
"Classical.choice",
"Quot.sound"
],
"Verif.Dates.before_almanac_wraps": [
"propext",
"Classical.choice",
"Quot.sound"
],
"Verif.Dates.compact_selects_nothing": [
"propext",
"Classical.choice",
"Quot.sound"
],
"Verif.Dates.dates_cover_false": [
"propext",
"Classical.choice",
"Quot.sound"
],
"Verif.Dates.day_obs_agree": [
"propext",
"Classical.choice",
"Quot.sound"
],
"Verif.Dates.dayobs_int_iff": [
"propext",
"Classical.choice",
"Quot.sound"
],
"Verif.Dates.dayobs_iso": [
"propext",
"Classical.choice",
"Quot.sound"
],
"Verif.Dates.dayobs_stacker_round_trip": [
"propext",
"Classical.choice",
"Quot.sound"
],
"Verif.Dates.fetch_repeat_differs": [
"propext",
"Quot.sound"
],
"Verif.Dates.fetch_repeat_differs_kw": [
"propext",
"Quot.sound"
],
"Verif.Dates.fetch_repeat_partial": [
"propext",
"Quot.sound"
],
"Verif.Dates.fetch_tuple_fails": [
"propext"
],
"Verif.Dates.find_latest_covers": [
"propext",
"Classical.choice",
"Quot.sound"
],
"Verif.Dates.iso_le_iff": [
"propext",
"Classical.choice",
"Quot.sound"
],
"Verif.Dates.last_night_missing": [
"propext",
"Classical.choice",
"Quot.sound"
],
"Verif.Dates.on_nights_exact": [
"propext",
"Classical.choice",
"Quot.sound"
],
"Verif.Dates.sim_start_end_partial": [
"propext",
"Classical.choice",
"Quot.sound"
],
"Verif.Dates.simulated_dates_partial": [
"propext",
"Classical.choice",
"Quot.sound"
],
"Verif.Dates.starts_on_day_false": [
"propext",
"Classical.choice",
"Quot.sound"
],
"Verif.Db.addRun_returns": [
"propext",
"Classical.choice",
"Quot.sound"
],
"Verif.Db.display_one_to_one": [
"propext",
"Classical.choice",
"Quot.sound"
],
"Verif.Db.metric_id_injective": [
"propext",
"Classical.choice",
"Quot.sound"
],
"Verif.Db.metric_id_stable": [
"propext",
"Classical.choice",
"Quot.sound"
],
"Verif.Db.metrics_key_unique": [
"propext",
"Classical.choice",
"Quot.sound"
],
"Verif.Db.plots_spec": [
"propext",
"Classical.choice",
"Quot.sound"
],
"Verif.Db.run_id_reused": [],
"Verif.Db.summaryName_collides": [
"propext",
"Classical.choice",
"Quot.sound"
],
"Verif.Db.summaryName_keeps_commas": [
"propext",
"Classical.choice",
"Quot.sound"
],
"Verif.Db.summaryName_stripped_partial": [
"propext",
"Classical.choice",
"Quot.sound"
],
"Verif.Db.summary_not_updated": [
"propext"
],
"Verif.Db.summary_rows_accumulate": [
"propext",
"Classical.choice",
"Quot.sound"
],
"Verif.Db.summary_table_drops_rest": [
"propext",
"Quot.sound"
],
"Verif.Db.summary_table_lost": [
"propext"
],
"Verif.Db.summary_table_partial": [
"propext",
"Classical.choice",
"Quot.sound"
],
"Verif.Db.summary_value_added": [
"propext",
"Classical.choice",
"Quot.sound"
],
"Verif.Db.tracking_refines": [
"propext",
"Classical.choice",
"Quot.sound"
],
"Verif.Db.update_crash_changes_id": [],
"Verif.Db.update_crash_loses": [
"propext",
"Quot.sound"
],
"Verif.Db.update_crash_partial": [
"propext",
"Classical.choice",
"Quot.sound"
],
"Verif.Db.update_not_atomic": [],
"Verif.Depth.exgal_false": [
"propext",
"Classical.choice",
"Quot.sound"
],
"Verif.Depth.exgal_more": [
"propext",
"Classical.choice",
"Quot.sound"
],
"Verif.Depth.exgal_order": [
"propext",
"Classical.choice",
"Quot.sound"
],
"Verif.Depth.exgal_partial": [
"propext",
"Classical.choice",
"Quot.sound"
],
"Verif.Depth.min_bands_false": [
"propext",
"Classical.choice",
"Quot.sound"
],
"Verif.Depth.min_time_false": [
"propext",
"Classical.choice",
"Quot.sound"
],
"Verif.Depth.multiband_spec": [
"propext",
"Classical.choice",
"Quot.sound"
],
"Verif.Depth.nVisits_spec": [
"propext",
"Classical.choice",
"Quot.sound"
],
"Verif.Depth.nestedRiz_false": [
"propext",
"Classical.choice",
"Quot.sound"
],
"Verif.Depth.nestedRiz_spec": [
"propext",
"Classical.choice",
"Quot.sound"
],
"Verif.Depth.nested_ignored_false": [
"propext",
"Classical.choice",
"Quot.sound"
],
"Verif.Depth.nested_index": [
"propext",
"Classical.choice",
"Quot.sound"
],
"Verif.Depth.nested_means_false": [
"propext",
"Classical.choice",
"Quot.sound"
],
"Verif.Depth.nested_spec": [
"propext",
"Classical.choice",
"Quot.sound"
],
"Verif.Depth.nested_u": [
"propext",
"Classical.choice",
"Quot.sound"
],
"Verif.Depth.ngal_false": [
"propext",
"Classical.choice",
"Quot.sound"
],
"Verif.Depth.ngal_partial": [
"propext",
"Classical.choice",
"Quot.sound"
],
"Verif.Depth.nlc_false": [
"propext",
"Classical.choice",
"Quot.sound"
],
"Verif.Depth.nlc_spec": [
"propext",
"Classical.choice",
"Quot.sound"
],
"Verif.Depth.rizTime_spec": [
"propext",
"Classical.choice",
"Quot.sound"
],
"Verif.Depth.single_bad_false": [
"propext",
"Classical.choice",
"Quot.sound"
],
"Verif.Depth.single_false": [
"propext",
"Classical.choice",
"Quot.sound"
],
"Verif.Depth.single_index": [
"propext",
"Classical.choice",
"Quot.sound"
],
"Verif.Depth.single_key": [
"propext",
"Classical.choice",
"Quot.sound"
],
"Verif.Depth.single_one": [
"propext",
"Classical.choice",
"Quot.sound"
],
"Verif.Depth.single_partial": [
"propext",
"Classical.choice",
"Quot.sound"
],
"Verif.Depth.withCuts_spec": [
"propext",
"Classical.choice",
"Quot.sound"
],
"Verif.Direct.circle_unit": [
"propext",
"Classical.choice",
"Quot.sound"
],
"Verif.Direct.collect_spec": [
"propext",
"Classical.choice",
"Quot.sound"
],
"Verif.Direct.colorLoop_spec": [
"propext",
"Quot.sound"
],
"Verif.Direct.colors_spec": [
"propext",
"Classical.choice",
"Quot.sound"
],
"Verif.Direct.copies_basic": [
"propext",
"Classical.choice",
"Quot.sound"
],
"Verif.Direct.copies_full": [
"propext",
"Classical.choice",
"Quot.sound"
],
"Verif.Direct.covers_spec": [
"propext",
"Quot.sound"
],
"Verif.Direct.eph_axes": [
"propext",
"Classical.choice",
"Quot.sound"
],
"Verif.Direct.eph_rates": [],
"Verif.Direct.found_complete": [
"propext",
"Classical.choice",
"Quot.sound"
],
"Verif.Direct.found_nodup": [
"propext",
"Quot.sound"
],
"Verif.Direct.fov_spec": [
"propext",
"Classical.choice",
"Quot.sound"
],
"Verif.Direct.generate_case": [
"propext",
"Classical.choice",
"Quot.sound"
],
"Verif.Direct.generate_err_false": [
"propext",
"Classical.choice",
"Quot.sound"
],
"Verif.Direct.generate_err_partial": [
"propext",
"Classical.choice",
"Quot.sound"
],
"Verif.Direct.generate_none_iff": [
"propext",
"Classical.choice",
"Quot.sound"
],
"Verif.Direct.info_false": [
"propext"
],
"Verif.Direct.info_partial": [
"propext"
],
"Verif.Direct.nearest_spec": [
"propext",
"Classical.choice",
"Quot.sound"
],
"Verif.Direct.objectRows_spec": [
"propext",
"Classical.choice",
"Quot.sound"
],
"Verif.Direct.objectTol_spec": [
"propext",
"Classical.choice",
"Quot.sound"
],
"Verif.Direct.pack_false": [
"propext",
"Classical.choice",
"Quot.sound"
],
"Verif.Direct.pack_some_iff": [
"propext",
"Classical.choice",
"Quot.sound"
],
"Verif.Direct.rect_false": [
"propext",
"Classical.choice",
"Quot.sound"
],
"Verif.Direct.rect_spec_partial": [
"propext",
"Classical.choice",
"Quot.sound"
],
"Verif.Direct.rect_unit_false": [
"propext",
"Classical.choice",
"Quot.sound"
],
"Verif.Direct.rough_spec": [
"propext",
"Classical.choice",
"Quot.sound"
],
"Verif.Direct.run_complete_false": [
"propext",
"Classical.choice",
"Quot.sound"
],
"Verif.Direct.run_complete_partial": [
"propext",
"Classical.choice",
"Quot.sound"
],
"Verif.Direct.run_spec": [
"propext",
"Classical.choice",
"Quot.sound"
],
"Verif.Direct.trail_mono": [
"propext",
"Classical.choice",
"Quot.sound"
],
"Verif.Direct.trail_nonneg": [
"propext",
"Classical.choice",
"Quot.sound"
],
"Verif.Direct.trail_order": [
"propext",
"Classical.choice",
"Quot.sound"
],
"Verif.Direct.trail_order_false": [
"propext",
"Classical.choice",
"Quot.sound"
],
"Verif.Direct.unpack_pack": [
"propext",
"Classical.choice",
"Quot.sound"
],
"Verif.Dust.addDust_add": [
"propext",
"Classical.choice",
"Quot.sound"
],
"Verif.Dust.addDust_zero": [
"propext",
"Classical.choice",
"Quot.sound"
],
"Verif.Dust.ax1_bounds": [
"propext",
"Classical.choice",
"Quot.sound"
],
"Verif.Dust.ax1_exists": [
"propext",
"Classical.choice",
"Quot.sound"
],
"Verif.Dust.ax1_false": [
"propext",
"Classical.choice",
"Quot.sound"
],
"Verif.Dust.ax1_pos": [
"propext",
"Classical.choice",
"Quot.sound"
],
"Verif.Dust.brightens_false": [
"propext",
"Classical.choice",
"Quot.sound"
],
"Verif.Dust.choose_agree": [
"propext",
"Classical.choice",
"Quot.sound"
],
"Verif.Dust.choose_false": [
"propext",
"Classical.choice",
"Quot.sound"
],
"Verif.Dust.choose_none": [
"propext",
"Classical.choice",
"Quot.sound"
],
"Verif.Dust.choose_partial": [
"propext",
"Classical.choice",
"Quot.sound"
],
"Verif.Dust.dims_false": [
"propext",
"Classical.choice",
"Quot.sound"
],
"Verif.Dust.dims_partial": [
"propext",
"Classical.choice",
"Quot.sound"
],
"Verif.Dust.extinction_outside": [
"propext",
"Classical.choice",
"Quot.sound"
],
"Verif.Dust.extinction_pos": [
"propext",
"Classical.choice",
"Quot.sound"
],
"Verif.Dust.factor_lt_one": [
"propext",
"Classical.choice",
"Quot.sound"
],
"Verif.Dust.factor_mag": [
"propext",
"Classical.choice",
"Quot.sound"
],
"Verif.Dust.flatFrom_covers": [
"propext",
"Classical.choice",
"Quot.sound"
],
"Verif.Dust.narrow_sampled": [
"propext",
"Classical.choice",
"Quot.sound"
],
"Verif.Dust.v_band": [
"propext",
"Classical.choice",
"Quot.sound"
],
"Verif.Dwarf.bandCorrection_colors": [
"propext",
"Classical.choice",
"Quot.sound"
],
"Verif.Dwarf.distMod_spec": [
"propext",
"Classical.choice",
"Quot.sound"
],
"Verif.Dwarf.distValue_documented_false": [
"propext",
"Classical.choice",
"Quot.sound"
],
"Verif.Dwarf.distValue_partial": [
"propext",
"Classical.choice",
"Quot.sound"
],
"Verif.Dwarf.distValue_spec": [
"propext",
"Classical.choice",
"Quot.sound"
],
"Verif.Dwarf.distValue_unit_false": [
"propext",
"Classical.choice",
"Quot.sound"
],
"Verif.Dwarf.fakeLF_total": [
"propext",
"Classical.choice",
"Quot.sound"
],
"Verif.Dwarf.galCount_all": [
"propext",
"Classical.choice",
"Quot.sound"
],
"Verif.Dwarf.galCount_cfht": [
"propext",
"Classical.choice",
"Quot.sound"
],
"Verif.Dwarf.galCount_unknown": [
"propext",
"Classical.choice",
"Quot.sound"
],
"Verif.Dwarf.galTotal_bins_false": [
"propext",
"Classical.choice",
"Quot.sound"
],
"Verif.Dwarf.galTotal_bins_partial": [
"propext",
"Classical.choice",
"Quot.sound"
],
"Verif.Dwarf.galTotal_spec": [
"propext",
"Classical.choice",
"Quot.sound"
],
"Verif.Dwarf.limitDwarf_exists_false": [
"propext"
],
"Verif.Dwarf.limitDwarf_exists_partial": [
"propext",
"Quot.sound"
],
"Verif.Dwarf.limitDwarf_spec": [
"propext",
"Classical.choice",
"Quot.sound"
],
"Verif.Dwarf.starDensity_default": [
"propext",
"Classical.choice",
"Quot.sound"
],
"Verif.Dwarf.starDensity_depth_false": [
"propext",
"Classical.choice",
"Quot.sound"
],
"Verif.Dwarf.starsRequired_missing": [
"propext",
"Classical.choice",
"Quot.sound"
],
"Verif.Dwarf.starsRequired_spec": [
"propext",
"Classical.choice",
"Quot.sound"
],
"Verif.Dwarf.stellarMags_known": [
"propext",
"Classical.choice",
"Quot.sound"
],
"Verif.Dwarf.stellarMags_spec": [
"propext",
"Classical.choice",
"Quot.sound"
],
"Verif.Dwarf.sumLuminosity_spec": [
"propext",
"Classical.choice",
"Quot.sound"
],
"Verif.Dwarf.table_redder": [
"propext",
"Classical.choice",
"Quot.sound"
],
"Verif.Eso.allSky_date_false": [
"propext",
"Classical.choice",
"Quot.sound"
],
"Verif.Eso.allSky_mjd": [
"propext",
"Classical.choice",
"Quot.sound"
],
"Verif.Eso.allSky_rows": [
"propext",
"Classical.choice",
"Quot.sound"
],
"Verif.Eso.diode_default": [
"propext",
"Classical.choice",
"Quot.sound"
],
"Verif.Eso.diode_rows": [
"propext",
"Classical.choice",
"Quot.sound"
],
"Verif.Eso.images_sound": [
"propext",
"Quot.sound"
],
"Verif.Eso.images_spec": [
"propext",
"Quot.sound"
],
"Verif.Eso.load_eleven_false": [
"propext",
"Classical.choice",
"Quot.sound"
],
"Verif.Eso.load_files": [
"propext",
"Classical.choice",
"Quot.sound"
],
"Verif.Eso.merged_eq": [
"propext",
"Classical.choice",
"Quot.sound"
],
"Verif.Eso.merged_le": [
"propext",
"Classical.choice",
"Quot.sound"
],
"Verif.Eso.merged_one": [
"propext",
"Classical.choice",
"Quot.sound"
],
"Verif.Eso.merged_two": [
"propext",
"Classical.choice",
"Quot.sound"
],
"Verif.Eso.moon_index": [
"propext",
"Classical.choice",
"Quot.sound"
],
"Verif.Eso.parts_balanced": [
"propext",
"Classical.choice",
"Quot.sound"
],
"Verif.Eso.parts_flatten": [
"propext",
"Quot.sound"
],
"Verif.Eso.templates_read": [
"propext"
],
"Verif.Eso.visibleFast_always": [
"propext",
"Classical.choice",
"Quot.sound"
],
"Verif.Eso.visibleFast_mono": [
"propext",
"Classical.choice",
"Quot.sound"
],
"Verif.Eso.visibleFast_partial": [
"propext",
"Classical.choice",
"Quot.sound"
],
"Verif.Eso.visibleFast_total_false": [
"propext",
"Classical.choice",
"Quot.sound"
],
"Verif.Eso.visible_error": [
"propext",
"Classical.choice",
"Quot.sound"
],
"Verif.Eso.visible_partial": [
"propext",
"Classical.choice",
"Quot.sound"
],
"Verif.Eso.visible_total_false": [
"propext",
"Classical.choice",
"Quot.sound"
],
"Verif.Eso.zodi_index": [
"propext",
"Classical.choice",
"Quot.sound"
],
"Verif.Eso.zodi_latitude": [
"propext",
"Quot.sound"
],
"Verif.Eso.zodi_latitude_false": [
"propext",
"Classical.choice",
"Quot.sound"
],
"Verif.Few.bdSnr_anti": [
"propext",
"Classical.choice",
"Quot.sound"
],
"Verif.Few.bdSnr_eq": [
"propext",
"Classical.choice",
"Quot.sound"
],
"Verif.Few.bdSnr_more": [
"propext",
"Classical.choice",
"Quot.sound"
],
"Verif.Few.bd_bad": [
"propext",
"Classical.choice",
"Quot.sound"
],
"Verif.Few.bd_between": [
"propext",
"Classical.choice",
"Quot.sound"
],
"Verif.Few.bd_beyond": [
"propext",
"Classical.choice",
"Quot.sound"
],
"Verif.Few.bd_more": [
"propext",
"Classical.choice",
"Quot.sound"
],
"Verif.Few.chi1_constant": [
"propext",
"Classical.choice",
"Quot.sound"
],
"Verif.Few.colors_cases": [
"propext",
"Classical.choice",
"Quot.sound"
],
"Verif.Few.colors_false": [
"propext",
"Classical.choice",
"Quot.sound"
],
"Verif.Few.constant_cases": [
"propext",
"Classical.choice",
"Quot.sound"
],
"Verif.Few.cumulative_spec": [
"propext",
"Classical.choice",
"Quot.sound"
],
"Verif.Few.detect_bounds": [
"propext",
"Classical.choice",
"Quot.sound"
],
"Verif.Few.detect_constant": [
"propext",
"Classical.choice",
"Quot.sound"
],
"Verif.Few.detect_needs": [
"propext",
"Classical.choice",
"Quot.sound"
],
"Verif.Few.nightTimes_nil": [
"propext",
"Classical.choice",
"Quot.sound"
],
"Verif.Few.nightTimes_spec": [
"propext",
"Classical.choice",
"Quot.sound"
],
"Verif.Few.qso_none": [
"propext",
"Classical.choice",
"Quot.sound"
],
"Verif.Few.qso_spec": [
"propext",
"Classical.choice",
"Quot.sound"
],
"Verif.Few.sfGaps_spec": [
"propext",
"Classical.choice",
"Quot.sound"
],
"Verif.Few.sfWeight_default": [
"propext",
"Classical.choice",
"Quot.sound"
],
"Verif.Few.sf_bounds": [
"propext",
"Classical.choice",
"Quot.sound"
],
"Verif.Few.sf_few": [
"propext",
"Classical.choice",
"Quot.sound"
],
"Verif.Few.sf_perm": [
"propext",
"Classical.choice",
"Quot.sound"
],
"Verif.Few.starsOf_get": [
"propext",
"Classical.choice",
"Quot.sound"
],
"Verif.Few.starsOf_length": [
"propext",
"Classical.choice",
"Quot.sound"
],
"Verif.Few.volume_ball": [
"propext",
"Classical.choice",
"Quot.sound"
],
"Verif.Few.weight_false": [
"propext",
"Classical.choice",
"Quot.sound"
],
"Verif.Few.zmax_default": [
"propext",
"Classical.choice",
"Quot.sound"
],
"Verif.Files.json_bins": [
"propext",
"Classical.choice",
"Quot.sound"
],
"Verif.Files.json_bundle_false": [
"propext",
"Quot.sound"
],
"Verif.Files.json_int_false": [
"propext",
"Quot.sound"
],
"Verif.Files.json_plain": [
"propext",
"Quot.sound"
],
"Verif.Files.json_plain_bins": [
"propext",
"Quot.sound"
],
"Verif.Files.json_sky": [
"propext",
"Quot.sound"
],
"Verif.Files.json_type": [],
"Verif.Files.read_fill_false": [
"propext",
"Classical.choice",
"Quot.sound"
],
"Verif.Files.read_fill_partial": [
"propext",
"Classical.choice",
"Quot.sound"
],
"Verif.Files.read_kept": [
"propext",
"Classical.choice",
"Quot.sound"
],
"Verif.Files.read_mo": [
"propext",
"Classical.choice",
"Quot.sound"
],
"Verif.Files.read_movie": [
"propext",
"Classical.choice",
"Quot.sound"
],
"Verif.Files.read_params": [
"propext",
"Classical.choice",
"Quot.sound"
],
"Verif.Files.read_params_false": [
"propext",
"Classical.choice",
"Quot.sound"
],
"Verif.Files.read_values": [
"propext",
"Classical.choice",
"Quot.sound"
],
"Verif.FracColors.asteroid_distinct": [
"propext",
"Classical.choice",
"Quot.sound"
],
"Verif.FracColors.default_blue": [
"propext",
"Classical.choice",
"Quot.sound"
],
"Verif.FracColors.no_color": [
"propext",
"Classical.choice",
"Quot.sound"
],
"Verif.FracColors.outer_false": [
"propext",
"Classical.choice",
"Quot.sound"
],
"Verif.FracColors.outer_partial": [
"propext",
"Classical.choice",
"Quot.sound"
],
"Verif.GalPlane.bandReduce_spec": [
"propext",
"Classical.choice",
"Quot.sound"
],
"Verif.GalPlane.bands_false": [
"propext",
"Classical.choice",
"Quot.sound"
],
"Verif.GalPlane.bands_partial": [
"propext",
"Classical.choice",
"Quot.sound"
],
"Verif.GalPlane.decay_anti": [
"propext",
"Classical.choice",
"Quot.sound"
],
"Verif.GalPlane.decay_eq_one": [
"propext",
"Classical.choice",
"Quot.sound"
],
"Verif.GalPlane.decay_mono": [
"propext",
"Classical.choice",
"Quot.sound"
],
"Verif.GalPlane.footReduce_mono": [
"propext",
"Classical.choice",
"Quot.sound"
],
"Verif.GalPlane.footReduce_more": [
"propext",
"Classical.choice",
"Quot.sound"
],
"Verif.GalPlane.footReduce_spec": [
"propext",
"Classical.choice",
"Quot.sound"
],
"Verif.GalPlane.footprint_none": [
"propext",
"Classical.choice",
"Quot.sound"
],
"Verif.GalPlane.footprint_spec": [
"propext",
"Classical.choice",
"Quot.sound"
],
"Verif.GalPlane.footprint_thresholds": [
"propext",
"Classical.choice",
"Quot.sound"
],
"Verif.GalPlane.gaps_none": [
"propext",
"Classical.choice",
"Quot.sound"
],
"Verif.GalPlane.gaps_range": [
"propext",
"Classical.choice",
"Quot.sound"
],
"Verif.GalPlane.gaps_spec": [
"propext",
"Classical.choice",
"Quot.sound"
],
"Verif.GalPlane.intervals_eq": [
"propext",
"Classical.choice",
"Quot.sound"
],
"Verif.GalPlane.intervals_mono": [
"propext",
"Classical.choice",
"Quot.sound"
],
"Verif.GalPlane.intervals_none": [
"propext",
"Classical.choice",
"Quot.sound"
],
"Verif.GalPlane.intervals_perm": [
"propext",
"Classical.choice",
"Quot.sound"
],
"Verif.GalPlane.intervals_range": [
"propext",
"Classical.choice",
"Quot.sound"
],
"Verif.GalPlane.intervals_shift": [
"propext",
"Classical.choice",
"Quot.sound"
],
"Verif.GalPlane.mag_false": [
"propext",
"Classical.choice",
"Quot.sound"
],
"Verif.GalPlane.mag_ignored": [
"propext",
"Classical.choice",
"Quot.sound"
],
"Verif.GalPlane.mag_partial": [
"propext",
"Classical.choice",
"Quot.sound"
],
"Verif.GalPlane.maps_false": [
"propext",
"Classical.choice",
"Quot.sound"
],
"Verif.GalPlane.maps_partial": [
"propext",
"Classical.choice",
"Quot.sound"
],
"Verif.GalPlane.more_false": [
"propext",
"Classical.choice",
"Quot.sound"
],
"Verif.GalPlane.more_partial": [
"propext",
"Classical.choice",
"Quot.sound"
],
"Verif.GalPlane.rows_after": [
"propext",
"Classical.choice",
"Quot.sound"
],
"Verif.GalPlane.rows_false": [
"propext",
"Classical.choice",
"Quot.sound"
],
"Verif.GalPlane.rows_partial": [
"propext",
"Classical.choice",
"Quot.sound"
],
"Verif.GalPlane.time_one_iff": [
"propext",
"Classical.choice",
"Quot.sound"
],
"Verif.GalPlane.time_scale": [
"propext",
"Classical.choice",
"Quot.sound"
],
"Verif.GalPlane.time_spec": [
"propext",
"Classical.choice",
"Quot.sound"
],
"Verif.GalPlane.time_zero": [
"propext",
"Classical.choice",
"Quot.sound"
],
"Verif.GalPlane.unexpected_false": [
"propext",
"Classical.choice",
"Quot.sound"
],
"Verif.GalPlane.unexpected_masked": [
"propext",
"Classical.choice",
"Quot.sound"
],
"Verif.GalPlane.weights_one": [
"propext",
"Classical.choice",
"Quot.sound"
],
"Verif.Gaps.gaps_total": [
"propext",
"Quot.sound"
],
"Verif.Gaps.generalZero_false": [
"propext",
"Classical.choice",
"Quot.sound"
],
"Verif.Gaps.general_partial": [
"propext",
"Classical.choice",
"Quot.sound"
],
"Verif.Gaps.interGaps_eq": [
"propext",
"Classical.choice",
"Quot.sound"
],
"Verif.Gaps.intraGaps_eq": [
"propext",
"Quot.sound"
],
"Verif.Gaps.maxGap_none": [
"propext",
"Classical.choice",
"Quot.sound"
],
"Verif.Gaps.maxGap_spec": [
"propext",
"Classical.choice",
"Quot.sound"
],
"Verif.Gaps.nightGapsDefined_false": [
"propext",
"Classical.choice",
"Quot.sound"
],
"Verif.Gaps.nightGaps_one_night": [
"propext",
"Classical.choice",
"Quot.sound"
],
"Verif.Gaps.nightGaps_partial": [
"propext",
"Classical.choice",
"Quot.sound"
],
"Verif.Gaps.nightSpans_spec": [
"propext",
"Classical.choice",
"Quot.sound"
],
"Verif.Gaps.pairDiffs_sorted": [
"propext",
"Classical.choice",
"Quot.sound"
],
"Verif.Gaps.sampledIff_false": [
"propext",
"Classical.choice",
"Quot.sound"
],
"Verif.Gaps.sampled_partial": [
"propext",
"Classical.choice",
"Quot.sound"
],
"Verif.Gaps.tGapsHist_total": [
"propext",
"Classical.choice",
"Quot.sound"
],
"Verif.Gaps.tGapsPercent_range": [
"propext",
"Classical.choice",
"Quot.sound"
],
"Verif.Gaps.tGaps_all": [
"propext",
"Classical.choice",
"Quot.sound"
],
"Verif.Gaps.template_spec": [
"propext",
"Classical.choice",
"Quot.sound"
],
"Verif.Gaps.uniformity_above_one": [
"propext",
"Classical.choice",
"Quot.sound"
],
"Verif.Gaps.uniformity_partial": [
"propext",
"Classical.choice",
"Quot.sound"
],
"Verif.Gaps.uniformity_zero_iff": [
"propext",
"Classical.choice",
"Quot.sound"
],
"Verif.Grb.band_false": [
"propext",
"Classical.choice",
"Quot.sound"
],
"Verif.Grb.exists_mag": [
"propext",
"Classical.choice",
"Quot.sound"
],
"Verif.Grb.filtAvg_false": [
"propext",
"Classical.choice",
"Quot.sound"
],
"Verif.Grb.filtAvg_spec": [
"propext",
"Classical.choice",
"Quot.sound"
],
"Verif.Grb.first_false": [
"propext",
"Classical.choice",
"Quot.sound"
],
"Verif.Grb.fraction_bound": [
"propext",
"Classical.choice",
"Quot.sound"
],
"Verif.Grb.last_draw": [
"propext",
"Classical.choice",
"Quot.sound"
],
"Verif.Grb.phase_false": [
"propext",
"Classical.choice",
"Quot.sound"
],
"Verif.Grb.run_spec": [
"propext",
"Classical.choice",
"Quot.sound"
],
"Verif.Grb.start_false": [
"propext",
"Quot.sound"
],
"Verif.Groups.atMost_false": [
"propext",
"Classical.choice",
"Quot.sound"
],
"Verif.Groups.maxSeq_false": [
"propext",
"Classical.choice",
"Quot.sound"
],
"Verif.Groups.maxSeq_partial": [
"propext",
"Classical.choice",
"Quot.sound"
],
"Verif.Groups.nLunations_spec": [
"propext",
"Classical.choice",
"Quot.sound"
],
"Verif.Groups.nNights_spec": [
"propext",
"Quot.sound"
],
"Verif.Groups.nVisits_spec": [
"propext",
"Quot.sound"
],
"Verif.Groups.nightCount_close": [
"propext",
"Classical.choice",
"Quot.sound"
],
"Verif.Groups.nightCount_good": [
"propext",
"Classical.choice",
"Quot.sound"
],
"Verif.Groups.night_bound": [
"propext",
"Classical.choice",
"Quot.sound"
],
"Verif.Groups.night_partial": [
"propext",
"Classical.choice",
"Quot.sound"
],
"Verif.Groups.runGroups_spec": [
"propext",
"Classical.choice",
"Quot.sound"
],
"Verif.Groups.two_close_false": [
"propext",
"Classical.choice",
"Quot.sound"
],
"Verif.Groups.two_visits": [
"propext",
"Classical.choice",
"Quot.sound"
],
"Verif.HCurves.clone_curve": [
"propext",
"Classical.choice",
"Quot.sound"
],
"Verif.HCurves.curves_ordered": [
"propext",
"Classical.choice",
"Quot.sound"
],
"Verif.HCurves.curves_values": [
"propext",
"Classical.choice",
"Quot.sound"
],
"Verif.HCurves.median_half": [
"propext",
"Classical.choice",
"Quot.sound"
],
"Verif.HCurves.one_first": [
"propext",
"Classical.choice",
"Quot.sound"
],
"Verif.HCurves.one_row": [
"propext",
"Classical.choice",
"Quot.sound"
],
"Verif.HCurves.own_error": [
"propext",
"Classical.choice",
"Quot.sound"
],
"Verif.HCurves.reduced_false": [
"propext",
"Classical.choice",
"Quot.sound"
],
"Verif.HCurves.reduced_partial": [
"propext",
"Classical.choice",
"Quot.sound"
],
"Verif.HgPlot.categoryColors_gray": [
"propext",
"Classical.choice",
"Quot.sound"
],
"Verif.HgPlot.categoryColors_partial": [
"propext",
"Classical.choice",
"Quot.sound"
],
"Verif.HgPlot.civil_noon": [
"propext",
"Classical.choice",
"Quot.sound"
],
"Verif.HgPlot.civil_spec": [
"propext",
"Classical.choice",
"Quot.sound"
],
"Verif.HgPlot.legend_all": [
"propext",
"Classical.choice",
"Quot.sound"
],
"Verif.HgPlot.legend_wanted": [
"propext",
"Classical.choice",
"Quot.sound"
],
"Verif.HgPlot.lines_spec": [
"propext",
"Classical.choice",
"Quot.sound"
],
"Verif.HgPlot.mapColors_equal": [
"propext",
"Quot.sound"
],
"Verif.HgPlot.mapColors_partial": [
"propext",
"Classical.choice",
"Quot.sound"
],
"Verif.HgPlot.monthMaps_assigned": [
"propext",
"Classical.choice",
"Quot.sound"
],
"Verif.HgPlot.monthMaps_false": [
"propext",
"Classical.choice",
"Quot.sound"
],
"Verif.HgPlot.month_cover": [
"propext",
"Quot.sound"
],
"Verif.HgPlot.month_disjoint": [
"propext",
"Classical.choice",
"Quot.sound"
],
"Verif.HgPlot.month_partial": [
"propext",
"Classical.choice",
"Quot.sound"
],
"Verif.HgPlot.month_row_false": [
"propext",
"Classical.choice",
"Quot.sound"
],
"Verif.HgPlot.plot_kind": [
"propext",
"Quot.sound"
],
"Verif.HgPlot.row_eq": [
"propext",
"Classical.choice",
"Quot.sound"
],
"Verif.HgPlot.rows_agree": [
"propext",
"Classical.choice",
"Quot.sound"
],
"Verif.HgPlot.rows_false": [
"propext",
"Classical.choice",
"Quot.sound"
],
"Verif.HgPlot.rows_shift": [
"propext",
"Classical.choice",
"Quot.sound"
],
"Verif.HgPlot.solar_false": [
"propext",
"Classical.choice",
"Quot.sound"
],
"Verif.HgPlot.solar_partial": [
"propext",
"Classical.choice",
"Quot.sound"
],
"Verif.HgPlot.solar_row": [
"propext",
"Classical.choice",
"Quot.sound"
],
"Verif.HgPlot.transit_exact": [
"propext",
"Classical.choice",
"Quot.sound"
],
"Verif.HgPlot.transit_moon": [
"propext",
"Classical.choice",
"Quot.sound"
],
"Verif.HgPlot.transit_step": [
"propext",
"Classical.choice",
"Quot.sound"
],
"Verif.HgPlot.yearColors_bar_false": [
"propext",
"Classical.choice",
"Quot.sound"
],
"Verif.HgPlot.yearColors_error": [
"propext",
"Quot.sound"
],
"Verif.HgPlot.yearColors_limits": [
"propext",
"Quot.sound"
],
"Verif.HgPlot.yearColors_none_false": [
"propext",
"Classical.choice",
"Quot.sound"
],
"Verif.Hourglass.block_filter": [
"propext",
"Classical.choice",
"Quot.sound"
],
"Verif.Hourglass.blocks_cover": [
"propext",
"Classical.choice",
"Quot.sound"
],
"Verif.Hourglass.blocks_spec": [
"propext",
"Classical.choice",
"Quot.sound"
],
"Verif.Hourglass.midnight_nearest": [
"propext",
"Classical.choice",
"Quot.sound"
],
"Verif.Hourglass.nearest_spec": [
"propext",
"Quot.sound"
],
"Verif.Hourglass.oneEach_keys": [
"propext",
"Classical.choice",
"Quot.sound"
],
"Verif.Hourglass.oneEach_near": [
"propext",
"Classical.choice",
"Quot.sound"
],
"Verif.Hourglass.repeat_false": [
"propext",
"Classical.choice",
"Quot.sound"
],
"Verif.Kne.after_unseen": [
"propext",
"Classical.choice",
"Quot.sound"
],
"Verif.Kne.appMag_node": [
"propext",
"Quot.sound"
],
"Verif.Kne.choose_spec": [
"propext",
"Quot.sound"
],
"Verif.Kne.color_two": [
"propext",
"Quot.sound"
],
"Verif.Kne.coords_dmag": [
"propext",
"Classical.choice",
"Quot.sound"
],
"Verif.Kne.coords_same_time": [
"propext",
"Quot.sound"
],
"Verif.Kne.fileIndx_spec": [
"propext",
"Classical.choice",
"Quot.sound"
],
"Verif.Kne.keepRegion_spec": [
"propext",
"Quot.sound"
],
"Verif.Kne.knPop_false": [],
"Verif.Kne.knPop_partial": [],
"Verif.Kne.kn_spec": [
"propext",
"Classical.choice",
"Quot.sound"
],
"Verif.Kne.kne_all": [
"propext",
"Quot.sound"
],
"Verif.Kne.kne_key": [
"propext",
"Classical.choice",
"Quot.sound"
],
"Verif.Kne.kne_mem": [
"propext",
"Classical.choice",
"Quot.sound"
],
"Verif.Kne.kne_once_false": [
"propext",
"Classical.choice",
"Quot.sound"
],
"Verif.Kne.kne_spec": [
"propext",
"Classical.choice",
"Quot.sound"
],
"Verif.Kne.loadHash_false": [
"propext",
"Classical.choice",
"Quot.sound"
],
"Verif.Kne.loadHash_partial": [
"propext"
],
"Verif.Kne.loadHash_unknown": [
"propext"
],
"Verif.Kne.outside_unseen": [
"propext",
"Classical.choice",
"Quot.sound"
],
"Verif.Kne.prePeak_false": [
"propext",
"Classical.choice",
"Quot.sound"
],
"Verif.Kne.prePeak_spec": [
"propext",
"Quot.sound"
],
"Verif.Kne.presto_spec": [
"propext",
"Classical.choice",
"Quot.sound"
],
"Verif.Kne.presto_two": [
"propext",
"Classical.choice",
"Quot.sound"
],
"Verif.Kne.quality_false": [
"propext",
"Classical.choice",
"Quot.sound"
],
"Verif.Kne.quality_spec": [
"propext",
"Classical.choice",
"Quot.sound"
],
"Verif.Kne.rate_spec": [
"propext",
"Quot.sound"
],
"Verif.Kne.rndm_spec": [
"propext",
"Classical.choice",
"Quot.sound"
],
"Verif.Kne.rndm_volume_false": [
"propext",
"Classical.choice",
"Quot.sound"
],
"Verif.Kne.scores_spec": [
"propext",
"Classical.choice",
"Quot.sound"
],
"Verif.Kne.someColorPu_spec": [
"propext",
"Classical.choice",
"Quot.sound"
],
"Verif.Kne.someColor_spec": [
"propext",
"Classical.choice",
"Quot.sound"
],
"Verif.Kne.tde_mono": [
"propext",
"Classical.choice",
"Quot.sound"
],
"Verif.Kne.tenDays_false": [
"propext",
"Classical.choice",
"Quot.sound"
],
"Verif.Kne.ztf_bands": [
"propext",
"Classical.choice",
"Quot.sound"
],
"Verif.Kne.ztf_empty": [
"propext",
"Quot.sound"
],
"Verif.Kne.ztf_more_false": [
"propext",
"Classical.choice",
"Quot.sound"
],
"Verif.Kne.ztf_spec": [
"propext",
"Classical.choice",
"Quot.sound"
],
"Verif.Lens.amp_gt_one": [
"propext",
"Classical.choice",
"Quot.sound"
],
"Verif.Lens.amp_impact": [
"propext",
"Classical.choice",
"Quot.sound"
],
"Verif.Lens.amp_peak": [
"propext",
"Classical.choice",
"Quot.sound"
],
"Verif.Lens.amp_shape": [
"propext",
"Classical.choice",
"Quot.sound"
],
"Verif.Lens.coeffsFsfb_derivatives": [
"propext",
"Classical.choice",
"Quot.sound"
],
"Verif.Lens.coeffs_derivatives": [
"propext",
"Classical.choice",
"Quot.sound"
],
"Verif.Lens.densest_never": [
"propext",
"Classical.choice",
"Quot.sound"
],
"Verif.Lens.detect_pairs": [
"propext",
"Classical.choice",
"Quot.sound"
],
"Verif.Lens.detect_points_false": [
"propext",
"Classical.choice",
"Quot.sound"
],
"Verif.Lens.detected_spec": [
"propext"
],
"Verif.Lens.draw_first": [
"propext",
"Classical.choice",
"Quot.sound"
],
"Verif.Lens.draw_spec": [
"propext",
"Classical.choice",
"Quot.sound"
],
"Verif.Lens.first_is_te_false": [
"propext",
"Classical.choice",
"Quot.sound"
],
"Verif.Lens.fisherRun_last": [
"propext",
"Classical.choice",
"Quot.sound"
],
"Verif.Lens.fisher_add": [
"propext",
"Classical.choice",
"Quot.sound"
],
"Verif.Lens.fisher_event": [
"propext",
"Classical.choice",
"Quot.sound"
],
"Verif.Lens.fisher_flux_false": [
"propext",
"Classical.choice",
"Quot.sound"
],
"Verif.Lens.fisher_flux_zero": [
"propext",
"Classical.choice",
"Quot.sound"
],
"Verif.Lens.fisher_psd": [
"propext",
"Classical.choice",
"Quot.sound"
],
"Verif.Lens.fsfb_inverted": [
"propext",
"Classical.choice",
"Quot.sound"
],
"Verif.Lens.fsfb_peak_false": [
"propext",
"Classical.choice",
"Quot.sound"
],
"Verif.Lens.infoPeak_max": [
"propext",
"Classical.choice",
"Quot.sound"
],
"Verif.Lens.infoPeak_snr_false": [
"propext",
"Classical.choice",
"Quot.sound"
],
"Verif.Lens.magnitude_brighter": [
"propext",
"Classical.choice",
"Quot.sound"
],
"Verif.Lens.npts_false": [
"propext",
"Classical.choice",
"Quot.sound"
],
"Verif.Lens.npts_spec": [
"propext",
"Classical.choice",
"Quot.sound"
],
"Verif.Lens.times_false": [
"propext",
"Classical.choice",
"Quot.sound"
],
"Verif.Lens.times_spec": [
"propext",
"Classical.choice",
"Quot.sound"
],
"Verif.LensCmp.cells_partition_false": [
"propext",
"Classical.choice",
"Quot.sound"
],
"Verif.LensCmp.cells_total": [
"propext",
"Classical.choice",
"Quot.sound"
],
"Verif.LensCmp.compare_ignores": [
"propext",
"Classical.choice",
"Quot.sound"
],
"Verif.LensCmp.compare_label_false": [
"propext",
"Classical.choice",
"Quot.sound"
],
"Verif.LensCmp.compare_partial": [
"propext",
"Classical.choice",
"Quot.sound"
],
"Verif.LensCmp.detected_fisher_cells": [
"propext",
"Classical.choice",
"Quot.sound"
],
"Verif.LensCmp.detected_npts_cells": [
"propext",
"Classical.choice",
"Quot.sound"
],
"Verif.LensCmp.fisher_npts_cells": [
"propext",
"Classical.choice",
"Quot.sound"
],
"Verif.LensCmp.fom_every_batch_false": [
"propext",
"Classical.choice",
"Quot.sound"
],
"Verif.LensCmp.fom_once": [
"propext",
"Classical.choice",
"Quot.sound"
],
"Verif.LensCmp.fom_refused": [
"propext",
"Classical.choice",
"Quot.sound"
],
"Verif.LensCmp.parse_name": [
"propext",
"Classical.choice",
"Quot.sound"
],
"Verif.LensCmp.parse_name_false": [
"propext",
"Classical.choice",
"Quot.sound"
],
"Verif.LensCmp.parse_short": [
"propext",
"Classical.choice",
"Quot.sound"
],
"Verif.LensCmp.ranges_bins": [
"propext",
"Classical.choice",
"Quot.sound"
],
"Verif.LensCmp.ranges_nested_false": [
"propext",
"Classical.choice",
"Quot.sound"
],
"Verif.LensCmp.ranges_shared_start": [
"propext",
"Classical.choice",
"Quot.sound"
],
"Verif.LensCmp.results_dbs": [
"propext"
],
"Verif.LensCmp.results_dbs_false": [
"propext",
"Classical.choice",
"Quot.sound"
],
"Verif.LensCmp.results_dbs_partial": [
"propext"
],
"Verif.LensCmp.results_empty": [
"propext",
"Classical.choice",
"Quot.sound"
],
"Verif.LensCmp.results_mask": [
"propext",
"Classical.choice",
"Quot.sound"
],
"Verif.LensCmp.results_masked_false": [
"propext",
"Classical.choice",
"Quot.sound"
],
"Verif.LensCmp.results_zero": [
"propext",
"Classical.choice",
"Quot.sound"
],
"Verif.LensCmp.series_spec": [
"propext",
"Classical.choice",
"Quot.sound"
],
"Verif.Maps.all_run_false": [
"propext"
],
"Verif.Maps.all_run_partial": [
"propext",
"Quot.sound"
],
"Verif.Maps.bundle_spec": [
"propext",
"Quot.sound"
],
"Verif.Maps.distAt_far": [
"propext",
"Classical.choice",
"Quot.sound"
],
"Verif.Maps.distAt_single_partial": [
"propext",
"Classical.choice",
"Quot.sound"
],
"Verif.Maps.distAt_spec": [
"propext",
"Classical.choice",
"Quot.sound"
],
"Verif.Maps.dust_healpix": [
"propext",
"Quot.sound"
],
"Verif.Maps.ebv3_first": [
"propext",
"Quot.sound"
],
"Verif.Maps.ebv3_partial": [
"propext",
"Quot.sound"
],
"Verif.Maps.ebv3_stale": [
"propext",
"Quot.sound"
],
"Verif.Maps.ebv_reads": [
"propext",
"Quot.sound"
],
"Verif.Maps.ebv_spec": [
"propext",
"Quot.sound"
],
"Verif.Maps.gal_first": [
"propext",
"Classical.choice",
"Quot.sound"
],
"Verif.Maps.gal_path": [
"propext",
"Classical.choice",
"Quot.sound"
],
"Verif.Maps.gal_retry_false": [
"propext",
"Classical.choice",
"Quot.sound"
],
"Verif.Maps.gal_stale": [
"propext",
"Classical.choice",
"Quot.sound"
],
"Verif.Maps.history_false": [
"propext",
"Classical.choice",
"Quot.sound"
],
"Verif.Maps.key_colon": [
"propext",
"Classical.choice",
"Quot.sound"
],
"Verif.Maps.key_roundtrip": [
"propext",
"Classical.choice",
"Quot.sound"
],
"Verif.Maps.nearest_spec": [
"propext",
"Classical.choice",
"Quot.sound"
],
"Verif.Maps.path_false": [
"propext",
"Classical.choice",
"Quot.sound"
],
"Verif.Maps.read_once_false": [
"propext",
"Classical.choice",
"Quot.sound"
],
"Verif.Maps.repeat_false": [
"propext",
"Classical.choice",
"Quot.sound"
],
"Verif.Maps.single_false": [
"propext"
],
"Verif.Maps.single_map_false": [
"propext",
"Classical.choice",
"Quot.sound"
],
"Verif.Maps.stellar_spec": [
"propext",
"Quot.sound"
],
"Verif.Maps.uniq_spec": [
"propext",
"Quot.sound"
],
"Verif.Masked.masked_noninterference": [
"propext",
"Quot.sound"
],
"Verif.Masked.reduce_spec": [
"propext",
"Classical.choice",
"Quot.sound"
],
"Verif.Masked.summary_spec": [
"propext",
"Classical.choice",
"Quot.sound"
],
"Verif.Meanz.apply_array": [
"propext"
],
"Verif.Meanz.apply_one": [
"propext",
"Quot.sound"
],
"Verif.Meanz.far_error": [
"propext",
"Quot.sound"
],
"Verif.Meanz.far_false": [
"propext",
"Classical.choice",
"Quot.sound"
],
"Verif.Meanz.lambert_area": [
"propext",
"Classical.choice",
"Quot.sound"
],
"Verif.Meanz.lambert_dist": [
"propext",
"Classical.choice",
"Quot.sound"
],
"Verif.Meanz.lambert_inj": [
"propext",
"Classical.choice",
"Quot.sound"
],
"Verif.Meanz.lambert_inside": [
"propext",
"Classical.choice",
"Quot.sound"
],
"Verif.Meanz.lambert_north": [
"propext",
"Classical.choice",
"Quot.sound"
],
"Verif.Meanz.lineFit_length": [
"propext",
"Quot.sound"
],
"Verif.Meanz.lineFit_scale": [
"propext",
"Classical.choice",
"Quot.sound"
],
"Verif.Meanz.lineFit_sum": [
"propext",
"Classical.choice",
"Quot.sound"
],
"Verif.Meanz.restart_error": [],
"Verif.Meanz.run_partial": [
"propext",
"Classical.choice",
"Quot.sound"
],
"Verif.Meanz.run_scale": [
"propext",
"Classical.choice",
"Quot.sound"
],
"Verif.Meanz.run_uniform": [
"propext",
"Classical.choice",
"Quot.sound"
],
"Verif.Meanz.run_year": [
"propext",
"Quot.sound"
],
"Verif.Meanz.year_error": [
"propext",
"Quot.sound"
],
"Verif.Meanz.year_false": [
"propext",
"Classical.choice",
"Quot.sound"
],
"Verif.Metrics.beyond_counts_false": [
"propext",
"Classical.choice",
"Quot.sound"
],
"Verif.Metrics.count_beyond_partial": [
"propext",
"Quot.sound"
],
"Verif.Metrics.count_beyond_two_fails": [
"propext"
],
"Verif.Metrics.count_explim_partial": [
"propext",
"Classical.choice",
"Quot.sound"
],
"Verif.Metrics.count_explim_short": [
"propext",
"Classical.choice",
"Quot.sound"
],
"Verif.Metrics.count_explim_time": [
"propext",
"Classical.choice",
"Quot.sound"
],
"Verif.Metrics.explim_counts_false": [
"propext",
"Classical.choice",
"Quot.sound"
],
"Verif.Metrics.frac_bounds": [
"propext",
"Classical.choice",
"Quot.sound"
],
"Verif.Metrics.frac_sum": [
"propext",
"Classical.choice",
"Quot.sound"
],
"Verif.Metrics.full_range_outside_window": [
"propext",
"Classical.choice",
"Quot.sound"
],
"Verif.Metrics.full_range_rotation": [
"propext",
"Classical.choice",
"Quot.sound"
],
"Verif.Metrics.full_range_smallest_arc": [
"propext",
"Classical.choice",
"Quot.sound"
],
"Verif.Metrics.max_percent_spec": [
"propext",
"Classical.choice",
"Quot.sound"
],
"Verif.Metrics.noutliers_chebyshev": [
"propext",
"Classical.choice",
"Quot.sound"
],
"Verif.Metrics.rms_invariant_false": [
"propext",
"Classical.choice",
"Quot.sound"
],
"Verif.Metrics.rms_rotation_partial": [
"propext",
"Classical.choice",
"Quot.sound"
],
"Verif.Mo.activity_false": [
"propext",
"Classical.choice",
"Quot.sound"
],
"Verif.Mo.activity_lt_one": [
"propext",
"Classical.choice",
"Quot.sound"
],
"Verif.Mo.activity_partial": [
"propext",
"Classical.choice",
"Quot.sound"
],
"Verif.Mo.anomaly_differ": [
"propext",
"Classical.choice",
"Quot.sound"
],
"Verif.Mo.colorAsteroid_mono": [
"propext",
"Classical.choice",
"Quot.sound"
],
"Verif.Mo.colorAsteroid_needs": [
"propext",
"Classical.choice",
"Quot.sound"
],
"Verif.Mo.colorFlag_mono": [
"propext"
],
"Verif.Mo.colorFlag_spec": [
"propext",
"Classical.choice",
"Quot.sound"
],
"Verif.Mo.counts_mono": [
"propext",
"Classical.choice",
"Quot.sound"
],
"Verif.Mo.fast_iff": [
"propext",
"Classical.choice",
"Quot.sound"
],
"Verif.Mo.foundNObs_false": [
"propext",
"Classical.choice",
"Quot.sound"
],
"Verif.Mo.foundNObs_partial": [
"propext",
"Classical.choice",
"Quot.sound"
],
"Verif.Mo.foundRow_partial": [
"propext",
"Classical.choice",
"Quot.sound"
],
"Verif.Mo.highVelocityNights_false": [
"propext",
"Classical.choice",
"Quot.sound"
],
"Verif.Mo.highVelocityNights_partial": [
"propext",
"Classical.choice",
"Quot.sound"
],
"Verif.Mo.highVelocity_le": [
"propext",
"Classical.choice",
"Quot.sound"
],
"Verif.Mo.inPeriod_iff": [
"propext",
"Quot.sound"
],
"Verif.Mo.instantaneous_false": [
"propext",
"Classical.choice",
"Quot.sound"
],
"Verif.Mo.instantaneous_partial": [
"propext",
"Classical.choice",
"Quot.sound"
],
"Verif.Mo.instantaneous_sound_partial": [
"propext",
"Classical.choice",
"Quot.sound"
],
"Verif.Mo.inversion_false": [
"propext",
"Classical.choice",
"Quot.sound"
],
"Verif.Mo.inversion_partial": [
"propext",
"Classical.choice",
"Quot.sound"
],
"Verif.Mo.knownLoop_spec": [
"propext",
"Quot.sound"
],
"Verif.Mo.knownObjects_spec": [
"propext",
"Quot.sound"
],
"Verif.Mo.lightcurveColor_limit": [
"propext",
"Classical.choice",
"Quot.sound"
],
"Verif.Mo.lightcurveColor_mono": [
"propext",
"Classical.choice",
"Quot.sound"
],
"Verif.Mo.lightcurveColor_spec": [
"propext",
"Classical.choice",
"Quot.sound"
],
"Verif.Mo.magic_false": [
"propext",
"Classical.choice",
"Quot.sound"
],
"Verif.Mo.magic_partial": [
"propext",
"Classical.choice",
"Quot.sound"
],
"Verif.Mo.mem_vis": [
"propext"
],
"Verif.Mo.nNights_le": [
"propext",
"Classical.choice",
"Quot.sound"
],
"Verif.Mo.nNights_spec": [
"propext",
"Classical.choice",
"Quot.sound"
],
"Verif.Mo.noSingles_add": [
"propext",
"Classical.choice",
"Quot.sound"
],
"Verif.Mo.noSingles_le": [
"propext",
"Classical.choice",
"Quot.sound"
],
"Verif.Mo.noSingles_negative": [
"propext",
"Quot.sound"
],
"Verif.Mo.noSingles_spec": [
"propext",
"Classical.choice",
"Quot.sound"
],
"Verif.Mo.obsArc_mono": [
"propext",
"Classical.choice",
"Quot.sound"
],
"Verif.Mo.obsArc_nonneg": [
"propext",
"Classical.choice",
"Quot.sound"
],
"Verif.Mo.obsArc_spec": [
"propext",
"Quot.sound"
],
"Verif.Mo.order_false": [
"propext",
"Classical.choice",
"Quot.sound"
],
"Verif.Mo.peri_bins": [
"propext",
"Classical.choice",
"Quot.sound"
],
"Verif.Mo.period_partial": [
"propext",
"Classical.choice",
"Quot.sound"
],
"Verif.Mo.row_false": [
"propext",
"Classical.choice",
"Quot.sound"
],
"Verif.Mo.run_none": [
"propext",
"Classical.choice",
"Quot.sound"
],
"Verif.Mo.run_some": [
"propext",
"Classical.choice",
"Quot.sound"
],
"Verif.Mo.single_never": [
"propext",
"Classical.choice",
"Quot.sound"
],
"Verif.Mo.snrWeight_le": [
"propext",
"Classical.choice",
"Quot.sound"
],
"Verif.Mo.tracklet_complete_partial": [
"propext",
"Classical.choice",
"Quot.sound"
],
"Verif.Mo.tracklet_false": [
"propext",
"Classical.choice",
"Quot.sound"
],
"Verif.Mo.tracklet_partial": [
"propext",
"Classical.choice",
"Quot.sound"
],
"Verif.Mo.tracklets_eq": [
"propext",
"Classical.choice",
"Quot.sound"
],
"Verif.MoB.alone_false": [
"propext",
"Classical.choice",
"Quot.sound"
],
"Verif.MoB.alone_partial": [
"propext",
"Classical.choice",
"Quot.sound"
],
"Verif.MoB.compatible_iff": [
"propext",
"Classical.choice",
"Quot.sound"
],
"Verif.MoB.eq_slices_false": [
"propext",
"Quot.sound"
],
"Verif.MoB.eq_slices_partial": [
"propext"
],
"Verif.MoB.find_spec": [
"propext",
"Classical.choice",
"Quot.sound"
],
"Verif.MoB.h_alone": [
"propext",
"Quot.sound"
],
"Verif.MoB.iter_count": [
"propext",
"Quot.sound"
],
"Verif.MoB.iter_spec": [
"propext",
"Quot.sound"
],
"Verif.MoB.label_false": [
"propext"
],
"Verif.MoB.label_partial": [
"propext",
"Classical.choice",
"Quot.sound"
],
"Verif.MoB.nslice_spec": [
"propext",
"Quot.sound"
],
"Verif.MoB.run_spec": [
"propext",
"Classical.choice",
"Quot.sound"
],
"Verif.MoB.summary_spec": [
"propext",
"Quot.sound"
],
"Verif.MoBatch.against_h": [
"propext",
"Classical.choice",
"Quot.sound"
],
"Verif.MoBatch.all_false": [
"propext",
"Classical.choice",
"Quot.sound"
],
"Verif.MoBatch.batches": [
"propext",
"Classical.choice",
"Quot.sound"
],
"Verif.MoBatch.char_default": [
"propext",
"Classical.choice",
"Quot.sound"
],
"Verif.MoBatch.char_false": [
"propext",
"Classical.choice",
"Quot.sound"
],
"Verif.MoBatch.char_iff": [
"propext",
"Classical.choice",
"Quot.sound"
],
"Verif.MoBatch.char_partial": [
"propext",
"Classical.choice",
"Quot.sound"
],
"Verif.MoBatch.fmt0_near": [
"propext",
"Classical.choice",
"Quot.sound"
],
"Verif.MoBatch.four_nested": [
"propext",
"Classical.choice",
"Quot.sound"
],
"Verif.MoBatch.has_iff": [
"propext",
"Quot.sound"
],
"Verif.MoBatch.mem_all": [
"propext",
"Classical.choice",
"Quot.sound"
],
"Verif.MoBatch.nested": [
"propext",
"Classical.choice",
"Quot.sound"
],
"Verif.MoBatch.over_time_false": [
"propext",
"Classical.choice",
"Quot.sound"
],
"Verif.MoBatch.over_time_partial": [
"propext",
"Classical.choice",
"Quot.sound"
],
"Verif.MoBatch.quick_nested": [
"propext",
"Classical.choice",
"Quot.sound"
],
"Verif.MoBatch.root_ne": [
"propext",
"Classical.choice",
"Quot.sound"
],
"Verif.MoBatch.single_false": [
"propext",
"Classical.choice",
"Quot.sound"
],
"Verif.MoBatch.single_iff": [
"propext",
"Classical.choice",
"Quot.sound"
],
"Verif.MoBatch.single_le_pair": [
"propext",
"Classical.choice",
"Quot.sound"
],
"Verif.MoBatch.single_misses": [
"propext",
"Classical.choice",
"Quot.sound"
],
"Verif.MoBatch.single_nested": [
"propext",
"Classical.choice",
"Quot.sound"
],
"Verif.MoBatch.single_night": [
"propext",
"Classical.choice",
"Quot.sound"
],
"Verif.MoBatch.single_pair": [
"propext",
"Classical.choice",
"Quot.sound"
],
"Verif.MoBatch.snr_false": [
"propext",
"Classical.choice",
"Quot.sound"
],
"Verif.MoBatch.snr_partial": [
"propext",
"Classical.choice",
"Quot.sound"
],
"Verif.MoBatch.triplets_false": [
"propext",
"Classical.choice",
"Quot.sound"
],
"Verif.MoBatch.window_mono": [
"propext",
"Classical.choice",
"Quot.sound"
],
"Verif.MoStack.appMag_spec": [
"propext",
"Classical.choice",
"Quot.sound"
],
"Verif.MoStack.coma_false": [
"propext",
"Classical.choice",
"Quot.sound"
],
"Verif.MoStack.coma_shift": [
"propext",
"Classical.choice",
"Quot.sound"
],
"Verif.MoStack.combine_flux": [
"propext",
"Classical.choice",
"Quot.sound"
],
"Verif.MoStack.combine_shift": [
"propext",
"Classical.choice",
"Quot.sound"
],
"Verif.MoStack.combine_spec": [
"propext",
"Classical.choice",
"Quot.sound"
],
"Verif.MoStack.cometParams_false": [
"propext",
"Classical.choice",
"Quot.sound"
],
"Verif.MoStack.cometParams_partial": [
"propext",
"Classical.choice",
"Quot.sound"
],
"Verif.MoStack.comet_brighter": [
"propext",
"Classical.choice",
"Quot.sound"
],
"Verif.MoStack.comet_shift": [
"propext",
"Classical.choice",
"Quot.sound"
],
"Verif.MoStack.completeness_spec": [
"propext",
"Classical.choice",
"Quot.sound"
],
"Verif.MoStack.ecliptic_deg": [
"propext",
"Classical.choice",
"Quot.sound"
],
"Verif.MoStack.ecliptic_points": [
"propext",
"Classical.choice",
"Quot.sound"
],
"Verif.MoStack.ecliptic_spec": [
"propext",
"Classical.choice",
"Quot.sound"
],
"Verif.MoStack.logLinear_mag": [
"propext",
"Classical.choice",
"Quot.sound"
],
"Verif.MoStack.phaseHg_spec": [
"propext",
"Classical.choice",
"Quot.sound"
],
"Verif.MoStack.run_append": [
"propext",
"Classical.choice",
"Quot.sound"
],
"Verif.MoStack.runs_false": [
"propext",
"Classical.choice",
"Quot.sound"
],
"Verif.MoStack.runs_flatten": [
"propext",
"Classical.choice",
"Quot.sound"
],
"Verif.MoStack.snr_decreasing": [
"propext",
"Classical.choice",
"Quot.sound"
],
"Verif.MoStack.snr_false": [
"propext",
"Classical.choice",
"Quot.sound"
],
"Verif.MoStack.snr_limit": [
"propext",
"Classical.choice",
"Quot.sound"
],
"Verif.MoStack.snr_partial": [
"propext",
"Classical.choice",
"Quot.sound"
],
"Verif.MoStack.vis_spec": [
"propext",
"Classical.choice",
"Quot.sound"
],
"Verif.MoSum.anchor_free": [
"propext",
"Classical.choice",
"Quot.sound"
],
"Verif.MoSum.atTime_mono": [
"propext",
"Classical.choice",
"Quot.sound"
],
"Verif.MoSum.binned_outside": [
"propext",
"Classical.choice",
"Quot.sound"
],
"Verif.MoSum.binned_partial": [
"propext",
"Classical.choice",
"Quot.sound"
],
"Verif.MoSum.binned_value": [
"propext",
"Quot.sound"
],
"Verif.MoSum.completeAt_mono": [
"propext",
"Classical.choice",
"Quot.sound"
],
"Verif.MoSum.completeAt_value": [
"propext",
"Classical.choice",
"Quot.sound"
],
"Verif.MoSum.complete_false": [
"propext",
"Classical.choice",
"Quot.sound"
],
"Verif.MoSum.complete_masked": [
"propext",
"Classical.choice",
"Quot.sound"
],
"Verif.MoSum.complete_mono": [
"propext",
"Classical.choice",
"Quot.sound"
],
"Verif.MoSum.complete_partial": [
"propext",
"Quot.sound"
],
"Verif.MoSum.complete_range": [
"propext",
"Classical.choice",
"Quot.sound"
],
"Verif.MoSum.early_false": [
"propext",
"Classical.choice",
"Quot.sound"
],
"Verif.MoSum.hBins_false": [
"propext",
"Classical.choice",
"Quot.sound"
],
"Verif.MoSum.hBins_spec": [
"propext",
"Classical.choice",
"Quot.sound"
],
"Verif.MoSum.hIndex_default": [
"propext",
"Quot.sound"
],
"Verif.MoSum.hIndex_spec": [
"propext",
"Classical.choice",
"Quot.sound"
],
"Verif.MoSum.hindex_false": [
"propext",
"Classical.choice",
"Quot.sound"
],
"Verif.MoSum.hindex_ignored": [
"propext",
"Classical.choice",
"Quot.sound"
],
"Verif.MoSum.hindex_partial": [
"propext",
"Classical.choice",
"Quot.sound"
],
"Verif.MoSum.init_default": [],
"Verif.MoSum.integrate_antitone": [
"propext",
"Classical.choice",
"Quot.sound"
],
"Verif.MoSum.integrate_bounds": [
"propext",
"Classical.choice",
"Quot.sound"
],
"Verif.MoSum.integrate_length": [
"propext",
"Quot.sound"
],
"Verif.MoSum.integrate_scale": [
"propext",
"Classical.choice",
"Quot.sound"
],
"Verif.MoSum.integrate_value": [
"propext",
"Classical.choice",
"Quot.sound"
],
"Verif.MoSum.interp_between": [
"propext",
"Classical.choice",
"Quot.sound"
],
"Verif.MoSum.interp_ends": [
"propext",
"Classical.choice",
"Quot.sound"
],
"Verif.MoSum.interp_mono": [
"propext",
"Classical.choice",
"Quot.sound"
],
"Verif.MoSum.interp_node": [
"propext",
"Quot.sound"
],
"Verif.MoSum.last_partial": [
"propext",
"Classical.choice",
"Quot.sound"
],
"Verif.MoSum.meanValueAtH_node": [
"propext",
"Classical.choice",
"Quot.sound"
],
"Verif.MoSum.meanValueAtH_single": [
"propext",
"Classical.choice",
"Quot.sound"
],
"Verif.MoSum.powerLaw_pos": [
"propext",
"Classical.choice",
"Quot.sound"
],
"Verif.MoSum.powerLaw_ratio": [
"propext",
"Classical.choice",
"Quot.sound"
],
"Verif.MoSum.spread_false": [
"propext",
"Classical.choice",
"Quot.sound"
],
"Verif.MoSum.stale_false": [
"propext",
"Classical.choice",
"Quot.sound"
],
"Verif.MoSum.stale_partial": [
"propext",
"Classical.choice",
"Quot.sound"
],
"Verif.MoSum.totalNumber_mono": [
"propext",
"Classical.choice",
"Quot.sound"
],
"Verif.MoSum.totalNumber_node": [
"propext",
"Classical.choice",
"Quot.sound"
],
"Verif.MoSum.valueAtH_node": [
"propext",
"Classical.choice",
"Quot.sound"
],
"Verif.MoSum.valueAtH_spec": [
"propext",
"Quot.sound"
],
"Verif.Moon.alone_false": [
"propext",
"Classical.choice",
"Quot.sound"
],
"Verif.Moon.high_moon": [
"propext",
"Quot.sound"
],
"Verif.Moon.one_moon": [
"propext",
"Classical.choice",
"Quot.sound"
],
"Verif.Moon.pixel_bounds": [
"propext",
"Classical.choice",
"Quot.sound"
],
"Verif.Moon.pixel_node": [
"propext",
"Classical.choice",
"Quot.sound"
],
"Verif.Moon.value_mean": [
"propext",
"Classical.choice",
"Quot.sound"
],
"Verif.Moon.value_sum": [
"propext",
"Classical.choice",
"Quot.sound"
],
"Verif.Names.sanitize_collides": [
"propext",
"Classical.choice",
"Quot.sound"
],
"Verif.Names.sanitize_eq": [
"propext",
"Quot.sound"
],
"Verif.Names.sanitize_fixed": [
"propext",
"Quot.sound"
],
"Verif.Names.sanitize_idem": [
"propext",
"Classical.choice",
"Quot.sound"
],
"Verif.Names.sanitize_safe": [
"propext",
"Classical.choice",
"Quot.sound"
],
"Verif.NightStats.objectAgg_mem": [
"propext",
"Quot.sound"
],
"Verif.NightStats.sims_age": [
"propext",
"Classical.choice",
"Quot.sound"
],
"Verif.NightStats.sims_no_tags_false": [
"propext",
"Classical.choice",
"Quot.sound"
],
"Verif.NightStats.sims_partial": [
"propext",
"Classical.choice",
"Quot.sound"
],
"Verif.NightStats.stats_all_false": [
"propext",
"Quot.sound"
],
"Verif.NightStats.stats_all_partial": [
"propext",
"Classical.choice",
"Quot.sound"
],
"Verif.NightStats.stats_none": [
"propext",
"Classical.choice",
"Quot.sound"
],
"Verif.NightStats.stats_rows": [
"propext",
"Quot.sound"
],
"Verif.Odds.clouds_clear_partial": [
"propext",
"Classical.choice",
"Quot.sound"
],
"Verif.Odds.clouds_false": [
"propext",
"Classical.choice",
"Quot.sound"
],
"Verif.Odds.clouds_raises": [
"propext",
"Classical.choice",
"Quot.sound"
],
"Verif.Odds.comments_mem": [
"propext",
"Quot.sound"
],
"Verif.Odds.comments_spec": [
"propext"
],
"Verif.Odds.galaxyCounts_false": [],
"Verif.Odds.galaxyCounts_raises": [],
"Verif.Odds.lmxb_brighter": [
"propext",
"Classical.choice",
"Quot.sound"
],
"Verif.Odds.lmxb_near": [
"propext",
"Classical.choice",
"Quot.sound"
],
"Verif.Odds.lmxb_periods": [
"propext",
"Classical.choice",
"Quot.sound"
],
"Verif.Odds.lmxb_spec": [
"propext",
"Classical.choice",
"Quot.sound"
],
"Verif.Odds.nameLabels_first": [
"propext",
"Classical.choice",
"Quot.sound"
],
"Verif.Odds.nameLabels_spec": [
"propext",
"Classical.choice",
"Quot.sound"
],
"Verif.Odds.prenight_spec": [
"propext",
"Classical.choice",
"Quot.sound"
],
"Verif.Odds.snr_dims": [
"propext",
"Classical.choice",
"Quot.sound"
],
"Verif.Odds.snr_perm": [
"propext",
"Classical.choice",
"Quot.sound"
],
"Verif.Odds.snr_spec": [
"propext",
"Classical.choice",
"Quot.sound"
],
"Verif.Odds.tdc_cadence": [
"propext",
"Classical.choice",
"Quot.sound"
],
"Verif.Odds.tdc_campaign": [
"propext",
"Classical.choice",
"Quot.sound"
],
"Verif.Odds.tdc_faster": [
"propext",
"Classical.choice",
"Quot.sound"
],
"Verif.Odds.tdc_given": [
"propext",
"Classical.choice",
"Quot.sound"
],
"Verif.Odds.tdc_longer": [
"propext",
"Classical.choice",
"Quot.sound"
],
"Verif.Odds.tdc_norm": [
"propext",
"Classical.choice",
"Quot.sound"
],
"Verif.Odds.tdc_pos": [
"propext",
"Classical.choice",
"Quot.sound"
],
"Verif.Odds.tdc_season": [
"propext",
"Quot.sound"
],
"Verif.Odds.tdc_shallow": [
"propext",
"Classical.choice",
"Quot.sound"
],
"Verif.Odds.throughput_back_false": [
"propext",
"Classical.choice",
"Quot.sound"
],
"Verif.Odds.throughput_back_partial": [
"propext",
"Classical.choice",
"Quot.sound"
],
"Verif.Odds.throughput_header_raises": [
"propext",
"Classical.choice",
"Quot.sound"
],
"Verif.Odds.versions_all": [
"propext"
],
"Verif.Odds.versions_mem": [
"propext",
"Quot.sound"
],
"Verif.Odds.versions_order": [
"propext",
"Classical.choice",
"Quot.sound"
],
"Verif.Odds.withAny_spec": [
"propext",
"Quot.sound"
],
"Verif.Odds.withAny_union": [
"propext",
"Quot.sound"
],
"Verif.Odds.withStat_spec": [
"propext",
"Quot.sound"
],
"Verif.Odds.written_inj": [
"propext",
"Classical.choice",
"Quot.sound"
],
"Verif.Opsim.bench_mono": [
"propext",
"Classical.choice",
"Quot.sound"
],
"Verif.Opsim.bench_scaled": [
"propext",
"Classical.choice",
"Quot.sound"
],
"Verif.Opsim.coadded_spec": [
"propext",
"Classical.choice",
"Quot.sound"
],
"Verif.Opsim.depth_coadd": [
"propext",
"Classical.choice",
"Quot.sound"
],
"Verif.Opsim.depth_mono_partial": [
"propext",
"Classical.choice",
"Quot.sound"
],
"Verif.Opsim.depth_none": [
"propext",
"Classical.choice",
"Quot.sound"
],
"Verif.Opsim.depth_pos": [
"propext",
"Classical.choice",
"Quot.sound"
],
"Verif.Opsim.full_overrides": [
"propext",
"Classical.choice",
"Quot.sound"
],
"Verif.Opsim.guess_spec": [
"propext",
"Classical.choice",
"Quot.sound"
],
"Verif.Opsim.match_false": [
"propext",
"Classical.choice",
"Quot.sound"
],
"Verif.Opsim.mono_false": [
"propext",
"Classical.choice",
"Quot.sound"
],
"Verif.Opsim.query_parse": [
"propext",
"Classical.choice",
"Quot.sound"
],
"Verif.Opsim.remote_error": [
"propext",
"Classical.choice",
"Quot.sound"
],
"Verif.Opsim.remote_false": [
"propext",
"Classical.choice",
"Quot.sound"
],
"Verif.Opsim.sim_spec": [
"propext",
"Classical.choice",
"Quot.sound"
],
"Verif.Opsim.total_false": [
"propext",
"Classical.choice",
"Quot.sound"
],
"Verif.Opsim.total_ten": [
"propext",
"Classical.choice",
"Quot.sound"
],
"Verif.OrbitPlots.cells_spec": [
"propext",
"Classical.choice",
"Quot.sound"
],
"Verif.OrbitPlots.dict_same": [
"propext"
],
"Verif.OrbitPlots.digitize_iff": [
"propext",
"Classical.choice",
"Quot.sound"
],
"Verif.OrbitPlots.inBin_exists": [
"propext",
"Classical.choice",
"Quot.sound"
],
"Verif.OrbitPlots.inBin_unique": [
"propext",
"Classical.choice",
"Quot.sound"
],
"Verif.OrbitPlots.mark_false": [
"propext",
"Classical.choice",
"Quot.sound"
],
"Verif.OrbitPlots.mark_iff": [
"propext",
"Quot.sound"
],
"Verif.OrbitPlots.ownVals_length": [
"propext",
"Quot.sound"
],
"Verif.OrbitPlots.own_all_partial": [
"propext",
"Quot.sound"
],
"Verif.OrbitPlots.own_false": [
"propext",
"Classical.choice",
"Quot.sound"
],
"Verif.OrbitPlots.points_iff": [
"propext"
],
"Verif.OrbitPlots.points_own_false": [
"propext",
"Quot.sound"
],
"Verif.Orbits.assign_a": [
"propext",
"Quot.sound"
],
"Verif.Orbits.assign_q": [
"propext",
"Quot.sound"
],
"Verif.Orbits.delim_false": [
"propext"
],
"Verif.Orbits.delim_nothing": [
"propext",
"Quot.sound"
],
"Verif.Orbits.eq_false": [
"propext",
"Classical.choice",
"Quot.sound"
],
"Verif.Orbits.eq_many": [
"propext",
"Classical.choice",
"Quot.sound"
],
"Verif.Orbits.eq_new": [
"propext"
],
"Verif.Orbits.eq_refl_partial": [
"propext",
"Classical.choice",
"Quot.sound"
],
"Verif.Orbits.eq_spec": [
"propext",
"Classical.choice",
"Quot.sound"
],
"Verif.Orbits.getItem_false": [
"propext",
"Classical.choice",
"Quot.sound"
],
"Verif.Orbits.getItem_partial": [
"propext",
"Classical.choice",
"Quot.sound"
],
"Verif.Orbits.header_empty": [
"propext",
"Quot.sound"
],
"Verif.Orbits.header_none": [
"propext"
],
"Verif.Orbits.header_spec": [
"propext",
"Quot.sound"
],
"Verif.Orbits.iter_items": [
"propext",
"Quot.sound"
],
"Verif.Orbits.readEnd_false": [
"propext",
"Classical.choice",
"Quot.sound"
],
"Verif.Orbits.readEnd_ids": [
"propext",
"Quot.sound"
],
"Verif.Orbits.readEnd_no_ids_partial": [
"propext",
"Quot.sound"
],
"Verif.Orbits.rename_S3MID": [
"propext"
],
"Verif.Orbits.rename_false": [
"propext"
],
"Verif.Orbits.rename_inUse": [
"propext"
],
"Verif.Orbits.rename_spec": [
"propext",
"Classical.choice",
"Quot.sound"
],
"Verif.Orbits.rows_all": [
"propext",
"Classical.choice",
"Quot.sound"
],
"Verif.Orbits.sedQ_spec": [
"propext",
"Classical.choice",
"Quot.sound"
],
"Verif.Orbits.sed_chance": [
"propext",
"Classical.choice",
"Quot.sound"
],
"Verif.Orbits.sed_mono": [
"propext",
"Classical.choice",
"Quot.sound"
],
"Verif.Orbits.sed_names": [
"propext",
"Classical.choice",
"Quot.sound"
],
"Verif.Orbits.seed_false": [
"propext",
"Classical.choice",
"Quot.sound"
],
"Verif.Orbits.seed_ignored": [
"propext",
"Quot.sound"
],
"Verif.Orbits.seed_new": [
"propext",
"Quot.sound"
],
"Verif.Orbits.set_again_false": [
"propext",
"Classical.choice",
"Quot.sound"
],
"Verif.Orbits.set_epoch_false": [
"propext",
"Classical.choice",
"Quot.sound"
],
"Verif.Orbits.set_epoch_partial": [
"propext",
"Classical.choice",
"Quot.sound"
],
"Verif.Orbits.set_err_false": [
"propext",
"Classical.choice",
"Quot.sound"
],
"Verif.Orbits.set_err_fmt": [
"propext",
"Quot.sound"
],
"Verif.Orbits.set_err_orbits_partial": [
"propext",
"Classical.choice",
"Quot.sound"
],
"Verif.Orbits.set_frame": [
"propext",
"Classical.choice",
"Quot.sound"
],
"Verif.Orbits.set_frame_false": [
"propext",
"Classical.choice",
"Quot.sound"
],
"Verif.Orbits.set_loaded": [
"propext",
"Classical.choice",
"Quot.sound"
],
"Verif.Orbits.set_ok_iff": [
"propext",
"Classical.choice",
"Quot.sound"
],
"Verif.Orbits.set_stored": [
"propext",
"Classical.choice",
"Quot.sound"
],
"Verif.Orbits.set_twice_false": [
"propext",
"Classical.choice",
"Quot.sound"
],
"Verif.Orbits.set_twice_partial": [
"propext",
"Classical.choice",
"Quot.sound"
],
"Verif.Orbits.update_false": [
"propext",
"Classical.choice",
"Quot.sound"
],
"Verif.Orbits.update_spec_partial": [
"propext",
"Classical.choice",
"Quot.sound"
],
"Verif.Pairs.countsPairs_false": [
"propext",
"Classical.choice",
"Quot.sound"
],
"Verif.Pairs.pairs_found": [
"propext",
"Classical.choice",
"Quot.sound"
],
"Verif.Pairs.pairs_partial": [
"propext",
"Classical.choice",
"Quot.sound"
],
"Verif.Pairs.pairs_upper": [
"propext",
"Classical.choice",
"Quot.sound"
],
"Verif.PerStar.few_bands": [
"propext",
"Classical.choice",
"Quot.sound"
],
"Verif.PerStar.good_mono": [
"propext",
"Classical.choice",
"Quot.sound"
],
"Verif.PerStar.good_truth": [
"propext",
"Classical.choice",
"Quot.sound"
],
"Verif.PerStar.lightcurve_spec": [
"propext",
"Classical.choice",
"Quot.sound"
],
"Verif.PerStar.lightcurve_unobserved": [
"propext",
"Classical.choice",
"Quot.sound"
],
"Verif.PerStar.mag_periodic": [
"propext",
"Classical.choice",
"Quot.sound"
],
"Verif.PerStar.modulation_false": [
"propext",
"Classical.choice",
"Quot.sound"
],
"Verif.PerStar.modulation_nan": [
"propext",
"Classical.choice",
"Quot.sound"
],
"Verif.PerStar.modulation_zero": [
"propext",
"Classical.choice",
"Quot.sound"
],
"Verif.PerStar.partition_false": [
"propext",
"Classical.choice",
"Quot.sound"
],
"Verif.PerStar.periodic_no_float": [
"propext",
"Classical.choice",
"Quot.sound"
],
"Verif.PerStar.periodic_spec": [
"propext",
"Classical.choice",
"Quot.sound"
],
"Verif.PerStar.phase_days": [
"propext",
"Classical.choice",
"Quot.sound"
],
"Verif.PerStar.purity_alias": [
"propext",
"Classical.choice",
"Quot.sound"
],
"Verif.PerStar.purity_range": [
"propext",
"Classical.choice",
"Quot.sound"
],
"Verif.PerStar.recovered_iff": [
"propext",
"Classical.choice",
"Quot.sound"
],
"Verif.PerStar.run_few": [
"propext",
"Classical.choice",
"Quot.sound"
],
"Verif.PerStar.run_range": [
"propext",
"Classical.choice",
"Quot.sound"
],
"Verif.PerStar.run_spec": [
"propext",
"Classical.choice",
"Quot.sound"
],
"Verif.PerStar.scan_last": [
"propext",
"Classical.choice",
"Quot.sound"
],
"Verif.PerStar.slice_false": [
"propext",
"Classical.choice",
"Quot.sound"
],
"Verif.PerStar.subrun_zero": [
"propext",
"Classical.choice",
"Quot.sound"
],
"Verif.PerStar.varDepth_bright": [
"propext",
"Classical.choice",
"Quot.sound"
],
"Verif.PerStar.varDepth_false": [
"propext",
"Classical.choice",
"Quot.sound"
],
"Verif.PerStar.varDepth_spec": [
"propext",
"Classical.choice",
"Quot.sound"
],
"Verif.PerStar.windowVal_le": [
"propext",
"Classical.choice",
"Quot.sound"
],
"Verif.PerStar.window_cover": [
"propext",
"Classical.choice",
"Quot.sound"
],
"Verif.PerStar.window_mem": [
"propext",
"Classical.choice",
"Quot.sound"
],
"Verif.PerStar.window_none": [
"propext",
"Classical.choice",
"Quot.sound"
],
"Verif.PerStar.window_twice": [
"propext",
"Classical.choice",
"Quot.sound"
],
"Verif.Periodic.age_false": [
"propext",
"Classical.choice",
"Quot.sound"
],
"Verif.Periodic.age_partial": [
"propext",
"Classical.choice",
"Quot.sound"
],
"Verif.Periodic.cumulativePoints_spec": [
"propext",
"Classical.choice",
"Quot.sound"
],
"Verif.Periodic.cumulative_before": [
"propext",
"Classical.choice",
"Quot.sound"
],
"Verif.Periodic.cumulative_false": [
"propext",
"Classical.choice",
"Quot.sound"
],
"Verif.Periodic.cumulative_partial": [
"propext",
"Classical.choice",
"Quot.sound"
],
"Verif.Periodic.kuiper_bounds": [
"propext",
"Classical.choice",
"Quot.sound"
],
"Verif.Periodic.kuiper_delta": [
"propext",
"Classical.choice",
"Quot.sound"
],
"Verif.Periodic.kuiper_false": [
"propext",
"Classical.choice",
"Quot.sound"
],
"Verif.Periodic.kuiper_rotate": [
"propext",
"Classical.choice",
"Quot.sound"
],
"Verif.Periodic.kuiper_spec": [
"propext",
"Classical.choice",
"Quot.sound"
],
"Verif.Periodic.kuiper_zero_iff": [
"propext",
"Classical.choice",
"Quot.sound"
],
"Verif.Periodic.maxGap_bounds": [
"propext",
"Classical.choice",
"Quot.sound"
],
"Verif.Periodic.maxGap_spec": [
"propext",
"Classical.choice",
"Quot.sound"
],
"Verif.Periodic.mean_false": [
"propext",
"Classical.choice",
"Quot.sound"
],
"Verif.Periodic.nRevisitsNormed_lt": [
"propext",
"Classical.choice",
"Quot.sound"
],
"Verif.Periodic.nRevisits_pairs": [
"propext",
"Classical.choice",
"Quot.sound"
],
"Verif.Periodic.nRevisits_spec": [
"propext",
"Classical.choice",
"Quot.sound"
],
"Verif.Periodic.phaseGap_spec": [
"propext",
"Classical.choice",
"Quot.sound"
],
"Verif.Periodic.rapidRevisit_spec": [
"propext",
"Classical.choice",
"Quot.sound"
],
"Verif.Periodic.rapid_bounds": [
"propext",
"Classical.choice",
"Quot.sound"
],
"Verif.Periodic.rapid_false": [
"propext",
"Classical.choice",
"Quot.sound"
],
"Verif.Periodic.rapid_zero_iff": [
"propext",
"Classical.choice",
"Quot.sound"
],
"Verif.Periodic.single_false": [
"propext",
"Classical.choice",
"Quot.sound"
],
"Verif.Periodic.visitGaps_single": [
"propext",
"Quot.sound"
],
"Verif.Periodic.visitGaps_sum": [
"propext",
"Classical.choice",
"Quot.sound"
],
"Verif.Periodic.yearCoverage_spec": [
"propext",
"Classical.choice",
"Quot.sound"
],
"Verif.PlotH.applyZpNorm_spec": [
"propext",
"Classical.choice",
"Quot.sound"
],
"Verif.PlotH.band_colors_false": [
"propext",
"Classical.choice",
"Quot.sound"
],
"Verif.PlotH.checkDicts_spec": [
"propext",
"Classical.choice",
"Quot.sound"
],
"Verif.PlotH.check_agrees": [
"propext",
"Classical.choice",
"Quot.sound"
],
"Verif.PlotH.color_max_dropped": [
"propext",
"Classical.choice",
"Quot.sound"
],
"Verif.PlotH.combine_complete_false": [
"propext"
],
"Verif.PlotH.combine_complete_partial": [
"propext",
"Classical.choice",
"Quot.sound"
],
"Verif.PlotH.combine_raises_iff": [
"propext",
"Classical.choice",
"Quot.sound"
],
"Verif.PlotH.combine_subset_false": [
"propext",
"Classical.choice",
"Quot.sound"
],
"Verif.PlotH.displayGroup_spec": [
"propext",
"Classical.choice",
"Quot.sound"
],
"Verif.PlotH.displayOrder_bounds": [
"propext",
"Classical.choice",
"Quot.sound"
],
"Verif.PlotH.displayOrder_false": [
"propext",
"Quot.sound"
],
"Verif.PlotH.documented_false": [],
"Verif.PlotH.documented_partial": [
"propext",
"Classical.choice",
"Quot.sound"
],
"Verif.PlotH.forder_spec": [
"propext",
"Quot.sound"
],
"Verif.PlotH.guessColor_band": [
"propext",
"Classical.choice",
"Quot.sound"
],
"Verif.PlotH.guessColor_last": [
"propext",
"Classical.choice",
"Quot.sound"
],
"Verif.PlotH.history": [
"propext",
"Quot.sound"
],
"Verif.PlotH.insert_spec": [
"propext",
"Quot.sound"
],
"Verif.PlotH.jointName_bands": [
"propext",
"Quot.sound"
],
"Verif.PlotH.jointName_false": [
"propext",
"Classical.choice",
"Quot.sound"
],
"Verif.PlotH.jointName_one": [
"propext"
],
"Verif.PlotH.jointName_uneven": [
"propext"
],
"Verif.PlotH.leak": [
"propext",
"Quot.sound"
],
"Verif.PlotH.limits_lost": [
"propext",
"Classical.choice",
"Quot.sound"
],
"Verif.PlotH.order_false": [
"propext",
"Classical.choice",
"Quot.sound"
],
"Verif.PlotH.ordered_stay": [
"propext",
"Classical.choice",
"Quot.sound"
],
"Verif.PlotH.own_color": [
"propext",
"Classical.choice",
"Quot.sound"
],
"Verif.PlotH.plot_refused": [
"propext",
"Quot.sound"
],
"Verif.PlotH.plot_spec": [
"propext",
"Quot.sound"
],
"Verif.PlotH.random_colors": [
"propext",
"Classical.choice",
"Quot.sound"
],
"Verif.PlotH.resolve_spec": [
"propext",
"Classical.choice",
"Quot.sound"
],
"Verif.PlotH.same_band_reversed": [
"propext",
"Quot.sound"
],
"Verif.PlotH.setBundles_spec": [
"propext",
"Classical.choice",
"Quot.sound"
],
"Verif.PlotH.userDict_spec": [
"propext"
],
"Verif.PlotNames.distinct_false": [
"propext"
],
"Verif.PlotNames.distinct_partial": [
"propext",
"Classical.choice",
"Quot.sound"
],
"Verif.PlotNames.legend_changing": [
"propext",
"Classical.choice",
"Quot.sound"
],
"Verif.PlotNames.legend_each": [
"propext"
],
"Verif.PlotNames.title_joint": [
"propext",
"Classical.choice",
"Quot.sound"
],
"Verif.PlotNames.title_shared": [
"propext",
"Classical.choice",
"Quot.sound"
],
"Verif.Plotters.colorLims_data": [
"propext",
"Classical.choice",
"Quot.sound"
],
"Verif.Plotters.colorLims_empty": [
"propext",
"Quot.sound"
],
"Verif.Plotters.colorLims_range": [
"propext",
"Classical.choice",
"Quot.sound"
],
"Verif.Plotters.colorLims_range_false": [
"propext",
"Classical.choice",
"Quot.sound"
],
"Verif.Plotters.colorLims_user": [
"propext",
"Quot.sound"
],
"Verif.Plotters.diameter_five": [
"propext",
"Classical.choice",
"Quot.sound"
],
"Verif.Plotters.diameter_formula": [
"propext",
"Classical.choice",
"Quot.sound"
],
"Verif.Plotters.diameter_unit": [
"propext",
"Classical.choice",
"Quot.sound"
],
"Verif.Plotters.foCurve_area": [
"propext",
"Classical.choice",
"Quot.sound"
],
"Verif.Plotters.foCurve_bounds": [
"propext",
"Classical.choice",
"Quot.sound"
],
"Verif.Plotters.foCurve_get": [
"propext",
"Classical.choice",
"Quot.sound"
],
"Verif.Plotters.hIndex_narrow": [
"propext",
"Classical.choice",
"Quot.sound"
],
"Verif.Plotters.hIndex_spec": [
"propext",
"Classical.choice",
"Quot.sound"
],
"Verif.Plotters.hIndex_step_false": [
"propext",
"Classical.choice",
"Quot.sound"
],
"Verif.Plotters.hIndex_step_partial": [
"propext",
"Classical.choice",
"Quot.sound"
],
"Verif.Plotters.histBins_covers_false": [
"propext",
"Classical.choice",
"Quot.sound"
],
"Verif.Plotters.histBins_covers_partial": [
"propext",
"Classical.choice",
"Quot.sound"
],
"Verif.Plotters.histBins_edges": [
"propext",
"Classical.choice",
"Quot.sound"
],
"Verif.Plotters.histBins_narrow": [
"propext",
"Classical.choice",
"Quot.sound"
],
"Verif.Plotters.oneDSubset_false": [
"propext"
],
"Verif.Plotters.oneDSubset_ndslicer": [
"propext"
],
"Verif.Plotters.oneDSubset_partial": [
"propext",
"Classical.choice",
"Quot.sound"
],
"Verif.Plotters.oneDSubset_total": [
"propext",
"Classical.choice",
"Quot.sound"
],
"Verif.Plotters.oneDSubset_two": [
"propext",
"Classical.choice",
"Quot.sound"
],
"Verif.Plotters.orbitLookups_default": [
"propext"
],
"Verif.Plotters.orbitLookups_hvals": [
"propext"
],
"Verif.Plotters.pairBars_short": [
"propext",
"Classical.choice",
"Quot.sound"
],
"Verif.Plotters.pairBars_spec": [
"propext",
"Classical.choice",
"Quot.sound"
],
"Verif.Plotters.pairBars_total": [
"propext",
"Classical.choice",
"Quot.sound"
],
"Verif.Plotters.pairBars_total_false": [
"propext",
"Classical.choice",
"Quot.sound"
],
"Verif.Plotters.skyLon_range": [
"propext",
"Classical.choice",
"Quot.sound"
],
"Verif.Plotters.skyLon_turns": [
"propext",
"Classical.choice",
"Quot.sound"
],
"Verif.Plotters.skyLon_unique": [
"propext",
"Classical.choice",
"Quot.sound"
],
"Verif.Plotters.summaryHist_bin": [
"propext",
"Quot.sound"
],
"Verif.Plotters.summaryHist_cumulative": [
"propext",
"Quot.sound"
],
"Verif.Plotters.summaryHist_total": [
"propext",
"Quot.sound"
],
"Verif.Plotters.twoDMap_spec": [
"propext",
"Quot.sound"
],
"Verif.Plotters.twoDMap_twice": [
"propext",
"Quot.sound"
],
"Verif.Plotters.twoDMap_unchanged_false": [
"propext"
],
"Verif.Plotters.twoDMap_unchanged_partial": [
"propext"
],
"Verif.Plotters.twoDSubset_false": [
"propext"
],
"Verif.Plotters.twoDSubset_partial": [
"propext",
"Quot.sound"
],
"Verif.Plotters.twoDSubset_transposed": [
"propext"
],
"Verif.Proto.ages": [
"propext",
"Classical.choice",
"Quot.sound"
],
"Verif.Proto.archive_keeps": [
"propext",
"Quot.sound"
],
"Verif.Proto.cache_false": [],
"Verif.Proto.cache_sound": [
"propext",
"Classical.choice",
"Quot.sound"
],
"Verif.Proto.check_changed": [
"propext",
"Classical.choice",
"Quot.sound"
],
"Verif.Proto.check_exported": [
"propext",
"Classical.choice",
"Quot.sound"
],
"Verif.Proto.check_spec": [
"propext",
"Classical.choice",
"Quot.sound"
],
"Verif.Proto.cli_false": [],
"Verif.Proto.cli_types": [
"propext",
"Quot.sound"
],
"Verif.Proto.compile_first_only": [
"propext",
"Classical.choice",
"Quot.sound"
],
"Verif.Proto.compile_ok_iff": [
"propext",
"Classical.choice",
"Quot.sound"
],
"Verif.Proto.differences_mem": [
"propext",
"Quot.sound"
],
"Verif.Proto.differences_nil": [
"propext",
"Quot.sound"
],
"Verif.Proto.fetch_none": [],
"Verif.Proto.fetch_some": [
"propext",
"Quot.sound"
],
"Verif.Proto.find_exported": [
"propext",
"Classical.choice",
"Quot.sound"
],
"Verif.Proto.find_latest_false": [
"propext",
"Classical.choice",
"Quot.sound"
],
"Verif.Proto.find_latest_partial": [
"propext",
"Classical.choice",
"Quot.sound"
],
"Verif.Proto.find_raises": [
"propext",
"Classical.choice",
"Quot.sound"
],
"Verif.Proto.find_read": [
"propext",
"Classical.choice",
"Quot.sound"
],
"Verif.Proto.find_spec": [
"propext",
"Classical.choice",
"Quot.sound"
],
"Verif.Proto.index_fresh": [
"propext",
"Quot.sound"
],
"Verif.Proto.index_no_race": [
"propext",
"Quot.sound"
],
"Verif.Proto.index_race": [
"propext"
],
"Verif.Proto.index_sequence": [
"propext",
"Quot.sound"
],
"Verif.Proto.index_spec": [
"propext",
"Quot.sound"
],
"Verif.Proto.made_check_false": [
"propext",
"Classical.choice",
"Quot.sound"
],
"Verif.Proto.made_check_partial": [
"propext",
"Classical.choice",
"Quot.sound"
],
"Verif.Proto.made_files_false": [
"propext",
"Classical.choice",
"Quot.sound"
],
"Verif.Proto.made_files_partial": [
"propext",
"Classical.choice",
"Quot.sound"
],
"Verif.Proto.read_direct": [
"propext",
"Classical.choice",
"Quot.sound"
],
"Verif.Proto.read_order": [
"propext",
"Classical.choice",
"Quot.sound"
],
"Verif.Proto.read_verify": [
"propext",
"Classical.choice",
"Quot.sound"
],
"Verif.Proto.tables_round_false": [
"propext"
],
"Verif.Proto.tables_round_partial": [
"propext",
"Classical.choice",
"Quot.sound"
],
"Verif.Proto.tables_spec": [
"propext",
"Classical.choice",
"Quot.sound"
],
"Verif.Proto.tap_ahead": [
"propext",
"Classical.choice",
"Quot.sound"
],
"Verif.Proto.transfer_fail": [
"propext",
"Quot.sound"
],
"Verif.Proto.transfer_fail_false": [],
"Verif.Proto.transfer_spec": [
"propext",
"Classical.choice",
"Quot.sound"
],
"Verif.RealMetrics.coadd_bounds": [
"propext",
"Classical.choice",
"Quot.sound"
],
"Verif.RealMetrics.coadd_groups": [
"propext",
"Classical.choice",
"Quot.sound"
],
"Verif.RealMetrics.coadd_more": [
"propext",
"Classical.choice",
"Quot.sound"
],
"Verif.RealMetrics.coadd_other_filters": [
"propext",
"Classical.choice",
"Quot.sound"
],
"Verif.RealMetrics.coadd_perm": [
"propext",
"Classical.choice",
"Quot.sound"
],
"Verif.RealMetrics.coadd_replicate": [
"propext",
"Classical.choice",
"Quot.sound"
],
"Verif.RealMetrics.coadd_run_spec": [
"propext",
"Classical.choice",
"Quot.sound"
],
"Verif.RealMetrics.coadd_single": [
"propext",
"Classical.choice",
"Quot.sound"
],
"Verif.RealMetrics.mean_angle_range": [
"propext",
"Classical.choice",
"Quot.sound"
],
"Verif.RealMetrics.mean_angle_rotation": [
"propext",
"Classical.choice",
"Quot.sound"
],
"Verif.RealMetrics.mean_angle_same": [
"propext",
"Classical.choice",
"Quot.sound"
],
"Verif.RealMetrics.mean_angle_uniform": [
"propext",
"Classical.choice",
"Quot.sound"
],
"Verif.RealMetrics.mean_turns_false": [
"propext",
"Classical.choice",
"Quot.sound"
],
"Verif.RealMetrics.spread_range": [
"propext",
"Classical.choice",
"Quot.sound"
],
"Verif.RealMetrics.spread_rotation": [
"propext",
"Classical.choice",
"Quot.sound"
],
"Verif.RealMetrics.spread_zero_iff": [
"propext",
"Classical.choice",
"Quot.sound"
],
"Verif.ReqCols.dependency_runs_too_late": [
"propext",
"Classical.choice",
"Quot.sound"
],
"Verif.ReqCols.reqCols_closed": [
"propext",
"Classical.choice",
"Quot.sound"
],
"Verif.ReqCols.reqCols_terminates": [
"propext",
"Classical.choice",
"Quot.sound"
],
"Verif.ReqCols.stacker_order_false": [
"propext",
"Classical.choice",
"Quot.sound"
],
"Verif.ReqCols.stacker_order_partial": [
"propext",
"Classical.choice",
"Quot.sound"
],
"Verif.Sat.avoid_spec": [
"propext",
"Classical.choice",
"Quot.sound"
],
"Verif.Sat.checkPointings_spec": [
"propext",
"Classical.choice",
"Quot.sound"
],
"Verif.Sat.checksum_spec": [
"propext",
"Quot.sound"
],
"Verif.Sat.create_spec": [
"propext",
"Classical.choice",
"Quot.sound"
],
"Verif.Sat.fixed_length": [
"propext",
"Classical.choice",
"Quot.sound"
],
"Verif.Sat.fixed_spec": [
"propext",
"Classical.choice",
"Quot.sound"
],
"Verif.Sat.line1_spec": [
"propext",
"Classical.choice",
"Quot.sound"
],
"Verif.Sat.line2_spec": [
"propext",
"Classical.choice",
"Quot.sound"
],
"Verif.Sat.maps_false": [
"propext",
"Classical.choice",
"Quot.sound"
],
"Verif.Sat.maps_partial": [
"propext",
"Classical.choice",
"Quot.sound"
],
"Verif.Sat.meanMotion_lt": [
"propext",
"Classical.choice",
"Quot.sound"
],
"Verif.Sat.meanMotion_spec": [
"propext",
"Classical.choice",
"Quot.sound"
],
"Verif.Sat.nside_false": [],
"Verif.Sat.places_grid": [
"propext",
"Classical.choice",
"Quot.sound"
],
"Verif.Sat.places_length": [
"propext",
"Classical.choice",
"Quot.sound"
],
"Verif.Sat.places_nodup": [
"propext",
"Classical.choice",
"Quot.sound"
],
"Verif.Sat.presets": [
"propext",
"Classical.choice",
"Quot.sound"
],
"Verif.Sat.short_false": [
"propext",
"Classical.choice",
"Quot.sound"
],
"Verif.Sat.short_zero": [
"propext",
"Classical.choice",
"Quot.sound"
],
"Verif.Sat.spot_spec": [
"propext",
"Classical.choice",
"Quot.sound"
],
"Verif.Sat.streaks_zero_iff": [
"propext",
"Classical.choice",
"Quot.sound"
],
"Verif.Sat.visible_spec": [
"propext",
"Classical.choice",
"Quot.sound"
],
"Verif.Sat.zfill_digits": [
"propext",
"Classical.choice",
"Quot.sound"
],
"Verif.Sat.zfill_length": [
"propext",
"Classical.choice",
"Quot.sound"
],
"Verif.Sat.zfill_value": [
"propext",
"Classical.choice",
"Quot.sound"
],
"Verif.Seasons.campaignLength_spec": [
"propext",
"Classical.choice",
"Quot.sound"
],
"Verif.Seasons.edges_spec": [
"propext",
"Classical.choice",
"Quot.sound"
],
"Verif.Seasons.edges_tile": [
"propext",
"Classical.choice",
"Quot.sound"
],
"Verif.Seasons.frequency_false": [
"propext",
"Classical.choice",
"Quot.sound"
],
"Verif.Seasons.frequency_partial": [
"propext",
"Classical.choice",
"Quot.sound"
],
"Verif.Seasons.long_spec": [
"propext"
],
"Verif.Seasons.meanFrequency_spec": [
"propext",
"Classical.choice",
"Quot.sound"
],
"Verif.Seasons.seasonLengths_spec": [
"propext",
"Classical.choice",
"Quot.sound"
],
"Verif.Sed.calcAdu_scale": [
"propext",
"Classical.choice",
"Quot.sound"
],
"Verif.Sed.calcErgs_false": [
"propext",
"Classical.choice",
"Quot.sound"
],
"Verif.Sed.calcErgs_partial": [
"propext",
"Classical.choice",
"Quot.sound"
],
"Verif.Sed.calcFlux_bounds": [
"propext",
"Classical.choice",
"Quot.sound"
],
"Verif.Sed.calcFlux_const": [
"propext",
"Classical.choice",
"Quot.sound"
],
"Verif.Sed.calcFlux_scale": [
"propext",
"Classical.choice",
"Quot.sound"
],
"Verif.Sed.calcFlux_throughput": [
"propext",
"Classical.choice",
"Quot.sound"
],
"Verif.Sed.calc_uses_present": [
"propext",
"Classical.choice",
"Quot.sound"
],
"Verif.Sed.counts_false": [
"propext",
"Classical.choice",
"Quot.sound"
],
"Verif.Sed.counts_partial": [
"propext",
"Classical.choice",
"Quot.sound"
],
"Verif.Sed.inSync": [
"propext",
"Classical.choice",
"Quot.sound"
],
"Verif.Sed.manyFlux_eq": [
"propext",
"Classical.choice",
"Quot.sound"
],
"Verif.Sed.manyFlux_false": [
"propext",
"Classical.choice",
"Quot.sound"
],
"Verif.Sed.manyFlux_partial": [
"propext",
"Classical.choice",
"Quot.sound"
],
"Verif.Sed.phi_integral": [
"propext",
"Classical.choice",
"Quot.sound"
],
"Verif.Sed.phi_nonneg": [
"propext",
"Classical.choice",
"Quot.sound"
],
"Verif.Sed.phi_shape": [
"propext",
"Quot.sound"
],
"Verif.Sed.redshift_back": [
"propext",
"Classical.choice",
"Quot.sound"
],
"Verif.Sed.redshift_energy": [
"propext",
"Classical.choice",
"Quot.sound"
],
"Verif.Sed.redshift_false": [
"propext",
"Classical.choice",
"Quot.sound"
],
"Verif.Sed.redshift_partial": [
"propext",
"Quot.sound"
],
"Verif.Sed.resample_grid": [
"propext",
"Classical.choice",
"Quot.sound"
],
"Verif.Sed.toFlambda_toFnu": [
"propext",
"Classical.choice",
"Quot.sound"
],
"Verif.SedCache.cleared_badval": [
"propext"
],
"Verif.SedCache.cleared_false": [
"propext",
"Classical.choice",
"Quot.sound"
],
"Verif.SedCache.cleared_iff": [
"propext"
],
"Verif.SedCache.close_false": [
"propext",
"Classical.choice",
"Quot.sound"
],
"Verif.SedCache.close_raises": [
"propext",
"Classical.choice",
"Quot.sound"
],
"Verif.SedCache.eq_iff_partial": [
"propext"
],
"Verif.SedCache.eq_symm_false": [],
"Verif.SedCache.find_class": [
"propext",
"Classical.choice",
"Quot.sound"
],
"Verif.SedCache.fresh_valid_false": [
"propext",
"Classical.choice",
"Quot.sound"
],
"Verif.SedCache.fresh_valid_partial": [
"propext",
"Classical.choice",
"Quot.sound"
],
"Verif.SedCache.generate_lookup": [
"propext",
"Classical.choice",
"Quot.sound"
],
"Verif.SedCache.limits": [
"propext",
"Classical.choice",
"Quot.sound"
],
"Verif.SedCache.load_refused": [
"propext",
"Classical.choice",
"Quot.sound"
],
"Verif.SedCache.load_written": [
"propext",
"Classical.choice",
"Quot.sound"
],
"Verif.SedCache.match_closest": [
"propext",
"Classical.choice",
"Quot.sound"
],
"Verif.SedCache.metric_segments": [
"propext",
"Quot.sound"
],
"Verif.SedCache.parse_name": [
"propext",
"Classical.choice",
"Quot.sound"
],
"Verif.SedCache.refused": [
"propext",
"Classical.choice",
"Quot.sound"
],
"Verif.SedCache.refused_false": [
"propext",
"Classical.choice",
"Quot.sound"
],
"Verif.SedCache.reuse_exact": [
"propext",
"Classical.choice",
"Quot.sound"
],
"Verif.SedCache.reuse_false": [
"propext",
"Classical.choice",
"Quot.sound"
],
"Verif.SedCache.reuse_iff": [
"propext",
"Classical.choice",
"Quot.sound"
],
"Verif.SedCache.second_call": [
"propext",
"Classical.choice",
"Quot.sound"
],
"Verif.SedCache.segments_spec": [
"propext",
"Classical.choice",
"Quot.sound"
],
"Verif.SedCache.setup_phi": [
"propext",
"Classical.choice",
"Quot.sound"
],
"Verif.SedCache.setup_phi_false": [
"propext",
"Classical.choice",
"Quot.sound"
],
"Verif.SedCache.stale": [
"propext",
"Classical.choice",
"Quot.sound"
],
"Verif.SedCache.stale_false": [
"propext",
"Classical.choice",
"Quot.sound"
],
"Verif.SedCache.stored_iff": [
"propext",
"Classical.choice",
"Quot.sound"
],
"Verif.SedCache.validate_partial": [
"propext",
"Classical.choice",
"Quot.sound"
],
"Verif.SedCache.zeropoints": [
"propext",
"Classical.choice",
"Quot.sound"
],
"Verif.SedFiles.construct_other": [
"propext",
"Classical.choice",
"Quot.sound"
],
"Verif.SedFiles.construct_spec": [
"propext",
"Quot.sound"
],
"Verif.SedFiles.default_band": [
"propext",
"Quot.sound"
],
"Verif.SedFiles.default_sigma": [
"propext",
"Quot.sound"
],
"Verif.SedFiles.multiply_partial": [
"propext",
"Quot.sound"
],
"Verif.SedFiles.read_contents": [
"propext"
],
"Verif.SedFiles.reads_false": [
"propext",
"Quot.sound"
],
"Verif.SedFiles.reads_partial": [
"propext"
],
"Verif.SedFiles.renormFnu_false": [
"propext",
"Classical.choice",
"Quot.sound"
],
"Verif.SedFiles.renorm_false": [
"propext",
"Classical.choice",
"Quot.sound"
],
"Verif.SedFiles.renorm_gap_partial": [
"propext",
"Classical.choice",
"Quot.sound"
],
"Verif.SedFiles.renorm_partial": [
"propext",
"Classical.choice",
"Quot.sound"
],
"Verif.SedFiles.unknown_false": [
"propext",
"Classical.choice",
"Quot.sound"
],
"Verif.SedFiles.writeFnu_false": [
"propext",
"Quot.sound"
],
"Verif.SedFiles.write_false": [
"propext",
"Classical.choice",
"Quot.sound"
],
"Verif.SedFiles.write_partial": [
"propext",
"Classical.choice",
"Quot.sound"
],
"Verif.SedFiles.written_near": [
"propext",
"Classical.choice",
"Quot.sound"
],
"Verif.SedT.detected_spec": [
"propext",
"Classical.choice",
"Quot.sound"
],
"Verif.SedT.epoch_range": [
"propext",
"Classical.choice",
"Quot.sound"
],
"Verif.SedT.ident_zero": [
"propext",
"Classical.choice",
"Quot.sound"
],
"Verif.SedT.inTime_documented_false": [
"propext",
"Classical.choice",
"Quot.sound"
],
"Verif.SedT.inTime_never": [
"propext",
"Quot.sound"
],
"Verif.SedT.inTime_partial": [
"propext",
"Classical.choice",
"Quot.sound"
],
"Verif.SedT.inTime_sound": [
"propext",
"Classical.choice",
"Quot.sound"
],
"Verif.SedT.mkRows_get": [
"propext",
"Quot.sound"
],
"Verif.SedT.mkRows_known": [
"propext",
"Classical.choice",
"Quot.sound"
],
"Verif.SedT.run_spec": [
"propext",
"Classical.choice",
"Quot.sound"
],
"Verif.SedT.same_transient_false": [
"propext",
"Classical.choice",
"Quot.sound"
],
"Verif.SedT.same_transient_partial": [
"propext",
"Classical.choice",
"Quot.sound"
],
"Verif.SedT.same_transient_split": [
"propext",
"Classical.choice",
"Quot.sound"
],
"Verif.SedT.setupAll_first": [
"propext",
"Quot.sound"
],
"Verif.SedT.setupAll_start": [
"propext",
"Quot.sound"
],
"Verif.SedT.setupAll_years": [
"propext",
"Classical.choice",
"Quot.sound"
],
"Verif.SedT.shifts_spec": [
"propext",
"Classical.choice",
"Quot.sound"
],
"Verif.SedT.start_documented_false": [
"propext",
"Classical.choice",
"Quot.sound"
],
"Verif.SedT.start_documented_partial": [
"propext",
"Quot.sound"
],
"Verif.SedT.thresholds_documented_false": [
"propext",
"Classical.choice",
"Quot.sound"
],
"Verif.Selfcal.catalog_false": [
"propext",
"Classical.choice",
"Quot.sound"
],
"Verif.Selfcal.catalog_partial": [
"propext",
"Classical.choice",
"Quot.sound"
],
"Verif.Selfcal.catalog_spec": [
"propext",
"Quot.sound"
],
"Verif.Selfcal.cell_range": [
"propext",
"Classical.choice",
"Quot.sound"
],
"Verif.Selfcal.cell_spec": [
"propext",
"Classical.choice",
"Quot.sound"
],
"Verif.Selfcal.chi2_shift": [
"propext",
"Classical.choice",
"Quot.sound"
],
"Verif.Selfcal.clean_spec": [
"propext",
"Classical.choice",
"Quot.sound"
],
"Verif.Selfcal.columns_spec": [
"propext",
"Classical.choice",
"Quot.sound"
],
"Verif.Selfcal.core_single": [
"propext",
"Classical.choice",
"Quot.sound"
],
"Verif.Selfcal.core_spec": [
"propext",
"Classical.choice",
"Quot.sound"
],
"Verif.Selfcal.core_unique": [
"propext",
"Classical.choice",
"Quot.sound"
],
"Verif.Selfcal.dmags_spec": [
"propext",
"Classical.choice",
"Quot.sound"
],
"Verif.Selfcal.in_square": [
"propext",
"Classical.choice",
"Quot.sound"
],
"Verif.Selfcal.lsqr_exists": [
"propext",
"Classical.choice",
"Quot.sound"
],
"Verif.Selfcal.magErr_mono": [
"propext",
"Classical.choice",
"Quot.sound"
],
"Verif.Selfcal.max_patch": [
"propext",
"Classical.choice",
"Quot.sound"
],
"Verif.Selfcal.noOffset_error": [
"propext",
"Classical.choice",
"Quot.sound"
],
"Verif.Selfcal.noOffset_false": [
"propext",
"Classical.choice",
"Quot.sound"
],
"Verif.Selfcal.obsMag_other": [
"propext",
"Classical.choice",
"Quot.sound"
],
"Verif.Selfcal.obsMag_spec": [
"propext",
"Classical.choice",
"Quot.sound"
],
"Verif.Selfcal.pass_le": [
"propext"
],
"Verif.Selfcal.patch_unique": [
"propext",
"Classical.choice",
"Quot.sound"
],
"Verif.Selfcal.project_radius": [
"propext",
"Classical.choice",
"Quot.sound"
],
"Verif.Selfcal.recover": [
"propext",
"Classical.choice",
"Quot.sound"
],
"Verif.Selfcal.same_key_false": [
"propext",
"Classical.choice",
"Quot.sound"
],
"Verif.Selfcal.single_false": [
"propext",
"Classical.choice",
"Quot.sound"
],
"Verif.Selfcal.solve_empty": [
"propext",
"Classical.choice",
"Quot.sound"
],
"Verif.Selfcal.solve_least": [
"propext",
"Classical.choice",
"Quot.sound"
],
"Verif.Selfcal.uncert_spec": [
"propext",
"Classical.choice",
"Quot.sound"
],
"Verif.SharedSlice.addDust_eq": [
"propext",
"Classical.choice",
"Quot.sound"
],
"Verif.SharedSlice.alone_order_partial": [
"propext"
],
"Verif.SharedSlice.alone_partial": [
"propext"
],
"Verif.SharedSlice.clip_adds": [
"propext",
"Quot.sound"
],
"Verif.SharedSlice.clip_false": [
"propext",
"Classical.choice",
"Quot.sound"
],
"Verif.SharedSlice.clip_harmless_partial": [
"propext",
"Quot.sound"
],
"Verif.SharedSlice.dust_adds": [
"propext",
"Classical.choice",
"Quot.sound"
],
"Verif.SharedSlice.dust_false": [
"propext",
"Classical.choice",
"Quot.sound"
],
"Verif.SharedSlice.harmless_iff": [
"propext",
"Classical.choice",
"Quot.sound"
],
"Verif.SharedSlice.harmless_order_iff": [
"propext",
"Classical.choice",
"Quot.sound"
],
"Verif.SharedSlice.later": [
"propext"
],
"Verif.SharedSlice.reading_harmless": [],
"Verif.SharedSlice.slice_none": [
"propext",
"Classical.choice",
"Quot.sound"
],
"Verif.SharedSlice.slices_alone": [
"propext",
"Classical.choice",
"Quot.sound"
],
"Verif.SharedSlice.snn_alone": [
"propext",
"Classical.choice",
"Quot.sound"
],
"Verif.SharedSlice.snn_harmless_partial": [
"propext"
],
"Verif.SharedSlice.sort_eq": [
"propext",
"Quot.sound"
],
"Verif.SharedSlice.sorting_alone": [
"propext",
"Quot.sound"
],
"Verif.SharedSlice.sorting_harmless": [
"propext",
"Quot.sound"
],
"Verif.SharedSlice.value_at": [
"propext"
],
"Verif.SharedSlice.values_length": [
"propext"
],
"Verif.SkyI.airglow_spec": [
"propext",
"Classical.choice",
"Quot.sound"
],
"Verif.SkyI.back_spec": [
"propext",
"Classical.choice",
"Quot.sound"
],
"Verif.SkyI.bounds_false": [
"propext",
"Classical.choice",
"Quot.sound"
],
"Verif.SkyI.bounds_partial": [
"propext",
"Classical.choice",
"Quot.sound"
],
"Verif.SkyI.edge_false": [
"propext",
"Classical.choice",
"Quot.sound"
],
"Verif.SkyI.edge_partial": [
"propext",
"Quot.sound"
],
"Verif.SkyI.id_spec": [
"propext",
"Classical.choice",
"Quot.sound"
],
"Verif.SkyI.lin_bounds": [
"propext",
"Classical.choice",
"Quot.sound"
],
"Verif.SkyI.lin_node": [
"propext",
"Classical.choice",
"Quot.sound"
],
"Verif.SkyI.lin_spec": [
"propext",
"Classical.choice",
"Quot.sound"
],
"Verif.SkyI.low_spec": [
"propext",
"Classical.choice",
"Quot.sound"
],
"Verif.SkyI.mag_out": [
"propext",
"Classical.choice",
"Quot.sound"
],
"Verif.SkyI.mag_spec": [
"propext",
"Classical.choice",
"Quot.sound"
],
"Verif.SkyI.node_false": [
"propext",
"Classical.choice",
"Quot.sound"
],
"Verif.SkyI.node_partial": [
"propext",
"Classical.choice",
"Quot.sound"
],
"Verif.SkyI.out_spec": [
"propext",
"Quot.sound"
],
"Verif.SkyI.pix_spec": [
"propext",
"Classical.choice",
"Quot.sound"
],
"Verif.SkyI.round_trip": [
"propext",
"Classical.choice",
"Quot.sound"
],
"Verif.SkyI.single_spec": [
"propext",
"Quot.sound"
],
"Verif.SkyI.spec_node": [
"propext",
"Classical.choice",
"Quot.sound"
],
"Verif.SkyI.twilightMag_spec": [
"propext",
"Classical.choice",
"Quot.sound"
],
"Verif.SkyI.twilight_dark": [
"propext",
"Classical.choice",
"Quot.sound"
],
"Verif.SkyI.twilight_pos": [
"propext",
"Classical.choice",
"Quot.sound"
],
"Verif.SkyI.twilight_sun": [
"propext",
"Classical.choice",
"Quot.sound"
],
"Verif.SkyI.twilight_symm": [
"propext",
"Classical.choice",
"Quot.sound"
],
"Verif.SkyI.twilight_towards": [
"propext",
"Classical.choice",
"Quot.sound"
],
"Verif.SkyI.twilight_zenith": [
"propext",
"Classical.choice",
"Quot.sound"
],
"Verif.SkyI.weights_between": [
"propext",
"Classical.choice",
"Quot.sound"
],
"Verif.SkyI.weights_high": [
"propext",
"Quot.sound"
],
"Verif.SkyI.weights_node": [
"propext",
"Classical.choice",
"Quot.sound"
],
"Verif.SkyI.weights_sum": [
"propext",
"Classical.choice",
"Quot.sound"
],
"Verif.SkyI.zodiacal_spec": [
"propext",
"Classical.choice",
"Quot.sound"
],
"Verif.SkyM.airmass_alt": [
"propext",
"Classical.choice",
"Quot.sound"
],
"Verif.SkyM.alt_airmass": [
"propext",
"Classical.choice",
"Quot.sound"
],
"Verif.SkyM.degrees_false": [
"propext",
"Classical.choice",
"Quot.sound"
],
"Verif.SkyM.degrees_partial": [
"propext",
"Classical.choice",
"Quot.sound"
],
"Verif.SkyM.fresh_spec": [
"propext",
"Quot.sound"
],
"Verif.SkyM.mag_brighter": [
"propext",
"Classical.choice",
"Quot.sound"
],
"Verif.SkyM.mag_const": [
"propext",
"Classical.choice",
"Quot.sound"
],
"Verif.SkyM.mag_one": [
"propext",
"Classical.choice",
"Quot.sound"
],
"Verif.SkyM.mag_shift": [
"propext",
"Classical.choice",
"Quot.sound"
],
"Verif.SkyM.mags_partial": [
"propext",
"Quot.sound"
],
"Verif.SkyM.mask_false": [
"propext",
"Classical.choice",
"Quot.sound"
],
"Verif.SkyM.mask_partial": [
"propext",
"Classical.choice",
"Quot.sound"
],
"Verif.SkyM.nan_false": [
"propext",
"Classical.choice",
"Quot.sound"
],
"Verif.SkyM.params_mags_false": [
"propext",
"Classical.choice",
"Quot.sound"
],
"Verif.SkyM.params_spec_false": [
"propext",
"Classical.choice",
"Quot.sound"
],
"Verif.SkyM.relMoon_arccos": [
"propext",
"Classical.choice",
"Quot.sound"
],
"Verif.SkyM.relMoon_spec": [
"propext",
"Classical.choice",
"Quot.sound"
],
"Verif.SkyM.relMoon_symm": [
"propext",
"Classical.choice",
"Quot.sound"
],
"Verif.SkyM.setParams_spec": [
"propext",
"Classical.choice",
"Quot.sound"
],
"Verif.SkyM.sky_spec": [
"propext",
"Classical.choice",
"Quot.sound"
],
"Verif.SkyM.sky_sum": [
"propext",
"Classical.choice",
"Quot.sound"
],
"Verif.SkyM.stale_spec": [
"propext",
"Quot.sound"
],
"Verif.SkyM.targSep_spec": [
"propext",
"Classical.choice",
"Quot.sound"
],
"Verif.SkyM.thin_gap": [
"propext",
"Classical.choice",
"Quot.sound"
],
"Verif.SkyM.thin_spec": [
"propext",
"Classical.choice",
"Quot.sound"
],
"Verif.SkyM.turn_off": [
"propext",
"Quot.sound"
],
"Verif.SkyM.turn_on_error": [
"propext",
"Quot.sound"
],
"Verif.SkyM.wrap_spec": [
"propext",
"Classical.choice",
"Quot.sound"
],
"Verif.SkyM.wrap_unique": [
"propext",
"Classical.choice",
"Quot.sound"
],
"Verif.SkyPlot.bearings_end_false": [
"propext",
"Quot.sound"
],
"Verif.SkyPlot.bearings_end_partial": [
"propext",
"Classical.choice",
"Quot.sound"
],
"Verif.SkyPlot.bearings_mem": [
"propext",
"Classical.choice",
"Quot.sound"
],
"Verif.SkyPlot.bearings_past": [
"propext",
"Classical.choice",
"Quot.sound"
],
"Verif.SkyPlot.bins_lengths": [
"propext"
],
"Verif.SkyPlot.circle_no_jumps_false": [
"propext",
"Classical.choice",
"Quot.sound"
],
"Verif.SkyPlot.circle_no_jumps_partial": [
"propext",
"Classical.choice",
"Quot.sound"
],
"Verif.SkyPlot.circle_same_points": [
"propext",
"Quot.sound"
],
"Verif.SkyPlot.colorbar_fits": [
"propext",
"Classical.choice",
"Quot.sound"
],
"Verif.SkyPlot.dl_all": [
"propext",
"Classical.choice",
"Quot.sound"
],
"Verif.SkyPlot.dl_content": [
"propext",
"Classical.choice",
"Quot.sound"
],
"Verif.SkyPlot.dl_dir": [],
"Verif.SkyPlot.dl_metadata_false": [
"propext",
"Classical.choice",
"Quot.sound"
],
"Verif.SkyPlot.dl_returns": [
"propext",
"Classical.choice",
"Quot.sound"
],
"Verif.SkyPlot.dl_skip": [
"propext",
"Classical.choice",
"Quot.sound"
],
"Verif.SkyPlot.drawn_above": [
"propext"
],
"Verif.SkyPlot.drawn_all": [
"propext"
],
"Verif.SkyPlot.healpix_length": [
"propext"
],
"Verif.SkyPlot.healpix_masked_false": [
"propext",
"Classical.choice",
"Quot.sound"
],
"Verif.SkyPlot.healpix_pixel_partial": [
"propext",
"Classical.choice",
"Quot.sound"
],
"Verif.SkyPlot.healpix_sum": [
"propext",
"Classical.choice",
"Quot.sound"
],
"Verif.SkyPlot.init_all_or_nothing": [
"propext",
"Quot.sound"
],
"Verif.SkyPlot.init_new": [
"propext",
"Classical.choice",
"Quot.sound"
],
"Verif.SkyPlot.init_old_gone": [
"propext",
"Classical.choice",
"Quot.sound"
],
"Verif.SkyPlot.init_other": [
"propext",
"Classical.choice",
"Quot.sound"
],
"Verif.SkyPlot.nearest_iff": [
"propext",
"Classical.choice",
"Quot.sound"
],
"Verif.SkyPlot.neo_apart_false": [
"propext"
],
"Verif.SkyPlot.neo_count": [
"propext",
"Quot.sound"
],
"Verif.SkyPlot.neo_cover": [
"propext",
"Classical.choice",
"Quot.sound"
],
"Verif.SkyPlot.neo_outward": [
"propext",
"Quot.sound"
],
"Verif.SkyPlot.old_header": [
"propext",
"Classical.choice",
"Quot.sound"
],
"Verif.SkyPlot.oned_colour": [
"propext",
"Quot.sound"
],
"Verif.SkyPlot.oned_defaults_false": [],
"Verif.SkyPlot.oned_points": [
"propext",
"Quot.sound"
],
"Verif.SkyPlot.oned_ymin_given": [
"propext",
"Quot.sound"
],
"Verif.SkyPlot.oned_ymin_zero_false": [
"propext",
"Classical.choice",
"Quot.sound"
],
"Verif.SkyPlot.oned_ymin_zero_partial": [
"propext",
"Quot.sound"
],
"Verif.SkyPlot.plot_missing_run": [
"propext",
"Quot.sound"
],
"Verif.SkyPlot.plot_no_summary_false": [],
"Verif.SkyPlot.plot_runs": [
"propext",
"Quot.sound"
],
"Verif.SkyPlot.radar_closed": [
"propext"
],
"Verif.SkyPlot.radar_colours": [
"propext",
"Quot.sound"
],
"Verif.SkyPlot.radar_distinct": [
"propext",
"Classical.choice",
"Quot.sound"
],
"Verif.SkyPlot.radar_even": [
"propext",
"Classical.choice",
"Quot.sound"
],
"Verif.SkyPlot.radar_frame": [
"propext",
"Classical.choice",
"Quot.sound"
],
"Verif.SkyPlot.radar_frame_top": [
"propext",
"Classical.choice",
"Quot.sound"
],
"Verif.SkyPlot.radar_one": [
"propext"
],
"Verif.SkyPlot.radar_range": [
"propext",
"Classical.choice",
"Quot.sound"
],
"Verif.SkyPlot.radar_top": [
"propext",
"Classical.choice",
"Quot.sound"
],
"Verif.SkyPlot.scale_asked": [
"propext",
"Quot.sound"
],
"Verif.SkyPlot.scale_limits": [
"propext",
"Classical.choice",
"Quot.sound"
],
"Verif.SkyPlot.scale_log": [
"propext",
"Quot.sound"
],
"Verif.SkyPlot.skyproj_distinct": [
"propext",
"Classical.choice",
"Quot.sound"
],
"Verif.SkyPlot.skyproj_reused": [
"propext",
"Classical.choice",
"Quot.sound"
],
"Verif.SkyPlot.subplot_forms": [
"propext",
"Classical.choice",
"Quot.sound"
],
"Verif.SkyPlot.table_no_summary": [],
"Verif.SkyPlot.table_none": [
"propext",
"Quot.sound"
],
"Verif.SkyPlot.table_none_false": [],
"Verif.SkyPlot.table_subset": [
"propext",
"Quot.sound"
],
"Verif.SkyS.computed_fresh_false": [
"propext",
"Quot.sound"
],
"Verif.SkyS.computed_fresh_partial": [
"propext",
"Quot.sound"
],
"Verif.SkyS.computed_keys": [
"propext",
"Quot.sound"
],
"Verif.SkyS.computed_last": [
"propext",
"Quot.sound"
],
"Verif.SkyS.computed_mixed": [
"propext",
"Quot.sound"
],
"Verif.SkyS.computed_moon": [
"propext",
"Quot.sound"
],
"Verif.SkyS.computed_refused": [
"propext",
"Quot.sound"
],
"Verif.SkyS.createSubset_spec": [
"propext",
"Classical.choice",
"Quot.sound"
],
"Verif.SkyS.createSubset_total": [
"propext",
"Quot.sound"
],
"Verif.SkyS.dms_spec": [
"propext",
"Classical.choice",
"Quot.sound"
],
"Verif.SkyS.dustKeys_spec": [
"propext",
"Classical.choice",
"Quot.sound"
],
"Verif.SkyS.dustLook_spec": [],
"Verif.SkyS.ecliptic_false": [
"propext",
"Classical.choice",
"Quot.sound"
],
"Verif.SkyS.ecliptic_partial": [
"propext",
"Classical.choice",
"Quot.sound"
],
"Verif.SkyS.enquiry_bands": [
"propext",
"Quot.sound"
],
"Verif.SkyS.enquiry_false": [
"propext",
"Classical.choice",
"Quot.sound"
],
"Verif.SkyS.enquiry_outside": [
"propext",
"Quot.sound"
],
"Verif.SkyS.enquiry_partial": [
"propext",
"Classical.choice",
"Quot.sound"
],
"Verif.SkyS.familyCols_spec": [
"propext",
"Classical.choice",
"Quot.sound"
],
"Verif.SkyS.gatherOut_spec": [
"propext"
],
"Verif.SkyS.lastBin_spec": [
"propext",
"Classical.choice",
"Quot.sound"
],
"Verif.SkyS.nearestIn_spec": [
"propext",
"Quot.sound"
],
"Verif.SkyS.paths_doc_false": [
"propext"
],
"Verif.SkyS.paths_spec": [
"propext",
"Quot.sound"
],
"Verif.SkyS.places_nonzero": [
"propext",
"Quot.sound"
],
"Verif.SkyS.pointing_other": [
"propext",
"Classical.choice",
"Quot.sound"
],
"Verif.SkyS.pointing_spec": [
"propext",
"Classical.choice",
"Quot.sound"
],
"Verif.SkyS.power_spec": [
"propext",
"Classical.choice",
"Quot.sound"
],
"Verif.SkyS.presto_run": [
"propext",
"Classical.choice",
"Quot.sound"
],
"Verif.SkyS.probes_perm": [
"propext",
"Quot.sound"
],
"Verif.SkyS.probes_spec": [
"propext"
],
"Verif.SkyS.recalc_extra": [],
"Verif.SkyS.recalc_file": [
"propext",
"Quot.sound"
],
"Verif.SkyS.recalc_files": [
"propext",
"Quot.sound"
],
"Verif.SkyS.recalc_idem": [
"propext"
],
"Verif.SkyS.stamp_arg": [
"propext",
"Quot.sound"
],
"Verif.SkyS.stamp_false": [
"propext"
],
"Verif.SkyS.stamp_missing": [
"propext"
],
"Verif.SkyS.stamp_partial": [
"propext",
"Classical.choice",
"Quot.sound"
],
"Verif.SkyS.strip_marks": [
"propext",
"Classical.choice",
"Quot.sound"
],
"Verif.SkyS.strip_spec": [
"propext",
"Classical.choice",
"Quot.sound"
],
"Verif.SkyS.telescopes_mono": [
"propext",
"Quot.sound"
],
"Verif.SkyS.telescopes_spec": [
"propext",
"Quot.sound"
],
"Verif.SkyS.telescopes_total": [
"propext",
"Classical.choice",
"Quot.sound"
],
"Verif.SkyS.track_spec": [
"propext",
"Quot.sound"
],
"Verif.SkyS.xyDict_spec": [
"propext"
],
"Verif.SkyS.zone_spec": [
"propext",
"Classical.choice",
"Quot.sound"
],
"Verif.Slicers.block_partition": [
"propext",
"Classical.choice",
"Quot.sound"
],
"Verif.Slicers.movie_cumulative": [
"propext",
"Classical.choice",
"Quot.sound"
],
"Verif.Slicers.movie_step_partition": [
"propext",
"Classical.choice",
"Quot.sound"
],
"Verif.Slicers.nd_partition": [
"propext",
"Classical.choice",
"Quot.sound"
],
"Verif.Slicers.oneD_auto_bins_drop_maximum": [
"propext",
"Classical.choice",
"Quot.sound"
],
"Verif.Slicers.oneD_concat_perm": [
"propext",
"Classical.choice",
"Quot.sound"
],
"Verif.Slicers.oneD_last_bin_closed_false": [
"propext",
"Classical.choice",
"Quot.sound"
],
"Verif.Slicers.oneD_last_bin_closed_partial": [
"propext",
"Classical.choice",
"Quot.sound"
],
"Verif.Slicers.oneD_last_edge_dropped": [
"propext",
"Classical.choice",
"Quot.sound"
],
"Verif.Slicers.oneD_partition": [
"propext",
"Classical.choice",
"Quot.sound"
],
"Verif.Slicers.oneD_slice_exact": [
"propext",
"Classical.choice",
"Quot.sound"
],
"Verif.Slicers.slicer_iteration": [
"propext",
"Quot.sound"
],
"Verif.Slicers.slicer_iteration_run": [
"propext",
"Quot.sound"
],
"Verif.Slicers.timeInterval_empty_not_reported": [
"propext",
"Classical.choice",
"Quot.sound"
],
"Verif.Slicers.timeInterval_shifted_partial": [
"propext",
"Classical.choice",
"Quot.sound"
],
"Verif.Slicers.timeInterval_slice_never_own_window": [
"propext",
"Classical.choice",
"Quot.sound"
],
"Verif.Slicers.uni_selects_all": [
"propext",
"Quot.sound"
],
"Verif.Slicers.visitInterval_each_once": [
"propext",
"Quot.sound"
],
"Verif.Slicers.visitInterval_mismatch": [
"propext",
"Classical.choice",
"Quot.sound"
],
"Verif.Slicers.visitInterval_sorted_partial": [
"propext",
"Quot.sound"
],
"Verif.Small.colMap_case": [
"propext",
"Classical.choice",
"Quot.sound"
],
"Verif.Small.colMap_default": [
"propext",
"Classical.choice",
"Quot.sound"
],
"Verif.Small.colMap_error": [
"propext",
"Classical.choice",
"Quot.sound"
],
"Verif.Small.colMap_names": [
"propext",
"Classical.choice",
"Quot.sound"
],
"Verif.Small.depthLimited_false": [
"propext",
"Classical.choice",
"Quot.sound"
],
"Verif.Small.depthLimited_other": [
"propext",
"Classical.choice",
"Quot.sound"
],
"Verif.Small.depthLimited_partial": [
"propext",
"Classical.choice",
"Quot.sound"
],
"Verif.Small.fluxNorm_error": [
"propext",
"Classical.choice",
"Quot.sound"
],
"Verif.Small.fluxNorm_flux": [
"propext",
"Classical.choice",
"Quot.sound"
],
"Verif.Small.fluxNorm_spec": [
"propext",
"Classical.choice",
"Quot.sound"
],
"Verif.Small.fluxNorm_unique": [
"propext",
"Classical.choice",
"Quot.sound"
],
"Verif.Small.mad_affine": [
"propext",
"Classical.choice",
"Quot.sound"
],
"Verif.Small.match_empty": [
"propext"
],
"Verif.Small.match_spec": [
"propext",
"Classical.choice",
"Quot.sound"
],
"Verif.Small.nights_minimum_false": [
"propext",
"Classical.choice",
"Quot.sound"
],
"Verif.Small.nights_perm": [
"propext",
"Classical.choice",
"Quot.sound"
],
"Verif.Small.nights_with_n": [
"propext",
"Classical.choice",
"Quot.sound"
],
"Verif.Small.pixCounts_eq": [
"propext",
"Classical.choice",
"Quot.sound"
],
"Verif.Small.pixCounts_nonneg": [
"propext",
"Classical.choice",
"Quot.sound"
],
"Verif.Small.readObs_builtin": [
"propext",
"Classical.choice",
"Quot.sound"
],
"Verif.Small.readObs_caller": [
"propext",
"Classical.choice",
"Quot.sound"
],
"Verif.Small.readObs_cols": [
"propext",
"Classical.choice",
"Quot.sound"
],
"Verif.Small.readObs_missing": [
"propext",
"Classical.choice",
"Quot.sound"
],
"Verif.Small.residMap_pixels": [
"propext",
"Classical.choice",
"Quot.sound"
],
"Verif.Small.starCountMass_order_false": [
"propext",
"Classical.choice",
"Quot.sound"
],
"Verif.Small.starCountMass_position": [
"propext",
"Classical.choice",
"Quot.sound"
],
"Verif.Small.starCount_never": [
"propext",
"Classical.choice",
"Quot.sound"
],
"Verif.Small.starCount_type_error": [
"propext",
"Classical.choice",
"Quot.sound"
],
"Verif.Small.uniformity_columns_false": [
"propext",
"Quot.sound"
],
"Verif.Small.uniformity_fractions": [
"propext",
"Classical.choice",
"Quot.sound"
],
"Verif.Small.uniformity_high_false": [
"propext",
"Classical.choice",
"Quot.sound"
],
"Verif.Small.uniformity_spec": [
"propext",
"Quot.sound"
],
"Verif.Small.uniformity_zero_point": [
"propext",
"Classical.choice",
"Quot.sound"
],
"Verif.SnN.byRow_flat": [
"propext",
"Quot.sound"
],
"Verif.SnN.calcDaymax_grid": [
"propext",
"Classical.choice",
"Quot.sound"
],
"Verif.SnN.calcDaymax_short": [
"propext",
"Classical.choice",
"Quot.sound"
],
"Verif.SnN.calcDaymax_step_false": [
"propext",
"Classical.choice",
"Quot.sound"
],
"Verif.SnN.calcDaymax_step_gt": [
"propext",
"Classical.choice",
"Quot.sound"
],
"Verif.SnN.capped_rates": [
"propext",
"Classical.choice",
"Quot.sound"
],
"Verif.SnN.coadd_depth_eq": [
"propext",
"Classical.choice",
"Quot.sound"
],
"Verif.SnN.coadd_depth_le": [
"propext",
"Classical.choice",
"Quot.sound"
],
"Verif.SnN.coadd_keys": [
"propext",
"Classical.choice",
"Quot.sound"
],
"Verif.SnN.coadd_single": [
"propext",
"Classical.choice",
"Quot.sound"
],
"Verif.SnN.coadd_single_false": [
"propext",
"Classical.choice",
"Quot.sound"
],
"Verif.SnN.coadd_single_iff": [
"propext",
"Classical.choice",
"Quot.sound"
],
"Verif.SnN.coadd_time": [
"propext",
"Classical.choice",
"Quot.sound"
],
"Verif.SnN.coadd_totals": [
"propext",
"Classical.choice",
"Quot.sound"
],
"Verif.SnN.edgeDuration_spec": [
"propext",
"Classical.choice",
"Quot.sound"
],
"Verif.SnN.effi_bounds": [
"propext",
"Classical.choice",
"Quot.sound"
],
"Verif.SnN.effi_ends": [
"propext",
"Classical.choice",
"Quot.sound"
],
"Verif.SnN.efficiencies_sel": [
"propext",
"Classical.choice",
"Quot.sound"
],
"Verif.SnN.efficiencies_unseen": [
"propext",
"Classical.choice",
"Quot.sound"
],
"Verif.SnN.epochs_cut_partial": [
"propext",
"Classical.choice",
"Quot.sound"
],
"Verif.SnN.epochs_false": [
"propext",
"Classical.choice",
"Quot.sound"
],
"Verif.SnN.epochs_none": [
"propext"
],
"Verif.SnN.epochs_one": [
"propext",
"Quot.sound"
],
"Verif.SnN.epochs_spec": [
"propext",
"Classical.choice",
"Quot.sound"
],
"Verif.SnN.expected_at_zmin": [
"propext",
"Classical.choice",
"Quot.sound"
],
"Verif.SnN.finalRow_none": [
"propext",
"Classical.choice",
"Quot.sound"
],
"Verif.SnN.finalRow_sum": [
"propext",
"Classical.choice",
"Quot.sound"
],
"Verif.SnN.flagged_iff": [
"propext",
"Classical.choice",
"Quot.sound"
],
"Verif.SnN.flat_zip": [
"propext"
],
"Verif.SnN.getNsn_bounds": [
"propext",
"Classical.choice",
"Quot.sound"
],
"Verif.SnN.getNsn_last_bin": [
"propext",
"Classical.choice",
"Quot.sound"
],
"Verif.SnN.getNsn_sum": [
"propext",
"Classical.choice",
"Quot.sound"
],
"Verif.SnN.getseason_first": [
"propext",
"Classical.choice",
"Quot.sound"
],
"Verif.SnN.getseason_next": [
"propext",
"Classical.choice",
"Quot.sound"
],
"Verif.SnN.getseason_spec": [
"propext",
"Classical.choice",
"Quot.sound"
],
"Verif.SnN.given_bins": [
"propext",
"Classical.choice",
"Quot.sound"
],
"Verif.SnN.given_bins_false": [
"propext",
"Classical.choice",
"Quot.sound"
],
"Verif.SnN.keptZ_default": [
"propext",
"Classical.choice",
"Quot.sound"
],
"Verif.SnN.keptZ_iff": [
"propext",
"Classical.choice",
"Quot.sound"
],
"Verif.SnN.keptZ_mono": [
"propext",
"Classical.choice",
"Quot.sound"
],
"Verif.SnN.lensedRun_nothing": [
"propext",
"Classical.choice",
"Quot.sound"
],
"Verif.SnN.lensedRun_num": [
"propext",
"Classical.choice",
"Quot.sound"
],
"Verif.SnN.lensed_nan_false": [
"propext",
"Classical.choice",
"Quot.sound"
],
"Verif.SnN.lensed_zero_false": [
"propext",
"Classical.choice",
"Quot.sound"
],
"Verif.SnN.loadAll_data": [
"propext"
],
"Verif.SnN.loadAll_reads": [
"propext"
],
"Verif.SnN.loadCached_ok": [
"propext"
],
"Verif.SnN.made_bins": [
"propext",
"Classical.choice",
"Quot.sound"
],
"Verif.SnN.nLensed_anti": [
"propext",
"Classical.choice",
"Quot.sound"
],
"Verif.SnN.nLensed_spec": [
"propext",
"Classical.choice",
"Quot.sound"
],
"Verif.SnN.n_sn_false": [
"propext",
"Classical.choice",
"Quot.sound"
],
"Verif.SnN.n_sn_partial": [
"propext",
"Classical.choice",
"Quot.sound"
],
"Verif.SnN.nsnOf_low": [
"propext",
"Classical.choice",
"Quot.sound"
],
"Verif.SnN.perrett_err": [
"propext",
"Classical.choice",
"Quot.sound"
],
"Verif.SnN.perrett_spec": [
"propext",
"Classical.choice",
"Quot.sound"
],
"Verif.SnN.pointsOf_mem": [
"propext",
"Classical.choice",
"Quot.sound"
],
"Verif.SnN.sampled_iff": [
"propext",
"Classical.choice",
"Quot.sound"
],
"Verif.SnN.seasonLensed_none": [
"propext",
"Classical.choice",
"Quot.sound"
],
"Verif.SnN.seasonLensed_skip": [
"propext",
"Classical.choice",
"Quot.sound"
],
"Verif.SnN.sigmas_eq": [
"propext",
"Classical.choice",
"Quot.sound"
],
"Verif.SnN.sigmas_none": [
"propext",
"Classical.choice",
"Quot.sound"
],
"Verif.SnN.snRateOf_known": [
"propext",
"Classical.choice",
"Quot.sound"
],
"Verif.SnN.snRateOf_names": [
"propext",
"Classical.choice",
"Quot.sound"
],
"Verif.SnN.snRate_area": [
"propext",
"Classical.choice",
"Quot.sound"
],
"Verif.SnN.snRate_bin": [
"propext",
"Classical.choice",
"Quot.sound"
],
"Verif.SnN.snRate_length": [
"propext",
"Classical.choice",
"Quot.sound"
],
"Verif.SnN.snRate_nonneg": [
"propext",
"Classical.choice",
"Quot.sound"
],
"Verif.SnN.snRate_reach": [
"propext",
"Classical.choice",
"Quot.sound"
],
"Verif.SnN.t0_window": [
"propext",
"Classical.choice",
"Quot.sound"
],
"Verif.SnN.t0s_spec": [
"propext",
"Classical.choice",
"Quot.sound"
],
"Verif.SnN.tile_get": [
"propext"
],
"Verif.SnN.varColor_solves": [
"propext",
"Classical.choice",
"Quot.sound"
],
"Verif.SnN.varColor_spec": [
"propext",
"Classical.choice",
"Quot.sound"
],
"Verif.SnN.zlim_between": [
"propext",
"Classical.choice",
"Quot.sound"
],
"Verif.SnN.zlim_first_only": [
"propext",
"Classical.choice",
"Quot.sound"
],
"Verif.SnN.zlim_spec": [
"propext",
"Classical.choice",
"Quot.sound"
],
"Verif.SnN.zlim_zero": [
"propext",
"Classical.choice",
"Quot.sound"
],
"Verif.SnPoints.before_after": [
"propext",
"Classical.choice",
"Quot.sound"
],
"Verif.SnPoints.before_time": [
"propext",
"Classical.choice",
"Quot.sound"
],
"Verif.SnPoints.cut_five": [
"propext",
"Classical.choice",
"Quot.sound"
],
"Verif.SnPoints.cut_void": [
"propext",
"Classical.choice",
"Quot.sound"
],
"Verif.SnPoints.length_le": [
"propext",
"Classical.choice",
"Quot.sound"
],
"Verif.SnPoints.point_iff": [
"propext",
"Classical.choice",
"Quot.sound"
],
"Verif.SnPoints.point_row": [
"propext",
"Classical.choice",
"Quot.sound"
],
"Verif.SnPoints.snr_floor": [
"propext",
"Classical.choice",
"Quot.sound"
],
"Verif.SnPoints.snr_lt_five": [
"propext",
"Classical.choice",
"Quot.sound"
],
"Verif.SnResult.bad_season": [
"propext",
"Classical.choice",
"Quot.sound"
],
"Verif.SnResult.checkDur_iff": [
"propext"
],
"Verif.SnResult.median_bounds": [
"propext",
"Classical.choice",
"Quot.sound"
],
"Verif.SnResult.median_perm": [
"propext",
"Classical.choice",
"Quot.sound"
],
"Verif.SnResult.number_nonneg_partial": [
"propext",
"Classical.choice",
"Quot.sound"
],
"Verif.SnResult.number_sum": [
"propext",
"Classical.choice",
"Quot.sound"
],
"Verif.SnResult.order_free": [
"propext",
"Classical.choice",
"Quot.sound"
],
"Verif.SnResult.reductions": [
"propext",
"Classical.choice",
"Quot.sound"
],
"Verif.SnResult.run_some_iff": [
"propext",
"Quot.sound"
],
"Verif.SnResult.seasonZ_pos": [
"propext",
"Quot.sound"
],
"Verif.SnResult.sentinel_false": [
"propext",
"Classical.choice",
"Quot.sound"
],
"Verif.SnResult.zlim_bounds": [
"propext",
"Classical.choice",
"Quot.sound"
],
"Verif.SnSnr.SNR_checked": [
"propext",
"Classical.choice",
"Quot.sound"
],
"Verif.SnSnr.SNR_checked_false": [
"propext",
"Classical.choice",
"Quot.sound"
],
"Verif.SnSnr.SNR_coadd": [
"propext",
"Classical.choice",
"Quot.sound"
],
"Verif.SnSnr.SNR_columns": [
"propext",
"Quot.sound"
],
"Verif.SnSnr.SNR_contour": [
"propext",
"Classical.choice",
"Quot.sound"
],
"Verif.SnSnr.SNR_days": [
"propext",
"Classical.choice",
"Quot.sound"
],
"Verif.SnSnr.SNR_fake_depth": [
"propext",
"Classical.choice",
"Quot.sound"
],
"Verif.SnSnr.SNR_fake_number": [
"propext",
"Classical.choice",
"Quot.sound"
],
"Verif.SnSnr.SNR_fake_times": [
"propext",
"Classical.choice",
"Quot.sound"
],
"Verif.SnSnr.SNR_fakes": [
"propext",
"Classical.choice",
"Quot.sound"
],
"Verif.SnSnr.SNR_five": [
"propext",
"Classical.choice",
"Quot.sound"
],
"Verif.SnSnr.SNR_info_false": [
"propext",
"Classical.choice",
"Quot.sound"
],
"Verif.SnSnr.SNR_info_of": [
"propext",
"Classical.choice",
"Quot.sound"
],
"Verif.SnSnr.SNR_last_file": [
"propext",
"Quot.sound"
],
"Verif.SnSnr.SNR_lim": [
"propext",
"Classical.choice",
"Quot.sound"
],
"Verif.SnSnr.SNR_more": [
"propext",
"Classical.choice",
"Quot.sound"
],
"Verif.SnSnr.SNR_moved": [
"propext",
"Classical.choice",
"Quot.sound"
],
"Verif.SnSnr.SNR_moved_start": [
"propext",
"Classical.choice",
"Quot.sound"
],
"Verif.SnSnr.SNR_no_fakes": [
"propext",
"Quot.sound"
],
"Verif.SnSnr.SNR_quadrature": [
"propext",
"Classical.choice",
"Quot.sound"
],
"Verif.SnSnr.SNR_rate": [
"propext",
"Classical.choice",
"Quot.sound"
],
"Verif.SnSnr.SNR_regular_false": [
"propext",
"Classical.choice",
"Quot.sound"
],
"Verif.SnSnr.SNR_run": [
"propext",
"Classical.choice",
"Quot.sound"
],
"Verif.SnSnr.SNR_season_info": [
"propext",
"Classical.choice",
"Quot.sound"
],
"Verif.SnSnr.SNR_season_of": [
"propext",
"Classical.choice",
"Quot.sound"
],
"Verif.Snapshot.anom_iff": [
"propext",
"Quot.sound"
],
"Verif.Snapshot.cli_default": [
"propext",
"Classical.choice",
"Quot.sound"
],
"Verif.Snapshot.cli_false": [
"propext",
"Classical.choice",
"Quot.sound"
],
"Verif.Snapshot.cli_results": [
"propext",
"Classical.choice",
"Quot.sound"
],
"Verif.Snapshot.codec_spec": [
"propext",
"Classical.choice",
"Quot.sound"
],
"Verif.Snapshot.conda_cached": [
"propext",
"Classical.choice",
"Quot.sound"
],
"Verif.Snapshot.conda_lookup": [
"propext",
"Classical.choice",
"Quot.sound"
],
"Verif.Snapshot.conda_none": [
"propext",
"Classical.choice",
"Quot.sound"
],
"Verif.Snapshot.conda_sorted": [
"propext",
"Classical.choice",
"Quot.sound"
],
"Verif.Snapshot.config_false": [],
"Verif.Snapshot.config_function": [],
"Verif.Snapshot.config_scheduler_partial": [],
"Verif.Snapshot.config_unused": [],
"Verif.Snapshot.default_paths_false": [
"propext",
"Classical.choice",
"Quot.sound"
],
"Verif.Snapshot.drive_index": [
"propext"
],
"Verif.Snapshot.drive_never": [
"propext",
"Quot.sound"
],
"Verif.Snapshot.drive_path": [
"propext",
"Quot.sound"
],
"Verif.Snapshot.drive_saved": [
"propext"
],
"Verif.Snapshot.drive_value": [
"propext"
],
"Verif.Snapshot.existing_error": [
"propext",
"Classical.choice",
"Quot.sound"
],
"Verif.Snapshot.failing_leaves": [
"propext",
"Classical.choice",
"Quot.sound"
],
"Verif.Snapshot.overhead_min": [
"propext",
"Classical.choice",
"Quot.sound"
],
"Verif.Snapshot.overhead_unchecked": [
"propext",
"Classical.choice",
"Quot.sound"
],
"Verif.Snapshot.overhead_value": [
"propext",
"Classical.choice",
"Quot.sound"
],
"Verif.Snapshot.overhead_warn": [
"propext",
"Quot.sound"
],
"Verif.Snapshot.round_trip": [
"propext",
"Classical.choice",
"Quot.sound"
],
"Verif.Snapshot.scheduler_noScript": [
"propext",
"Classical.choice",
"Quot.sound"
],
"Verif.Snapshot.scheduler_spec": [
"propext",
"Classical.choice",
"Quot.sound"
],
"Verif.Snapshot.slewLoc_false": [
"propext",
"Classical.choice",
"Quot.sound"
],
"Verif.Snapshot.slewLoc_negative": [
"propext",
"Quot.sound"
],
"Verif.Snapshot.slew_array": [
"propext",
"Quot.sound"
],
"Verif.Snapshot.slew_nonneg": [
"propext",
"Classical.choice",
"Quot.sound"
],
"Verif.Snapshot.slew_value": [
"propext",
"Classical.choice",
"Quot.sound"
],
"Verif.Snapshot.snapshot_compressed": [
"propext",
"Classical.choice",
"Quot.sound"
],
"Verif.Snapshot.snapshot_others": [
"propext",
"Classical.choice",
"Quot.sound"
],
"Verif.Snapshot.snapshot_round_false": [
"propext",
"Classical.choice",
"Quot.sound"
],
"Verif.Snapshot.snapshot_round_partial": [
"propext",
"Classical.choice",
"Quot.sound"
],
"Verif.Snapshot.toHdf_empty": [
"propext"
],
"Verif.Snapshot.toHdf_false": [
"propext"
],
"Verif.Snapshot.toHdf_spec": [
"propext",
"Classical.choice",
"Quot.sound"
],
"Verif.Snr.astrometric_limit": [
"propext",
"Classical.choice",
"Quot.sound"
],
"Verif.Snr.astrometric_spec": [
"propext",
"Classical.choice",
"Quot.sound"
],
"Verif.Snr.calcM5_exists": [
"propext",
"Classical.choice",
"Quot.sound"
],
"Verif.Snr.calcMag_some": [
"propext",
"Classical.choice",
"Quot.sound"
],
"Verif.Snr.camera_setting": [
"propext",
"Classical.choice",
"Quot.sound"
],
"Verif.Snr.cleared_differs": [
"propext",
"Classical.choice",
"Quot.sound"
],
"Verif.Snr.cleared_false": [
"propext",
"Classical.choice",
"Quot.sound"
],
"Verif.Snr.extinctionCoeff_neg": [
"propext",
"Classical.choice",
"Quot.sound"
],
"Verif.Snr.flat_mag": [
"propext",
"Classical.choice",
"Quot.sound"
],
"Verif.Snr.fwhm_inverse": [
"propext",
"Classical.choice",
"Quot.sound"
],
"Verif.Snr.gamma_range": [
"propext",
"Classical.choice",
"Quot.sound"
],
"Verif.Snr.m5_false": [
"propext",
"Classical.choice",
"Quot.sound"
],
"Verif.Snr.m5_gain_false": [
"propext",
"Classical.choice",
"Quot.sound"
],
"Verif.Snr.m5_partial": [
"propext",
"Classical.choice",
"Quot.sound"
],
"Verif.Snr.magErrorFromSnr_shift": [
"propext",
"Classical.choice",
"Quot.sound"
],
"Verif.Snr.magErrorFromSnr_spec": [
"propext",
"Classical.choice",
"Quot.sound"
],
"Verif.Snr.magError_floor": [
"propext",
"Classical.choice",
"Quot.sound"
],
"Verif.Snr.magError_spec": [
"propext",
"Classical.choice",
"Quot.sound"
],
"Verif.Snr.mag_flux": [
"propext",
"Classical.choice",
"Quot.sound"
],
"Verif.Snr.mag_hundred": [
"propext",
"Classical.choice",
"Quot.sound"
],
"Verif.Snr.mag_lt": [
"propext",
"Classical.choice",
"Quot.sound"
],
"Verif.Snr.noise_platescale": [
"propext",
"Classical.choice",
"Quot.sound"
],
"Verif.Snr.predictedZp_spec": [
"propext",
"Classical.choice",
"Quot.sound"
],
"Verif.Snr.scaleSky_false": [
"propext",
"Classical.choice",
"Quot.sound"
],
"Verif.Snr.scaleSky_partial": [
"propext",
"Classical.choice",
"Quot.sound"
],
"Verif.Snr.scaleSky_snr": [
"propext",
"Classical.choice",
"Quot.sound"
],
"Verif.Snr.scaledTo_mag": [
"propext",
"Classical.choice",
"Quot.sound"
],
"Verif.Snr.skyCounts_negative": [
"propext",
"Classical.choice",
"Quot.sound"
],
"Verif.Snr.snrM5_decreasing": [
"propext",
"Classical.choice",
"Quot.sound"
],
"Verif.Snr.snrM5_limit": [
"propext",
"Classical.choice",
"Quot.sound"
],
"Verif.Snr.snrM5_negative": [
"propext",
"Classical.choice",
"Quot.sound"
],
"Verif.Snr.snr_agree": [
"propext",
"Classical.choice",
"Quot.sound"
],
"Verif.Snr.snr_exposures": [
"propext",
"Classical.choice",
"Quot.sound"
],
"Verif.Snr.snr_gain": [
"propext",
"Classical.choice",
"Quot.sound"
],
"Verif.Snr.usable_default": [
"propext",
"Classical.choice",
"Quot.sound"
],
"Verif.Snr.zp_counts": [
"propext",
"Classical.choice",
"Quot.sound"
],
"Verif.Snr.zp_exptime": [
"propext",
"Classical.choice",
"Quot.sound"
],
"Verif.Snr.zp_false": [
"propext",
"Classical.choice",
"Quot.sound"
],
"Verif.Snr.zp_partial": [
"propext",
"Classical.choice",
"Quot.sound"
],
"Verif.Spatial.circle_spec": [
"propext",
"Classical.choice",
"Quot.sound"
],
"Verif.Spatial.eq_refl": [
"propext",
"Classical.choice",
"Quot.sound"
],
"Verif.Spatial.eq_slices_false": [
"propext",
"Classical.choice",
"Quot.sound"
],
"Verif.Spatial.eq_slices_partial": [
"propext",
"Classical.choice",
"Quot.sound"
],
"Verif.Spatial.eq_subset_full": [
"propext"
],
"Verif.Spatial.eq_symm_false": [
"propext",
"Classical.choice",
"Quot.sound"
],
"Verif.Spatial.eq_symm_partial": [
"propext"
],
"Verif.Spatial.initialMask_false": [
"propext",
"Quot.sound"
],
"Verif.Spatial.initialMask_partial": [
"propext",
"Quot.sound"
],
"Verif.Spatial.initialMask_spec": [
"propext"
],
"Verif.Spatial.iter_spec": [
"propext",
"Quot.sound"
],
"Verif.Spatial.mask_spec": [
"propext",
"Quot.sound"
],
"Verif.Spatial.near_iff": [
"propext",
"Classical.choice",
"Quot.sound"
],
"Verif.Spatial.slicePoint_false": [
"propext",
"Classical.choice",
"Quot.sound"
],
"Verif.Spatial.slicePoint_partial": [
"propext",
"Classical.choice",
"Quot.sound"
],
"Verif.Spatial.slice_spec": [
"propext",
"Classical.choice",
"Quot.sound"
],
"Verif.Spatial.slice_turn": [
"propext",
"Classical.choice",
"Quot.sound"
],
"Verif.Spatial.slice_unit": [
"propext",
"Classical.choice",
"Quot.sound"
],
"Verif.Spatial.subset_point": [
"propext",
"Classical.choice",
"Quot.sound"
],
"Verif.Spatial.subset_slice": [
"propext",
"Classical.choice",
"Quot.sound"
],
"Verif.Spatial.subset_values": [
"propext",
"Classical.choice",
"Quot.sound"
],
"Verif.Spatial.userPoints_one": [
"propext",
"Classical.choice",
"Quot.sound"
],
"Verif.Spatial.userPoints_spec": [
"propext",
"Classical.choice",
"Quot.sound"
],
"Verif.Spatial.wfd_spec": [
"propext",
"Classical.choice",
"Quot.sound"
],
"Verif.Spectres.spectres_add": [
"propext",
"Classical.choice",
"Quot.sound"
],
"Verif.Spectres.spectres_bounds": [
"propext",
"Classical.choice",
"Quot.sound"
],
"Verif.Spectres.spectres_conserves": [
"propext",
"Classical.choice",
"Quot.sound"
],
"Verif.Spectres.spectres_const": [
"propext",
"Classical.choice",
"Quot.sound"
],
"Verif.Spectres.spectres_decreasing_false": [
"propext",
"Classical.choice",
"Quot.sound"
],
"Verif.Spectres.spectres_inside_false": [
"propext",
"Classical.choice",
"Quot.sound"
],
"Verif.Spectres.spectres_inside_partial": [
"propext",
"Classical.choice",
"Quot.sound"
],
"Verif.Spectres.spectres_self": [
"propext",
"Classical.choice",
"Quot.sound"
],
"Verif.Spectres.spectres_smul": [
"propext",
"Classical.choice",
"Quot.sound"
],
"Verif.Spectres.spectres_spec": [
"propext",
"Classical.choice",
"Quot.sound"
],
"Verif.SsPipe.calc_cases": [
"propext",
"Classical.choice",
"Quot.sound"
],
"Verif.SsPipe.calc_iff": [
"propext",
"Classical.choice",
"Quot.sound"
],
"Verif.SsPipe.calc_optional_false": [
"propext",
"Classical.choice",
"Quot.sound"
],
"Verif.SsPipe.char_iff": [
"propext",
"Classical.choice",
"Quot.sound"
],
"Verif.SsPipe.combine_never": [
"Quot.sound"
],
"Verif.SsPipe.compKind_iff": [
"propext",
"Classical.choice",
"Quot.sound"
],
"Verif.SsPipe.compKind_kind": [
"propext",
"Classical.choice",
"Quot.sound"
],
"Verif.SsPipe.compMark_spec": [
"propext",
"Classical.choice",
"Quot.sound"
],
"Verif.SsPipe.defaults_outer": [
"propext",
"Classical.choice",
"Quot.sound"
],
"Verif.SsPipe.defaults_valid": [
"propext",
"Classical.choice",
"Quot.sound"
],
"Verif.SsPipe.figroot_spec": [
"propext",
"Classical.choice",
"Quot.sound"
],
"Verif.SsPipe.fracMarks_false": [
"propext",
"Classical.choice",
"Quot.sound"
],
"Verif.SsPipe.fracMarks_kept": [
"propext",
"Classical.choice",
"Quot.sound"
],
"Verif.SsPipe.fracMarks_none": [
"propext",
"Classical.choice",
"Quot.sound"
],
"Verif.SsPipe.fracMarks_single_partial": [
"propext",
"Classical.choice",
"Quot.sound"
],
"Verif.SsPipe.hRange_exact": [
"propext",
"Classical.choice",
"Quot.sound"
],
"Verif.SsPipe.hRange_spec": [
"propext",
"Classical.choice",
"Quot.sound"
],
"Verif.SsPipe.joinValues_spec": [
"propext",
"Classical.choice",
"Quot.sound"
],
"Verif.SsPipe.join_mask_false": [
"propext",
"Classical.choice",
"Quot.sound"
],
"Verif.SsPipe.joins_iff": [
"propext",
"Classical.choice",
"Quot.sound"
],
"Verif.SsPipe.line_chain": [
"propext",
"Classical.choice",
"Quot.sound"
],
"Verif.SsPipe.makeObs_false": [
"propext",
"Classical.choice",
"Quot.sound"
],
"Verif.SsPipe.makeObs_name": [
"propext",
"Classical.choice",
"Quot.sound"
],
"Verif.SsPipe.makeObs_partial": [
"propext",
"Classical.choice",
"Quot.sound"
],
"Verif.SsPipe.objtypes_differ": [
"propext"
],
"Verif.SsPipe.objtypes_known": [
"propext",
"Classical.choice",
"Quot.sound"
],
"Verif.SsPipe.pairs_false": [
"propext",
"Classical.choice",
"Quot.sound"
],
"Verif.SsPipe.pairs_partial": [
"propext",
"Classical.choice",
"Quot.sound"
],
"Verif.SsPipe.pairs_spec": [
"propext",
"Classical.choice",
"Quot.sound"
],
"Verif.SsPipe.popDefaults_total": [
"propext",
"Classical.choice",
"Quot.sound"
],
"Verif.SsPipe.population_alias": [
"propext",
"Classical.choice",
"Quot.sound"
],
"Verif.SsPipe.sameSlicer_false": [
"propext",
"Quot.sound"
],
"Verif.SsPipe.sameSlicer_iff": [
"propext"
],
"Verif.SsPipe.saved_iff": [
"propext",
"Classical.choice",
"Quot.sound"
],
"Verif.SsPipe.saved_place": [
"propext",
"Classical.choice",
"Quot.sound"
],
"Verif.SsPipe.script_known": [
"propext",
"Classical.choice",
"Quot.sound"
],
"Verif.SsPipe.selected_iff": [
"propext",
"Classical.choice",
"Quot.sound"
],
"Verif.SsPipe.selected_sub": [
"propext",
"Classical.choice",
"Quot.sound"
],
"Verif.SsPipe.splitDir_agrees": [
"propext",
"Classical.choice",
"Quot.sound"
],
"Verif.SsPipe.splitDir_root": [
"propext",
"Classical.choice",
"Quot.sound"
],
"Verif.SsPipe.split_file": [
"propext",
"Classical.choice",
"Quot.sound"
],
"Verif.SsPipe.split_usage": [
"propext",
"Classical.choice",
"Quot.sound"
],
"Verif.SsPipe.times_ends": [
"propext",
"Classical.choice",
"Quot.sound"
],
"Verif.SsPipe.times_spec": [
"propext",
"Classical.choice",
"Quot.sound"
],
"Verif.Stack2.altAz_spec": [
"propext",
"Classical.choice",
"Quot.sound"
],
"Verif.Stack2.coadd_false": [
"propext",
"Classical.choice",
"Quot.sound"
],
"Verif.Stack2.coadd_partial": [
"propext",
"Classical.choice",
"Quot.sound"
],
"Verif.Stack2.cosAlpha_spec": [
"propext",
"Classical.choice",
"Quot.sound"
],
"Verif.Stack2.dcr2Init_false": [
"propext"
],
"Verif.Stack2.dcr2Init_partial": [
"propext"
],
"Verif.Stack2.dcr2_dcr": [
"propext",
"Classical.choice",
"Quot.sound"
],
"Verif.Stack2.dcr2_spec": [
"propext",
"Classical.choice",
"Quot.sound"
],
"Verif.Stack2.dcr_spec": [
"propext",
"Classical.choice",
"Quot.sound"
],
"Verif.Stack2.dd_false": [
"propext",
"Classical.choice",
"Quot.sound"
],
"Verif.Stack2.dd_partial": [
"propext",
"Quot.sound"
],
"Verif.Stack2.flip_spec": [
"propext",
"Classical.choice",
"Quot.sound"
],
"Verif.Stack2.galactic_false": [
"propext",
"Classical.choice",
"Quot.sound"
],
"Verif.Stack2.galactic_partial": [
"propext",
"Classical.choice",
"Quot.sound"
],
"Verif.Stack2.halfval_false": [
"propext",
"Classical.choice",
"Quot.sound"
],
"Verif.Stack2.helioXY_spec": [
"propext",
"Classical.choice",
"Quot.sound"
],
"Verif.Stack2.label_empty": [
"propext",
"Classical.choice",
"Quot.sound"
],
"Verif.Stack2.label_full": [
"propext",
"Classical.choice",
"Quot.sound"
],
"Verif.Stack2.label_spec": [
"propext",
"Classical.choice",
"Quot.sound"
],
"Verif.Stack2.m5Coadd_append": [
"propext",
"Classical.choice",
"Quot.sound"
],
"Verif.Stack2.m5Coadd_deeper": [
"propext",
"Classical.choice",
"Quot.sound"
],
"Verif.Stack2.m5Coadd_perm": [
"propext",
"Classical.choice",
"Quot.sound"
],
"Verif.Stack2.m5Coadd_replicate": [
"propext",
"Classical.choice",
"Quot.sound"
],
"Verif.Stack2.m5Coadd_spec": [
"propext",
"Classical.choice",
"Quot.sound"
],
"Verif.Stack2.m5Cols_false": [
"propext"
],
"Verif.Stack2.m5Optimal_moon": [
"propext",
"Classical.choice",
"Quot.sound"
],
"Verif.Stack2.m5Optimal_spec": [
"propext",
"Classical.choice",
"Quot.sound"
],
"Verif.Stack2.maxGeoDist_false": [
"propext",
"Classical.choice",
"Quot.sound"
],
"Verif.Stack2.maxGeoDist_partial": [
"propext",
"Classical.choice",
"Quot.sound"
],
"Verif.Stack2.normAirmass_deg": [
"propext",
"Classical.choice",
"Quot.sound"
],
"Verif.Stack2.normAirmass_spec": [
"propext",
"Classical.choice",
"Quot.sound"
],
"Verif.Stack2.rows_partial": [
"propext",
"Classical.choice",
"Quot.sound"
],
"Verif.Stack2.rows_unique_partial": [
"propext",
"Classical.choice",
"Quot.sound"
],
"Verif.Stack2.sin_alt": [
"propext",
"Classical.choice",
"Quot.sound"
],
"Verif.Stack2.teff_coadd": [
"propext",
"Classical.choice",
"Quot.sound"
],
"Verif.Stack2.teff_mono": [
"propext",
"Classical.choice",
"Quot.sound"
],
"Verif.Stack2.teff_spec": [
"propext",
"Classical.choice",
"Quot.sound"
],
"Verif.Stack2.twilight_false": [
"propext",
"Classical.choice",
"Quot.sound"
],
"Verif.Stack2.wrapRa_spec": [
"propext",
"Classical.choice",
"Quot.sound"
],
"Verif.StackEq.eq_methods_false": [
"propext",
"Classical.choice",
"Quot.sound"
],
"Verif.StackEq.eq_new_partial": [
"propext",
"Classical.choice",
"Quot.sound"
],
"Verif.StackEq.eq_refl": [
"propext",
"Classical.choice",
"Quot.sound"
],
"Verif.StackEq.eq_used_false": [
"propext",
"Classical.choice",
"Quot.sound"
],
"Verif.StackEq.ne_iff": [
"propext",
"Classical.choice",
"Quot.sound"
],
"Verif.Stackers.hourAngle_range": [
"propext",
"Classical.choice",
"Quot.sound"
],
"Verif.Stackers.nFollow_partial": [
"propext",
"Quot.sound"
],
"Verif.Stackers.nFollow_swapped": [
"propext"
],
"Verif.Stackers.noteRootStored_spec": [
"propext"
],
"Verif.Stackers.noteRoot_spec": [
"propext",
"Quot.sound"
],
"Verif.Stackers.overhead_accounts": [
"propext",
"Classical.choice",
"Quot.sound"
],
"Verif.Stackers.overhead_spec": [
"propext",
"Classical.choice",
"Quot.sound"
],
"Verif.Stackers.pa_adds_undeclared_column": [
"propext",
"Classical.choice",
"Quot.sound"
],
"Verif.Stackers.pa_uses_stale_ha": [
"propext",
"Classical.choice",
"Quot.sound"
],
"Verif.Stackers.saturation_nan_partial": [
"propext",
"Quot.sound"
],
"Verif.Stackers.saturation_wrong_row": [
"propext",
"Quot.sound"
],
"Verif.Stackers.stacker_recomputes": [
"propext",
"Classical.choice",
"Quot.sound"
],
"Verif.Stackers.stacker_run_frame": [
"propext",
"Classical.choice",
"Quot.sound"
],
"Verif.Stackers.zenith_ha_wellBehaved": [
"propext",
"Quot.sound"
],
"Verif.Stackers.zenith_override": [
"propext",
"Classical.choice",
"Quot.sound"
],
"Verif.Stars.absMag_mono": [
"propext",
"Classical.choice",
"Quot.sound"
],
"Verif.Stars.absMag_range": [
"propext",
"Classical.choice",
"Quot.sound"
],
"Verif.Stars.absMag_table": [
"propext",
"Classical.choice",
"Quot.sound"
],
"Verif.Stars.disc_at_sun": [
"propext",
"Classical.choice",
"Quot.sound"
],
"Verif.Stars.disk_shape": [
"propext",
"Classical.choice",
"Quot.sound"
],
"Verif.Stars.distances_spec": [
"propext",
"Classical.choice",
"Quot.sound"
],
"Verif.Stars.distances_within": [
"propext",
"Classical.choice",
"Quot.sound"
],
"Verif.Stars.edges_spec": [
"propext",
"Classical.choice",
"Quot.sound"
],
"Verif.Stars.eqGal2_false": [
"propext",
"Classical.choice",
"Quot.sound"
],
"Verif.Stars.eqGal2_range": [
"propext",
"Classical.choice",
"Quot.sound"
],
"Verif.Stars.eqGal_solves": [
"propext",
"Classical.choice",
"Quot.sound"
],
"Verif.Stars.fractions_sum": [
"propext",
"Classical.choice",
"Quot.sound"
],
"Verif.Stars.fractions_sum_false": [
"propext",
"Classical.choice",
"Quot.sound"
],
"Verif.Stars.fractions_sum_partial": [
"propext",
"Classical.choice",
"Quot.sound"
],
"Verif.Stars.galCyn_spec": [
"propext",
"Classical.choice",
"Quot.sound"
],
"Verif.Stars.getDistance_spec": [
"propext",
"Classical.choice",
"Quot.sound"
],
"Verif.Stars.halo_flattened": [
"propext",
"Classical.choice",
"Quot.sound"
],
"Verif.Stars.imf_add": [
"propext",
"Classical.choice",
"Quot.sound"
],
"Verif.Stars.imf_integral": [
"propext",
"Classical.choice",
"Quot.sound"
],
"Verif.Stars.imf_pos": [
"propext",
"Classical.choice",
"Quot.sound"
],
"Verif.Stars.magError_spec": [
"propext",
"Classical.choice",
"Quot.sound"
],
"Verif.Stars.magError_zero_false": [
"propext",
"Classical.choice",
"Quot.sound"
],
"Verif.Stars.noise_calc_false": [
"propext",
"Classical.choice",
"Quot.sound"
],
"Verif.Stars.noise_limit": [
"propext",
"Classical.choice",
"Quot.sound"
],
"Verif.Stars.normalise_spec": [
"propext",
"Classical.choice",
"Quot.sound"
],
"Verif.Stars.pick_spec": [
"propext",
"Classical.choice",
"Quot.sound"
],
"Verif.Stars.reach_mono": [
"propext",
"Classical.choice",
"Quot.sound"
],
"Verif.Stars.rho_opposite": [
"propext",
"Classical.choice",
"Quot.sound"
],
"Verif.Stars.specType_anti": [
"propext",
"Classical.choice",
"Quot.sound"
],
"Verif.Stars.specType_ends": [
"propext",
"Classical.choice",
"Quot.sound"
],
"Verif.Stars.specType_table": [
"propext",
"Classical.choice",
"Quot.sound"
],
"Verif.Stars.starcount_bounds": [
"propext",
"Classical.choice",
"Quot.sound"
],
"Verif.Stars.stellardensity_parts": [
"propext",
"Classical.choice",
"Quot.sound"
],
"Verif.Stars.stellardensity_pos": [
"propext",
"Classical.choice",
"Quot.sound"
],
"Verif.Stars.volumes_equal": [
"propext",
"Classical.choice",
"Quot.sound"
],
"Verif.Stars.volumes_sum": [
"propext",
"Classical.choice",
"Quot.sound"
],
"Verif.Strings.clip_number": [
"propext",
"Quot.sound"
],
"Verif.Strings.clip_other": [
"propext",
"Quot.sound"
],
"Verif.Strings.countsAll_false": [
"propext",
"Classical.choice",
"Quot.sound"
],
"Verif.Strings.percent_sum": [
"propext",
"Classical.choice",
"Quot.sound"
],
"Verif.Strings.reduce_partial": [
"propext",
"Classical.choice",
"Quot.sound"
],
"Verif.Strings.reduce_works": [
"propext",
"Classical.choice",
"Quot.sound"
],
"Verif.Strings.reducesAll_false": [
"propext"
],
"Verif.Strings.stringCount_error": [
"propext",
"Classical.choice",
"Quot.sound"
],
"Verif.Strings.stringCount_spec": [
"propext",
"Classical.choice",
"Quot.sound"
],
"Verif.SumPlots.dash_false": [
"propext",
"Quot.sound"
],
"Verif.SumPlots.limits_spec": [
"propext",
"Classical.choice",
"Quot.sound"
],
"Verif.SumPlots.lines_false": [
"propext",
"Classical.choice",
"Quot.sound"
],
"Verif.SumPlots.lines_key": [
"propext",
"Classical.choice",
"Quot.sound"
],
"Verif.SumPlots.lines_partial": [
"propext",
"Classical.choice",
"Quot.sound"
],
"Verif.SumPlots.lines_single": [
"propext",
"Classical.choice",
"Quot.sound"
],
"Verif.SumPlots.mesh_T": [
"propext",
"Quot.sound"
],
"Verif.SumPlots.mesh_cells": [
"propext",
"Classical.choice",
"Quot.sound"
],
"Verif.SumPlots.palette_after": [
"propext",
"Classical.choice",
"Quot.sound"
],
"Verif.SumPlots.palette_false": [
"propext"
],
"Verif.SumPlots.palette_user": [
"propext"
],
"Verif.SumPlots.shade_none": [
"propext",
"Quot.sound"
],
"Verif.SumPlots.shade_spec": [
"propext",
"Quot.sound"
],
"Verif.SumPlots.style_false": [
"propext"
],
"Verif.SumPlots.uncert_common": [
"propext",
"Classical.choice",
"Quot.sound"
],
"Verif.SumPlots.uncert_sep": [
"propext",
"Classical.choice",
"Quot.sound"
],
"Verif.Surf.limit_cases": [
"propext",
"Classical.choice",
"Quot.sound"
],
"Verif.Surf.limit_false": [
"propext",
"Classical.choice",
"Quot.sound"
],
"Verif.Surf.limit_margin": [
"propext",
"Classical.choice",
"Quot.sound"
],
"Verif.Surf.limit_partial": [
"propext",
"Classical.choice",
"Quot.sound"
],
"Verif.Surf.margin_sharp": [
"propext",
"Classical.choice",
"Quot.sound"
],
"Verif.Surf.one_filter_false": [
"propext",
"Classical.choice",
"Quot.sound"
],
"Verif.Surf.options": [
"propext",
"Classical.choice",
"Quot.sound"
],
"Verif.Surf.run_mixed": [
"propext",
"Classical.choice",
"Quot.sound"
],
"Verif.Surf.run_more": [
"propext",
"Classical.choice",
"Quot.sound"
],
"Verif.Surf.run_one": [
"propext",
"Classical.choice",
"Quot.sound"
],
"Verif.Surf.skySat_spec": [
"propext",
"Classical.choice",
"Quot.sound"
],
"Verif.Surf.warning_false": [
"propext",
"Classical.choice",
"Quot.sound"
],
"Verif.Tech.bruteOSF_not_fraction": [
"propext",
"Classical.choice",
"Quot.sound"
],
"Verif.Tech.bruteOSF_partial": [
"propext",
"Classical.choice",
"Quot.sound"
],
"Verif.Tech.changeTimes_spec": [
"propext",
"Quot.sound"
],
"Verif.Tech.fractionOfPaired_false": [
"propext",
"Classical.choice",
"Quot.sound"
],
"Verif.Tech.fractionOfPaired_partial": [
"propext",
"Classical.choice",
"Quot.sound"
],
"Verif.Tech.isPaired_iff": [
"propext",
"Classical.choice",
"Quot.sound"
],
"Verif.Tech.maxWithin_spec": [
"propext",
"Classical.choice",
"Quot.sound"
],
"Verif.Tech.minBetween_false": [
"propext",
"Classical.choice",
"Quot.sound"
],
"Verif.Tech.minBetween_partial": [
"propext",
"Classical.choice",
"Quot.sound"
],
"Verif.Tech.minBetween_single": [
"propext",
"Quot.sound"
],
"Verif.Tech.minTime_eq": [
"propext",
"Quot.sound"
],
"Verif.Tech.nChanges_bounds": [
"propext",
"Classical.choice",
"Quot.sound"
],
"Verif.Tech.nChanges_order": [
"propext",
"Quot.sound"
],
"Verif.Tech.nChanges_runs": [
"propext",
"Quot.sound"
],
"Verif.Tech.nChanges_zero_iff": [
"propext",
"Quot.sound"
],
"Verif.Tech.nFaster_eq": [
"propext",
"Quot.sound"
],
"Verif.Tech.openFraction_range": [
"propext",
"Classical.choice",
"Quot.sound"
],
"Verif.Tech.pairFraction_range": [
"propext",
"Classical.choice",
"Quot.sound"
],
"Verif.Template.agn_cutoff": [
"propext",
"Classical.choice",
"Quot.sound"
],
"Verif.Template.agn_cutoff_false": [
"propext",
"Classical.choice",
"Quot.sound"
],
"Verif.Template.agn_few": [
"propext",
"Classical.choice",
"Quot.sound"
],
"Verif.Template.agn_gcd_inf": [
"propext",
"Classical.choice",
"Quot.sound"
],
"Verif.Template.agn_log": [
"propext",
"Classical.choice",
"Quot.sound"
],
"Verif.Template.agn_mean": [
"propext",
"Classical.choice",
"Quot.sound"
],
"Verif.Template.diffM5_spec": [
"propext",
"Classical.choice",
"Quot.sound"
],
"Verif.Template.limits_red": [
"propext",
"Classical.choice",
"Quot.sound"
],
"Verif.Template.limits_spec": [
"propext",
"Classical.choice",
"Quot.sound"
],
"Verif.Template.percentile_qualifies": [
"propext",
"Classical.choice",
"Quot.sound"
],
"Verif.Template.templateM5_spec": [
"propext",
"Classical.choice",
"Quot.sound"
],
"Verif.Template.templateSeeing_bounds": [
"propext",
"Classical.choice",
"Quot.sound"
],
"Verif.Template.templateSeeing_sq": [
"propext",
"Classical.choice",
"Quot.sound"
],
"Verif.Template.template_counts": [
"propext",
"Classical.choice",
"Quot.sound"
],
"Verif.Template.template_fewer": [
"propext",
"Classical.choice",
"Quot.sound"
],
"Verif.Template.template_spec": [
"propext",
"Classical.choice",
"Quot.sound"
],
"Verif.Tools.addToDb_false": [
"propext",
"Classical.choice",
"Quot.sound"
],
"Verif.Tools.addToDb_partial": [
"propext",
"Classical.choice",
"Quot.sound"
],
"Verif.Tools.afterAll_false": [
"propext",
"Classical.choice",
"Quot.sound"
],
"Verif.Tools.afterAll_partial": [
"propext",
"Classical.choice",
"Quot.sound"
],
"Verif.Tools.afterAll_spec": [
"propext",
"Classical.choice",
"Quot.sound"
],
"Verif.Tools.baseline_spec": [
"propext",
"Classical.choice",
"Quot.sound"
],
"Verif.Tools.common_spec": [
"propext",
"Classical.choice",
"Quot.sound"
],
"Verif.Tools.dataPage_never": [
"propext",
"Classical.choice",
"Quot.sound"
],
"Verif.Tools.dbFiles_iff": [
"propext",
"Classical.choice",
"Quot.sound"
],
"Verif.Tools.job_dir_partial": [
"propext",
"Classical.choice",
"Quot.sound"
],
"Verif.Tools.job_file_false": [
"propext",
"Classical.choice",
"Quot.sound"
],
"Verif.Tools.job_file_partial": [
"propext",
"Classical.choice",
"Quot.sound"
],
"Verif.Tools.looked_default": [
"propext",
"Classical.choice",
"Quot.sound"
],
"Verif.Tools.metaFiles_iff": [
"propext",
"Classical.choice",
"Quot.sound"
],
"Verif.Tools.opened_false": [
"propext",
"Classical.choice",
"Quot.sound"
],
"Verif.Tools.opened_iff": [
"propext",
"Classical.choice",
"Quot.sound"
],
"Verif.Tools.opened_partial": [
"propext",
"Classical.choice",
"Quot.sound"
],
"Verif.Tools.resolve_iff": [
"propext",
"Classical.choice",
"Quot.sound"
],
"Verif.Tools.resolve_rel": [
"propext",
"Classical.choice",
"Quot.sound"
],
"Verif.Tools.runComment_spec": [
"propext",
"Classical.choice",
"Quot.sound"
],
"Verif.Tools.runGroup_spec": [
"propext",
"Classical.choice",
"Quot.sound"
],
"Verif.Tools.show_default": [
"propext",
"Classical.choice",
"Quot.sound"
],
"Verif.Tools.startRun_first_partial": [],
"Verif.Tools.startRun_new": [
"propext",
"Classical.choice",
"Quot.sound"
],
"Verif.Tools.startRun_spec": [
"propext",
"Classical.choice",
"Quot.sound"
],
"Verif.Tools.testing_spec": [
"propext",
"Classical.choice",
"Quot.sound"
],
"Verif.Tools.versionOf_spec": [],
"Verif.Tools.versions_false": [
"propext",
"Classical.choice",
"Quot.sound"
],
"Verif.Tools.versions_ok_iff": [
"propext",
"Quot.sound"
],
"Verif.Tools.versions_partial": [
"propext"
],
"Verif.Tools.versions_stale": [],
"Verif.Transient.all_false": [
"propext",
"Classical.choice",
"Quot.sound"
],
"Verif.Transient.fmod_spec": [
"propext",
"Classical.choice",
"Quot.sound"
],
"Verif.Transient.fraction_false": [
"propext",
"Classical.choice",
"Quot.sound"
],
"Verif.Transient.fraction_partial": [
"propext",
"Classical.choice",
"Quot.sound"
],
"Verif.Transient.fraction_phase_false": [
"propext",
"Classical.choice",
"Quot.sound"
],
"Verif.Transient.lightCurve_spec": [
"propext",
"Classical.choice",
"Quot.sound"
],
"Verif.Transient.run_all_partial": [
"propext",
"Classical.choice",
"Quot.sound"
],
"Verif.Transient.run_pre": [
"propext",
"Classical.choice",
"Quot.sound"
],
"Verif.Transient.run_sections": [
"propext",
"Classical.choice",
"Quot.sound"
],
"Verif.Transient.run_single": [
"propext",
"Classical.choice",
"Quot.sound"
],
"Verif.Transient.shift_false": [
"propext",
"Classical.choice",
"Quot.sound"
],
"Verif.Transient.shift_partial": [
"propext",
"Classical.choice",
"Quot.sound"
],
"Verif.Transient.shift_spec": [
"propext",
"Classical.choice",
"Quot.sound"
],
"Verif.Transient.start_false": [
"propext",
"Quot.sound"
],
"Verif.Transient.tshifts_spec": [
"propext",
"Classical.choice",
"Quot.sound"
],
"Verif.Transient.unseen_false": [
"propext",
"Classical.choice",
"Quot.sound"
],
"Verif.TwiSpec.alone_false": [
"propext",
"Classical.choice",
"Quot.sound"
],
"Verif.TwiSpec.blue_negative": [
"propext",
"Classical.choice",
"Quot.sound"
],
"Verif.TwiSpec.high_sun": [
"propext",
"Quot.sound"
],
"Verif.TwiSpec.nonneg_false": [
"propext",
"Classical.choice",
"Quot.sound"
],
"Verif.TwiSpec.ratio_between": [
"propext",
"Classical.choice",
"Quot.sound"
],
"Verif.TwiSpec.ratio_blue": [
"propext",
"Classical.choice",
"Quot.sound"
],
"Verif.TwiSpec.ratio_red": [
"propext",
"Quot.sound"
],
"Verif.TwiSpec.spec_points": [
"propext",
"Quot.sound"
],
"Verif.Vec.accumulate_next": [
"propext",
"Classical.choice",
"Quot.sound"
],
"Verif.Vec.accumulate_partial": [
"propext",
"Classical.choice",
"Quot.sound"
],
"Verif.Vec.accumulate_value": [
"propext",
"Classical.choice",
"Quot.sound"
],
"Verif.Vec.accumulates_false": [
"propext",
"Classical.choice",
"Quot.sound"
],
"Verif.Vec.count_value": [
"propext",
"Classical.choice",
"Quot.sound"
],
"Verif.Vec.uniformity_mono": [
"propext",
"Classical.choice",
"Quot.sound"
],
"Verif.Vec.uniformity_range": [
"propext",
"Classical.choice",
"Quot.sound"
],
"Verif.Vec.uniformity_value": [
"propext",
"Classical.choice",
"Quot.sound"
],
"Verif.VsOps.archive_ok": [
"propext",
"Classical.choice",
"Quot.sound"
],
"Verif.VsOps.archive_round": [
"propext",
"Classical.choice",
"Quot.sound"
],
"Verif.VsOps.at_most_five": [
"propext",
"Classical.choice",
"Quot.sound"
],
"Verif.VsOps.call_succeeds": [
"propext",
"Classical.choice",
"Quot.sound"
],
"Verif.VsOps.conn_other": [
"propext"
],
"Verif.VsOps.conn_value": [
"propext"
],
"Verif.VsOps.connections_reused_false": [
"propext"
],
"Verif.VsOps.copy_round": [
"propext",
"Classical.choice",
"Quot.sound"
],
"Verif.VsOps.days_error": [
"propext",
"Quot.sound"
],
"Verif.VsOps.days_given": [
"propext",
"Quot.sound"
],
"Verif.VsOps.days_spec": [
"propext",
"Classical.choice",
"Quot.sound"
],
"Verif.VsOps.dest_kept": [
"propext",
"Classical.choice",
"Quot.sound"
],
"Verif.VsOps.dict_kept_false": [],
"Verif.VsOps.dict_kept_partial": [
"propext"
],
"Verif.VsOps.hex_round": [
"propext",
"Quot.sound"
],
"Verif.VsOps.import_ignores": [
"propext",
"Classical.choice",
"Quot.sound"
],
"Verif.VsOps.insert_again": [
"propext",
"Quot.sound"
],
"Verif.VsOps.insert_first": [
"propext",
"Classical.choice",
"Quot.sound"
],
"Verif.VsOps.insert_spec": [
"propext",
"Classical.choice",
"Quot.sound"
],
"Verif.VsOps.keys_unique": [],
"Verif.VsOps.made_up": [
"propext",
"Classical.choice",
"Quot.sound"
],
"Verif.VsOps.mixed_atomic_false": [
"propext"
],
"Verif.VsOps.mixed_fails": [
"propext"
],
"Verif.VsOps.mixed_ok": [
"propext",
"Quot.sound"
],
"Verif.VsOps.no_insert_no_error": [
"propext",
"Classical.choice",
"Quot.sound"
],
"Verif.VsOps.no_sim": [
"propext",
"Classical.choice",
"Quot.sound"
],
"Verif.VsOps.no_visits_error": [
"propext",
"Classical.choice",
"Quot.sound"
],
"Verif.VsOps.nominal_first": [
"propext",
"Classical.choice",
"Quot.sound"
],
"Verif.VsOps.nominal_visits_false": [
"propext",
"Classical.choice",
"Quot.sound"
],
"Verif.VsOps.nominal_visits_partial": [
"propext",
"Classical.choice",
"Quot.sound"
],
"Verif.VsOps.other_suffix_false": [
"propext",
"Classical.choice",
"Quot.sound"
],
"Verif.VsOps.proto_error": [
"propext"
],
"Verif.VsOps.proto_time": [
"propext",
"Classical.choice",
"Quot.sound"
],
"Verif.VsOps.proto_urls": [
"propext",
"Classical.choice",
"Quot.sound"
],
"Verif.VsOps.recorded_first": [
"propext",
"Classical.choice",
"Quot.sound"
],
"Verif.VsOps.recorded_kept": [
"propext",
"Classical.choice",
"Quot.sound"
],
"Verif.VsOps.stats_row": [
"propext",
"Classical.choice",
"Quot.sound"
],
"Verif.VsOps.stats_rows": [
"propext",
"Classical.choice",
"Quot.sound"
],
"Verif.VsOps.stats_total": [
"propext",
"Classical.choice",
"Quot.sound"
],
"Verif.VsOps.suffixes": [
"propext",
"Classical.choice",
"Quot.sound"
],
"Verif.VsOps.tap_age": [
"propext",
"Classical.choice",
"Quot.sound"
],
"Verif.VsOps.tap_age_ahead": [
"propext",
"Classical.choice",
"Quot.sound"
],
"Verif.VsOps.tap_age_given": [
"propext",
"Quot.sound"
],
"Verif.VsOps.tap_day": [
"propext",
"Classical.choice",
"Quot.sound"
],
"Verif.VsOps.tap_spec": [
"propext",
"Classical.choice",
"Quot.sound"
],
"Verif.VsOps.update_bad_hash": [
"propext",
"Classical.choice",
"Quot.sound"
],
"Verif.VsOps.update_fails": [
"propext",
"Classical.choice",
"Quot.sound"
],
"Verif.VsOps.update_hash": [
"propext",
"Classical.choice",
"Quot.sound"
],
"Verif.VsOps.update_only": [
"propext",
"Classical.choice",
"Quot.sound"
],
"Verif.Web.form_false": [
"propext",
"Classical.choice",
"Quot.sound"
],
"Verif.Web.form_partial": [
"propext",
"Quot.sound"
],
"Verif.Web.fresh_false": [
"propext"
],
"Verif.Web.groups_spec": [
"propext",
"Classical.choice",
"Quot.sound"
],
"Verif.Web.info_false": [],
"Verif.Web.once_false": [
"propext",
"Classical.choice",
"Quot.sound"
],
"Verif.Web.once_partial": [
"propext",
"Quot.sound"
],
"Verif.Web.orderNames_spec": [
"propext",
"Classical.choice",
"Quot.sound"
],
"Verif.Web.order_all": [
"propext",
"Quot.sound"
],
"Verif.Web.order_false": [
"propext",
"Classical.choice",
"Quot.sound"
],
"Verif.Web.order_many": [
"propext",
"Quot.sound"
],
"Verif.Web.order_place": [
"propext",
"Classical.choice",
"Quot.sound"
],
"Verif.Web.order_rows": [
"propext",
"Classical.choice",
"Quot.sound"
],
"Verif.Web.plotDict_spec": [
"propext",
"Classical.choice",
"Quot.sound"
],
"Verif.Web.read_once": [
"propext",
"Classical.choice",
"Quot.sound"
],
"Verif.Web.select_form": [
"propext",
"Quot.sound"
],
"Verif.Web.select_spec": [
"propext",
"Quot.sound"
],
"Verif.Web.stale_stays": [
"propext"
],
"Verif.Web.statDict_spec": [
"propext",
"Classical.choice",
"Quot.sound"
],
"Verif.Web.statOrder_spec": [
"propext",
"Classical.choice",
"Quot.sound"
],
"Verif.Web.tracking_spec": [
"propext",
"Classical.choice",
"Quot.sound"
],
"Verif.Web.types_false": [
"propext",
"Classical.choice",
"Quot.sound"
],
"Verif.Xrb.detect_spec": [
"propext",
"Classical.choice",
"Quot.sound"
],
"Verif.Xrb.detectable_spec": [
"propext",
"Quot.sound"
],
"Verif.Xrb.detected_during": [
"propext",
"Classical.choice",
"Quot.sound"
],
"Verif.Xrb.end_bright": [
"propext",
"Classical.choice",
"Quot.sound"
],
"Verif.Xrb.faded_false": [
"propext",
"Classical.choice",
"Quot.sound"
],
"Verif.Xrb.fred_peak": [
"propext",
"Classical.choice",
"Quot.sound"
],
"Verif.Xrb.fred_shape": [
"propext",
"Classical.choice",
"Quot.sound"
],
"Verif.Xrb.lightcurve_outside": [
"propext",
"Classical.choice",
"Quot.sound"
],
"Verif.Xrb.lightcurve_peak": [
"propext",
"Classical.choice",
"Quot.sound"
],
"Verif.Xrb.meanTime_false": [
"propext",
"Classical.choice",
"Quot.sound"
],
"Verif.Xrb.meanTime_spec": [
"propext",
"Classical.choice",
"Quot.sound"
],
"Verif.Xrb.pop_seed": [],
"Verif.Xrb.possible_spec": [
"propext",
"Classical.choice",
"Quot.sound"
],
"Verif.Xrb.reduceMean_spec": [
"propext",
"Classical.choice",
"Quot.sound"
],
"Verif.Xrb.tauRise_false": [
"propext",
"Classical.choice",
"Quot.sound"
],
"Verif.Xrb.tauRise_spec": [
"propext",
"Classical.choice",
"Quot.sound"
],
"Verif.Xrb.visible_interval": [
"propext",
"Classical.choice",
"Quot.sound"
],
"Verif.Yso.count_add": [
"propext",
"Classical.choice",
"Quot.sound"
],
"Verif.Yso.count_bound": [
"propext",
"Classical.choice",
"Quot.sound"
],
"Verif.Yso.count_mono": [
"propext",
"Classical.choice",
"Quot.sound"
],
"Verif.Yso.density_latitude": [
"propext",
"Classical.choice",
"Quot.sound"
],
"Verif.Yso.density_longitude": [
"propext",
"Classical.choice",
"Quot.sound"
],
"Verif.Yso.density_pos": [
"propext",
"Classical.choice",
"Quot.sound"
],
"Verif.Yso.density_sym": [
"propext",
"Classical.choice",
"Quot.sound"
],
"Verif.Yso.disc_total": [
"propext",
"Classical.choice",
"Quot.sound"
],
"Verif.Yso.dist2_empty": [
"propext",
"Classical.choice",
"Quot.sound"
],
"Verif.Yso.dist2_spec": [
"propext",
"Classical.choice",
"Quot.sound"
],
"Verif.Yso.distance_spec": [
"propext",
"Classical.choice",
"Quot.sound"
],
"Verif.Yso.effective_mono": [
"propext",
"Classical.choice",
"Quot.sound"
],
"Verif.Yso.outside_false": [
"propext",
"Classical.choice",
"Quot.sound"
],
"Verif.Yso.pole_false": [
"propext",
"Classical.choice",
"Quot.sound"
],
"Verif.Yso.rGalac_partial": [
"propext",
"Classical.choice",
"Quot.sound"
],
"Verif.Yso.run_inside": [
"propext",
"Classical.choice",
"Quot.sound"
],
"Verif.Yso.run_outside": [
"propext",
"Classical.choice",
"Quot.sound"
],
"Verif.Yso.skyArea_field": [
"propext",
"Classical.choice",
"Quot.sound"
],
"Verif.Yso.unobserved_false": [
"propext",
"Classical.choice",
"Quot.sound"
],
"Verif.Yso.unobserved_first": [
"propext",
"Classical.choice",
"Quot.sound"
],
"Verif.Yso.unobserved_zero": [
"propext",
"Classical.choice",
"Quot.sound"
]
}