# Formal model of rubin_sim in Lean 4 — design

## What this is

`/verif/lean` holds an executable Lean 4 model of selected parts of
`lsst/rubin_sim` (source in `/repo`, read as text, never run) and theorems about
that model. Every model definition cites the file and lines it models and says
where it simplifies. Property theorems are kept in `Props` files apart from the
model and from helper lemmas. Each property of `properties.jsonl` is listed
below with the plan, the theorem names and what is missing.

When the code disagrees with its documentation, the model follows the code: the
documented claim is refuted by a theorem with a concrete witness, the part
that does hold is proved (suffix `_partial` when it is only part of the
claim), and the disagreement is recorded in the table.

## Trusted base

* Lean 4.33.0's kernel, and Mathlib definitions used in statements.
* Axioms: at most `propext`, `Classical.choice`, `Quot.sound` (see
  "Checking" below). No axioms are added, no `sorry`, no `native_decide`.
* The correspondence between the Python source and the Lean model, which was
  made by reading; the citations are there to check it.
* Idealisations: floating point numbers are modelled by exact ordered
  types/fields (generic linear order, `Int`, `Rat`, or a field); NaN is left
  out unless a comment says otherwise. numpy/pandas/SQL primitives are modelled by their
  documented behaviour (for example `argsort` is *any* permutation that sorts).

The axioms of each theorem in the table are given in brackets, as reported by
Lean's `#print axioms`: p is `propext`, c is `Classical.choice`, q is
`Quot.sound`.

## Checking

* `cd lean && lake build` checks every proof; `Verif.lean` imports every
  property file.
* `python3 tools/axioms.py` asks Lean for the axioms of each theorem of the
  manifest and fails on others than the three above; `python3 tools/props.py`
  regenerates `properties.jsonl`, `MANIFEST.json` and the generated parts of
  this file.
* `python3 tools/seed.py seeded/mutants/roundN.json` rebuilds a scratch copy with
  each realistic bug of the list and tells which theorems fail;
  `seeded/LOG.jsonl` has the outcome of every attempt and the theorems
  that were tightened.

## What is not modelled

* Everything of `/repo` that is not named under "Modelled code" at the end:
  in particular plots, web pages, batches of metrics, the summary plots, the
  sky brightness and throughput tables, satellite constellations, self
  calibration, the population and light-curve metrics, OpenOrb and the
  ephemeris generation itself.
* Within modelled functions: verbose printing, warnings, and exceptions not named in
  the definition; dtypes; NaN unless named; rounding; time zones and leap
  seconds; memory use and running time.
* Libraries (numpy, pandas, SQLite, healpy, astropy) are modelled only by the
  documented behaviour of the functions used.

## Properties

<!-- BEGIN TABLE -->

### C01 — OneDSlicer slices hold exactly the visits of their bin

*Status:* proved. *Model and proof:* List model of argsort (any sorting permutation), searchsorted and slicing; membership equivalence proved for all inputs.

*Theorems:* `Verif.Slicers.oneD_slice_exact` [pcq]

*Note:* Values idealised as a linear order (no NaN).

### C02 — OneDSlicer slices are disjoint and jointly cover [first edge, last edge)

*Status:* proved. *Model and proof:* Derived from C01 plus order facts on sorted lists; count statement by permutation of concatenated slices.

*Theorems:* `Verif.Slicers.oneD_partition` [pcq], `Verif.Slicers.oneD_concat_perm` [pcq]

### C03 — OneDSlicer last bin: documented closed, implemented half-open

*Status:* partial. *Model and proof:* Negation with an explicit witness and a general theorem that a value equal to the last edge is in no slice; the claim for values below the last edge is kept as _partial.

*Theorems:* `Verif.Slicers.oneD_last_bin_closed_partial` [pcq], `Verif.Slicers.oneD_last_bin_closed_false` [pcq], `Verif.Slicers.oneD_last_edge_dropped` [pcq], `Verif.Slicers.oneD_auto_bins_drop_maximum` [pcq]

*Note:* The documented claim is false of the code: refuted by oneD_last_bin_closed_false, and oneD_last_edge_dropped shows every value equal to the last edge is lost. Kept: all bins for values below the last edge.

### C04 — NDSlicer slices partition the visits by bin tuple

*Status:* proved. *Model and proof:* itertools.product modelled on lists; per-dimension lemma + induction on dimensions.

*Theorems:* `Verif.Slicers.nd_partition` [pcq]

### C05 — MovieSlicer: cumulative slices only grow, and the last one is everything

*Status:* proved. *Model and proof:* Same argsort/searchsorted model with the final left index set to the data length.

*Theorems:* `Verif.Slicers.movie_cumulative` [pcq], `Verif.Slicers.movie_step_partition` [pcq]

### C06 — TimeIntervalSlicer slices match their advertised time window

*Status:* partial. *Model and proof:* Model digitize/groupby; prove what slice i holds (previous window), prove the documented claim false by witness, keep the exactly-once statement for all but the last window as _partial.

*Theorems:* `Verif.Slicers.timeInterval_shifted_partial` [pcq], `Verif.Slicers.timeInterval_slice_never_own_window` [pcq]

*Note:* The documented claim is false of the code: no slice ever holds a visit of its own window. The partial theorem gives exactly what each slice holds.

### C07 — BlockIntervalSlicer blocks are the maximal runs of visits with one note and no long gap

*Status:* proved. *Model and proof:* cumsum/shift/groupby modelled on the sorted list; induction along the list.

*Theorems:* `Verif.Slicers.block_partition` [pcq]

### C08 — VisitIntervalSlicer pairs each slice with its own visit

*Status:* partial. *Model and proof:* Counterexample for unsorted data; _partial theorem under sorted input with strictly increasing times.

*Theorems:* `Verif.Slicers.visitInterval_sorted_partial` [pq], `Verif.Slicers.visitInterval_mismatch` [pcq]

*Note:* False for unsorted input (refuted); proved for strictly time-sorted input.

### C09 — Slicing each visit exactly once: VisitIntervalSlicer and UniSlicer

*Status:* proved. *Model and proof:* Permutation argument.

*Theorems:* `Verif.Slicers.visitInterval_each_once` [pq], `Verif.Slicers.uni_selects_all` [pq]

### C10 — Iterating a slicer visits each slice once, in order, and can be restarted

*Status:* proved. *Model and proof:* State machine with iter/next operations; induction over operation histories.

*Theorems:* `Verif.Slicers.slicer_iteration` [pq], `Verif.Slicers.slicer_iteration_run` [pq]

### C11 — Metric caching is transparent

*Status:* proved. *Model and proof:* Operational model of the OrderedDict LRU loop; invariant: cached slice ids hold the value of their key; refinement to the uncached run by induction on slices.

*Theorems:* `Verif.Bundles.cache_transparent` [pcq], `Verif.Bundles.cache_bounded` [pcq]

*Note:* For metrics determined by the set of visits (the documented condition for caching) that do not write into the visits (C589).

### C12 — Every slice ends up either masked or holding its metric value

*Status:* proved. *Model and proof:* Same loop model; postcondition by induction over the slices.

*Theorems:* `Verif.Bundles.run_values_and_masks` [pcq]

*Note:* For metrics that do not write into the visits they are given; C589 is about those that do.

### C13 — Bundles run together are pairwise compatible

*Status:* partial. *Model and proof:* Model the double loop with its fallthrough; prove coverage, and first-member compatibility; refute pairwise compatibility and uniqueness by witness.

*Theorems:* `Verif.Bundles.groups_cover_partial` [pq], `Verif.Bundles.groups_ok_partial` [pq], `Verif.Bundles.groups_ok_of_equivalence` [pq], `Verif.Bundles.groups_ok_false` [pq], `Verif.Bundles.groups_pairwise_false` [p], `Verif.Bundles.groups_unique_false` [p], `Verif.Bundles.group_clobbers_column` [p], `Verif.Bundles.maps_ignored` [none]

*Note:* False of the code in general (groups_ok_false, groups_pairwise_false, groups_unique_false, group_clobbers_column). Kept: every bundle is run; groups are right when compatibility behaves as an equivalence on the bundles at hand.

### C14 — A bundle knows every database column it needs

*Status:* proved. *Model and proof:* Worklist loop with a termination measure (stacker classes not yet added); closure invariant.

*Theorems:* `Verif.ReqCols.reqCols_terminates` [pcq], `Verif.ReqCols.reqCols_closed` [pcq]

*Note:* Python set iteration order is an arbitrary enumeration.

### C15 — Stackers run after the stackers they depend on

*Status:* partial. *Model and proof:* Witness chain of two stackers violating the order; _partial for dependency depth one.

*Theorems:* `Verif.ReqCols.stacker_order_partial` [pcq], `Verif.ReqCols.stacker_order_false` [pcq], `Verif.ReqCols.dependency_runs_too_late` [pcq]

*Note:* False of the code (stacker_order_false; dependency_runs_too_late in general). Kept: right order when no added default stacker has dependencies of its own.

### C16 — Running a stacker keeps existing data

*Status:* proved. *Model and proof:* Table as list of named columns; theorem about column names, untouched columns and idempotence.

*Theorems:* `Verif.Stackers.stacker_run_frame` [pcq], `Verif.Stackers.zenith_ha_wellBehaved` [pq], `Verif.Stackers.stacker_recomputes` [pcq], `Verif.Stackers.zenith_override` [pcq]

*Note:* For stackers whose _run writes only declared columns; that hypothesis is discharged for the zenith-distance and hour-angle stackers and fails for the parallactic-angle stacker (C46).

### C17 — Reduce functions and summary statistics see only unmasked values

*Status:* proved. *Model and proof:* List-of-option model with refinement to the mathematical spec.

*Theorems:* `Verif.Masked.reduce_spec` [pcq], `Verif.Masked.summary_spec` [pcq], `Verif.Masked.masked_noninterference` [pq]

### C18 — ResultsDb keeps one row per metric identity and stable metric ids

*Status:* proved. *Model and proof:* State machine with all update operations; invariant by induction over the history.

*Theorems:* `Verif.Db.metrics_key_unique` [pcq], `Verif.Db.metric_id_stable` [pcq], `Verif.Db.metric_id_injective` [pcq]

*Note:* None and the string NULL are the same value for the database; identity is meant after that conversion.

### C19 — ResultsDb display rows are one-to-one with metrics

*Status:* proved. *Model and proof:* Same state machine.

*Theorems:* `Verif.Db.display_one_to_one` [pcq]

### C20 — ResultsDb plot rows: overwrite replaces, otherwise appends

*Status:* proved. *Model and proof:* Same state machine.

*Theorems:* `Verif.Db.plots_spec` [pcq]

### C21 — Summary statistics are stored despite a temporarily locked database

*Status:* partial. *Model and proof:* Explicit failure schedule as input; witness for the loss; _partial: nothing is lost if total failures stay below the limit, and stored rows are never duplicated or altered.

*Theorems:* `Verif.Db.summary_table_partial` [pcq], `Verif.Db.summary_table_lost` [p], `Verif.Db.summary_table_drops_rest` [pq]

*Note:* False of the code: the retry counter is shared (summary_table_lost, summary_table_drops_rest). Proved for every schedule: only a prefix is stored, each value once; everything if fewer than ntry failures occur in the call. A failed attempt is assumed to leave the session usable.

### C22 — TrackingDb keeps one current entry per MAF directory

*Status:* proved. *Model and proof:* State machine, invariant by induction.

*Theorems:* `Verif.Db.tracking_refines` [pcq], `Verif.Db.addRun_returns` [pcq], `Verif.Db.run_id_reused` [none]

*Note:* Directories are compared after relpath; a missing directory counts as the directory NULL.

### C23 — Archive tags behave as a set

*Status:* proved. *Model and proof:* Table model with the guard-then-insert code; refinement to a set. The two-client interleaving gets its own property.

*Theorems:* `Verif.Archive.tags_set` [pcq], `Verif.Archive.untag_spec` [pq]

*Note:* For calls one after another.

### C24 — Concurrent taggers may duplicate a tag row

*Status:* proved. *Model and proof:* Interleaving semantics with atomic check and insert steps; safety for every schedule; witness schedule for duplicates.

*Theorems:* `Verif.Archive.concurrent_tag_holds` [pq], `Verif.Archive.concurrent_untag_removes` [pq], `Verif.Archive.concurrent_tag_duplicates` [pcq]

*Note:* Interleavings of the two statements of a call; includes the duplicate that concurrent calls can leave.

### C25 — Registered archive files: one per type, updated only on request

*Status:* proved. *Model and proof:* State machine.

*Theorems:* `Verif.Archive.files_registered` [pq], `Verif.Archive.register_fails_iff` [pq]

### C26 — Archive integrity: stored bytes match the registered hash

*Status:* partial. *Model and proof:* Joint state (file store, metadata); two witnesses for violations; _partial invariant when the update flag is set and basenames determine the type.

*Theorems:* `Verif.Archive.archive_integrity_partial` [pq], `Verif.Archive.refused_add_breaks` [pq], `Verif.Archive.crash_breaks` [p], `Verif.Archive.name_clash_breaks` [p], `Verif.Archive.add_file_other_sequence` [pq]

*Note:* False of the code (refused_add_breaks, crash_breaks in general; name_clash_breaks without any failing call). Proved for histories without crashes in which names determine types and repeated types use update; other sequences are never touched.

### C27 — record_conda_env requires both hash and listing, or neither

*Status:* partial. *Model and proof:* Model Python's chained comparison; prove the guard never fires, and what happens instead; environments are stored at most once.

*Theorems:* `Verif.Archive.conda_recorded_partial` [pq], `Verif.Archive.conda_checked_false` [p], `Verif.Archive.conda_no_value_error` [p], `Verif.Archive.conda_lone_arguments` [p]

*Note:* The documented error never happens (conda_no_value_error). Proved for both or neither argument.

### C28 — sims_on_nights returns exactly the matching simulations

*Status:* partial. *Model and proof:* Relational model of the query.

*Theorems:* `Verif.Archive.sims_on_nights_partial` [pcq], `Verif.Archive.sims_on_nights_untagged` [pcq], `Verif.Archive.sims_exact_false` [pcq]

*Note:* False with an empty tag list, where the call always fails; exact with tags.

### C29 — Simulation export followed by import keeps the simulated dates

*Status:* partial. *Model and proof:* Finite-map YAML model; theorem that label/telescope/version/tags survive (_partial) and that dates never do.

*Theorems:* `Verif.Archive.yaml_round_trip_partial` [pcq], `Verif.Archive.yaml_dates_lost` [pcq], `Verif.Archive.yaml_round_trip_iff` [pcq]

*Note:* Dates are always lost; yaml_round_trip_iff says exactly when the full statement holds. Importing needs an observations file.

### C30 — (creation day, daily id) identifies a simulation

*Status:* proved. *Model and proof:* ROW_NUMBER over a partition modelled as rank in a sorted list; stability theorem; witness for renumbering.

*Theorems:* `Verif.Archive.daily_ids` [pq], `Verif.Archive.daily_id_unique` [pcq], `Verif.Archive.get_sim_uuid_spec` [pcq], `Verif.Archive.daily_id_rank` [pcq], `Verif.Archive.daily_id_after_adding` [pcq], `Verif.Archive.daily_id_stable` [pcq], `Verif.Archive.daily_id_tie` [pcq], `Verif.Archive.creation_day_noon` [pcq]

*Note:* With equal creation times the numbering is up to the database (daily_id_tie); stability is for distinct creation times.

### C31 — select_latest_prenight_sim picks the newest eligible simulation

*Status:* proved. *Model and proof:* Fold model; maximality by induction over rows.

*Theorems:* `Verif.Archive.select_latest` [pcq], `Verif.Archive.select_none_iff` [pcq]

*Note:* The clock may advance between rows.

### C32 — chebeval evaluates the Chebyshev series

*Status:* proved. *Model and proof:* Loop modelled over an arbitrary field; invariant relating loop variables to Mathlib's Polynomial.Chebyshev.T.

*Theorems:* `Verif.Cheby.chebeval_value` [pcq], `Verif.Cheby.chebeval_no_velocity` [pcq], `Verif.Cheby.chebeval_mask` [pcq]

*Note:* Over every field of characteristic not two; floating-point rounding is not modelled.

### C33 — chebeval's velocity is the derivative of its value

*Status:* proved. *Model and proof:* Same invariant with Chebyshev derivatives, then chain rule for the affine rescaling.

*Theorems:* `Verif.Cheby.chebeval_velocity` [pcq], `Verif.Cheby.chebeval_hasDerivAt` [pcq]

*Note:* Algebraic derivative over every field, analytic derivative over the reals.

### C34 — chebfit reproduces the endpoints exactly

*Status:* proved. *Model and proof:* Matrix model over a field with block structure; constraint rows of C1*C1inv*C2 = C2.

*Theorems:* `Verif.Cheby.chebfit_endpoints` [pcq], `Verif.Cheby.chebfit_endpoints_velocity` [pcq], `Verif.Cheby.chebfit_joins` [pcq]

*Note:* Exact arithmetic; invertibility is proved, not assumed.

### C35 — ChebyValues attributes each value to the right object

*Status:* partial. *Model and proof:* Model of the loop; witness with a gap; _partial theorem when every time matches one segment per object in the same object order.

*Theorems:* `Verif.Cheby.ephemerides_right_partial` [pq], `Verif.Cheby.blocks_covering` [p], `Verif.Cheby.ephemerides_wrong_object` [p], `Verif.Cheby.first_row_shifted` [pcq], `Verif.Cheby.final_time_values` [pcq]

*Note:* False when an object lacks a segment (ephemerides_wrong_object); holds when every time is covered by one segment per object in a common order.

### C36 — Chebyshev segments tile the time span

*Status:* proved. *Model and proof:* Loop over exact decimals (integers scaled by 10^-n).

*Theorems:* `Verif.Cheby.segments_tile` [pq], `Verif.Cheby.segments_exact` [pq]

*Note:* Decimal times exact; subdivision of failing segments is not modelled.

### C37 — Sanitised names are safe and stable

*Status:* proved. *Model and proof:* Character-list model of the replace chain and the while loop with termination proof.

*Theorems:* `Verif.Names.sanitize_eq` [pq], `Verif.Names.sanitize_safe` [pcq], `Verif.Names.sanitize_fixed` [pq], `Verif.Names.sanitize_idem` [pcq], `Verif.Names.sanitize_collides` [pcq]

### C38 — optimal_bins stays within its limits

*Status:* proved. *Model and proof:* Real-number model of the branch structure with the Freedman-Diaconis width abstracted.

*Theorems:* `Verif.Bins.optimal_bins_limits` [pcq], `Verif.Bins.optimal_bins_degenerate` [pcq], `Verif.Bins.optimal_bins_rule` [pcq]

### C39 — dayobs_to_date decodes every YYYYMMDD integer

*Status:* proved. *Model and proof:* Div/mod model with a calendar validity predicate; round trip by arithmetic.

*Theorems:* `Verif.Dates.dayobs_int_iff` [pcq], `Verif.Dates.dayobs_iso` [pcq], `Verif.Dates.dayobs_stacker_round_trip` [pcq]

### C40 — Day-of-observation conventions agree

*Status:* proved. *Model and proof:* Rational MJD model with floor arithmetic.

*Theorems:* `Verif.Dates.day_obs_agree` [pcq]

*Note:* Exact rational times.

### C41 — Angle metrics ignore where zero degrees lies

*Status:* proved. *Model and proof:* Rational turn model of the sort/gap code.

*Theorems:* `Verif.Metrics.full_range_smallest_arc` [pcq], `Verif.Metrics.full_range_rotation` [pcq], `Verif.Metrics.full_range_outside_window` [pcq]

*Note:* For angles within less than a turn of each other, as documented; outside that the claim fails (full_range_outside_window).

### C42 — Threshold counting metrics agree with counting

*Status:* partial. *Model and proof:* List model; refutation for the two-limit case.

*Theorems:* `Verif.Metrics.count_explim_time` [pcq], `Verif.Metrics.count_explim_partial` [pcq], `Verif.Metrics.count_explim_short` [pcq], `Verif.Metrics.explim_counts_false` [pcq], `Verif.Metrics.frac_bounds` [pcq], `Verif.Metrics.frac_sum` [pcq], `Verif.Metrics.max_percent_spec` [pcq], `Verif.Metrics.count_beyond_partial` [pq], `Verif.Metrics.count_beyond_two_fails` [p], `Verif.Metrics.beyond_counts_false` [pcq]

*Note:* Two thresholds fail on more than one visit (count_beyond_two_fails) and CountExplim can ignore accepted visits (explim_counts_false); the rest is proved. CountSubset and CountRatio are one-line numpy calls and not modelled.

### C43 — TimeIntervalSlicer does not report empty intervals as empty

*Status:* proved. *Model and proof:* Same model as C06 with numpy fancy-index shape (flat or nested).

*Theorems:* `Verif.Slicers.timeInterval_empty_not_reported` [pcq]

*Note:* A defect stated as it is: the empty interval is not recognised as empty.

### C44 — A bundle group's results do not depend on earlier groups

*Status:* partial. *Model and proof:* State model of stackers acting on the shared table; isolation proved when no column is shared; witness otherwise.

*Theorems:* `Verif.Bundles.groups_isolated_partial` [pq], `Verif.Bundles.groups_not_isolated` [p]

*Note:* False in general (groups_not_isolated); proved when earlier groups write no column the later one reads or writes.

### C45 — Hour angles are normalised

*Status:* proved. *Model and proof:* Ordered-field model of the two np.where corrections.

*Theorems:* `Verif.Stackers.hourAngle_range` [pcq]

*Note:* pi is any positive number.

### C46 — ParallacticAngleStacker changes more than it declares

*Status:* proved. *Model and proof:* Table model of the nested stacker call.

*Theorems:* `Verif.Stackers.pa_adds_undeclared_column` [pcq], `Verif.Stackers.pa_uses_stale_ha` [pcq]

*Note:* A defect stated as it is.

### C47 — OverheadStacker accounts for all elapsed time

*Status:* proved. *Model and proof:* Index specification and telescoping sum by induction.

*Theorems:* `Verif.Stackers.overhead_spec` [pcq], `Verif.Stackers.overhead_accounts` [pcq]

### C48 — SaturationStacker marks the visit that cannot saturate

*Status:* partial. *Model and proof:* Index model; proved when every visit is in one filter, refuted by a two-filter witness.

*Theorems:* `Verif.Stackers.saturation_nan_partial` [pq], `Verif.Stackers.saturation_wrong_row` [pq]

*Note:* False with several filters (saturation_wrong_row); proved: saturated visits always get NaN, and exactly these when all visits share one filter.

### C49 — NFollowStacker counts the telescopes that can follow up

*Status:* partial. *Model and proof:* Counting theorem with the argument order of the code, plus a witness that it differs from the intended order.

*Theorems:* `Verif.Stackers.nFollow_partial` [pq], `Verif.Stackers.nFollow_swapped` [p]

*Note:* False of the code: latitude and longitude are exchanged (nFollow_swapped); the partial theorem gives exactly what is counted.

### C50 — NoteRootStacker keeps the part before the first comma

*Status:* proved. *Model and proof:* Character-list model of split(',')[0] and of numpy fixed-width storage.

*Theorems:* `Verif.Stackers.noteRoot_spec` [pq], `Verif.Stackers.noteRootStored_spec` [p]

### C51 — update_summary_stat never updates

*Status:* proved. *Model and proof:* Row count theorem for any number of calls; refutation of the documented update.

*Theorems:* `Verif.Db.summary_value_added` [pcq], `Verif.Db.summary_rows_accumulate` [pcq], `Verif.Db.summary_not_updated` [p]

*Note:* A defect stated as it is.

### C52 — Standardised summary names

*Status:* partial. *Model and proof:* Character-list model; collisions for all metrics, witness for commas, strip lemma.

*Theorems:* `Verif.Db.summaryName_stripped_partial` [pcq], `Verif.Db.summaryName_collides` [pcq], `Verif.Db.summaryName_keeps_commas` [pcq]

*Note:* Comma removal and distinctness are false of the code (refuted).

### C53 — Updating a tracked run survives a crash

*Status:* partial. *Model and proof:* Two-commit model; general loss theorem; recovery theorem as _partial.

*Theorems:* `Verif.Db.update_crash_partial` [pcq], `Verif.Db.update_crash_loses` [pq], `Verif.Db.update_not_atomic` [none], `Verif.Db.update_crash_changes_id` [none]

*Note:* Atomicity is false of the code (update_not_atomic).

### C54 — Importing simulation metadata keeps the creation time

*Status:* proved. *Model and proof:* Same YAML model as C29; the import of an export in closed form.

*Theorems:* `Verif.Archive.yaml_creation_time_ignored` [pcq], `Verif.Archive.yaml_creation_time_lost` [pcq]

*Note:* A defect stated as it is.

### C55 — Looking up a simulation by day and daily id in the prenight indexes

*Status:* partial. *Model and proof:* Loop over telescopes; a missing index always fails the search; exact result when all indexes are present (_partial).

*Theorems:* `Verif.Archive.findable_partial` [pcq], `Verif.Archive.missing_index_fails` [pq], `Verif.Archive.findable_false` [pq]

*Note:* False when an index is missing (missing_index_fails); exact when all are present.

### C56 — Recording a simulation is atomic

*Status:* partial. *Model and proof:* Two-step model with a failure flag.

*Theorems:* `Verif.Archive.record_complete_partial` [pq], `Verif.Archive.failed_record_leaves_row` [none], `Verif.Archive.record_not_atomic` [p]

*Note:* Atomicity is false of the code.

### C57 — Visit sequence urls can be read back, whatever the table

*Status:* proved. *Model and proof:* Rows labelled with their own table; queries on the parent table see all rows.

*Theorems:* `Verif.Archive.url_round_trip` [pcq], `Verif.Archive.record_keeps_ok` [pq]

### C58 — Position-only fits are least-squares optimal

*Status:* proved. *Model and proof:* Lagrange conditions from the block system; Pythagoras; uniqueness from the number of roots.

*Theorems:* `Verif.Cheby.chebfit_optimal` [pcq], `Verif.Cheby.chebfit_recovers` [pcq]

*Note:* Exact arithmetic, ordered fields.

### C59 — Right ascensions are made continuous

*Status:* proved. *Model and proof:* Ordered-field model; case split on whether the turns of the track differ.

*Theorems:* `Verif.Cheby.unwrap_continuous` [pcq], `Verif.Cheby.unwrap_sharp` [pcq]

### C60 — get_ephemerides checks the objects it returns

*Status:* proved. *Model and proof:* Aliasing made explicit in the model; the error is unreachable.

*Theorems:* `Verif.Cheby.label_check_vacuous` [pq], `Verif.Cheby.unknown_object_zeros` [pq], `Verif.Cheby.caller_ids_overwritten` [p]

*Note:* A defect stated as it is.

### C61 — Times outside all segments give NaN

*Status:* proved. *Model and proof:* Case analysis of the segment choice using minimum and maximum of the ranges.

*Theorems:* `Verif.Cheby.gap_gives_zeros` [pcq], `Verif.Cheby.outside_gives_nan` [pcq], `Verif.Cheby.final_time_values` [pcq], `Verif.Cheby.extrapolated_values` [pcq]

*Note:* Includes the zero values as a defect stated as it is.

### C62 — Segment lengths divide the time span

*Status:* partial. *Model and proof:* Loop model in units of the last decimal.

*Theorems:* `Verif.Cheby.round_length_partial` [pq], `Verif.Cheby.small_length_accepted` [pq], `Verif.Cheby.fits_span_false` [pq]

*Note:* The documented accuracy is missed by a factor of ten (fits_span_false).

### C63 — percentile_clipping keeps the requested share of the data

*Status:* partial. *Model and proof:* np.percentile with linear interpolation over an ordered field; counting values below a percentile by rank.

*Theorems:* `Verif.Bins.clip_partial` [pcq], `Verif.Bins.retains_false` [pcq], `Verif.Bins.pct_between` [pcq], `Verif.Bins.pct_mono` [pcq], `Verif.Bins.pct_below` [pcq], `Verif.Bins.pct_above` [pcq]

*Note:* False for small samples (retains_false).

### C64 — Archived simulations record every night they cover

*Status:* partial. *Model and proof:* Rational MJDs with floor arithmetic, compared to the day of observation of every visit.

*Theorems:* `Verif.Dates.simulated_dates_partial` [pcq], `Verif.Dates.last_night_missing` [pcq], `Verif.Dates.dates_cover_false` [pcq]

*Note:* False of the code (dates_cover_false).

### C65 — Fetching visits for nights selects exactly the visits of those nights

*Status:* proved. *Model and proof:* Lexicographic order of digit strings equals date order, by two-digit blocks.

*Theorems:* `Verif.Dates.iso_le_iff` [pcq], `Verif.Dates.on_nights_exact` [pcq], `Verif.Dates.compact_selects_nothing` [pcq]

### C66 — Fetching visits twice gives the same result

*Status:* partial. *Model and proof:* Caller's list as state threaded through calls.

*Theorems:* `Verif.Dates.fetch_repeat_partial` [pq], `Verif.Dates.fetch_repeat_differs` [pq], `Verif.Dates.fetch_repeat_differs_kw` [pq], `Verif.Dates.fetch_tuple_fails` [p]

*Note:* False when a list is passed (fetch_repeat_differs); holds if no dictionary is passed and the list is empty or already asks for the column.

### C67 — The latest prenight simulation covers the requested nights

*Status:* proved. *Model and proof:* Filter-and-sort model against an existential specification.

*Theorems:* `Verif.Dates.find_latest_covers` [pcq]

### C68 — Prenight simulations start on the requested day

*Status:* partial. *Model and proof:* Python indexing with negative indices made explicit.

*Theorems:* `Verif.Dates.sim_start_end_partial` [pcq], `Verif.Dates.before_almanac_wraps` [pcq], `Verif.Dates.starts_on_day_false` [pcq]

*Note:* False for days before the almanac.

### C69 — RmsAngle ignores where zero degrees lies

*Status:* partial. *Model and proof:* Same model as C41; unique arc start determines the rotated list.

*Theorems:* `Verif.Metrics.rms_rotation_partial` [pcq], `Verif.Metrics.rms_invariant_false` [pcq]

*Note:* False with ties (rms_invariant_false); the squared scatter is modelled.

### C70 — Outlier counts obey Chebyshev's bound

*Status:* proved. *Model and proof:* Sum of squares bound over an ordered field, standard deviation characterised by its square.

*Theorems:* `Verif.Metrics.noutliers_chebyshev` [pcq]

### C71 — Coadded depth adds inverse variances

*Status:* proved. *Model and proof:* Real logarithms and powers.

*Theorems:* `Verif.RealMetrics.coadd_single` [pcq], `Verif.RealMetrics.coadd_replicate` [pcq], `Verif.RealMetrics.coadd_perm` [pcq], `Verif.RealMetrics.coadd_groups` [pcq], `Verif.RealMetrics.coadd_more` [pcq], `Verif.RealMetrics.coadd_bounds` [pcq], `Verif.RealMetrics.coadd_other_filters` [pcq], `Verif.RealMetrics.coadd_run_spec` [pcq]

*Note:* Real arithmetic.

### C72 — Angular spread is a measure of spread

*Status:* proved. *Model and proof:* Unit vectors as complex numbers; equality case of the triangle inequality.

*Theorems:* `Verif.RealMetrics.spread_range` [pcq], `Verif.RealMetrics.spread_rotation` [pcq], `Verif.RealMetrics.spread_zero_iff` [pcq]

*Note:* Real arithmetic.

### C73 — The mean angle turns with the angles

*Status:* proved. *Model and proof:* Argument of the mean of complex unit vectors, in the circle group.

*Theorems:* `Verif.RealMetrics.mean_angle_range` [pcq], `Verif.RealMetrics.mean_angle_rotation` [pcq], `Verif.RealMetrics.mean_angle_uniform` [pcq], `Verif.RealMetrics.mean_angle_same` [pcq], `Verif.RealMetrics.mean_turns_false` [pcq]

*Note:* Real arithmetic.

### C74 — Each distinct stacker of a group is run once

*Status:* proved. *Model and proof:* Invariant of the loop that collects the stackers.

*Theorems:* `Verif.Bundles.uniq_stackers_spec` [pq]

### C75 — Filter changes are counted as runs

*Status:* proved. *Model and proof:* Destuttered list of states; induction over the list.

*Theorems:* `Verif.Tech.nChanges_runs` [pq], `Verif.Tech.nChanges_zero_iff` [pq], `Verif.Tech.nChanges_bounds` [pcq], `Verif.Tech.nChanges_order` [pq]

### C76 — The minimum time between states is between changes

*Status:* partial. *Model and proof:* Differences of change times.

*Theorems:* `Verif.Tech.minBetween_partial` [pcq], `Verif.Tech.minTime_eq` [pq], `Verif.Tech.minBetween_false` [pcq], `Verif.Tech.minBetween_single` [pq], `Verif.Tech.nFaster_eq` [pq], `Verif.Tech.changeTimes_spec` [pq]

*Note:* False of the code (minBetween_false, minBetween_single).

### C77 — The maximum of changes is over all intervals

*Status:* proved. *Model and proof:* searchsorted as a count; intervals moved to the next change.

*Theorems:* `Verif.Tech.maxWithin_spec` [pcq], `Verif.Tech.changeTimes_spec` [pq]

### C78 — Pairs are mutual

*Status:* partial. *Model and proof:* searchsorted as a count.

*Theorems:* `Verif.Tech.fractionOfPaired_partial` [pcq], `Verif.Tech.isPaired_iff` [pcq], `Verif.Tech.fractionOfPaired_false` [pcq], `Verif.Tech.pairFraction_range` [pcq]

*Note:* False at exact ties (fractionOfPaired_false).

### C79 — The open shutter fraction is a fraction

*Status:* partial. *Model and proof:* Sums over an ordered field; telescoping differences.

*Theorems:* `Verif.Tech.openFraction_range` [pcq], `Verif.Tech.bruteOSF_not_fraction` [pcq], `Verif.Tech.bruteOSF_partial` [pcq]

*Note:* False for BruteOSF (bruteOSF_not_fraction).

### C80 — A night counts its grouped visits

*Status:* partial. *Model and proof:* Loop over consecutive gaps as a left to right recursion; index form of the specification.

*Theorems:* `Verif.Groups.night_partial` [pcq], `Verif.Groups.nightCount_good` [pcq], `Verif.Groups.nightCount_close` [pcq], `Verif.Groups.two_visits` [pcq], `Verif.Groups.two_close_false` [pcq], `Verif.Groups.atMost_false` [pcq], `Verif.Groups.night_bound` [pcq], `Verif.Groups.runGroups_spec` [pcq]

*Note:* False of the code (two_close_false, atMost_false).

### C81 — Window maxima are over all windows

*Status:* proved. *Model and proof:* Every window is contained in one that starts at its first night.

*Theorems:* `Verif.Groups.nNights_spec` [pq], `Verif.Groups.nVisits_spec` [pq]

### C82 — Lunations with groups are counted in sequence

*Status:* partial. *Model and proof:* Invariant of the run length loop.

*Theorems:* `Verif.Groups.maxSeq_partial` [pcq], `Verif.Groups.nLunations_spec` [pcq], `Verif.Groups.maxSeq_false` [pcq]

*Note:* False for windows shorter than a lunation (maxSeq_false).

### C83 — Gaps are those of all pairs or of neighbours

*Status:* partial. *Model and proof:* np.roll and np.histogram modelled; permutation with the list of pair differences.

*Theorems:* `Verif.Gaps.tGaps_all` [pcq], `Verif.Gaps.pairDiffs_sorted` [pcq], `Verif.Gaps.tGapsHist_total` [pcq], `Verif.Gaps.tGapsPercent_range` [pcq], `Verif.Gaps.nightGaps_partial` [pcq], `Verif.Gaps.nightGaps_one_night` [pcq], `Verif.Gaps.nightGapsDefined_false` [pcq]

*Note:* False for Nightgaps on a single night (nightGapsDefined_false).

### C84 — A sampled time scale is found

*Status:* partial. *Model and proof:* Bins of np.arange with exact arithmetic.

*Theorems:* `Verif.Gaps.sampled_partial` [pcq], `Verif.Gaps.sampledIff_false` [pcq]

*Note:* The converse is false (sampledIff_false).

### C85 — Time within and between nights adds up

*Status:* proved. *Model and proof:* searchsorted on the nights; induction along the list.

*Theorems:* `Verif.Gaps.nightSpans_spec` [pcq], `Verif.Gaps.intraGaps_eq` [pq], `Verif.Gaps.interGaps_eq` [pcq], `Verif.Gaps.gaps_total` [pq]

*Note:* Reduction functions (median, percentile) are not modelled.

### C86 — A template is an earlier visit at least as good

*Status:* proved. *Model and proof:* Running minimum characterised by existence of an earlier value.

*Theorems:* `Verif.Gaps.template_spec` [pcq]

### C87 — Uniformity is measured from zero to one

*Status:* partial. *Model and proof:* Maximum of absolute values over an ordered field.

*Theorems:* `Verif.Gaps.uniformity_zero_iff` [pcq], `Verif.Gaps.uniformity_partial` [pcq], `Verif.Gaps.uniformity_above_one` [pcq], `Verif.Gaps.general_partial` [pcq], `Verif.Gaps.generalZero_false` [pcq]

*Note:* False of the code (uniformity_above_one, generalZero_false).

### C88 — Accumulated values are those up to the bin edge

*Status:* partial. *Model and proof:* Running folds and searchsorted; general statement of the value given.

*Theorems:* `Verif.Vec.accumulate_value` [pcq], `Verif.Vec.accumulate_next` [pcq], `Verif.Vec.accumulate_partial` [pcq], `Verif.Vec.count_value` [pcq], `Verif.Vec.accumulates_false` [pcq]

*Note:* False of the code (accumulates_false); accumulate_value and accumulate_next say what it gives.

### C89 — Accumulated uniformity

*Status:* proved. *Model and proof:* Prefix sums of the histogram; running maximum.

*Theorems:* `Verif.Vec.uniformity_value` [pcq], `Verif.Vec.uniformity_range` [pcq], `Verif.Vec.uniformity_mono` [pcq]

*Note:* For at least two visits and two bins.

### C90 — The area summary is the best value reached on an area

*Status:* proved. *Model and proof:* Counting of values in a sorted list; ceil.

*Theorems:* `Verif.Area.areaSummary_decreasing` [pcq], `Verif.Area.areaSummary_increasing` [pcq], `Verif.Area.areaSummary_short` [pcq]

*Note:* With the default reduce functions.

### C91 — FONv and FOArea are two sides of one statement

*Status:* proved. *Model and proof:* Galois connection between count and order statistic.

*Theorems:* `Verif.Area.foNv_foArea` [pcq], `Verif.Area.foNv_bad` [pcq], `Verif.Area.foNv_median` [pcq], `Verif.Area.foArea_bad` [pcq]

### C92 — Area thresholds and footprint fractions

*Status:* partial. *Model and proof:* Counting.

*Theorems:* `Verif.Area.threshold_partial` [pcq], `Verif.Area.threshold_all` [pcq], `Verif.Area.threshold_false` [pcq], `Verif.Area.footprint_spec` [pcq]

*Note:* False without limits if pixels have no value (threshold_false).

### C93 — Season edges separate the seasons

*Status:* proved. *Model and proof:* searchsorted on both sides characterised by positions.

*Theorems:* `Verif.Seasons.edges_spec` [pcq], `Verif.Seasons.edges_tile` [pcq], `Verif.Seasons.seasonLengths_spec` [pcq], `Verif.Seasons.campaignLength_spec` [pcq], `Verif.Seasons.long_spec` [p]

*Note:* For seasons that do not decrease with time; calc_season itself is in another package.

### C94 — The campaign frequency is a mean of separations

*Status:* partial. *Model and proof:* Telescoping sums; slices of seasons as filters.

*Theorems:* `Verif.Seasons.meanFrequency_spec` [pcq], `Verif.Seasons.frequency_partial` [pcq], `Verif.Seasons.frequency_false` [pcq]

*Note:* False of the code (frequency_false).

### C95 — Numbers at the end of strings are clipped

*Status:* proved. *Model and proof:* str.split and join modelled; induction on the string.

*Theorems:* `Verif.Strings.clip_number` [pq], `Verif.Strings.clip_other` [pq]

### C96 — Each string is counted

*Status:* partial. *Model and proof:* Counter as list; injectivity of the labels.

*Theorems:* `Verif.Strings.stringCount_spec` [pcq], `Verif.Strings.stringCount_error` [pcq], `Verif.Strings.percent_sum` [pcq], `Verif.Strings.countsAll_false` [pcq]

*Note:* An exception is possible (countsAll_false).

### C97 — String counts can be reduced

*Status:* partial. *Model and proof:* State kept over the slices.

*Theorems:* `Verif.Strings.reduce_works` [pcq], `Verif.Strings.reduce_partial` [pcq], `Verif.Strings.reducesAll_false` [p]

*Note:* False of the code (reducesAll_false).

### C98 — Pairs of visits are counted

*Status:* partial. *Model and proof:* Injection from bin pairs to pairs of visits.

*Theorems:* `Verif.Pairs.pairs_partial` [pcq], `Verif.Pairs.pairs_upper` [pcq], `Verif.Pairs.pairs_found` [pcq], `Verif.Pairs.countsPairs_false` [pcq]

*Note:* The exact number is not given (countsPairs_false).

### C99 — Numbers of observations and nights of a moving object agree

*Status:* proved. *Model and proof:* np.bincount modelled; induction on the list.

*Theorems:* `Verif.Mo.mem_vis` [p], `Verif.Mo.noSingles_spec` [pcq], `Verif.Mo.noSingles_negative` [pq], `Verif.Mo.nNights_spec` [pcq], `Verif.Mo.nNights_le` [pcq], `Verif.Mo.noSingles_le` [pcq], `Verif.Mo.noSingles_add` [pcq], `Verif.Mo.counts_mono` [pcq]

### C100 — The observational arc is the longest time span

*Status:* proved. *Model and proof:* Maximum and minimum of the visible times.

*Theorems:* `Verif.Mo.obsArc_spec` [pq], `Verif.Mo.obsArc_nonneg` [pcq], `Verif.Mo.obsArc_mono` [pcq]

### C101 — The chance of seeing activity is the fraction of time windows with observations

*Status:* partial. *Model and proof:* np.histogram modelled; number of filled bins.

*Theorems:* `Verif.Mo.activity_lt_one` [pcq], `Verif.Mo.activity_partial` [pcq], `Verif.Mo.activity_false` [pcq]

*Note:* False of the code (activity_false); activity_partial gives the value.

### C102 — Activity over the period uses the mean anomaly

*Status:* partial. *Model and proof:* Modulo over an ordered field; number of filled bins.

*Theorems:* `Verif.Mo.anomaly_differ` [pcq], `Verif.Mo.peri_bins` [pcq], `Verif.Mo.period_partial` [pcq]

*Note:* False of the code if the time of perihelion is used (anomaly_differ, peri_bins).

### C103 — MagicDiscovery counts windows with enough observations

*Status:* partial. *Model and proof:* searchsorted on shifted nights as a count.

*Theorems:* `Verif.Mo.magic_partial` [pcq], `Verif.Mo.magic_false` [pcq]

*Note:* For rows in order of nights; the value depends on the order (magic_false).

### C104 — Trailed observations are found

*Status:* partial. *Model and proof:* First night by searchsorted on counts per night.

*Theorems:* `Verif.Mo.highVelocityNights_partial` [pcq], `Verif.Mo.highVelocityNights_false` [pcq], `Verif.Mo.highVelocity_le` [pcq], `Verif.Mo.fast_iff` [pcq]

*Note:* The time returned need not be that of a detection (highVelocityNights_false).

### C105 — Colour flags of asteroids grow with the bands

*Status:* proved. *Model and proof:* Case analysis on six bands; sums of weights of at most one.

*Theorems:* `Verif.Mo.colorFlag_spec` [pcq], `Verif.Mo.colorFlag_mono` [p], `Verif.Mo.snrWeight_le` [pcq], `Verif.Mo.colorAsteroid_mono` [pcq], `Verif.Mo.colorAsteroid_needs` [pcq]

### C106 — Light-curve flags grow with the observations

*Status:* proved. *Model and proof:* Count over bands; monotony by comparing the two lists of bands.

*Theorems:* `Verif.Mo.lightcurveColor_mono` [pcq], `Verif.Mo.lightcurveColor_limit` [pcq], `Verif.Mo.lightcurveColor_spec` [pcq]

### C107 — Instantaneous colours need close pairs

*Status:* partial. *Model and proof:* searchsorted with index -1 wrapping to the last entry.

*Theorems:* `Verif.Mo.instantaneous_partial` [pcq], `Verif.Mo.instantaneous_sound_partial` [pcq], `Verif.Mo.instantaneous_false` [pcq]

*Note:* False of the code (instantaneous_false); instantaneous_partial says what is counted.

### C108 — Light-curve inversion needs a wide range of longitude

*Status:* partial. *Model and proof:* Median and range as order statistics; longitudes modulo 360.

*Theorems:* `Verif.Mo.inversion_partial` [pcq], `Verif.Mo.inversion_false` [pcq]

*Note:* False around longitude zero (inversion_false).

### C109 — KnownObjects gives the first discovery

*Status:* proved. *Model and proof:* Loop over the periods with first hit; order of the periods.

*Theorems:* `Verif.Mo.knownLoop_spec` [pq], `Verif.Mo.knownObjects_spec` [pq], `Verif.Mo.inPeriod_iff` [pq]

*Note:* Random numbers are arbitrary.

### C110 — Tracklets are found in every night that has one

*Status:* partial. *Model and proof:* np.roll modelled; runs of neighbours; embedding of sublists.

*Theorems:* `Verif.Mo.tracklet_partial` [pcq], `Verif.Mo.tracklet_complete_partial` [pcq], `Verif.Mo.tracklet_false` [pcq], `Verif.Mo.single_never` [pcq], `Verif.Mo.tracklets_eq` [pcq]

*Note:* Some tracklets are missed (tracklet_false).

### C111 — Discovery chances are counted by nights

*Status:* proved. *Model and proof:* Strictly increasing nights; entries that wrap are negative.

*Theorems:* `Verif.Mo.run_none` [pcq], `Verif.Mo.run_some` [pcq]

*Note:* For rows in order of time, t_min positive.

### C112 — The order of the rows does not matter for discovery

*Status:* partial. *Model and proof:* Permutation as a list of positions.

*Theorems:* `Verif.Mo.foundRow_partial` [pcq], `Verif.Mo.order_false` [pcq], `Verif.Mo.row_false` [pcq]

*Note:* Only for rows in order of time (order_false, row_false).

### C113 — N_Obs is the number of observations of the first track

*Status:* partial. *Model and proof:* Positions as counts of earlier rows.

*Theorems:* `Verif.Mo.foundNObs_partial` [pcq], `Verif.Mo.foundNObs_false` [pcq]

*Note:* One too small (foundNObs_partial, foundNObs_false).

### C114 — MaxGap is the longest time without visits

*Status:* proved. *Model and proof:* Neighbours of the sorted list.

*Theorems:* `Verif.Gaps.maxGap_spec` [pcq], `Verif.Gaps.maxGap_none` [pcq]

### C115 — Integration over H is a weighted mean

*Status:* proved. *Model and proof:* Cumulative sums as finite sums.

*Theorems:* `Verif.MoSum.integrate_value` [pcq], `Verif.MoSum.integrate_length` [pq], `Verif.MoSum.integrate_scale` [pcq], `Verif.MoSum.integrate_bounds` [pcq], `Verif.MoSum.integrate_antitone` [pcq]

### C116 — The power-law index is used for the completeness

*Status:* partial. *Model and proof:* Real powers; keyword with another capitalisation.

*Theorems:* `Verif.MoSum.hindex_partial` [pcq], `Verif.MoSum.hindex_false` [pcq], `Verif.MoSum.hindex_ignored` [pcq], `Verif.MoSum.powerLaw_pos` [pcq], `Verif.MoSum.powerLaw_ratio` [pcq], `Verif.MoSum.anchor_free` [pcq]

*Note:* False of the code (hindex_false, hindex_ignored).

### C117 — Completeness is the fraction of objects at the threshold

*Status:* partial. *Model and proof:* Masked values as none.

*Theorems:* `Verif.MoSum.complete_partial` [pq], `Verif.MoSum.complete_range` [pcq], `Verif.MoSum.complete_mono` [pcq], `Verif.MoSum.complete_masked` [pcq], `Verif.MoSum.complete_false` [pcq]

*Note:* Only for positive thresholds (complete_false).

### C118 — Completeness for objects with their own H

*Status:* partial. *Model and proof:* Histogram of the wrong array, for all values.

*Theorems:* `Verif.MoSum.binned_outside` [pcq], `Verif.MoSum.binned_value` [pq], `Verif.MoSum.binned_partial` [pcq], `Verif.MoSum.spread_false` [pcq], `Verif.MoSum.hBins_spec` [pcq], `Verif.MoSum.hBins_false` [pcq]

*Note:* False of the code (spread_false, hBins_false).

### C119 — Completeness with time

*Status:* partial. *Model and proof:* Cumulative histogram as a count.

*Theorems:* `Verif.MoSum.completeAt_value` [pcq], `Verif.MoSum.completeAt_mono` [pcq], `Verif.MoSum.atTime_mono` [pcq], `Verif.MoSum.last_partial` [pcq], `Verif.MoSum.early_false` [pcq]

*Note:* Early discoveries are not counted (early_false).

### C120 — A summary metric gives the same each time it is run

*Status:* partial. *Model and proof:* The new hval is part of the result.

*Theorems:* `Verif.MoSum.hIndex_spec` [pcq], `Verif.MoSum.hIndex_default` [pq], `Verif.MoSum.stale_partial` [pcq], `Verif.MoSum.stale_false` [pcq], `Verif.MoSum.init_default` [none]

*Note:* False of the code (stale_false, init_default).

### C121 — Values at a given H are interpolated

*Status:* proved. *Model and proof:* np.interp by recursion over the points.

*Theorems:* `Verif.MoSum.valueAtH_spec` [pq], `Verif.MoSum.valueAtH_node` [pcq], `Verif.MoSum.interp_node` [pq], `Verif.MoSum.interp_between` [pcq], `Verif.MoSum.interp_ends` [pcq], `Verif.MoSum.interp_mono` [pcq], `Verif.MoSum.meanValueAtH_single` [pcq], `Verif.MoSum.meanValueAtH_node` [pcq], `Verif.MoSum.totalNumber_node` [pcq], `Verif.MoSum.totalNumber_mono` [pcq]

### C122 — Resampling conserves flux

*Status:* proved. *Model and proof:* Running indices as a state machine, refined to a sum of overlaps.

*Theorems:* `Verif.Spectres.spectres_spec` [pcq], `Verif.Spectres.spectres_bounds` [pcq], `Verif.Spectres.spectres_const` [pcq], `Verif.Spectres.spectres_self` [pcq], `Verif.Spectres.spectres_smul` [pcq], `Verif.Spectres.spectres_add` [pcq], `Verif.Spectres.spectres_conserves` [pcq]

### C123 — A spectrum that spans the new grid has values everywhere

*Status:* partial. *Model and proof:* Condition on the edges of the cells instead of the centres.

*Theorems:* `Verif.Spectres.spectres_inside_partial` [pcq], `Verif.Spectres.spectres_inside_false` [pcq], `Verif.Spectres.spectres_decreasing_false` [pcq]

*Note:* False of the code (spectres_inside_false, spectres_decreasing_false).

### C124 — Flux through a bandpass is a weighted mean

*Status:* proved. *Model and proof:* Trapezoid rule by recursion.

*Theorems:* `Verif.Sed.phi_integral` [pcq], `Verif.Sed.phi_shape` [pq], `Verif.Sed.phi_nonneg` [pcq], `Verif.Sed.calcFlux_bounds` [pcq], `Verif.Sed.calcFlux_const` [pcq], `Verif.Sed.calcFlux_scale` [pcq], `Verif.Sed.calcFlux_throughput` [pcq], `Verif.Sed.resample_grid` [pcq]

### C125 — many_flux_calc agrees with calc_flux

*Status:* partial. *Model and proof:* Sum against trapezoid rule on a uniform grid.

*Theorems:* `Verif.Sed.manyFlux_eq` [pcq], `Verif.Sed.manyFlux_partial` [pcq], `Verif.Sed.manyFlux_false` [pcq]

*Note:* False of the code (manyFlux_false); manyFlux_eq gives the difference.

### C126 — Counts are fixed by the flux

*Status:* partial. *Model and proof:* Same comparison of sums.

*Theorems:* `Verif.Sed.counts_partial` [pcq], `Verif.Sed.counts_false` [pcq], `Verif.Sed.calcAdu_scale` [pcq]

*Note:* False of the code (counts_false).

### C127 — calc_ergs is the integral over the bandpass

*Status:* partial. *Model and proof:* Sum of pairs against trapezoid rule.

*Theorems:* `Verif.Sed.calcErgs_partial` [pcq], `Verif.Sed.calcErgs_false` [pcq]

*Note:* For uniform grids only (calcErgs_false).

### C128 — The two kinds of flux of a Sed never disagree

*Status:* proved. *Model and proof:* State machine and invariant.

*Theorems:* `Verif.Sed.inSync` [pcq], `Verif.Sed.calc_uses_present` [pcq], `Verif.Sed.toFlambda_toFnu` [pcq]

*Note:* For positive wavelengths.

### C129 — Redshift stretches wavelengths by 1 + z

*Status:* partial. *Model and proof:* Direct calculation.

*Theorems:* `Verif.Sed.redshift_partial` [pq], `Verif.Sed.redshift_back` [pcq], `Verif.Sed.redshift_energy` [pcq], `Verif.Sed.redshift_false` [pcq]

*Note:* False for negative redshifts (redshift_false).

### C130 — Magnitudes and fluxes are inverse to each other

*Status:* proved. *Model and proof:* Logarithms over the reals and linearity of calc_flux.

*Theorems:* `Verif.Snr.mag_flux` [pcq], `Verif.Snr.mag_hundred` [pcq], `Verif.Snr.mag_lt` [pcq], `Verif.Snr.calcMag_some` [pcq], `Verif.Snr.scaledTo_mag` [pcq], `Verif.Snr.flat_mag` [pcq], `Verif.Snr.usable_default` [pcq]

### C131 — The magnitude of a spectrum does not depend on how the Sed was set up

*Status:* partial. *Model and proof:* Bounds of the logarithm by powers of ten.

*Theorems:* `Verif.Snr.flat_mag` [pcq], `Verif.Snr.cleared_differs` [pcq], `Verif.Snr.cleared_false` [pcq]

*Note:* False after clear_sed (cleared_false).

### C132 — Signal to noise scales with exposures and not with units

*Status:* proved. *Model and proof:* Counts are linear in each parameter.

*Theorems:* `Verif.Snr.snr_exposures` [pcq], `Verif.Snr.snr_gain` [pcq], `Verif.Snr.noise_platescale` [pcq], `Verif.Snr.fwhm_inverse` [pcq]

### C133 — calc_m5 is the magnitude of a five sigma detection

*Status:* partial. *Model and proof:* Quadratic equation for the counts.

*Theorems:* `Verif.Snr.m5_partial` [pcq], `Verif.Snr.m5_false` [pcq], `Verif.Snr.m5_gain_false` [pcq], `Verif.Snr.calcM5_exists` [pcq], `Verif.Snr.camera_setting` [pcq]

*Note:* For gain 1 only (m5_false, m5_gain_false).

### C134 — scale_sky_m5 gives a sky with the limiting magnitude

*Status:* partial. *Model and proof:* Inverse of the noise formula.

*Theorems:* `Verif.Snr.scaleSky_snr` [pcq], `Verif.Snr.scaleSky_partial` [pcq], `Verif.Snr.scaleSky_false` [pcq], `Verif.Snr.skyCounts_negative` [pcq]

*Note:* calc_m5 gives m5 for gain 1 only (scaleSky_false); the sky can be negative (skyCounts_negative).

### C135 — Signal to noise from m5

*Status:* proved. *Model and proof:* Flux ratio as a power of ten.

*Theorems:* `Verif.Snr.gamma_range` [pcq], `Verif.Snr.snrM5_limit` [pcq], `Verif.Snr.snrM5_decreasing` [pcq], `Verif.Snr.snrM5_negative` [pcq], `Verif.Snr.snr_agree` [pcq]

### C136 — Magnitude errors

*Status:* proved. *Model and proof:* Root of a sum of squares.

*Theorems:* `Verif.Snr.magErrorFromSnr_spec` [pcq], `Verif.Snr.magErrorFromSnr_shift` [pcq], `Verif.Snr.magError_spec` [pcq], `Verif.Snr.magError_floor` [pcq]

### C137 — Astrometric error

*Status:* proved. *Model and proof:* Monotone steps.

*Theorems:* `Verif.Snr.astrometric_limit` [pcq], `Verif.Snr.astrometric_spec` [pcq]

### C138 — The zeropoint is the magnitude of one count per second

*Status:* partial. *Model and proof:* Linearity of counts.

*Theorems:* `Verif.Snr.zp_counts` [pcq], `Verif.Snr.zp_partial` [pcq], `Verif.Snr.zp_false` [pcq], `Verif.Snr.zp_exptime` [pcq]

*Note:* For visits of one second only (zp_false).

### C139 — Predicted zeropoints

*Status:* proved. *Model and proof:* Sign of the table of coefficients.

*Theorems:* `Verif.Snr.predictedZp_spec` [pcq], `Verif.Snr.extinctionCoeff_neg` [pcq]

### C140 — Dust dims every wavelength of the extinction law

*Status:* partial. *Model and proof:* Positivity of polynomials by Bernstein certificates.

*Theorems:* `Verif.Dust.dims_partial` [pcq], `Verif.Dust.dims_false` [pcq], `Verif.Dust.brightens_false` [pcq], `Verif.Dust.extinction_pos` [pcq], `Verif.Dust.extinction_outside` [pcq], `Verif.Dust.v_band` [pcq]

*Note:* There is a hole at a single wavelength (dims_false) and r_v is not checked (brightens_false).

### C141 — Dust acts by magnitudes

*Status:* proved. *Model and proof:* Exponential of a sum.

*Theorems:* `Verif.Dust.factor_mag` [pcq], `Verif.Dust.factor_lt_one` [pcq], `Verif.Dust.addDust_add` [pcq], `Verif.Dust.addDust_zero` [pcq]

### C142 — add_dust rejects contradictory parameters

*Status:* partial. *Model and proof:* Case distinction.

*Theorems:* `Verif.Dust.choose_agree` [pcq], `Verif.Dust.choose_partial` [pcq], `Verif.Dust.choose_false` [pcq], `Verif.Dust.choose_none` [pcq]

*Note:* False for r_v of 3.1 (choose_false).

### C143 — Extinction of DustValues

*Status:* partial. *Model and proof:* Bounds of calc_flux.

*Theorems:* `Verif.Dust.ax1_bounds` [pcq], `Verif.Dust.ax1_exists` [pcq], `Verif.Dust.ax1_pos` [pcq], `Verif.Dust.flatFrom_covers` [pcq], `Verif.Dust.ax1_false` [pcq], `Verif.Dust.narrow_sampled` [pcq]

*Note:* Only for ref_ebv of 1 (ax1_false).

### C144 — read_throughput reads what is in the file

*Status:* proved. *Model and proof:* Sorting.

*Theorems:* `Verif.Bandpass.read_spec` [pcq], `Verif.Bandpass.read_none` [pq], `Verif.Bandpass.read_perm` [pcq]

### C145 — Resampled bandpasses follow the old ones

*Status:* proved. *Model and proof:* Induction over the nodes.

*Theorems:* `Verif.Bandpass.resample_spec` [pcq], `Verif.Bandpass.interp0_node` [pcq], `Verif.Bandpass.interp0_outside` [pcq], `Verif.Bandpass.interp0_bounds` [pcq], `Verif.Bandpass.resample_range` [pcq], `Verif.Bandpass.resample_self` [pcq], `Verif.Bandpass.halfGrid_spec` [pcq], `Verif.Bandpass.halfGrid_whole` [pcq]

### C146 — read_throughput_list multiplies the components

*Status:* proved. *Model and proof:* Fold over components.

*Theorems:* `Verif.Bandpass.list_spec` [pcq], `Verif.Bandpass.list_perm` [pcq], `Verif.Bandpass.list_range` [pcq]

### C147 — multiply_throughputs multiplies at equal wavelengths

*Status:* partial. *Model and proof:* The grid is built from the first step.

*Theorems:* `Verif.Bandpass.multiply_partial` [pcq], `Verif.Bandpass.multiply_false` [pcq]

*Note:* For uniform grids only (multiply_false).

### C148 — imsim_bandpass has a single wavelength

*Status:* partial. *Model and proof:* Distances of grid points.

*Theorems:* `Verif.Bandpass.imsim_unique` [pcq], `Verif.Bandpass.imsim_partial` [pq], `Verif.Bandpass.imsim_false` [pcq]

*Note:* There can be none (imsim_false).

### C149 — Effective wavelengths lie in the bandpass

*Status:* proved. *Model and proof:* Cauchy-Schwarz for sums.

*Theorems:* `Verif.Bandpass.eff_eq` [pcq], `Verif.Bandpass.eff_spec` [pcq]

### C150 — read_sed_flambda gives the contents of the file

*Status:* partial. *Model and proof:* Invariant of the caches.

*Theorems:* `Verif.SedFiles.reads_partial` [p], `Verif.SedFiles.read_contents` [p], `Verif.SedFiles.reads_false` [pq]

*Note:* Only while files do not change (reads_false).

### C151 — renormalize_sed gives the value asked for

*Status:* partial. *Model and proof:* Interpolation is linear in the values.

*Theorems:* `Verif.SedFiles.renorm_partial` [pcq], `Verif.SedFiles.renorm_gap_partial` [pcq], `Verif.SedFiles.renorm_false` [pcq], `Verif.SedFiles.renormFnu_false` [pcq], `Verif.SedFiles.multiply_partial` [pq]

*Note:* Always raises with default arguments (renorm_false) and for fnu (renormFnu_false).

### C152 — Written spectra can be read again

*Status:* partial. *Model and proof:* Rounding.

*Theorems:* `Verif.SedFiles.written_near` [pcq], `Verif.SedFiles.write_partial` [pcq], `Verif.SedFiles.write_false` [pcq], `Verif.SedFiles.writeFnu_false` [pq]

*Note:* Only for steps of at least 0.01 nm (write_false), and never with fnu (writeFnu_false).

### C153 — Defaults of PhotometricParameters

*Status:* partial. *Model and proof:* Case distinction.

*Theorems:* `Verif.SedFiles.construct_spec` [pq], `Verif.SedFiles.default_band` [pq], `Verif.SedFiles.default_sigma` [pq], `Verif.SedFiles.construct_other` [pcq], `Verif.SedFiles.unknown_false` [pcq]

*Note:* The comment about unknown bandpasses is wrong (unknown_false).

### C154 — Apparent magnitudes shift with H

*Status:* proved. *Model and proof:* Rules for powers and logarithms.

*Theorems:* `Verif.MoStack.appMag_spec` [pcq], `Verif.MoStack.combine_flux` [pcq], `Verif.MoStack.combine_spec` [pcq], `Verif.MoStack.combine_shift` [pcq], `Verif.MoStack.coma_shift` [pcq], `Verif.MoStack.comet_shift` [pcq], `Verif.MoStack.comet_brighter` [pcq]

### C155 — The coma has the magnitude of its Afrho

*Status:* partial. *Model and proof:* The factor of the unit.

*Theorems:* `Verif.MoStack.coma_shift` [pcq], `Verif.MoStack.coma_false` [pcq]

*Note:* False of the code (coma_false).

### C156 — Comet types

*Status:* partial. *Model and proof:* Case distinction.

*Theorems:* `Verif.MoStack.cometParams_partial` [pcq], `Verif.MoStack.cometParams_false` [pcq]

*Note:* The documented key is not the one read (cometParams_false).

### C157 — Signal to noise of moving objects

*Status:* partial. *Model and proof:* Powers of ten.

*Theorems:* `Verif.MoStack.snr_limit` [pcq], `Verif.MoStack.snr_decreasing` [pcq], `Verif.MoStack.snr_partial` [pcq], `Verif.MoStack.snr_false` [pcq]

*Note:* False of the code (snr_false).

### C158 — Visibility of moving objects

*Status:* proved. *Model and proof:* Induction over calls.

*Theorems:* `Verif.MoStack.completeness_spec` [pcq], `Verif.MoStack.vis_spec` [pcq], `Verif.MoStack.run_append` [pcq], `Verif.MoStack.runs_flatten` [pcq], `Verif.MoStack.runs_false` [pcq]

### C159 — Ecliptic coordinates of observations

*Status:* proved. *Model and proof:* Polar form of the rotated vector.

*Theorems:* `Verif.MoStack.ecliptic_spec` [pcq], `Verif.MoStack.ecliptic_deg` [pcq], `Verif.MoStack.ecliptic_points` [pcq]

### C160 — Phase functions

*Status:* proved. *Model and proof:* Monotonicity of exp and tan.

*Theorems:* `Verif.MoStack.logLinear_mag` [pcq], `Verif.MoStack.phaseHg_spec` [pcq]

### C161 — Effective exposure times add up

*Status:* proved. *Model and proof:* Powers of ten.

*Theorems:* `Verif.Stack2.teff_spec` [pcq], `Verif.Stack2.teff_mono` [pcq], `Verif.Stack2.teff_coadd` [pcq]

### C162 — Coadded depths

*Status:* proved. *Model and proof:* Powers of ten.

*Theorems:* `Verif.Stack2.m5Coadd_spec` [pcq], `Verif.Stack2.m5Coadd_append` [pcq], `Verif.Stack2.m5Coadd_perm` [pcq], `Verif.Stack2.m5Coadd_replicate` [pcq], `Verif.Stack2.m5Coadd_deeper` [pcq]

### C163 — CoaddStacker has one row per field, band and night

*Status:* partial. *Model and proof:* Sums over groups.

*Theorems:* `Verif.Stack2.coadd_partial` [pcq], `Verif.Stack2.rows_partial` [pcq], `Verif.Stack2.rows_unique_partial` [pcq], `Verif.Stack2.coadd_false` [pcq]

*Note:* Only for separated positions (coadd_false).

### C164 — Altitude and azimuth

*Status:* proved. *Model and proof:* Spherical trigonometry.

*Theorems:* `Verif.Stack2.altAz_spec` [pcq], `Verif.Stack2.sin_alt` [pcq], `Verif.Stack2.wrapRa_spec` [pcq]

*Note:* For latitudes other than the poles and directions other than the zenith.

### C165 — Units of galactic coordinates

*Status:* partial. *Model and proof:* Case distinction.

*Theorems:* `Verif.Stack2.galactic_partial` [pcq], `Verif.Stack2.galactic_false` [pcq]

*Note:* For radians only (galactic_false).

### C166 — Normalised airmass is at least 1

*Status:* proved. *Model and proof:* Addition formula.

*Theorems:* `Verif.Stack2.normAirmass_spec` [pcq], `Verif.Stack2.normAirmass_deg` [pcq]

### C167 — Optimal depth

*Status:* partial. *Model and proof:* Signs of the terms.

*Theorems:* `Verif.Stack2.m5Optimal_spec` [pcq], `Verif.Stack2.m5Optimal_moon` [pcq], `Verif.Stack2.twilight_false` [pcq]

*Note:* Twilight is not recognised (twilight_false).

### C168 — Columns of M5OptimalStacker

*Status:* partial. *Model and proof:* Lists.

*Theorems:* `Verif.Stack2.m5Cols_false` [p]

*Note:* False of the code (m5Cols_false).

### C169 — Largest distance of NEOs

*Status:* partial. *Model and proof:* Minimum of a filtered list.

*Theorems:* `Verif.Stack2.maxGeoDist_partial` [pcq], `Verif.Stack2.maxGeoDist_false` [pcq]

*Note:* False if the object is seen at all distances (maxGeoDist_false).

### C170 — Positions of NEOs

*Status:* proved. *Model and proof:* Law of cosines.

*Theorems:* `Verif.Stack2.helioXY_spec` [pcq], `Verif.Stack2.cosAlpha_spec` [pcq], `Verif.Stack2.flip_spec` [pcq], `Verif.Stack2.halfval_false` [pcq]

### C171 — Area labels

*Status:* proved. *Model and proof:* Case distinction.

*Theorems:* `Verif.Stack2.label_spec` [pcq], `Verif.Stack2.label_full` [pcq], `Verif.Stack2.label_empty` [pcq]

### C172 — Labels of deep drilling fields

*Status:* partial. *Model and proof:* Induction over the name.

*Theorems:* `Verif.Stack2.dd_partial` [pq], `Verif.Stack2.dd_false` [pcq]

*Note:* For short names that do not end in u (dd_false).

### C173 — Refraction offsets and moments

*Status:* proved. *Model and proof:* Trigonometry.

*Theorems:* `Verif.Stack2.dcr_spec` [pcq], `Verif.Stack2.dcr2_spec` [pcq], `Verif.Stack2.dcr2_dcr` [pcq]

### C174 — Dcr2Stacker uses the stackers given

*Status:* partial. *Model and proof:* Case distinction.

*Theorems:* `Verif.Stack2.dcr2Init_partial` [p], `Verif.Stack2.dcr2Init_false` [p]

*Note:* False of the code (dcr2Init_false).

### C175 — What set_orbits stores

*Status:* partial. *Model and proof:* Case distinction over the columns.

*Theorems:* `Verif.Orbits.set_ok_iff` [pcq], `Verif.Orbits.set_stored` [pcq], `Verif.Orbits.set_loaded` [pcq], `Verif.Orbits.set_epoch_partial` [pcq], `Verif.Orbits.set_epoch_false` [pcq]

*Note:* Only the first epoch is checked (set_epoch_false).

### C176 — set_orbits changes nothing else

*Status:* partial. *Model and proof:* State after each exit.

*Theorems:* `Verif.Orbits.set_err_orbits_partial` [pcq], `Verif.Orbits.set_err_fmt` [pq], `Verif.Orbits.set_frame` [pcq], `Verif.Orbits.set_twice_partial` [pcq], `Verif.Orbits.set_err_false` [pcq], `Verif.Orbits.set_frame_false` [pcq], `Verif.Orbits.set_twice_false` [pcq], `Verif.Orbits.set_again_false` [pcq]

*Note:* False of the code (set_err_false, set_frame_false, set_twice_false, set_again_false).

### C177 — Comparison of orbits

*Status:* partial. *Model and proof:* First turn of the loop.

*Theorems:* `Verif.Orbits.eq_spec` [pcq], `Verif.Orbits.eq_refl_partial` [pcq], `Verif.Orbits.eq_new` [p], `Verif.Orbits.eq_many` [pcq], `Verif.Orbits.eq_false` [pcq]

*Note:* Only formats and ids are compared (eq_false).

### C178 — Items of Orbits

*Status:* partial. *Model and proof:* From C175.

*Theorems:* `Verif.Orbits.getItem_partial` [pcq], `Verif.Orbits.iter_items` [pq], `Verif.Orbits.rows_all` [pcq], `Verif.Orbits.getItem_false` [pcq]

*Note:* For frames that show their format only (getItem_false).

### C179 — Spectra of orbits

*Status:* partial. *Model and proof:* Inequalities.

*Theorems:* `Verif.Orbits.sed_chance` [pcq], `Verif.Orbits.sed_names` [pcq], `Verif.Orbits.sed_mono` [pcq], `Verif.Orbits.assign_a` [pq], `Verif.Orbits.assign_q` [pq], `Verif.Orbits.sedQ_spec` [pcq], `Verif.Orbits.seed_new` [pq], `Verif.Orbits.seed_ignored` [pq], `Verif.Orbits.seed_false` [pcq]

*Note:* The seed is ignored after the first draw (seed_false).

### C180 — Header of orbit files

*Status:* partial. *Model and proof:* Induction over the lines.

*Theorems:* `Verif.Orbits.header_none` [p], `Verif.Orbits.header_spec` [pq], `Verif.Orbits.header_empty` [pq], `Verif.Orbits.delim_nothing` [pq], `Verif.Orbits.delim_false` [p]

*Note:* For blanks as delimiters only (delim_false).

### C181 — Names of columns in orbit files

*Status:* partial. *Model and proof:* Induction over the groups of names.

*Theorems:* `Verif.Orbits.rename_spec` [pcq], `Verif.Orbits.rename_inUse` [p], `Verif.Orbits.rename_S3MID` [p], `Verif.Orbits.rename_false` [p]

*Note:* Two names are not recognised (rename_false).

### C182 — Negative inclinations

*Status:* partial. *Model and proof:* Case distinction.

*Theorems:* `Verif.Orbits.readEnd_ids` [pq], `Verif.Orbits.readEnd_no_ids_partial` [pq], `Verif.Orbits.readEnd_false` [pcq]

*Note:* False of the code (readEnd_false).

### C183 — update_orbits

*Status:* partial. *Model and proof:* From C175.

*Theorems:* `Verif.Orbits.update_spec_partial` [pcq], `Verif.Orbits.update_false` [pcq]

*Note:* H and g are not kept (update_false).

### C184 — Times of rough positions

*Status:* proved. *Model and proof:* Floor, ceiling and sorted search.

*Theorems:* `Verif.Direct.rough_spec` [pcq]

### C185 — Rows of DirectObs

*Status:* proved. *Model and proof:* Induction over the objects; indices of indices.

*Theorems:* `Verif.Direct.objectRows_spec` [pcq], `Verif.Direct.collect_spec` [pcq], `Verif.Direct.run_spec` [pcq], `Verif.Direct.found_nodup` [pq]

### C186 — DirectObs finds all observations

*Status:* partial. *Model and proof:* Triangle inequality.

*Theorems:* `Verif.Direct.found_complete` [pcq], `Verif.Direct.run_complete_partial` [pcq], `Verif.Direct.run_complete_false` [pcq]

*Note:* Only for tolerances larger than the field (run_complete_false).

### C187 — Positions computed before

*Status:* proved. *Model and proof:* Sorted search.

*Theorems:* `Verif.Direct.nearest_spec` [pcq], `Verif.Direct.covers_spec` [pq], `Verif.Direct.objectTol_spec` [pcq]

### C188 — Footprints

*Status:* partial. *Model and proof:* Real inequalities.

*Theorems:* `Verif.Direct.circle_unit` [pcq], `Verif.Direct.rect_spec_partial` [pcq], `Verif.Direct.rect_unit_false` [pcq], `Verif.Direct.rect_false` [pcq], `Verif.Direct.fov_spec` [pcq], `Verif.Direct.info_partial` [p], `Verif.Direct.info_false` [p]

*Note:* False of the rectangle (rect_unit_false, rect_false) and of the info (info_false). The camera footprint is not modelled.

### C189 — Trailing losses

*Status:* partial. *Model and proof:* Monotone functions.

*Theorems:* `Verif.Direct.trail_nonneg` [pcq], `Verif.Direct.trail_mono` [pcq], `Verif.Direct.trail_order` [pcq], `Verif.Direct.trail_order_false` [pcq]

*Note:* The order of the losses is false for short trails (trail_order_false).

### C190 — Ephemerides

*Status:* partial. *Model and proof:* Swapped axes.

*Theorems:* `Verif.Direct.eph_axes` [pcq], `Verif.Direct.eph_rates` [none], `Verif.Direct.generate_none_iff` [pcq], `Verif.Direct.generate_case` [pcq], `Verif.Direct.generate_err_partial` [pcq], `Verif.Direct.generate_err_false` [pcq]

*Note:* Errors are ignored for basic ephemerides (generate_err_false).

### C191 — Full ephemerides in DirectObs

*Status:* partial. *Model and proof:* Lists of names.

*Theorems:* `Verif.Direct.copies_basic` [pcq], `Verif.Direct.copies_full` [pcq]

*Note:* False for type full (copies_full).

### C192 — Orbits for OpenOrb

*Status:* proved. *Model and proof:* Case distinction.

*Theorems:* `Verif.Direct.unpack_pack` [pcq], `Verif.Direct.pack_some_iff` [pcq], `Verif.Direct.pack_false` [pcq]

### C193 — Colours of observations

*Status:* proved. *Model and proof:* Invariant of the loops.

*Theorems:* `Verif.Direct.colorLoop_spec` [pq], `Verif.Direct.colors_spec` [pcq]

### C194 — Slices of spatial slicers

*Status:* proved. *Model and proof:* Chord and angle.

*Theorems:* `Verif.Spatial.near_iff` [pcq], `Verif.Spatial.slice_spec` [pcq], `Verif.Spatial.slice_unit` [pcq], `Verif.Spatial.slice_turn` [pcq]

*Note:* The camera footprint is an arbitrary test of a visit.

### C195 — Slice points

*Status:* partial. *Model and proof:* Induction over the keys.

*Theorems:* `Verif.Spatial.slicePoint_partial` [pcq], `Verif.Spatial.slicePoint_false` [pcq]

*Note:* False for common arrays whose length is the number of slices (slicePoint_false).

### C196 — Subsets of pixels

*Status:* proved. *Model and proof:* Iteration invariant.

*Theorems:* `Verif.Spatial.iter_spec` [pq], `Verif.Spatial.mask_spec` [pq], `Verif.Spatial.subset_slice` [pcq], `Verif.Spatial.subset_point` [pcq], `Verif.Spatial.subset_values` [pcq], `Verif.Spatial.circle_spec` [pcq], `Verif.Spatial.wfd_spec` [pcq]

*Note:* For metrics with one number per slice; for several see C197.

### C197 — Masks of subsets with several numbers per slice

*Status:* partial. *Model and proof:* Arithmetic of indices.

*Theorems:* `Verif.Spatial.initialMask_spec` [p], `Verif.Spatial.initialMask_partial` [pq], `Verif.Spatial.initialMask_false` [pq]

*Note:* False for several numbers per slice (initialMask_false).

### C198 — Points of the user

*Status:* proved. *Model and proof:* Case distinction.

*Theorems:* `Verif.Spatial.userPoints_spec` [pcq], `Verif.Spatial.userPoints_one` [pcq]

### C199 — Comparison of spatial slicers

*Status:* partial. *Model and proof:* Case distinction.

*Theorems:* `Verif.Spatial.eq_slices_partial` [pcq], `Verif.Spatial.eq_slices_false` [pcq], `Verif.Spatial.eq_refl` [pcq], `Verif.Spatial.eq_symm_partial` [p], `Verif.Spatial.eq_subset_full` [p], `Verif.Spatial.eq_symm_false` [pcq]

*Note:* False in general (eq_slices_false, eq_symm_false).

### C200 — Metric files

*Status:* partial. *Model and proof:* Round trip over all classes.

*Theorems:* `Verif.Files.read_values` [pcq], `Verif.Files.read_params` [pcq], `Verif.Files.read_kept` [pcq], `Verif.Files.read_params_false` [pcq], `Verif.Files.read_fill_partial` [pcq], `Verif.Files.read_fill_false` [pcq], `Verif.Files.read_mo` [pcq], `Verif.Files.read_movie` [pcq]

*Note:* Values and slice points come back; parameters outside slicer_init and the fill value need not (read_params_false, read_fill_false, read_mo).

### C201 — JSON of metric values

*Status:* partial. *Model and proof:* Rows against indices.

*Theorems:* `Verif.Files.json_type` [none], `Verif.Files.json_int_false` [pq], `Verif.Files.json_sky` [pq], `Verif.Files.json_bins` [pcq], `Verif.Files.json_plain` [pq], `Verif.Files.json_plain_bins` [pq], `Verif.Files.json_bundle_false` [pq]

*Note:* Rows are proved for floating point values; integers, plain arrays of bins and bundles fail.

### C202 — Moving object slicer

*Status:* partial. *Model and proof:* Iteration invariant.

*Theorems:* `Verif.MoB.iter_spec` [pq], `Verif.MoB.iter_count` [pq], `Verif.MoB.nslice_spec` [pq], `Verif.MoB.eq_slices_partial` [p], `Verif.MoB.eq_slices_false` [pq]

*Note:* Slices and counts are proved; equality is too coarse (eq_slices_false).

### C203 — Compatible moving object bundles

*Status:* proved. *Model and proof:* Invariant of the loop.

*Theorems:* `Verif.MoB.find_spec` [pcq], `Verif.MoB.compatible_iff` [pcq]

### C204 — Values of moving object bundles

*Status:* proved. *Model and proof:* Cell by cell invariant.

*Theorems:* `Verif.MoB.run_spec` [pcq]

### C205 — Independence of moving object bundles

*Status:* partial. *Model and proof:* Refinement to a single bundle.

*Theorems:* `Verif.MoB.alone_partial` [pcq], `Verif.MoB.alone_false` [pcq], `Verif.MoB.h_alone` [pq]

*Note:* False for bundles with different stackers (alone_false).

### C206 — Labels and children of moving object bundles

*Status:* partial. *Model and proof:* Strings.

*Theorems:* `Verif.MoB.label_false` [p], `Verif.MoB.label_partial` [pcq], `Verif.MoB.summary_spec` [pq]

*Note:* The label ignores the observations (label_false).

### C207 — Equality of stackers

*Status:* partial. *Model and proof:* Lists of attributes.

*Theorems:* `Verif.StackEq.eq_refl` [pcq], `Verif.StackEq.ne_iff` [pcq], `Verif.StackEq.eq_new_partial` [pcq], `Verif.StackEq.eq_used_false` [pcq], `Verif.StackEq.eq_methods_false` [pcq]

*Note:* False of stackers that were run and of those with public methods.

### C208 — Start of the survey of transients

*Status:* proved. *Model and proof:* Stated as it is.

*Theorems:* `Verif.Transient.start_false` [pq]

*Note:* Stated as it is: the start is never usable.

### C209 — Transients that are counted

*Status:* proved. *Model and proof:* The in-place loops against a predicate on visits.

*Theorems:* `Verif.Transient.lightCurve_spec` [pcq], `Verif.Transient.fmod_spec` [pcq], `Verif.Transient.run_single` [pcq], `Verif.Transient.run_pre` [pcq], `Verif.Transient.run_sections` [pcq]

### C210 — All criteria for transients

*Status:* partial. *Model and proof:* Case distinction on the scores.

*Theorems:* `Verif.Transient.run_all_partial` [pcq], `Verif.Transient.all_false` [pcq], `Verif.Transient.unseen_false` [pcq]

*Note:* Transients that meet all criteria are counted; others are too (all_false, unseen_false).

### C211 — Fraction of transients detected

*Status:* partial. *Model and proof:* Counting.

*Theorems:* `Verif.Transient.fraction_partial` [pcq], `Verif.Transient.fraction_false` [pcq], `Verif.Transient.fraction_phase_false` [pcq]

*Note:* False in general (fraction_false, fraction_phase_false).

### C212 — Phases of transients

*Status:* partial. *Model and proof:* Floors.

*Theorems:* `Verif.Transient.tshifts_spec` [pcq], `Verif.Transient.shift_partial` [pcq], `Verif.Transient.shift_spec` [pcq], `Verif.Transient.shift_false` [pcq]

*Note:* False for shifted phases (shift_false).

### C213 — Phase gaps

*Status:* proved. *Model and proof:* Sorted phases against arcs of the circle.

*Theorems:* `Verif.Periodic.maxGap_spec` [pcq], `Verif.Periodic.maxGap_bounds` [pcq], `Verif.Periodic.phaseGap_spec` [pcq]

### C214 — Mean phase gap

*Status:* proved. *Model and proof:* Stated as it is.

*Theorems:* `Verif.Periodic.mean_false` [pcq], `Verif.Periodic.single_false` [pcq]

*Note:* Stated as it is.

### C215 — Kuiper statistic

*Status:* partial. *Model and proof:* Ranks against arcs.

*Theorems:* `Verif.Periodic.kuiper_spec` [pcq], `Verif.Periodic.kuiper_rotate` [pcq], `Verif.Periodic.kuiper_bounds` [pcq], `Verif.Periodic.kuiper_zero_iff` [pcq], `Verif.Periodic.kuiper_delta` [pcq], `Verif.Periodic.kuiper_false` [pcq]

*Note:* All but the documented meaning of one (kuiper_false).

### C216 — Cumulative number of visits

*Status:* partial. *Model and proof:* Induction along the interpolation.

*Theorems:* `Verif.Periodic.cumulative_partial` [pcq], `Verif.Periodic.cumulative_before` [pcq], `Verif.Periodic.cumulative_false` [pcq], `Verif.Periodic.cumulativePoints_spec` [pcq]

*Note:* False between and before visits.

### C217 — Years covered

*Status:* proved. *Model and proof:* Bins.

*Theorems:* `Verif.Periodic.yearCoverage_spec` [pcq]

### C218 — Uniformity of rapid revisits

*Status:* partial. *Model and proof:* Order statistics.

*Theorems:* `Verif.Periodic.rapid_zero_iff` [pcq], `Verif.Periodic.rapid_bounds` [pcq], `Verif.Periodic.rapid_false` [pcq]

*Note:* Not at most one (rapid_false).

### C219 — Revisits

*Status:* proved. *Model and proof:* Induction over sorted times.

*Theorems:* `Verif.Periodic.nRevisits_spec` [pcq], `Verif.Periodic.nRevisitsNormed_lt` [pcq], `Verif.Periodic.nRevisits_pairs` [pcq], `Verif.Periodic.rapidRevisit_spec` [pcq]

*Note:* Times are taken to differ.

### C220 — Gaps and age

*Status:* partial. *Model and proof:* Telescoping sum.

*Theorems:* `Verif.Periodic.visitGaps_sum` [pcq], `Verif.Periodic.visitGaps_single` [pq], `Verif.Periodic.age_partial` [pcq], `Verif.Periodic.age_false` [pcq]

*Note:* The age is negative with later visits (age_false).

### C221 — Signal to noise and astrometric precision

*Status:* proved. *Model and proof:* Monotone functions.

*Theorems:* `Verif.Astro.m52snr_default` [pcq], `Verif.Astro.m52snr_limit` [pcq], `Verif.Astro.m52snr_mono` [pcq], `Verif.Astro.astrom_bounds` [pcq], `Verif.Astro.astrom_mono` [pcq]

### C222 — Uncertainty of a slope

*Status:* proved. *Model and proof:* Gauss-Markov.

*Theorems:* `Verif.Astro.sigmaSlope_spec` [pcq], `Verif.Astro.sigmaSlope_nan_iff` [pcq], `Verif.Astro.sigmaSlope_more` [pcq]

### C223 — Parallax uncertainty

*Status:* proved. *Model and proof:* Gauss-Markov.

*Theorems:* `Verif.Astro.parallax_spec` [pcq], `Verif.Astro.parallaxNorm_spec` [pcq]

### C224 — Proper motion uncertainty

*Status:* partial. *Model and proof:* Convexity in each date.

*Theorems:* `Verif.Astro.pm_spec` [pcq], `Verif.Astro.pm_norm_partial` [pcq], `Verif.Astro.pm_norm_best` [pcq], `Verif.Astro.pm_norm_order` [pcq], `Verif.Astro.pm_norm_false` [pcq]

*Note:* At most one for equal errors only (pm_norm_false, pm_norm_order).

### C225 — Parallax coverage

*Status:* partial. *Model and proof:* Weighted means; the remainder is taken modulo 2, then times pi.

*Theorems:* `Verif.Astro.coverage_spec` [pcq], `Verif.Astro.weightedR_spec` [pcq], `Verif.Astro.theta_check_partial` [pcq], `Verif.Astro.theta_accept` [pcq], `Verif.Astro.theta_reject` [pcq], `Verif.Astro.wraparound_false` [pcq], `Verif.Astro.coverage_range` [pcq]

*Note:* The test of angles is wrong (wraparound_false).

### C226 — Degeneracy of parallax and refraction

*Status:* partial. *Model and proof:* Inverse of the normal matrix.

*Theorems:* `Verif.Astro.degen_spec` [pcq], `Verif.Astro.declared_partial` [p], `Verif.Astro.declared_false` [p]

*Note:* The filter column is not declared (declared_false). The fit is taken to find the exact solution.

### C227 — Precision of refraction

*Status:* proved. *Model and proof:* Pythagoras.

*Theorems:* `Verif.Astro.dcr_spec` [pcq]

### C228 — Visits to reach the best depth

*Status:* proved. *Model and proof:* Sums of weights.

*Theorems:* `Verif.Astro.optimal_spec` [pcq], `Verif.Astro.optimal_sign` [pcq], `Verif.Astro.snr_weighted_spec` [pcq]

### C229 — Distance of visits

*Status:* partial. *Model and proof:* Spherical cosine formula.

*Theorems:* `Verif.Astro.radius_spec` [pcq], `Verif.Astro.radius_units_false` [pcq]

*Note:* The unit is wrong (radius_units_false).

### C230 — Depth after dust

*Status:* partial. *Model and proof:* Shift of a coadded depth.

*Theorems:* `Verif.Depth.exgal_partial` [pcq], `Verif.Depth.exgal_more` [pcq], `Verif.Depth.exgal_order` [pcq], `Verif.Depth.exgal_false` [pcq]

*Note:* For one band; false for several (exgal_false, exgal_order).

### C231 — Cuts for weak lensing

*Status:* partial. *Model and proof:* Case analysis.

*Theorems:* `Verif.Depth.withCuts_spec` [pcq], `Verif.Depth.nVisits_spec` [pcq], `Verif.Depth.rizTime_spec` [pcq], `Verif.Depth.min_bands_false` [pcq], `Verif.Depth.min_time_false` [pcq]

*Note:* min_bands has no effect (min_bands_false); the limit of time is strict (min_time_false). The depth cut is taken to be above -666.

### C232 — Linear model of depths

*Status:* partial. *Model and proof:* Induction over the bands.

*Theorems:* `Verif.Depth.single_partial` [pcq], `Verif.Depth.single_one` [pcq], `Verif.Depth.single_index` [pcq], `Verif.Depth.single_key` [pcq], `Verif.Depth.single_false` [pcq], `Verif.Depth.single_bad_false` [pcq]

*Note:* Fails with default means and two bands (single_index, single_false), and for numeric bad values (single_bad_false).

### C233 — Nested linear models of depths

*Status:* partial. *Model and proof:* Induction over the models.

*Theorems:* `Verif.Depth.nested_spec` [pcq], `Verif.Depth.nested_index` [pcq], `Verif.Depth.nested_u` [pcq], `Verif.Depth.nested_means_false` [pcq], `Verif.Depth.nested_ignored_false` [pcq], `Verif.Depth.multiband_spec` [pcq]

*Note:* Means and unused bands are false (nested_means_false, nested_ignored_false). The bad value is taken to be NaN, as by default.

### C234 — Exposure time of three bands

*Status:* partial. *Model and proof:* Case analysis.

*Theorems:* `Verif.Depth.nestedRiz_spec` [pcq], `Verif.Depth.nestedRiz_false` [pcq]

*Note:* Only i is counted (nestedRiz_false).

### C235 — Scaled galaxy and light curve counts

*Status:* partial. *Model and proof:* Exchange of sums.

*Theorems:* `Verif.Depth.ngal_partial` [pcq], `Verif.Depth.ngal_false` [pcq], `Verif.Depth.nlc_spec` [pcq], `Verif.Depth.nlc_false` [pcq]

*Note:* For one filter; false for several (ngal_false). One more visit is needed (nlc_false).

### C236 — When a template is made

*Status:* proved. *Model and proof:* Induction over the visits.

*Theorems:* `Verif.Template.template_spec` [pcq], `Verif.Template.template_counts` [pcq], `Verif.Template.template_fewer` [pcq]

*Note:* The visits are taken in the order after the sort by time; percentiles are between 0 and 100.

### C237 — Depth and seeing of templates

*Status:* proved. *Model and proof:* Powers of ten.

*Theorems:* `Verif.Template.templateM5_spec` [pcq], `Verif.Template.templateSeeing_sq` [pcq], `Verif.Template.templateSeeing_bounds` [pcq], `Verif.Template.diffM5_spec` [pcq]

### C238 — Limits for templates

*Status:* proved. *Model and proof:* Monotonicity.

*Theorems:* `Verif.Template.limits_spec` [pcq], `Verif.Template.limits_red` [pcq], `Verif.Template.percentile_qualifies` [pcq]

*Note:* Zenith distances are less than 90 degrees.

### C239 — Time lag of quasars

*Status:* partial. *Model and proof:* Telescoping sum.

*Theorems:* `Verif.Template.agn_cutoff` [pcq], `Verif.Template.agn_cutoff_false` [pcq], `Verif.Template.agn_mean` [pcq], `Verif.Template.agn_few` [pcq], `Verif.Template.agn_log` [pcq], `Verif.Template.agn_gcd_inf` [pcq]

*Note:* The cutoffs have no effect (agn_cutoff, agn_cutoff_false).

### C240 — Total power

*Status:* partial. *Model and proof:* Sums over ranges.

*Theorems:* `Verif.Cosmo.power_spec` [pcq], `Verif.Cosmo.power_split` [pcq], `Verif.Cosmo.totalPower_spec` [pcq], `Verif.Cosmo.monopole_false` [pcq]

*Note:* The monopole flag has no effect (monopole_false). healpy is a parameter.

### C241 — Bias of sigma8

*Status:* partial. *Model and proof:* Completing the square.

*Theorems:* `Verif.Cosmo.fit_least` [pcq], `Verif.Cosmo.bias_sign` [pcq], `Verif.Cosmo.bias_convert` [pcq], `Verif.Cosmo.error_sky` [pcq], `Verif.Cosmo.range_excess` [pcq], `Verif.Cosmo.range_false` [pcq], `Verif.Cosmo.full_sky_false` [pcq]

*Note:* The greatest multipole is in one power only (range_false), and all of the sky is less than one (full_sky_false).

### C242 — Simple figure of merit

*Status:* partial. *Model and proof:* Case analysis.

*Theorems:* `Verif.Cosmo.simple_never` [pcq], `Verif.Cosmo.simple_false` [pcq], `Verif.Cosmo.grid_partial` [none], `Verif.Cosmo.grid_false` [none]

*Note:* No figure of merit is ever given (simple_never, simple_false).

### C243 — Bias of mean redshifts

*Status:* partial. *Model and proof:* The line fit keeps the sum.

*Theorems:* `Verif.Cosmo.year_next` [pcq], `Verif.Cosmo.year_false` [pcq], `Verif.Cosmo.ratios_spec` [pcq]

*Note:* The model is that of the next year (year_next, year_false). The quadratic fit is a parameter; bins are taken to have two redshifts at least.

### C244 — Stripes

*Status:* partial. *Model and proof:* Medians and scaling.

*Theorems:* `Verif.Cosmo.region_spec` [pcq], `Verif.Cosmo.stripiness_scale` [pcq], `Verif.Cosmo.stripiness_swap` [pcq], `Verif.Cosmo.stripes_spec` [pcq], `Verif.Cosmo.stripes_const` [pcq], `Verif.Cosmo.uniform_false` [pcq]

*Note:* Uniform maps have stripes (uniform_false).

### C245 — Uniform area

*Status:* partial. *Model and proof:* Induction over the pixels.

*Theorems:* `Verif.Cosmo.expand_spec` [pcq], `Verif.Cosmo.areaFrac_spec` [pcq], `Verif.Cosmo.areaFrac_sum` [pcq], `Verif.Cosmo.uniformArea_spec` [pcq], `Verif.Cosmo.keepNot_spec` [pcq], `Verif.Cosmo.disjoint_partial` [pcq], `Verif.Cosmo.disjoint_false` [pcq]

*Note:* Pixels below the cut are in both regions (disjoint_false). Clusters and the figure of merit are parameters.

### C246 — Dropouts can be counted

*Status:* partial. *Model and proof:* Case analysis.

*Theorems:* `Verif.Cosmo.dropouts_error` [pcq], `Verif.Cosmo.dropouts_false` [pcq]

*Note:* The classes cannot be used at all.

### C247 — Cleaning of observations

*Status:* partial. *Model and proof:* Induction over the size; the result is the greatest closed part.

*Theorems:* `Verif.Selfcal.core_spec` [pcq], `Verif.Selfcal.core_unique` [pcq], `Verif.Selfcal.pass_le` [p], `Verif.Selfcal.core_single` [pcq], `Verif.Selfcal.single_false` [pcq]

*Note:* False for a single observation, which is kept (core_single, single_false).

### C248 — Numbers of stars and patches

*Status:* proved. *Model and proof:* Slices of sorted columns.

*Theorems:* `Verif.Selfcal.clean_spec` [pcq], `Verif.Selfcal.max_patch` [pcq], `Verif.Selfcal.columns_spec` [pcq]

### C249 — Zero points and magnitudes

*Status:* proved. *Model and proof:* Refinement of the matrix to the sum of squares.

*Theorems:* `Verif.Selfcal.solve_least` [pcq], `Verif.Selfcal.lsqr_exists` [pcq], `Verif.Selfcal.chi2_shift` [pcq], `Verif.Selfcal.recover` [pcq], `Verif.Selfcal.solve_empty` [pcq]

*Note:* The solver of scipy is taken to give a least squares solution; there is one (lsqr_exists).

### C250 — Patches

*Status:* partial. *Model and proof:* Trigonometry and mixed radix digits.

*Theorems:* `Verif.Selfcal.project_radius` [pcq], `Verif.Selfcal.in_square` [pcq], `Verif.Selfcal.cell_spec` [pcq], `Verif.Selfcal.cell_range` [pcq], `Verif.Selfcal.patch_unique` [pcq], `Verif.Selfcal.catalog_partial` [pcq], `Verif.Selfcal.catalog_false` [pcq]

*Note:* False for catalogs with another radius (catalog_false).

### C251 — Observed magnitudes

*Status:* partial. *Model and proof:* Induction over the offsets.

*Theorems:* `Verif.Selfcal.dmags_spec` [pcq], `Verif.Selfcal.obsMag_spec` [pcq], `Verif.Selfcal.obsMag_other` [pcq], `Verif.Selfcal.noOffset_error` [pcq], `Verif.Selfcal.noOffset_false` [pcq], `Verif.Selfcal.same_key_false` [pcq], `Verif.Selfcal.magErr_mono` [pcq], `Verif.Selfcal.uncert_spec` [pcq], `Verif.Selfcal.catalog_spec` [pq]

*Note:* NoOffset is an exception (noOffset_error, noOffset_false); offsets with the same key replace each other (same_key_false).

### C252 — Orbital elements as text

*Status:* proved. *Model and proof:* Lengths of decimal texts.

*Theorems:* `Verif.Sat.zfill_length` [pcq], `Verif.Sat.zfill_digits` [pcq], `Verif.Sat.zfill_value` [pcq], `Verif.Sat.fixed_length` [pcq], `Verif.Sat.fixed_spec` [pcq], `Verif.Sat.checksum_spec` [pq], `Verif.Sat.line1_spec` [pcq], `Verif.Sat.line2_spec` [pcq]

*Note:* Angles are given as their rounded decimals, rounding itself is not modelled.

### C253 — Constellations are complete

*Status:* proved. *Model and proof:* Induction over groups and places.

*Theorems:* `Verif.Sat.places_length` [pcq], `Verif.Sat.places_grid` [pcq], `Verif.Sat.places_nodup` [pcq], `Verif.Sat.create_spec` [pcq], `Verif.Sat.presets` [pcq], `Verif.Sat.meanMotion_spec` [pcq], `Verif.Sat.meanMotion_lt` [pcq]

*Note:* Random numbers are parameters.

### C254 — Visible satellites and maps

*Status:* proved. *Model and proof:* Induction over the satellites.

*Theorems:* `Verif.Sat.visible_spec` [pcq], `Verif.Sat.spot_spec` [pcq], `Verif.Sat.avoid_spec` [pcq]

*Note:* The positions of skyfield and the smoothing are parameters.

### C255 — Maps of the night

*Status:* partial. *Model and proof:* Invariant of the sequence.

*Theorems:* `Verif.Sat.maps_partial` [pcq], `Verif.Sat.maps_false` [pcq], `Verif.Sat.nside_false` [none]

*Note:* For nights other than -1 (maps_false); the resolution is ignored (nside_false).

### C256 — Streaks in visits

*Status:* partial. *Model and proof:* Induction over the crossings.

*Theorems:* `Verif.Sat.checkPointings_spec` [pcq], `Verif.Sat.streaks_zero_iff` [pcq], `Verif.Sat.short_zero` [pcq], `Verif.Sat.short_false` [pcq]

*Note:* False for short visits (short_zero, short_false). The length of a streak is a parameter.

### C257 — Dust values do not depend on earlier calls

*Status:* partial. *Model and proof:* State machine of the attributes.

*Theorems:* `Verif.Maps.ebv_spec` [pq], `Verif.Maps.dust_healpix` [pq], `Verif.Maps.ebv_reads` [pq], `Verif.Maps.read_once_false` [pcq]

*Note:* Values hold for all histories; the map is read again by each call (ebv_reads, read_once_false).

### C258 — The file of the map with distances

*Status:* partial. *Model and proof:* Invariant of the attributes.

*Theorems:* `Verif.Maps.ebv3_first` [pq], `Verif.Maps.ebv3_stale` [pq], `Verif.Maps.ebv3_partial` [pq], `Verif.Maps.history_false` [pcq], `Verif.Maps.repeat_false` [pcq]

*Note:* Holds for the first call and for calls for one file (ebv3_partial); otherwise the first map is used (ebv3_stale, history_false, repeat_false).

### C259 — Distance of a change of magnitude

*Status:* partial. *Model and proof:* Induction over the list.

*Theorems:* `Verif.Maps.nearest_spec` [pcq], `Verif.Maps.distAt_spec` [pcq], `Verif.Maps.distAt_far` [pcq], `Verif.Maps.distAt_single_partial` [pcq], `Verif.Maps.single_map_false` [pcq]

*Note:* One slice point and all slice points agree if no extinction is greater than the last (distAt_single_partial, single_map_false).

### C260 — Keys of the priority maps

*Status:* proved. *Model and proof:* Induction over the text.

*Theorems:* `Verif.Maps.key_roundtrip` [pcq], `Verif.Maps.key_colon` [pcq]

### C261 — Priority maps of the galactic plane

*Status:* partial. *Model and proof:* State machine of the attributes.

*Theorems:* `Verif.Maps.gal_first` [pcq], `Verif.Maps.gal_stale` [pcq], `Verif.Maps.gal_path` [pcq], `Verif.Maps.path_false` [pcq], `Verif.Maps.gal_retry_false` [pcq]

*Note:* Values of the first call; later directories are ignored (gal_stale, gal_path, path_false), missing files are remembered (gal_retry_false).

### C262 — Maps of bundles and groups

*Status:* partial. *Model and proof:* Induction over the list.

*Theorems:* `Verif.Maps.uniq_spec` [pq], `Verif.Maps.all_run_partial` [pq], `Verif.Maps.all_run_false` [p], `Verif.Maps.bundle_spec` [pq], `Verif.Maps.single_false` [p], `Verif.Maps.stellar_spec` [pq]

*Note:* All maps are run if equal keys mean equal maps (all_run_partial, all_run_false); single maps fail (single_false).

### C263 — Registries of classes

*Status:* partial. *Model and proof:* Induction over the definitions.

*Theorems:* `Verif.BaseM.fullName_inside` [pq], `Verif.BaseM.fullName_dotted` [pq], `Verif.BaseM.fullName_single` [pq], `Verif.BaseM.metric_spec` [pcq], `Verif.BaseM.found_partial` [pcq], `Verif.BaseM.found_false` [pcq], `Verif.BaseM.addAll_ok_iff` [pq], `Verif.BaseM.once_spec` [pq], `Verif.BaseM.slicer_inj` [pq], `Verif.BaseM.base_map_false` [pcq]

*Note:* Metrics of the same full name replace each other (found_false); BaseMap is registered (base_map_false).

### C264 — Sources and units of columns

*Status:* partial. *Model and proof:* Invariant of the registry.

*Theorems:* `Verif.BaseM.colInfo_spec` [pq], `Verif.BaseM.source_partial` [pcq], `Verif.BaseM.source_false` [pcq], `Verif.BaseM.reg_spec` [pq]

*Note:* Sources need units for all columns (source_partial, source_false).

### C265 — Names, types and units of metrics

*Status:* partial. *Model and proof:* Induction over the columns.

*Theorems:* `Verif.BaseM.name_spec` [pcq], `Verif.BaseM.removeFirst_suffix` [pq], `Verif.BaseM.dtype_spec` [pcq], `Verif.BaseM.units_spec` [pq], `Verif.BaseM.units_unknown` [pq], `Verif.BaseM.unique_false` [pcq], `Verif.BaseM.units_false` [pcq]

*Note:* Names are not unique across classes (unique_false), the unit None is an exception (units_false).

### C266 — Reduce functions of a metric

*Status:* partial. *Model and proof:* Induction over the methods.

*Theorems:* `Verif.BaseM.reduces_partial` [pcq], `Verif.BaseM.all_reduced_false` [pcq], `Verif.BaseM.reduced_partial` [pcq], `Verif.BaseM.all_ordered_false` [pcq]

*Note:* For names with reduce_ in front and nowhere else (reduces_partial, reduced_partial).

### C267 — Reading reduced metrics

*Status:* partial. *Model and proof:* Induction over the bundles.

*Theorems:* `Verif.BaseM.file_partial` [pcq], `Verif.BaseM.file_false` [pcq], `Verif.BaseM.readAll_spec` [pcq], `Verif.BaseM.readAll_values` [pcq], `Verif.BaseM.read_back_false` [pcq], `Verif.BaseM.visit_order` [pcq], `Verif.BaseM.gaps_order_false` [pcq]

*Note:* Any file of a reduced metric is an exception (readAll_spec, read_back_false).

### C268 — Footprint of the galactic plane

*Status:* proved. *Model and proof:* Exchange of the sums over filters and visits.

*Theorems:* `Verif.GalPlane.footprint_none` [pcq], `Verif.GalPlane.footprint_thresholds` [pcq], `Verif.GalPlane.footprint_spec` [pcq], `Verif.GalPlane.footReduce_spec` [pcq], `Verif.GalPlane.footReduce_mono` [pcq], `Verif.GalPlane.footReduce_more` [pcq]

### C269 — Exposure time per filter in the galactic plane

*Status:* partial. *Model and proof:* Algebra of the sums.

*Theorems:* `Verif.GalPlane.time_spec` [pcq], `Verif.GalPlane.time_one_iff` [pcq], `Verif.GalPlane.time_zero` [pcq], `Verif.GalPlane.weights_one` [pcq], `Verif.GalPlane.time_scale` [pcq], `Verif.GalPlane.unexpected_masked` [pcq], `Verif.GalPlane.unexpected_false` [pcq], `Verif.GalPlane.bandReduce_spec` [pcq], `Verif.GalPlane.bands_false` [pcq], `Verif.GalPlane.bands_partial` [pcq]

*Note:* A filter without priority is masked, not one (unexpected_false); functions of filters not in the list fail (bands_false, bands_partial).

### C270 — Visit intervals in the galactic plane

*Status:* partial. *Model and proof:* Properties of the exponential, induction over the intervals.

*Theorems:* `Verif.GalPlane.decay_eq_one` [pcq], `Verif.GalPlane.decay_anti` [pcq], `Verif.GalPlane.decay_mono` [pcq], `Verif.GalPlane.intervals_eq` [pcq], `Verif.GalPlane.intervals_none` [pcq], `Verif.GalPlane.intervals_range` [pcq], `Verif.GalPlane.intervals_mono` [pcq], `Verif.GalPlane.intervals_perm` [pcq], `Verif.GalPlane.intervals_shift` [pcq], `Verif.GalPlane.more_false` [pcq], `Verif.GalPlane.more_partial` [pcq]

*Note:* A visit more can lower the mean (more_false).

### C271 — Season gaps in the galactic plane

*Status:* partial. *Model and proof:* From the theorem of the edges of seasons.

*Theorems:* `Verif.GalPlane.gaps_spec` [pcq], `Verif.GalPlane.gaps_range` [pcq], `Verif.GalPlane.gaps_none` [pcq], `Verif.GalPlane.mag_ignored` [pcq], `Verif.GalPlane.mag_false` [pcq], `Verif.GalPlane.mag_partial` [pcq], `Verif.GalPlane.maps_false` [pcq], `Verif.GalPlane.maps_partial` [pcq], `Verif.GalPlane.rows_after` [pcq], `Verif.GalPlane.rows_false` [pcq], `Verif.GalPlane.rows_partial` [pcq]

*Note:* mag_limit is ignored, no map is named and the column of times is sorted in place.

### C272 — Weights of the sky templates

*Status:* partial. *Model and proof:* The place of a point in a sorted list, then algebra.

*Theorems:* `Verif.SkyI.weights_node` [pcq], `Verif.SkyI.weights_between` [pcq], `Verif.SkyI.weights_high` [pq], `Verif.SkyI.weights_sum` [pcq], `Verif.SkyI.lin_spec` [pcq], `Verif.SkyI.lin_node` [pcq], `Verif.SkyI.lin_bounds` [pcq], `Verif.SkyI.single_spec` [pq], `Verif.SkyI.low_spec` [pcq], `Verif.SkyI.edge_false` [pcq], `Verif.SkyI.edge_partial` [pq]

*Note:* Below the grid the value is extrapolated towards the last grid point (low_spec, edge_false).

### C273 — Sky templates in two dimensions

*Status:* proved. *Model and proof:* From C272.

*Theorems:* `Verif.SkyI.airglow_spec` [pcq], `Verif.SkyI.pix_spec` [pcq], `Verif.SkyI.zodiacal_spec` [pcq], `Verif.SkyI.out_spec` [pq]

### C274 — Spectra and magnitudes of the sky templates

*Status:* partial. *Model and proof:* Properties of the logarithm, from C272.

*Theorems:* `Verif.SkyI.spec_node` [pcq], `Verif.SkyI.node_false` [pcq], `Verif.SkyI.node_partial` [pcq], `Verif.SkyI.bounds_false` [pcq], `Verif.SkyI.bounds_partial` [pcq], `Verif.SkyI.mag_spec` [pcq], `Verif.SkyI.mag_out` [pcq]

*Note:* The value one becomes zero (node_false); zero is interpolated as one (bounds_false).

### C275 — Twilight and identifiers

*Status:* proved. *Model and proof:* Monotonicity of powers; induction over the keys.

*Theorems:* `Verif.SkyI.twilight_dark` [pcq], `Verif.SkyI.twilight_zenith` [pcq], `Verif.SkyI.twilight_pos` [pcq], `Verif.SkyI.twilight_sun` [pcq], `Verif.SkyI.twilight_symm` [pcq], `Verif.SkyI.twilight_towards` [pcq], `Verif.SkyI.twilightMag_spec` [pcq], `Verif.SkyI.id_spec` [pcq], `Verif.SkyI.back_spec` [pcq], `Verif.SkyI.round_trip` [pcq]

### C276 — Angles of the sky model

*Status:* partial. *Model and proof:* Floor and periodicity of the cosine.

*Theorems:* `Verif.SkyM.wrap_spec` [pcq], `Verif.SkyM.wrap_unique` [pcq], `Verif.SkyM.relMoon_spec` [pcq], `Verif.SkyM.relMoon_arccos` [pcq], `Verif.SkyM.relMoon_symm` [pcq], `Verif.SkyM.airmass_alt` [pcq], `Verif.SkyM.alt_airmass` [pcq], `Verif.SkyM.setParams_spec` [pcq], `Verif.SkyM.degrees_partial` [pcq], `Verif.SkyM.degrees_false` [pcq], `Verif.SkyM.targSep_spec` [pcq]

*Note:* moon_targ_sep uses the unconverted azimuth of the moon (degrees_false, targSep_spec).

### C277 — Sum of the components of the sky

*Status:* partial. *Model and proof:* Induction over the components with the mask and the sums as state.

*Theorems:* `Verif.SkyM.sky_spec` [pcq], `Verif.SkyM.sky_sum` [pcq], `Verif.SkyM.turn_on_error` [pq], `Verif.SkyM.turn_off` [pq], `Verif.SkyM.mask_false` [pcq], `Verif.SkyM.mask_partial` [pcq]

*Note:* With points out of range the wrong points are emptied (mask_false); a component off at construction cannot be turned on (turn_on_error).

### C278 — State and magnitudes of the sky model

*Status:* partial. *Model and proof:* State machine; properties of the logarithm.

*Theorems:* `Verif.SkyM.fresh_spec` [pq], `Verif.SkyM.mags_partial` [pq], `Verif.SkyM.params_spec_false` [pcq], `Verif.SkyM.params_mags_false` [pcq], `Verif.SkyM.stale_spec` [pq], `Verif.SkyM.mag_one` [pcq], `Verif.SkyM.mag_const` [pcq], `Verif.SkyM.mag_brighter` [pcq], `Verif.SkyM.mag_shift` [pcq]

*Note:* Stale spectra with no point in range (params_spec_false), no ra after set_params (params_mags_false).

### C279 — Times of the pre-computed sky

*Status:* partial. *Model and proof:* Invariant over the loop: the last five times contain all those between the last two kept.

*Theorems:* `Verif.SkyM.thin_spec` [pcq], `Verif.SkyM.thin_gap` [pcq], `Verif.SkyM.nan_false` [pcq]

*Note:* Pixels without a number at a neighbour are not compared (nan_false).

### C280 — Normalised tables of metrics

*Status:* partial. *Model and proof:* Lookup in the table with the added row; pigeonhole for the fresh name.

*Theorems:* `Verif.Cmp.freshName_fresh` [pcq], `Verif.Cmp.normalize_missing` [pcq], `Verif.Cmp.normalize_cells` [pcq], `Verif.Cmp.normalize_value` [pcq], `Verif.Cmp.normalize_spec` [pcq], `Verif.Cmp.normalize_base` [pcq], `Verif.Cmp.better_partial` [pcq], `Verif.Cmp.worse_negative` [pcq], `Verif.Cmp.better_false` [pcq], `Verif.Cmp.radar_same` [pcq], `Verif.Cmp.radar_reverse` [pcq], `Verif.Cmp.reverse_false` [pcq], `Verif.Cmp.grow_spec` [pcq]

*Note:* Above one is not better for a negative baseline (better_false); reversing a column has no effect on ratios (reverse_false).

### C281 — Selection of runs and metrics

*Status:* partial. *Model and proof:* Induction over the removal of missing metrics.

*Theorems:* `Verif.Cmp.removeMissing_spec` [pcq], `Verif.Cmp.expand_spec` [pq], `Verif.Cmp.select_spec` [pcq], `Verif.Cmp.select_missing` [pq], `Verif.Cmp.once_false` [p]

*Note:* A run of two families is listed twice (once_false).

### C282 — Runs of families

*Status:* partial. *Model and proof:* Membership in the flattened and grouped lists.

*Theorems:* `Verif.Cmp.mem_familyRuns` [pq], `Verif.Cmp.getRuns_spec` [pcq], `Verif.Cmp.getRuns_row` [pq], `Verif.Cmp.one_row_partial` [pcq], `Verif.Cmp.one_row_false` [none]

*Note:* A run with two descriptions has two rows (one_row_false).

### C283 — Gathering of summaries

*Status:* partial. *Model and proof:* Induction over the rows.

*Theorems:* `Verif.Cmp.combine_spec` [pq], `Verif.Cmp.combine_missing` [pq], `Verif.Cmp.replace2_single` [pcq], `Verif.Cmp.names_false` [pcq], `Verif.Cmp.blanks_false` [pcq]

*Note:* Names of different metrics can be the same (names_false) and have two blanks (blanks_false).

### C284 — Errors from crowding

*Status:* proved. *Model and proof:* Sums from the end of a list; scaling of the interpolation.

*Theorems:* `Verif.Crowd.suffix_get` [pcq], `Verif.Crowd.crowdErr_spec` [pcq], `Verif.Crowd.crowdErr_scale` [pcq], `Verif.Crowd.crowdErr_mono` [pcq], `Verif.Crowd.interp_scale` [pcq], `Verif.Crowd.crowdErrAt_spec` [pcq], `Verif.Crowd.crowdErrAt_node` [pcq]

*Note:* Real arithmetic; the map of stars is two lists.

### C285 — Limits from crowding and numbers of stars

*Status:* partial. *Model and proof:* First index above a threshold, monotone interpolation and coadded depth.

*Theorems:* `Verif.Crowd.crowdMag_safe` [pcq], `Verif.Crowd.crowdMag_early` [pcq], `Verif.Crowd.last_false` [pcq], `Verif.Crowd.crowdMag_mono` [pcq], `Verif.Crowd.nstars_mono` [pcq], `Verif.Crowd.magLimit_spec` [pcq], `Verif.Crowd.limit_false` [pcq], `Verif.Crowd.starDensity_mono` [pcq], `Verif.Crowd.starDensity_node` [pcq], `Verif.Crowd.starDensity_outside` [pcq]

*Note:* The limit is a bin early (crowdMag_early, last_false) and the error at the limit from depth is too large (magLimit_spec, limit_false).

### C286 — Nights with a colour and a slope

*Status:* partial. *Model and proof:* Least and greatest elements of the gaps; grouping by night.

*Theorems:* `Verif.ColSlope.check_spec` [pcq], `Verif.ColSlope.three_implied` [pcq], `Verif.ColSlope.run_spec` [pcq], `Verif.ColSlope.run_columns` [pq]

*Note:* Columns other than the defaults are an exception (run_columns). int_binned_stat of rubin_scheduler is an assumption.

### C287 — Pairs of nights with a colour and a slope

*Status:* partial. *Model and proof:* Floor and ceiling of half of the night number the pairs from even and odd nights.

*Theorems:* `Verif.ColSlope.run2_spec` [pcq], `Verif.ColSlope.once_false` [pcq]

*Note:* A single night counts twice (once_false).

### C288 — Vendors and uses

*Status:* partial. *Model and proof:* Prefixes of one string are comparable.

*Theorems:* `Verif.ColSlope.vendor_spec` [pcq], `Verif.ColSlope.vendor_empty` [p], `Verif.ColSlope.uses_disjoint` [pcq], `Verif.ColSlope.use_spec` [pcq], `Verif.ColSlope.use_not_science` [pcq], `Verif.ColSlope.use_array` [pcq], `Verif.ColSlope.use_false` [pcq]

*Note:* UseMetric raises on arrays (use_array, use_false); no chips count as both vendors (vendor_empty).

### C289 — Cadence of SNCadenceMetric

*Status:* partial. *Model and proof:* The counts of the bins add up.

*Theorems:* `Verif.ColSlope.dayCounts_sum` [pcq], `Verif.ColSlope.cadence_spec` [pcq], `Verif.ColSlope.cadence_day` [pq], `Verif.ColSlope.cadence_last` [pcq], `Verif.ColSlope.cadence_false` [pcq], `Verif.ColSlope.read_false` [p]

*Note:* The last day is left out (cadence_last, cadence_false); undeclared columns (read_false).

### C290 — Selection of metrics on the page

*Status:* partial. *Model and proof:* Membership in filtered lists; splitting at underscores.

*Theorems:* `Verif.Web.select_spec` [pq], `Verif.Web.form_partial` [pq], `Verif.Web.form_false` [pcq], `Verif.Web.select_form` [pq], `Verif.Web.groups_spec` [pcq], `Verif.Web.types_false` [pcq], `Verif.Web.order_false` [pcq], `Verif.Web.info_false` [none]

*Note:* Missing: names with an underscore or a plus are not given back by the form (form_false); the old name of a plot type does not find the new one (types_false); unique_metric_names sorts (order_false); a blank row has another column (info_false). get_json calls a method that does not exist and is not modelled.

### C291 — Order of statistics and plots

*Status:* proved. *Model and proof:* Induction over the order with erasure from the names.

*Theorems:* `Verif.Web.orderNames_spec` [pcq], `Verif.Web.statDict_spec` [pcq], `Verif.Web.plotDict_spec` [pcq], `Verif.Web.statOrder_spec` [pcq]

*Note:* All lists. plot_dict of a list of arrays is the same after concatenation and not modelled apart.

### C292 — Layout of sky maps

*Status:* partial. *Model and proof:* Cases of the layout, membership in the shown plots.

*Theorems:* `Verif.Web.order_rows` [pcq], `Verif.Web.order_place` [pcq], `Verif.Web.order_all` [pq], `Verif.Web.order_many` [pq], `Verif.Web.once_partial` [pq], `Verif.Web.once_false` [pcq]

*Note:* Missing: a file that matches two filters is shown twice (once_false). Plots whose metric is not known are left out when filters have several plots.

### C293 — Tracked runs are up to date

*Status:* partial. *Model and proof:* Invariant over the requests: rows are of the time kept and pages of the rows.

*Theorems:* `Verif.Web.tracking_spec` [pcq], `Verif.Web.read_once` [pcq], `Verif.Web.fresh_false` [p], `Verif.Web.stale_stays` [p]

*Note:* Missing: if the database changes while it is read, old rows are kept with the new time (fresh_false) and stay (stale_stays). The database is otherwise taken not to change within a request.

### C294 — Reading of a simulation

*Status:* partial. *Model and proof:* A reader of queries gives back the parts of the query; the database answers by parts.

*Theorems:* `Verif.Opsim.query_parse` [pcq], `Verif.Opsim.sim_spec` [pcq], `Verif.Opsim.guess_spec` [pcq], `Verif.Opsim.full_overrides` [pcq], `Verif.Opsim.remote_false` [pcq], `Verif.Opsim.remote_error` [pcq]

*Note:* Missing: strings that are not files are refused before URLs are looked at (remote_false, remote_error). Names without blanks, commas and semicolons; SQL by a small reader of queries; an empty list of columns is not a query.

### C295 — Benchmarks scale with the length of the run

*Status:* partial. *Model and proof:* Floor of the scaled numbers.

*Theorems:* `Verif.Opsim.bench_scaled` [pcq], `Verif.Opsim.bench_mono` [pcq], `Verif.Opsim.total_false` [pcq], `Verif.Opsim.total_ten` [pcq]

*Note:* Missing: the total is not scaled and not the sum (total_false, total_ten).

### C296 — Coadded depth from numbers of visits

*Status:* partial. *Model and proof:* Logarithm of the product, compared with the coadded depth of a list.

*Theorems:* `Verif.Opsim.depth_pos` [pcq], `Verif.Opsim.depth_coadd` [pcq], `Verif.Opsim.depth_mono_partial` [pcq], `Verif.Opsim.mono_false` [pcq], `Verif.Opsim.depth_none` [pcq], `Verif.Opsim.coadded_spec` [pcq], `Verif.Opsim.match_false` [pcq]

*Note:* Missing: no visits have the depth of one (mono_false, depth_none); filters of the depths without visits are not looked at (match_false).

### C297 — Blocks of visits of the hourglass

*Status:* proved. *Model and proof:* Induction over the sorted breaks.

*Theorems:* `Verif.Hourglass.blocks_cover` [pcq], `Verif.Hourglass.blocks_spec` [pcq], `Verif.Hourglass.block_filter` [pcq]

*Note:* All lists of one visit or more.

### C298 — Midnights of the hourglass

*Status:* partial. *Model and proof:* Cases of the place in the sorted list.

*Theorems:* `Verif.Hourglass.midnight_nearest` [pcq], `Verif.Hourglass.nearest_spec` [pq], `Verif.Hourglass.oneEach_keys` [pcq], `Verif.Hourglass.oneEach_near` [pcq], `Verif.Hourglass.repeat_false` [pcq]

*Note:* Missing: two values of one midnight can be rounded apart and stay (repeat_false). The midnights come from astroplan.

### C299 — Conditions of the batches

*Status:* partial. *Model and proof:* A reader of conditions with precedence; induction over its depth for what follows a condition.

*Theorems:* `Verif.Batches.means_unique` [p], `Verif.Batches.both_means` [pq], `Verif.Batches.filter_means` [pq], `Verif.Batches.selects_unique` [p], `Verif.Batches.bandList_spec` [pcq], `Verif.Batches.filter_partition` [pcq], `Verif.Batches.subset_partial` [pq], `Verif.Batches.subset_false` [pq], `Verif.Batches.glance_partial` [pq], `Verif.Batches.glance_false` [p]

*Note:* Missing: for adjacent bands the extra condition is not in brackets, so that one with an or selects other bands (subset_false); the glance with an empty condition is no query (glance_false). Conditions are lists of tokens.

### C300 — Years of the hourglass and of weak lensing

*Status:* partial. *Model and proof:* Integer arithmetic of 365.25 times the year.

*Theorems:* `Verif.Batches.year_length` [pq], `Verif.Batches.year_unique_partial` [pcq], `Verif.Batches.year_false` [p], `Verif.Batches.before_mono` [pq], `Verif.Batches.first_years` [none]

*Note:* Missing: the night numbered 0 is in no year (year_false); the first years of both differ (first_years).

### C301 — Names and labels of the batches

*Status:* partial. *Model and proof:* Lemmas on rstrip, induction over the thresholds.

*Theorems:* `Verif.Batches.combine_laws` [p], `Verif.Batches.combine_pair` [pcq], `Verif.Batches.rstrip_spec` [p], `Verif.Batches.short_partial` [p], `Verif.Batches.short_false` [pcq], `Verif.Batches.fractions_spec` [pcq]

*Note:* Missing: rstrip takes off characters of the column from the name of the metric as well (short_false).

### C302 — Captions and labels in loops

*Status:* partial. *Model and proof:* Induction over the filters.

*Theorems:* `Verif.Batches.captions_spec` [pcq], `Verif.Batches.caption_false` [pcq], `Verif.Batches.subset_label` [p]

*Note:* Missing: captions have the labels of all filters before (caption_false); a condition without label is an exception (subset_label).

### C303 — Triplets of visits

*Status:* partial. *Model and proof:* Sums over three nested loops as the size of a set of triples of indices.

*Theorems:* `Verif.Contrib.triplets_spec` [pcq], `Verif.Contrib.triplets_perm` [pcq], `Verif.Contrib.triplets_shift` [pcq], `Verif.Contrib.triplets_mono` [pcq], `Verif.Contrib.triplet_order` [pcq], `Verif.Contrib.ratio_unread` [pcq], `Verif.Contrib.ratio_false` [pcq]

*Note:* Missing: the limits of the ratio are never read (ratio_unread, ratio_false).

### C304 — Triplets in one band

*Status:* partial. *Model and proof:* As before, with the ratio without division.

*Theorems:* `Verif.Contrib.tripletsBand_spec` [pcq], `Verif.Contrib.reduceAll_spec` [pcq], `Verif.Contrib.even_false` [pcq]

*Note:* Missing: with the default RatioMin of one, evenly spaced visits are not counted (even_false). For DelMin not negative.

### C305 — Visits in the windows of another survey

*Status:* partial. *Model and proof:* Exchange of the sums over windows and visits; neighbours of a sorted list.

*Theorems:* `Verif.Contrib.numObs_spec` [pq], `Verif.Contrib.numObs_partial` [pq], `Verif.Contrib.numObs_false` [pcq], `Verif.Contrib.numObs_ends` [pq], `Verif.Contrib.obsDiff_spec` [pcq], `Verif.Contrib.obsDiff_total` [pcq], `Verif.Contrib.intervals_mean` [pcq], `Verif.Contrib.intervals_unbound` [pcq]

*Note:* Missing: visits in windows that overlap count more than once (numObs_false); an unknown statistic is an unbound variable. The standard deviation is not modelled.

### C306 — Gaps between visits of two filters

*Status:* partial. *Model and proof:* Count of the flattened matrix as the size of a set of pairs.

*Theorems:* `Verif.Contrib.sameGaps_spec` [pcq], `Verif.Contrib.diffGaps_spec` [pcq], `Verif.Contrib.zero_gap` [pcq], `Verif.Contrib.diffGaps_symm` [pcq], `Verif.Contrib.nearest_spec` [pcq], `Verif.Contrib.nearest_length` [pq], `Verif.Contrib.nearest_false` [pcq], `Verif.Contrib.all_some` [pq]

*Note:* Missing: pairs of visits in one filter at the same time have no gap, in two filters they have (zero_gap); with allgaps false a filter without visits is an exception (nearest_false).

### C307 — Figure of merit of the gaps

*Status:* partial. *Model and proof:* The variance is zero for flat lists only.

*Theorems:* `Verif.Contrib.fom_none` [pcq], `Verif.Contrib.fom_top` [pcq], `Verif.Contrib.fom_full` [pcq], `Verif.Contrib.fom_more_false` [pcq], `Verif.Contrib.fom_partial` [pcq]

*Note:* Missing: a flat clipped histogram, as of a pair that reaches its clip everywhere, gives infinity for the whole point (fom_full); more gaps may lower it (fom_more_false).

### C308 — Gamma-ray bursts found

*Status:* partial. *Model and proof:* Invariant of the counters over light curves, filters and phases.

*Theorems:* `Verif.Grb.run_spec` [pcq], `Verif.Grb.exists_mag` [pcq], `Verif.Grb.last_draw` [pcq], `Verif.Grb.fraction_bound` [pcq], `Verif.Grb.phase_false` [pcq], `Verif.Grb.first_false` [pcq], `Verif.Grb.start_false` [pq], `Verif.Grb.band_false` [pcq]

*Note:* Missing: counters are set to zero in each phase, so only the last counts while the number of bursts is that of all (run_spec, last_draw, fraction_bound, phase_false); the first visit is seen whatever the burst (first_false); a start that is given is an unbound variable (start_false).

### C309 — Averages over filters of gamma-ray bursts

*Status:* partial. *Model and proof:* Arithmetic.

*Theorems:* `Verif.Grb.filtAvg_spec` [pcq], `Verif.Grb.filtAvg_false` [pcq]

*Note:* Missing: the entry for any filter is averaged as well (filtAvg_false); filtAvg_spec says what is averaged.

### C310 — Star counts by shells

*Status:* partial. *Model and proof:* Cubes of the edges are evenly spaced; sums of lists of equal numbers.

*Theorems:* `Verif.Stars.edges_spec` [pcq], `Verif.Stars.volumes_equal` [pcq], `Verif.Stars.volumes_sum` [pcq], `Verif.Stars.distances_spec` [pcq], `Verif.Stars.distances_within` [pcq], `Verif.Stars.starcount_bounds` [pcq]

*Note:* Missing: starcount calls eq_gal3, which uses names that astropy and numpy do not have (u.radians, np.rad) and raises; the theorems are for a direction that is already galactic.

### C311 — Fractions of stars by mass

*Status:* partial. *Model and proof:* The integral of a power; telescoping sum.

*Theorems:* `Verif.Stars.imf_integral` [pcq], `Verif.Stars.imf_add` [pcq], `Verif.Stars.imf_pos` [pcq], `Verif.Stars.fractions_sum` [pcq], `Verif.Stars.fractions_sum_partial` [pcq], `Verif.Stars.fractions_sum_false` [pcq]

*Note:* Missing: the total of the range is overwritten by that of 0.2 to 1.04, so the fractions sum to one for this range only (fractions_sum, fractions_sum_false).

### C312 — Density of stars

*Status:* proved. *Model and proof:* Monotonicity of the exponential.

*Theorems:* `Verif.Stars.stellardensity_pos` [pcq], `Verif.Stars.stellardensity_parts` [pcq], `Verif.Stars.halo_flattened` [pcq], `Verif.Stars.disc_at_sun` [pcq], `Verif.Stars.disk_shape` [pcq]

*Note:* In the reals; at the centre of the galaxy the division by zero of the halo is zero in the model.

### C313 — Errors of magnitudes of stars

*Status:* partial. *Model and proof:* Real analysis of the formulas.

*Theorems:* `Verif.Stars.magError_spec` [pcq], `Verif.Stars.noise_limit` [pcq], `Verif.Stars.noise_calc_false` [pcq], `Verif.Stars.magError_zero_false` [pcq], `Verif.Stars.getDistance_spec` [pcq]

*Note:* Missing: the function that noise_calc gives to the solver returns nothing (noise_calc_false), and a limit of zero is taken as no limit (magError_zero_false).

### C314 — Galactic coordinates of star counts

*Status:* partial. *Model and proof:* Trigonometric identities and the range of the remainder.

*Theorems:* `Verif.Stars.normalise_spec` [pcq], `Verif.Stars.eqGal_solves` [pcq], `Verif.Stars.eqGal2_range` [pcq], `Verif.Stars.eqGal2_false` [pcq], `Verif.Stars.galCyn_spec` [pcq], `Verif.Stars.rho_opposite` [pcq]

*Note:* Missing: eq_gal2 compares radians with 32.9319 degrees, so all longitudes are from 180 to 360 (eqGal2_range, eqGal2_false); the angle of gal_cyn is the same for opposite directions (rho_opposite). The solver of eq_gal is an input.

### C315 — Spectral types and absolute magnitudes

*Status:* proved. *Model and proof:* Monotone interpolation between the nodes.

*Theorems:* `Verif.Stars.specType_anti` [pcq], `Verif.Stars.absMag_mono` [pcq], `Verif.Stars.specType_table` [pcq], `Verif.Stars.specType_ends` [pcq], `Verif.Stars.absMag_table` [pcq], `Verif.Stars.absMag_range` [pcq], `Verif.Stars.pick_spec` [pcq], `Verif.Stars.reach_mono` [pcq]

*Note:* In the rationals; the interpolation of scipy is the one of the model.

### C316 — Amplification by a lens

*Status:* proved. *Model and proof:* Monotonicity of 1 + 4 / (w (w + 4)).

*Theorems:* `Verif.Lens.amp_gt_one` [pcq], `Verif.Lens.amp_shape` [pcq], `Verif.Lens.amp_impact` [pcq], `Verif.Lens.amp_peak` [pcq], `Verif.Lens.magnitude_brighter` [pcq]

*Note:* In the reals, for positive impact parameters.

### C317 — Events with magnitudes of their own

*Status:* partial. *Model and proof:* Monotonicity of the logarithm, twice.

*Theorems:* `Verif.Lens.fsfb_inverted` [pcq], `Verif.Lens.fsfb_peak_false` [pcq]

*Note:* Missing: microlensing_amplification_fsfb already gives a magnitude, of which the logarithm is taken again, so such an event is faintest at its peak (fsfb_inverted, fsfb_peak_false).

### C318 — The time of most information

*Status:* partial. *Model and proof:* An inequality between polynomials at the root of a quadratic.

*Theorems:* `Verif.Lens.infoPeak_max` [pcq], `Verif.Lens.infoPeak_snr_false` [pcq]

*Note:* Missing: it is the time for a constant error of the flux (infoPeak_max), not for a constant signal-to-noise ratio (infoPeak_snr_false).

### C319 — Coefficients of the Fisher matrix

*Status:* partial. *Model and proof:* Chain rule.

*Theorems:* `Verif.Lens.coeffs_derivatives` [pcq], `Verif.Lens.coeffsFsfb_derivatives` [pcq], `Verif.Lens.first_is_te_false` [pcq]

*Note:* Missing: the first is the derivative by t0 and the third that by te (first_is_te_false), so the variance read for te is that of t0.

### C320 — The Fisher matrix

*Status:* partial. *Model and proof:* Sums of squares; the loops with the variables they leave behind.

*Theorems:* `Verif.Lens.fisher_psd` [pcq], `Verif.Lens.fisher_add` [pcq], `Verif.Lens.fisher_event` [pcq], `Verif.Lens.fisher_flux_zero` [pcq], `Verif.Lens.fisher_flux_false` [pcq], `Verif.Lens.fisherRun_last` [pcq]

*Note:* Missing: entries of the fluxes are written to a copy and stay zero (fisher_flux_zero, fisher_flux_false); run uses the visits of the last filter for every filter (fisherRun_last).

### C321 — Detected microlensing events

*Status:* partial. *Model and proof:* Count of the matrix of differences as the size of a set of pairs.

*Theorems:* `Verif.Lens.detect_pairs` [pcq], `Verif.Lens.detected_spec` [p], `Verif.Lens.detect_points_false` [pcq]

*Note:* Missing: what is counted are pairs of visits in a filter whose magnitudes differ by detect_sigma times the error (detect_pairs), so an event may be detected with no point above the depth (detect_points_false).

### C322 — Number of points and times of an event

*Status:* partial. *Model and proof:* Counts of filtered lists.

*Theorems:* `Verif.Lens.npts_spec` [pcq], `Verif.Lens.npts_false` [pcq], `Verif.Lens.times_spec` [pcq], `Verif.Lens.times_false` [pcq]

*Note:* Missing: points are counted within one crossing time and not at the peak (npts_spec, npts_false), and times are from the first visit of the point (times_spec, times_false).

### C323 — Draw of the pixels of events

*Status:* proved. *Model and proof:* Search in cumulative sums.

*Theorems:* `Verif.Lens.draw_spec` [pcq], `Verif.Lens.draw_first` [pcq], `Verif.Lens.densest_never` [pcq]

*Note:* A defect, proved as it is.

### C324 — Detected tidal disruption events

*Status:* partial. *Model and proof:* Sizes of lists without repetitions as the existence of different filters.

*Theorems:* `Verif.Kne.prePeak_spec` [pq], `Verif.Kne.prePeak_false` [pcq], `Verif.Kne.someColor_spec` [pcq], `Verif.Kne.someColorPu_spec` [pcq], `Verif.Kne.tde_mono` [pcq], `Verif.Kne.tenDays_false` [pcq]

*Note:* Missing: pre_peak needs one visit more than pts_needed (prePeak_false), and the three filters are needed within five days of the peak and not ten (tenDays_false).

### C325 — Quality of tidal disruption events

*Status:* partial. *Model and proof:* Count of the visits that meet the criterion.

*Theorems:* `Verif.Kne.quality_spec` [pcq], `Verif.Kne.quality_false` [pcq]

*Note:* Missing: an event seen every other night has the score 1/2 (quality_false); quality_spec says what the score is. For a range that holds the five days about the peak.

### C326 — Detected kilonovae

*Status:* proved. *Model and proof:* Counts of filtered lists.

*Theorems:* `Verif.Kne.outside_unseen` [pcq], `Verif.Kne.after_unseen` [pcq], `Verif.Kne.appMag_node` [pq], `Verif.Kne.kn_spec` [pcq], `Verif.Kne.color_two` [pq]

*Note:* For depths up to 99 and no negative extinction or distance modulus.

### C327 — Kilonovae by their rate of change

*Status:* partial. *Model and proof:* Folds for the extremes; the largest and smallest rate.

*Theorems:* `Verif.Kne.rate_spec` [pq], `Verif.Kne.ztf_spec` [pcq], `Verif.Kne.ztf_bands` [pcq], `Verif.Kne.ztf_empty` [pq], `Verif.Kne.ztf_more_false` [pcq]

*Note:* Missing: more visits may lose a kilonova (ztf_more_false); with no visit needed and none there is an exception (ztf_empty).

### C328 — Presto triplets

*Status:* partial. *Model and proof:* Pigeonhole; case analysis of the swap.

*Theorems:* `Verif.Kne.presto_spec` [pcq], `Verif.Kne.presto_two` [pcq], `Verif.Kne.choose_spec` [pq], `Verif.Kne.coords_dmag` [pcq], `Verif.Kne.coords_same_time` [pq]

*Note:* Missing: for two detections at the same time the change is zero whatever the magnitudes (coords_same_time).

### C329 — Presto scores and tables

*Status:* partial. *Model and proof:* Invariant of the table kept; fold of the scores.

*Theorems:* `Verif.Kne.scores_spec` [pcq], `Verif.Kne.loadHash_partial` [p], `Verif.Kne.loadHash_false` [pcq], `Verif.Kne.loadHash_unknown` [p], `Verif.Kne.keepRegion_spec` [pq]

*Note:* Missing: the table kept is that of the first file for a region, whatever file is asked for later (loadHash_false); events at the latitude of the cut are in neither region (keepRegion_spec). The search in the table is not modelled.

### C330 — Populations of kilonovae

*Status:* partial. *Model and proof:* Inverse of the distribution function; the state as an input.

*Theorems:* `Verif.Kne.rndm_spec` [pcq], `Verif.Kne.rndm_volume_false` [pcq], `Verif.Kne.fileIndx_spec` [pcq], `Verif.Kne.knPop_partial` [none], `Verif.Kne.knPop_false` [none]

*Note:* Missing: with positions given the seed is not used and the population depends on what was drawn before (knPop_false). The exponent used is not that of a uniform volume (rndm_volume_false). That uniform_sphere, which is not in this repository, seeds the generator is a hypothesis of knPop_partial.

### C331 — Files of kilonovae by parameters

*Status:* partial. *Model and proof:* Two nested loops as a list of repetitions.

*Theorems:* `Verif.Kne.kne_all` [pq], `Verif.Kne.kne_spec` [pcq], `Verif.Kne.kne_mem` [pcq], `Verif.Kne.kne_once_false` [pcq], `Verif.Kne.kne_key` [pcq]

*Note:* Missing: a file is returned once for each set of parameters that it has (kne_spec, kne_once_false); a file without the parameter is an exception (kne_key). The parsing of the names is not modelled.

### C332 — Light curves of outbursts

*Status:* proved. *Model and proof:* Completion of the square in the exponent.

*Theorems:* `Verif.Xrb.fred_peak` [pcq], `Verif.Xrb.fred_shape` [pcq], `Verif.Xrb.lightcurve_peak` [pcq], `Verif.Xrb.lightcurve_outside` [pcq]

*Note:* In the reals; the infinity at the start of the outburst is none.

### C333 — Duration of outbursts

*Status:* partial. *Model and proof:* Bound of the flux at the end.

*Theorems:* `Verif.Xrb.end_bright` [pcq], `Verif.Xrb.faded_false` [pcq]

*Note:* Missing: the logarithm of the amplitude is added to the times and does not multiply them, so that outbursts end while bright (end_bright, faded_false).

### C334 — Visible duration of outbursts

*Status:* proved. *Model and proof:* Invariant of the loop over filters; unimodal light curve.

*Theorems:* `Verif.Xrb.detectable_spec` [pq], `Verif.Xrb.visible_interval` [pcq], `Verif.Xrb.possible_spec` [pcq]

*Note:* For positive rise and decay times, amplitudes and durations.

### C335 — Detected outbursts

*Status:* partial. *Model and proof:* Telescoping sum of the gaps.

*Theorems:* `Verif.Xrb.detected_during` [pcq], `Verif.Xrb.detect_spec` [pcq], `Verif.Xrb.meanTime_spec` [pcq], `Verif.Xrb.meanTime_false` [pcq], `Verif.Xrb.reduceMean_spec` [pcq]

*Note:* Missing: the start and end of the visible time are among the times, so that the mean is the visible duration over one more than the number of detections, wherever these are (meanTime_spec, meanTime_false).

### C336 — Populations of outbursts

*Status:* partial. *Model and proof:* Assignment by a mask and by its complement.

*Theorems:* `Verif.Xrb.tauRise_spec` [pcq], `Verif.Xrb.pop_seed` [none], `Verif.Xrb.tauRise_false` [pcq]

*Note:* Missing: the parameters of outbursts are from a generator with the seed 42 whatever the seed (pop_seed), and half of the rise times from the state of np.random (tauRise_false).

### C337 — Density of young stars

*Status:* partial. *Model and proof:* Monotonicity of exponent and root.

*Theorems:* `Verif.Yso.density_pos` [pcq], `Verif.Yso.density_sym` [pcq], `Verif.Yso.density_latitude` [pcq], `Verif.Yso.density_longitude` [pcq], `Verif.Yso.disc_total` [pcq], `Verif.Yso.pole_false` [pcq], `Verif.Yso.rGalac_partial` [pcq]

*Note:* Missing: the distance from the axis of the galaxy is that of a star in the plane, so that at the pole the density depends on the longitude (pole_false).

### C338 — Counts of young stars

*Status:* partial. *Model and proof:* Integrals of positive continuous functions.

*Theorems:* `Verif.Yso.count_mono` [pcq], `Verif.Yso.count_bound` [pcq], `Verif.Yso.count_add` [pcq], `Verif.Yso.skyArea_field` [pcq], `Verif.Yso.run_outside` [pcq], `Verif.Yso.run_inside` [pcq], `Verif.Yso.outside_false` [pcq]

*Note:* quad is the integral. Missing: beyond the limit the value is badval, which is zero by default only (outside_false).

### C339 — Distance of young stars

*Status:* partial. *Model and proof:* Inverse of the distance modulus; minimum over filters.

*Theorems:* `Verif.Yso.dist2_spec` [pcq], `Verif.Yso.dist2_empty` [pcq], `Verif.Yso.distance_spec` [pcq], `Verif.Yso.unobserved_zero` [pcq], `Verif.Yso.effective_mono` [pcq], `Verif.Yso.unobserved_first` [pcq], `Verif.Yso.unobserved_false` [pcq]

*Note:* With the extinction of the whole line of sight. Missing: with the three-dimensional one the distance in a filter without visits is the first of the map (unobserved_first, unobserved_false).

### C340 — Light curves of periodic stars

*Status:* proved. *Model and proof:* Periodicity of the sine.

*Theorems:* `Verif.PerStar.mag_periodic` [pcq], `Verif.PerStar.lightcurve_spec` [pcq], `Verif.PerStar.lightcurve_unobserved` [pcq], `Verif.PerStar.phase_days` [pcq]

### C341 — Recovery of periodic stars

*Status:* partial. *Model and proof:* Sum of indicators as the size of a set.

*Theorems:* `Verif.PerStar.recovered_iff` [pcq], `Verif.PerStar.run_spec` [pcq], `Verif.PerStar.run_range` [pcq], `Verif.PerStar.run_few` [pcq], `Verif.PerStar.few_bands` [pcq], `Verif.PerStar.good_mono` [pcq], `Verif.PerStar.good_truth` [pcq], `Verif.PerStar.slice_false` [pcq]

*Note:* The results of curve_fit are inputs. Missing: without a slice point an exception is raised (slice_false).

### C342 — Recovery on short baselines

*Status:* partial. *Model and proof:* Invariant of the loop over the intervals.

*Theorems:* `Verif.PerStar.subrun_zero` [pcq], `Verif.PerStar.modulation_zero` [pcq], `Verif.PerStar.modulation_nan` [pcq], `Verif.PerStar.modulation_false` [pcq]

*Note:* Missing: the number of points is taken from the size of the object that is fitted, which is one, so nothing is ever fitted and the value is zero or nan (modulation_zero, modulation_nan, modulation_false).

### C343 — Intervals of short baselines

*Status:* partial. *Model and proof:* Floor of the quotient.

*Theorems:* `Verif.PerStar.window_mem` [pcq], `Verif.PerStar.window_cover` [pcq], `Verif.PerStar.window_twice` [pcq], `Verif.PerStar.window_none` [pcq], `Verif.PerStar.partition_false` [pcq]

*Note:* Missing: a visit at the end of an interval is in two (window_twice) and one after the last whole interval in none (window_none, partition_false).

### C344 — Spectral window function

*Status:* partial. *Model and proof:* The value at zero is the largest, so sorting puts it last.

*Theorems:* `Verif.PerStar.windowVal_le` [pcq], `Verif.PerStar.periodic_spec` [pcq], `Verif.PerStar.purity_range` [pcq], `Verif.PerStar.purity_alias` [pcq], `Verif.PerStar.periodic_no_float` [pcq]

*Note:* Missing: only with a numpy older than version 1.24, as np.float is used (periodic_no_float).

### C345 — Depth of variability

*Status:* partial. *Model and proof:* Invariant of the loop; argmin.

*Theorems:* `Verif.PerStar.varDepth_spec` [pcq], `Verif.PerStar.varDepth_bright` [pcq], `Verif.PerStar.varDepth_false` [pcq], `Verif.PerStar.scan_last` [pcq]

*Note:* The thresholds and the interpolation are inputs. Missing: for a mean depth of 16 or less an exception is raised (varDepth_bright, varDepth_false).

### C346 — Surface brightness limit of a visit

*Status:* partial. *Model and proof:* Logarithms of the counts; squares of the ratios.

*Theorems:* `Verif.Surf.limit_cases` [pcq], `Verif.Surf.limit_false` [pcq], `Verif.Surf.limit_partial` [pcq], `Verif.Surf.limit_margin` [pcq], `Verif.Surf.margin_sharp` [pcq], `Verif.Surf.warning_false` [pcq]

*Note:* Proved: each limiting case is right for its noise alone, the ratio at the limit is at least nsigma divided by the root of three, and a source 2.5 log 2 magnitudes brighter reaches nsigma. Missing: with all the noise the limit never reaches nsigma (limit_false), and the 0.38 magnitudes of the warning are not enough (warning_false).

### C347 — Surface brightness of a set of visits

*Status:* partial. *Model and proof:* Sums of powers; case distinction.

*Theorems:* `Verif.Surf.run_one` [pcq], `Verif.Surf.run_more` [pcq], `Verif.Surf.one_filter_false` [pcq], `Verif.Surf.run_mixed` [pcq], `Verif.Surf.options` [pcq], `Verif.Surf.skySat_spec` [pcq]

*Note:* Missing: the exception for several filters is made and not raised (one_filter_false, run_mixed); extinctions given alone are ignored and zero points given alone raise (options).

### C348 — Quasar counts

*Status:* partial. *Model and proof:* Double sums over intervals.

*Theorems:* `Verif.Few.cumulative_spec` [pcq], `Verif.Few.qso_spec` [pcq], `Verif.Few.qso_none` [pcq], `Verif.Few.zmax_default` [pcq]

*Note:* The spline is any function through the nodes; the depth is an input. Missing: where saturation is fainter than the depth the count is negative (qso_spec), and without visits in the filter an exception is raised (qso_none).

### C349 — Structure function of active galaxies

*Status:* partial. *Model and proof:* Permutations of the lists of gaps; bounds of weighted sums.

*Theorems:* `Verif.Few.sfWeight_default` [pcq], `Verif.Few.weight_false` [pcq], `Verif.Few.sf_few` [pcq], `Verif.Few.sf_bounds` [pcq], `Verif.Few.sfGaps_spec` [pcq], `Verif.Few.sf_perm` [pcq]

*Note:* Without the rounding to half precision; mad_std is an input. Missing: weights that are given are not kept and an exception is raised (weight_false).

### C350 — Distances of brown dwarfs

*Status:* partial. *Model and proof:* Monotone sums; interpolation on a monotone grid.

*Theorems:* `Verif.Few.colors_cases` [pcq], `Verif.Few.colors_false` [pcq], `Verif.Few.bdSnr_eq` [pcq], `Verif.Few.bdSnr_anti` [pcq], `Verif.Few.bdSnr_more` [pcq], `Verif.Few.bd_between` [pcq], `Verif.Few.bd_beyond` [pcq], `Verif.Few.bd_bad` [pcq], `Verif.Few.bd_more` [pcq], `Verif.Few.volume_ball` [pcq]

*Note:* Missing: the colours of L3 are a tuple, with which the metric cannot be made (colors_false); beyond the largest distance the value is extrapolated (bd_beyond).

### C351 — Times of a night

*Status:* proved. *Model and proof:* Lengths of ranges.

*Theorems:* `Verif.Few.nightTimes_spec` [pcq], `Verif.Few.nightTimes_nil` [pcq]

*Note:* Without the positions.

### C352 — Detection of periodic stars

*Status:* proved. *Model and proof:* Weighted means of constants; periodicity of the sine.

*Theorems:* `Verif.Few.detect_bounds` [pcq], `Verif.Few.chi1_constant` [pcq], `Verif.Few.detect_constant` [pcq], `Verif.Few.constant_cases` [pcq], `Verif.Few.detect_needs` [pcq], `Verif.Few.starsOf_length` [pcq], `Verif.Few.starsOf_get` [pcq]

*Note:* The survival function of the F distribution is an input that is one for values that are not positive.

### C353 — Season numbers of the supernova metric

*Status:* proved. *Model and proof:* Induction over the list of long gaps.

*Theorems:* `Verif.SnN.getseason_spec` [pcq], `Verif.SnN.getseason_next` [pcq], `Verif.SnN.getseason_first` [pcq]

*Note:* For the times after the sort.

### C354 — Nightly coaddition of the supernova metric

*Status:* partial. *Model and proof:* Sums over the keys; convexity of the exponential.

*Theorems:* `Verif.SnN.coadd_keys` [pcq], `Verif.SnN.coadd_totals` [pcq], `Verif.SnN.coadd_depth_le` [pcq], `Verif.SnN.coadd_depth_eq` [pcq], `Verif.SnN.coadd_single` [pcq], `Verif.SnN.coadd_single_iff` [pcq], `Verif.SnN.coadd_single_false` [pcq], `Verif.SnN.coadd_time` [pcq]

*Note:* The depth is right for visits of the median exposure time with one depth, and never too deep for visits of the median exposure time. Missing: a visit alone in its night and filter whose exposure time is not the median gets another depth (coadd_single_iff, coadd_single_false).

### C355 — Season length against redshift

*Status:* proved. *Model and proof:* Linear inequalities.

*Theorems:* `Verif.SnN.t0_window` [pcq], `Verif.SnN.keptZ_iff` [pcq], `Verif.SnN.keptZ_mono` [pcq], `Verif.SnN.keptZ_default` [pcq]

*Note:* The tables are lists of redshifts of one season.

### C356 — Simulated days of maximum

*Status:* partial. *Model and proof:* Floor and linspace.

*Theorems:* `Verif.SnN.calcDaymax_grid` [pcq], `Verif.SnN.calcDaymax_step_gt` [pcq], `Verif.SnN.calcDaymax_step_false` [pcq], `Verif.SnN.calcDaymax_short` [pcq]

*Note:* Missing: the step is always longer than daymax_step (calcDaymax_step_gt, calcDaymax_step_false).

### C357 — Epochs of a light curve

*Status:* partial. *Model and proof:* Steps of sorted lists.

*Theorems:* `Verif.SnN.epochs_spec` [pcq], `Verif.SnN.epochs_one` [pq], `Verif.SnN.epochs_none` [p], `Verif.SnN.epochs_false` [pcq], `Verif.SnN.epochs_cut_partial` [pcq]

*Note:* Proved for two points or more, and cuts of two epochs or more are right. Missing: a single point counts as no epoch (epochs_one, epochs_false).

### C358 — Selection efficiency of supernovae

*Status:* proved. *Model and proof:* Filters of lists; real inequalities.

*Theorems:* `Verif.SnN.t0s_spec` [pcq], `Verif.SnN.pointsOf_mem` [pcq], `Verif.SnN.sampled_iff` [pcq], `Verif.SnN.efficiencies_sel` [pcq], `Verif.SnN.effi_bounds` [pcq], `Verif.SnN.effi_ends` [pcq], `Verif.SnN.efficiencies_unseen` [pcq]

*Note:* For cuts of two epochs or more. The variance of the colour is an input; supernovae without a point of the least signal to noise are not in the total (efficiencies_unseen).

### C359 — Redshift limit of a season

*Status:* proved. *Model and proof:* Induction along the points of the interpolation.

*Theorems:* `Verif.SnN.zlim_spec` [pcq], `Verif.SnN.zlim_between` [pcq], `Verif.SnN.zlim_zero` [pcq], `Verif.SnN.zlim_first_only` [pcq]

*Note:* Without the rounding to six decimals. With all supernovae at the first redshift the value is -1, too (zlim_first_only).

### C360 — Number of supernovae

*Status:* partial. *Model and proof:* Sums over bins; filters.

*Theorems:* `Verif.SnN.getNsn_sum` [pcq], `Verif.SnN.getNsn_last_bin` [pcq], `Verif.SnN.getNsn_bounds` [pcq], `Verif.SnN.finalRow_none` [pcq], `Verif.SnN.finalRow_sum` [pcq], `Verif.SnN.nsnOf_low` [pcq], `Verif.SnN.n_sn_false` [pcq], `Verif.SnN.n_sn_partial` [pcq]

*Note:* Missing: one bin wholly above the limit is counted (getNsn_last_bin), and a season with a mean efficiency of at most 0.02 counts -1, so that the number can be negative (n_sn_false).

### C361 — Expected number of supernovae

*Status:* partial. *Model and proof:* Entries of the arrays.

*Theorems:* `Verif.SnN.snRate_bin` [pcq], `Verif.SnN.snRate_length` [pcq], `Verif.SnN.snRate_reach` [pcq], `Verif.SnN.snRate_nonneg` [pcq], `Verif.SnN.snRate_area` [pcq], `Verif.SnN.edgeDuration_spec` [pcq], `Verif.SnN.expected_at_zmin` [pcq], `Verif.SnN.given_bins` [pcq], `Verif.SnN.given_bins_false` [pcq], `Verif.SnN.made_bins` [pcq]

*Note:* The comoving volume is an input. Missing: bins that are given do not fit (given_bins_false); at zmin itself none is expected (expected_at_zmin).

### C362 — Rates of supernovae

*Status:* proved. *Model and proof:* Monotonicity of powers.

*Theorems:* `Verif.SnN.perrett_spec` [pcq], `Verif.SnN.perrett_err` [pcq], `Verif.SnN.capped_rates` [pcq], `Verif.SnN.snRateOf_known` [pcq], `Verif.SnN.snRateOf_names` [pcq]

*Note:* For arrays of redshifts; another name gives None.

### C363 — Variance of the colour

*Status:* proved. *Model and proof:* Adjugate; determinant of block-diagonal matrices.

*Theorems:* `Verif.SnN.varColor_spec` [pcq], `Verif.SnN.varColor_solves` [pcq], `Verif.SnN.sigmas_eq` [pcq], `Verif.SnN.sigmas_none` [pcq]

*Note:* In exact arithmetic.

### C364 — Cached reference files

*Status:* proved. *Model and proof:* Invariant of the cache.

*Theorems:* `Verif.SnN.loadCached_ok` [p], `Verif.SnN.loadAll_data` [p], `Verif.SnN.loadAll_reads` [p]

*Note:* The files do not change; one thread.

### C365 — Points of a light curve

*Status:* proved. *Model and proof:* Induction over rows of the masked arrays.

*Theorems:* `Verif.SnN.flagged_iff` [pcq], `Verif.SnN.flat_zip` [p], `Verif.SnN.byRow_flat` [pq], `Verif.SnN.tile_get` [p]

*Note:* The fluxes are inputs.

### C366 — Lensed supernovae

*Status:* partial. *Model and proof:* Case distinction; sums of options.

*Theorems:* `Verif.SnN.nLensed_spec` [pcq], `Verif.SnN.nLensed_anti` [pcq], `Verif.SnN.seasonLensed_skip` [pcq], `Verif.SnN.seasonLensed_none` [pcq], `Verif.SnN.lensedRun_num` [pcq], `Verif.SnN.lensedRun_nothing` [pcq], `Verif.SnN.lensed_zero_false` [pcq], `Verif.SnN.lensed_nan_false` [pcq]

*Note:* calc_season belongs to another package: the season is an input. Missing: visits none of which is deep enough give -666, not zero (lensed_zero_false); a season all of whose visits are in one night makes the value not a number (lensed_nan_false).

### C367 — Bundles of a plot handler

*Status:* partial. *Model and proof:* Induction over the insertions.

*Theorems:* `Verif.PlotH.setBundles_spec` [pcq], `Verif.PlotH.ordered_stay` [pcq], `Verif.PlotH.order_false` [pcq], `Verif.PlotH.same_band_reversed` [pq], `Verif.PlotH.forder_spec` [pq], `Verif.PlotH.insert_spec` [pq]

*Note:* Missing: bundles which are not given in the order of the bands are not put into it (order_false, same_band_reversed).

### C368 — Precedence of plot options

*Status:* partial. *Model and proof:* Lookup in the updated dictionaries; induction over the calls.

*Theorems:* `Verif.PlotH.resolve_spec` [pcq], `Verif.PlotH.documented_partial` [pcq], `Verif.PlotH.documented_false` [none], `Verif.PlotH.history` [pq], `Verif.PlotH.leak` [pq], `Verif.PlotH.userDict_spec` [p]

*Note:* Missing: labels of the axes made by the handler replace those set before (documented_false). The check of C369 comes after it.

### C369 — Conflicts of plot options

*Status:* partial. *Model and proof:* Induction over the keys.

*Theorems:* `Verif.PlotH.checkDicts_spec` [pcq], `Verif.PlotH.check_agrees` [pcq], `Verif.PlotH.limits_lost` [pcq], `Verif.PlotH.color_max_dropped` [pcq]

*Note:* For values that are not None. Missing: limits of an axis are dropped although the bundles agree (limits_lost), and so are different limits of the colours (color_max_dropped).

### C370 — Place of a joint plot on the page

*Status:* partial. *Model and proof:* Induction over the bundles.

*Theorems:* `Verif.PlotH.displayOrder_bounds` [pcq], `Verif.PlotH.displayOrder_false` [pq], `Verif.PlotH.displayGroup_spec` [pcq]

*Note:* Missing: the place depends on the order of the bundles (displayOrder_false).

### C371 — Joint label of several bundles

*Status:* partial. *Model and proof:* Membership in the parts.

*Theorems:* `Verif.PlotH.combine_raises_iff` [pcq], `Verif.PlotH.combine_subset_false` [pcq], `Verif.PlotH.combine_complete_partial` [pcq], `Verif.PlotH.combine_complete_false` [p]

*Note:* The splitting of a label into phrases and words is a parameter. Missing: labels whose phrases are all in the others (combine_raises_iff), and several phrases of one label (combine_complete_false).

### C372 — Joint name of several metrics

*Status:* partial. *Model and proof:* Independence of the order of the set.

*Theorems:* `Verif.PlotH.jointName_bands` [pq], `Verif.PlotH.jointName_false` [pcq], `Verif.PlotH.jointName_one` [p], `Verif.PlotH.jointName_uneven` [p]

*Note:* Missing: names that differ in other words than bands (jointName_false).

### C373 — Colours of several bundles

*Status:* partial. *Model and proof:* Pieces of the constraint.

*Theorems:* `Verif.PlotH.guessColor_band` [pcq], `Verif.PlotH.random_colors` [pcq], `Verif.PlotH.band_colors_false` [pcq], `Verif.PlotH.own_color` [pcq], `Verif.PlotH.guessColor_last` [pcq]

*Note:* Missing: constraints without the word filter (random_colors, band_colors_false).

### C374 — What a plot draws and saves

*Status:* proved. *Model and proof:* Filter over the bundles.

*Theorems:* `Verif.PlotH.plot_spec` [pq], `Verif.PlotH.plot_refused` [pq]

*Note:* Drawing is not modelled.

### C375 — Zero point and norm of a plot

*Status:* proved. *Model and proof:* Field arithmetic.

*Theorems:* `Verif.PlotH.applyZpNorm_spec` [pcq]

*Note:* In any field.

### C376 — Limits of the colours

*Status:* partial. *Model and proof:* Least and greatest elements of a list.

*Theorems:* `Verif.Plotters.colorLims_user` [pq], `Verif.Plotters.colorLims_range` [pcq], `Verif.Plotters.colorLims_data` [pcq], `Verif.Plotters.colorLims_empty` [pq], `Verif.Plotters.colorLims_range_false` [pcq]

*Note:* Missing: a range when the user gives one limit (colorLims_range_false).

### C377 — Bins of a histogram of given width

*Status:* partial. *Model and proof:* Bounds of the ceiling.

*Theorems:* `Verif.Plotters.histBins_edges` [pcq], `Verif.Plotters.histBins_narrow` [pcq], `Verif.Plotters.histBins_covers_false` [pcq], `Verif.Plotters.histBins_covers_partial` [pcq]

*Note:* Missing: ranges that are not whole numbers of bins (histBins_covers_false).

### C378 — Longitude on a map of the sky

*Status:* proved. *Model and proof:* Bounds of the floor.

*Theorems:* `Verif.Plotters.skyLon_range` [pcq], `Verif.Plotters.skyLon_turns` [pcq], `Verif.Plotters.skyLon_unique` [pcq]

*Note:* Any ordered field with a floor.

### C379 — Visits in singles, pairs and triples

*Status:* partial. *Model and proof:* Counting by induction.

*Theorems:* `Verif.Plotters.pairBars_spec` [pcq], `Verif.Plotters.pairBars_total` [pcq], `Verif.Plotters.pairBars_total_false` [pcq], `Verif.Plotters.pairBars_short` [pcq]

*Note:* Whole numbers of visits. Missing: the nights with the most visits (pairBars_short).

### C380 — Plots leave the values as they are

*Status:* partial. *Model and proof:* Induction over the values.

*Theorems:* `Verif.Plotters.twoDMap_spec` [pq], `Verif.Plotters.twoDMap_twice` [pq], `Verif.Plotters.twoDMap_unchanged_false` [p], `Verif.Plotters.twoDMap_unchanged_partial` [p]

*Note:* Missing: a colour minimum (twoDMap_unchanged_false).

### C381 — Plots of one axis of several

*Status:* partial. *Model and proof:* Sums over the product of the bins.

*Theorems:* `Verif.Plotters.oneDSubset_ndslicer` [p], `Verif.Plotters.oneDSubset_partial` [pcq], `Verif.Plotters.oneDSubset_false` [p], `Verif.Plotters.oneDSubset_two` [pcq], `Verif.Plotters.oneDSubset_total` [pcq]

*Note:* Missing: the slicer of the package (oneDSubset_ndslicer) and other numbers of bins (oneDSubset_false).

### C382 — Plots of two axes of several

*Status:* partial. *Model and proof:* Sums over the product of the bins.

*Theorems:* `Verif.Plotters.twoDSubset_partial` [pq], `Verif.Plotters.twoDSubset_transposed` [p], `Verif.Plotters.twoDSubset_false` [p]

*Note:* Missing: the x axis first (twoDSubset_transposed); the missing attribute is in C381.

### C383 — Orbit plots with the default options, stated as it is

*Status:* proved. *Model and proof:* Membership of keys.

*Theorems:* `Verif.Plotters.orbitLookups_default` [p], `Verif.Plotters.orbitLookups_hvals` [p]

*Note:* The keys that are looked up on the way.

### C384 — Bins of H

*Status:* partial. *Model and proof:* Counting the edges of a grid.

*Theorems:* `Verif.Plotters.hIndex_spec` [pcq], `Verif.Plotters.hIndex_narrow` [pcq], `Verif.Plotters.hIndex_step_false` [pcq], `Verif.Plotters.hIndex_step_partial` [pcq]

*Note:* Missing: a range of less than one magnitude (hIndex_narrow).

### C385 — Diameter for H and albedo

*Status:* proved. *Model and proof:* Powers and logarithms over the reals.

*Theorems:* `Verif.Plotters.diameter_formula` [pcq], `Verif.Plotters.diameter_unit` [pcq], `Verif.Plotters.diameter_five` [pcq]

*Note:* Over the reals.

### C386 — Cumulative area against number of visits

*Status:* proved. *Model and proof:* Counting in the sorted list.

*Theorems:* `Verif.Plotters.foCurve_get` [pcq], `Verif.Plotters.foCurve_area` [pcq], `Verif.Plotters.foCurve_bounds` [pcq]

*Note:* Masked values are left out before.

### C387 — Summed histograms

*Status:* proved. *Model and proof:* Exchange of sums.

*Theorems:* `Verif.Plotters.summaryHist_bin` [pq], `Verif.Plotters.summaryHist_total` [pq], `Verif.Plotters.summaryHist_cumulative` [pq]

*Note:* For the metric SumMetric.

### C388 — Luminosity of simulated dwarfs

*Status:* proved. *Model and proof:* Powers and logarithms over the reals.

*Theorems:* `Verif.Dwarf.fakeLF_total` [pcq], `Verif.Dwarf.sumLuminosity_spec` [pcq], `Verif.Dwarf.distMod_spec` [pcq]

*Note:* Over the reals; counts above zero.

### C389 — Limit of detected dwarfs

*Status:* partial. *Model and proof:* Invariant of the loop.

*Theorems:* `Verif.Dwarf.limitDwarf_spec` [pcq], `Verif.Dwarf.limitDwarf_exists_false` [p], `Verif.Dwarf.limitDwarf_exists_partial` [pq]

*Note:* Missing: dwarfs of which no star is seen (limitDwarf_exists_false).

### C390 — Stars needed to detect a dwarf

*Status:* partial. *Model and proof:* Attributes of the inner metric; arithmetic.

*Theorems:* `Verif.Dwarf.starDensity_default` [pcq], `Verif.Dwarf.starDensity_depth_false` [pcq], `Verif.Dwarf.starsRequired_spec` [pcq], `Verif.Dwarf.starsRequired_missing` [pcq]

*Note:* Missing: the depth has no effect (starDensity_depth_false).

### C391 — Limit of the distance of dwarfs

*Status:* partial. *Model and proof:* Cases.

*Theorems:* `Verif.Dwarf.distValue_spec` [pcq], `Verif.Dwarf.distValue_documented_false` [pcq], `Verif.Dwarf.distValue_unit_false` [pcq], `Verif.Dwarf.distValue_partial` [pcq]

*Note:* Missing: numbers (distValue_documented_false) and other units (distValue_unit_false).

### C392 — Counts of galaxies in redshift bins

*Status:* partial. *Model and proof:* Sums over the bins.

*Theorems:* `Verif.Dwarf.bandCorrection_colors` [pcq], `Verif.Dwarf.galCount_all` [pcq], `Verif.Dwarf.galCount_unknown` [pcq], `Verif.Dwarf.galCount_cfht` [pcq], `Verif.Dwarf.galTotal_spec` [pcq], `Verif.Dwarf.galTotal_bins_false` [pcq], `Verif.Dwarf.galTotal_bins_partial` [pcq]

*Note:* The integral is a parameter. Missing: small totals (galTotal_bins_false).

### C393 — Magnitudes of typical stars

*Status:* proved. *Model and proof:* Lookup and arithmetic.

*Theorems:* `Verif.Dwarf.stellarMags_spec` [pcq], `Verif.Dwarf.stellarMags_known` [pcq], `Verif.Dwarf.table_redder` [pcq]

*Note:* Rational numbers.

### C394 — Start of the survey for transients of a table

*Status:* partial. *Model and proof:* Invariant over the points.

*Theorems:* `Verif.SedT.setupAll_start` [pq], `Verif.SedT.setupAll_first` [pq], `Verif.SedT.start_documented_false` [pcq], `Verif.SedT.start_documented_partial` [pq], `Verif.SedT.setupAll_years` [pcq]

*Note:* Missing: points after the first (start_documented_false).

### C395 — Phases of transients of a table

*Status:* partial. *Model and proof:* Bounds of the floor.

*Theorems:* `Verif.SedT.epoch_range` [pcq], `Verif.SedT.ident_zero` [pcq], `Verif.SedT.same_transient_partial` [pcq], `Verif.SedT.same_transient_false` [pcq], `Verif.SedT.same_transient_split` [pcq], `Verif.SedT.shifts_spec` [pcq]

*Note:* Missing: shifts (same_transient_false).

### C396 — Detection of transients of a table

*Status:* proved. *Model and proof:* Counting; induction over the shifts.

*Theorems:* `Verif.SedT.detected_spec` [pcq], `Verif.SedT.run_spec` [pcq]

*Note:* The limit of the time between bands is in C397; the visits of one number are taken to be next to each other, as they are sorted by time.

### C397 — Bands within a given time

*Status:* partial. *Model and proof:* Slices of the sorted list.

*Theorems:* `Verif.SedT.inTime_sound` [pcq], `Verif.SedT.inTime_partial` [pcq], `Verif.SedT.inTime_never` [pq], `Verif.SedT.inTime_documented_false` [pcq]

*Note:* For detections in order of their phase. Missing: the last detection (inTime_documented_false).

### C398 — Thresholds of transients of a table

*Status:* partial. *Model and proof:* Induction over the visits.

*Theorems:* `Verif.SedT.mkRows_known` [pcq], `Verif.SedT.mkRows_get` [pq], `Verif.SedT.thresholds_documented_false` [pcq]

*Note:* Missing: bands without a threshold (thresholds_documented_false).

### C399 — Where make_lsst_obs writes

*Status:* partial. *Model and proof:* Normal form of paths.

*Theorems:* `Verif.SsPipe.saved_place` [pcq], `Verif.SsPipe.saved_iff` [pcq], `Verif.SsPipe.makeObs_partial` [pcq], `Verif.SsPipe.makeObs_false` [pcq], `Verif.SsPipe.makeObs_name` [pcq]

*Note:* Paths without links and parent directories. Missing: relative directories (makeObs_false).

### C400 — The script of generate_ss works together

*Status:* partial. *Model and proof:* Composition of the models of the programs.

*Theorems:* `Verif.SsPipe.line_chain` [pcq], `Verif.SsPipe.pairs_partial` [pcq], `Verif.SsPipe.pairs_false` [pcq], `Verif.SsPipe.pairs_spec` [pcq]

*Note:* Missing: names with the word tracking (pairs_false).

### C401 — Populations of generate_ss

*Status:* proved. *Model and proof:* Lookup.

*Theorems:* `Verif.SsPipe.script_known` [pcq], `Verif.SsPipe.objtypes_known` [pcq], `Verif.SsPipe.objtypes_differ` [p]

*Note:* Lookup in the dicts of the script.

### C402 — Split populations of generate_ss, stated as they are

*Status:* proved. *Model and proof:* Composition of the models of the programs.

*Theorems:* `Verif.SsPipe.split_usage` [pcq], `Verif.SsPipe.split_file` [pcq], `Verif.SsPipe.splitDir_agrees` [pcq]

*Note:* Stated as it is: the commands for parts are refused.

### C403 — Inputs of run_moving_calc

*Status:* partial. *Model and proof:* Cases.

*Theorems:* `Verif.SsPipe.calc_iff` [pcq], `Verif.SsPipe.calc_optional_false` [pcq], `Verif.SsPipe.calc_cases` [pcq]

*Note:* Missing: runs without the file of the simulation (calc_optional_false).

### C404 — H values and populations of run_moving_calc

*Status:* proved. *Model and proof:* Length and entries of arange.

*Theorems:* `Verif.SsPipe.hRange_spec` [pcq], `Verif.SsPipe.hRange_exact` [pcq], `Verif.SsPipe.defaults_valid` [pcq], `Verif.SsPipe.popDefaults_total` [pcq], `Verif.SsPipe.char_iff` [pcq], `Verif.SsPipe.population_alias` [pcq], `Verif.SsPipe.defaults_outer` [pcq]

*Note:* Rational numbers; case of ASCII letters.

### C405 — Joining the parts of a population

*Status:* partial. *Model and proof:* Fold over the parts.

*Theorems:* `Verif.SsPipe.joins_iff` [pcq], `Verif.SsPipe.combine_never` [q], `Verif.SsPipe.sameSlicer_iff` [p], `Verif.SsPipe.sameSlicer_false` [pq], `Verif.SsPipe.joinValues_spec` [pcq], `Verif.SsPipe.join_mask_false` [pcq], `Verif.SsPipe.splitDir_root` [pcq]

*Note:* Missing: the joined bundle (combine_never) and the masks (join_mask_false).

### C406 — Times and files of run_moving_fractions

*Status:* proved. *Model and proof:* Entries of arange.

*Theorems:* `Verif.SsPipe.times_spec` [pcq], `Verif.SsPipe.times_ends` [pcq], `Verif.SsPipe.selected_iff` [pcq], `Verif.SsPipe.selected_sub` [pcq], `Verif.SsPipe.figroot_spec` [pcq]

*Note:* Patterns of glob in the metadata are left out.

### C407 — H marks of the summaries

*Status:* partial. *Model and proof:* Invariant of the loop.

*Theorems:* `Verif.SsPipe.compMark_spec` [pcq], `Verif.SsPipe.fracMarks_single_partial` [pcq], `Verif.SsPipe.fracMarks_kept` [pcq], `Verif.SsPipe.fracMarks_false` [pcq], `Verif.SsPipe.fracMarks_none` [pcq]

*Note:* Missing: more than one bundle (fracMarks_false).

### C408 — Which metrics have a completeness

*Status:* proved. *Model and proof:* Cases.

*Theorems:* `Verif.SsPipe.compKind_iff` [pcq], `Verif.SsPipe.compKind_kind` [pcq]

*Note:* Names as lists of letters.

### C409 — Directories in the tracking database

*Status:* partial. *Model and proof:* Relative paths and their meaning.

*Theorems:* `Verif.Tools.common_spec` [pcq], `Verif.Tools.resolve_rel` [pcq], `Verif.Tools.resolve_iff` [pcq], `Verif.Tools.addToDb_partial` [pcq], `Verif.Tools.looked_default` [pcq], `Verif.Tools.show_default` [pcq], `Verif.Tools.addToDb_false` [pcq]

*Note:* Directories without links. Missing: databases elsewhere (addToDb_false, show_default).

### C410 — Directories in the web pages

*Status:* partial. *Model and proof:* Relative paths and their meaning.

*Theorems:* `Verif.Tools.opened_partial` [pcq], `Verif.Tools.opened_iff` [pcq], `Verif.Tools.opened_false` [pcq]

*Note:* Missing: other current directories (opened_false).

### C411 — Pages of show_maf

*Status:* partial. *Model and proof:* Ids of the database; minimum.

*Theorems:* `Verif.Tools.startRun_spec` [pcq], `Verif.Tools.startRun_new` [pcq], `Verif.Tools.startRun_first_partial` [none], `Verif.Tools.dataPage_never` [pcq]

*Note:* Missing: databases with runs (startRun_new) and the data (dataPage_never).

### C412 — Names of runs in the tracking database

*Status:* proved. *Model and proof:* Splitting of strings.

*Theorems:* `Verif.Tools.runComment_spec` [pcq], `Verif.Tools.runGroup_spec` [pcq]

*Note:* Strings as lists of letters.

### C413 — Versions in the tracking database

*Status:* partial. *Model and proof:* Invariant of the loop.

*Theorems:* `Verif.Tools.versions_partial` [p], `Verif.Tools.versions_stale` [none], `Verif.Tools.versions_false` [pcq], `Verif.Tools.versions_ok_iff` [pq], `Verif.Tools.versionOf_spec` [none]

*Note:* Missing: results without rows (versions_false).

### C414 — Batches for all files of a directory

*Status:* partial. *Model and proof:* Fold over the files.

*Theorems:* `Verif.Tools.dbFiles_iff` [pcq], `Verif.Tools.metaFiles_iff` [pcq], `Verif.Tools.job_file_partial` [pcq], `Verif.Tools.job_file_false` [pcq], `Verif.Tools.job_dir_partial` [pcq], `Verif.Tools.afterAll_spec` [pcq], `Verif.Tools.afterAll_partial` [pcq], `Verif.Tools.afterAll_false` [pcq]

*Note:* Missing: names with more than one .db (afterAll_false) and files elsewhere (job_file_false).

### C415 — Sets of data

*Status:* proved. *Model and proof:* Lookup.

*Theorems:* `Verif.Tools.testing_spec` [pcq], `Verif.Tools.baseline_spec` [pcq]

*Note:* Names and versions as they are.

### C416 — Detection rate of faint supernovae

*Status:* partial. *Model and proof:* Exceptions as values through the whole chain.

*Theorems:* `Verif.SnSnr.SNR_no_fakes` [pq], `Verif.SnSnr.SNR_run` [pcq], `Verif.SnSnr.SNR_columns` [pq], `Verif.SnSnr.SNR_rate` [pcq], `Verif.SnSnr.SNR_regular_false` [pcq]

*Note:* Missing: any value for regular cadences (SNR_run, SNR_regular_false).

### C417 — Seasons of the signal to noise metric

*Status:* partial. *Model and proof:* Induction over the seasons.

*Theorems:* `Verif.SnSnr.SNR_season_info` [pcq], `Verif.SnSnr.SNR_moved` [pcq], `Verif.SnSnr.SNR_moved_start` [pcq], `Verif.SnSnr.SNR_checked` [pcq], `Verif.SnSnr.SNR_checked_false` [pcq]

*Note:* Missing: a single season (SNR_checked_false).

### C418 — Days of maximum

*Status:* partial. *Model and proof:* arange as a set; places in sorted lists.

*Theorems:* `Verif.SnSnr.SNR_days` [pcq], `Verif.SnSnr.SNR_season_of` [pcq], `Verif.SnSnr.SNR_info_of` [pcq], `Verif.SnSnr.SNR_info_false` [pcq]

*Note:* Missing: seasons in another order (SNR_info_false).

### C419 — Signal to noise of a light curve

*Status:* proved. *Model and proof:* Sums of squares.

*Theorems:* `Verif.SnSnr.SNR_quadrature` [pcq], `Verif.SnSnr.SNR_more` [pcq], `Verif.SnSnr.SNR_five` [pcq]

*Note:* The light curve is any function.

### C420 — Fake observations

*Status:* proved. *Model and proof:* Membership and permutations.

*Theorems:* `Verif.SnSnr.SNR_fake_times` [pcq], `Verif.SnSnr.SNR_fake_number` [pcq], `Verif.SnSnr.SNR_fake_depth` [pcq], `Verif.SnSnr.SNR_fakes` [pcq], `Verif.SnSnr.SNR_coadd` [pcq]

*Note:* Real numbers for floats.

### C421 — Limits for supernovae

*Status:* proved. *Model and proof:* Sums of squares by residues.

*Theorems:* `Verif.SnSnr.SNR_lim` [pcq], `Verif.SnSnr.SNR_contour` [pcq], `Verif.SnSnr.SNR_last_file` [pq]

*Note:* Contours and interpolation are not modelled.

### C422 — Number of a new simulation

*Status:* partial. *Model and proof:* Maximum of a list; induction on the number of simulations; two programs as a state machine.

*Theorems:* `Verif.Proto.index_spec` [pq], `Verif.Proto.index_fresh` [pq], `Verif.Proto.index_sequence` [pq], `Verif.Proto.index_race` [p], `Verif.Proto.index_no_race` [pq]

*Note:* Proved for one program at a time; two at once get the same directory.

### C423 — Transfer of a simulation into the archive

*Status:* partial. *Model and proof:* Induction over the files.

*Theorems:* `Verif.Proto.transfer_spec` [pcq], `Verif.Proto.transfer_fail` [pq], `Verif.Proto.transfer_fail_false` [none]

*Note:* A failed transfer leaves no metadata unless they list themselves.

### C424 — Check of an archived simulation

*Status:* partial. *Model and proof:* Invariant of the files that are collected; composition with the transfer.

*Theorems:* `Verif.Proto.check_spec` [pcq], `Verif.Proto.check_exported` [pcq], `Verif.Proto.made_check_partial` [pcq], `Verif.Proto.made_check_false` [pcq], `Verif.Proto.check_changed` [pcq]

*Note:* False for exported simulations and for a file named like the metadata.

### C425 — Files of a simulation

*Status:* partial. *Model and proof:* Dictionaries with order; last write wins.

*Theorems:* `Verif.Proto.made_files_partial` [pcq], `Verif.Proto.made_files_false` [pcq], `Verif.Proto.cli_types` [pq], `Verif.Proto.cli_false` [none]

*Note:* False for files of one name; the command line loses the types.

### C426 — Reading the archived metadata

*Status:* proved. *Model and proof:* Lookup in the result; order by induction over the days.

*Theorems:* `Verif.Proto.read_direct` [pcq], `Verif.Proto.read_order` [pcq], `Verif.Proto.read_verify` [pcq]

*Note:* For archives with no URI twice and days since 1900; with verification also for values in the compilation that are those of the archive.

### C427 — Compiled metadata as a cache

*Status:* partial. *Model and proof:* State machine; invariant by induction: the compilation is that of a day with all simulations before that day.

*Theorems:* `Verif.Proto.cache_sound` [pcq], `Verif.Proto.archive_keeps` [pq], `Verif.Proto.cache_false` [none]

*Note:* Proved for windows within the nights that are compiled; false for longer ones.

### C428 — Tables of a compilation

*Status:* partial. *Model and proof:* Tables as lists of rows; union of the columns.

*Theorems:* `Verif.Proto.compile_ok_iff` [pcq], `Verif.Proto.compile_first_only` [pcq], `Verif.Proto.tables_spec` [pcq], `Verif.Proto.tables_round_partial` [pcq], `Verif.Proto.tables_round_false` [p]

*Note:* The round trip holds with all dates and the same keys in all files; what happens otherwise is proved. Values are never None or NaN.

### C429 — Verification of a compilation

*Status:* proved. *Model and proof:* Membership in the concatenation.

*Theorems:* `Verif.Proto.differences_nil` [pq], `Verif.Proto.differences_mem` [pq]

*Note:* The comparison of values is arbitrary.

### C430 — Most recent simulation for nights

*Status:* partial. *Model and proof:* Invariant of the loop over the simulations.

*Theorems:* `Verif.Proto.find_spec` [pcq], `Verif.Proto.find_raises` [pcq], `Verif.Proto.find_exported` [pcq], `Verif.Proto.find_read` [pcq], `Verif.Proto.find_latest_partial` [pcq], `Verif.Proto.find_latest_false` [pcq]

*Note:* The most recent one only among those of one day.

### C431 — Visits of the most recent simulation

*Status:* partial. *Model and proof:* Exceptions as values; the empty window.

*Theorems:* `Verif.Proto.fetch_none` [none], `Verif.Proto.fetch_some` [pq], `Verif.Proto.tap_ahead` [pcq], `Verif.Proto.ages` [pcq]

*Note:* TypeError instead of no visits.

### C432 — Anomalous overheads keep to the minimum

*Status:* proved. *Model and proof:* Linear arithmetic over the cases.

*Theorems:* `Verif.Snapshot.overhead_min` [pcq], `Verif.Snapshot.overhead_value` [pcq], `Verif.Snapshot.overhead_warn` [pq], `Verif.Snapshot.overhead_unchecked` [pcq]

### C433 — Scatter of the slew

*Status:* partial. *Model and proof:* Linear arithmetic over the cases.

*Theorems:* `Verif.Snapshot.slew_value` [pcq], `Verif.Snapshot.slew_nonneg` [pcq], `Verif.Snapshot.slewLoc_negative` [pq], `Verif.Snapshot.slewLoc_false` [pcq], `Verif.Snapshot.slew_array` [pq]

*Note:* False for a negative location without a scale.

### C434 — Results of prenight simulations from the command line

*Status:* partial. *Model and proof:* Disk as a dictionary; temporary directories are removed with their objects.

*Theorems:* `Verif.Snapshot.cli_results` [pcq], `Verif.Snapshot.cli_default` [pcq], `Verif.Snapshot.cli_false` [pcq], `Verif.Snapshot.anom_iff` [pq]

*Note:* False without a directory for the results.

### C435 — Running and archiving a simulation

*Status:* partial. *Model and proof:* Disk as a dictionary; cases of the exceptions.

*Theorems:* `Verif.Snapshot.drive_value` [p], `Verif.Snapshot.drive_saved` [p], `Verif.Snapshot.drive_path` [pq], `Verif.Snapshot.drive_never` [pq], `Verif.Snapshot.drive_index` [p]

*Note:* False that the archived directory is given to the caller. That ResourcePath has no keyword forceDirctory and that the simulator gives rewards just if they are recorded is knowledge of other packages.

### C436 — Schedulers from configuration files

*Status:* partial. *Model and proof:* Cases of the attributes.

*Theorems:* `Verif.Snapshot.config_scheduler_partial` [none], `Verif.Snapshot.config_function` [none], `Verif.Snapshot.config_unused` [none], `Verif.Snapshot.config_false` [none]

*Note:* False for configurations with the function only.

### C437 — Choice of the scheduler for a snapshot

*Status:* proved. *Model and proof:* Independent choice of the source; equivalence.

*Theorems:* `Verif.Snapshot.scheduler_spec` [pcq], `Verif.Snapshot.scheduler_noScript` [pcq]

### C438 — Reading a saved scheduler

*Status:* partial. *Model and proof:* Suffixes of lists; lookup in a dictionary of files.

*Theorems:* `Verif.Snapshot.codec_spec` [pcq], `Verif.Snapshot.snapshot_round_partial` [pcq], `Verif.Snapshot.snapshot_compressed` [pcq], `Verif.Snapshot.snapshot_round_false` [pcq], `Verif.Snapshot.snapshot_others` [pcq]

*Note:* False for compressed files.

### C439 — Conversion of an opsim database to HDF5

*Status:* partial. *Model and proof:* Induction over the tables.

*Theorems:* `Verif.Snapshot.toHdf_spec` [pcq], `Verif.Snapshot.toHdf_empty` [p], `Verif.Snapshot.toHdf_false` [p]

*Note:* False for databases without tables.

### C440 — Conversion of HDF5 to an opsim database

*Status:* partial. *Model and proof:* Induction over the tables; permutations.

*Theorems:* `Verif.Snapshot.round_trip` [pcq], `Verif.Snapshot.existing_error` [pcq], `Verif.Snapshot.default_paths_false` [pcq], `Verif.Snapshot.failing_leaves` [pcq]

*Note:* The round trip to a new file is proved; to the default path it fails.

### C441 — Versions of conda packages

*Status:* proved. *Model and proof:* Lookup after a fold; sorting; induction over the calls.

*Theorems:* `Verif.Snapshot.conda_lookup` [pcq], `Verif.Snapshot.conda_none` [pcq], `Verif.Snapshot.conda_sorted` [pcq], `Verif.Snapshot.conda_cached` [pcq]

### C442 — Connections of a metadata archive object

*Status:* partial. *Model and proof:* State machine of the pool; invariant by induction on the calls.

*Theorems:* `Verif.VsOps.call_succeeds` [pcq], `Verif.VsOps.no_insert_no_error` [pcq], `Verif.VsOps.at_most_five` [pcq], `Verif.VsOps.connections_reused_false` [p]

*Note:* When calls succeed, with the invariant, is for all sequences of calls; that connections are reused is false for insertions of statistics.

### C443 — Where the parameters of the connection come from

*Status:* partial. *Model and proof:* Lookups after insertions.

*Theorems:* `Verif.VsOps.conn_value` [p], `Verif.VsOps.conn_other` [p], `Verif.VsOps.dict_kept_partial` [p], `Verif.VsOps.dict_kept_false` [none]

*Note:* The order of the sources is for all input; the dictionary of the caller is modified unless all is given.

### C444 — Nightly statistics of visits

*Status:* proved. *Model and proof:* Groups by distinct days; percentiles of the sorted values.

*Theorems:* `Verif.VsOps.days_error` [pq], `Verif.VsOps.days_given` [pq], `Verif.VsOps.days_spec` [pcq], `Verif.VsOps.stats_rows` [pcq], `Verif.VsOps.stats_row` [pcq], `Verif.VsOps.stats_total` [pcq]

*Note:* The standard deviation is not in the model.

### C445 — Nightly statistics in the database

*Status:* proved. *Model and proof:* Primary key as uniqueness; invariant.

*Theorems:* `Verif.VsOps.insert_spec` [pcq], `Verif.VsOps.keys_unique` [none], `Verif.VsOps.insert_first` [pcq], `Verif.VsOps.insert_again` [pq]

*Note:* The primary key is that of the schema.

### C446 — Mixed sequences are recorded in two steps

*Status:* partial. *Model and proof:* The row is committed before the dates are converted.

*Theorems:* `Verif.VsOps.mixed_ok` [pq], `Verif.VsOps.mixed_fails` [p], `Verif.VsOps.mixed_atomic_false` [p]

*Note:* A call that fails leaves a row; the same two steps are in record_completed_metadata.

### C447 — Updating metadata from the command line

*Status:* proved. *Model and proof:* Induction on the bytes.

*Theorems:* `Verif.VsOps.hex_round` [pq], `Verif.VsOps.update_hash` [pcq], `Verif.VsOps.update_only` [pcq], `Verif.VsOps.update_fails` [pcq], `Verif.VsOps.update_bad_hash` [pcq]

*Note:* Casts of the database are not in the model.

### C448 — Metadata of simulations in the prototype archive

*Status:* partial. *Model and proof:* Lookups after insertions; composition with the import.

*Theorems:* `Verif.VsOps.proto_error` [p], `Verif.VsOps.proto_time` [pcq], `Verif.VsOps.made_up` [pcq], `Verif.VsOps.proto_urls` [pcq], `Verif.VsOps.import_ignores` [pcq]

*Note:* What the function returns is as documented; the import ignores the time.

### C449 — Visits come back from the archive

*Status:* partial. *Model and proof:* Composition of the two conversions.

*Theorems:* `Verif.VsOps.archive_round` [pcq], `Verif.VsOps.archive_ok` [pcq], `Verif.VsOps.suffixes` [pcq], `Verif.VsOps.copy_round` [pcq], `Verif.VsOps.dest_kept` [pcq], `Verif.VsOps.other_suffix_false` [pcq]

*Note:* False for suffixes that are not among the four.

### C450 — Nights of the observation schedule

*Status:* proved. *Model and proof:* Minimum of a filtered list; floors.

*Theorems:* `Verif.VsOps.tap_spec` [pcq], `Verif.VsOps.tap_day` [pcq], `Verif.VsOps.tap_age_given` [pq], `Verif.VsOps.tap_age` [pcq], `Verif.VsOps.tap_age_ahead` [pcq]

*Note:* The almanac is an arbitrary one with sunsets between noon and midnight (UTC).

### C451 — Visits of a night in the latest simulation

*Status:* partial. *Model and proof:* Composition with the nightly statistics.

*Theorems:* `Verif.VsOps.nominal_first` [pcq], `Verif.VsOps.nominal_visits_partial` [pcq], `Verif.VsOps.no_visits_error` [pcq], `Verif.VsOps.no_sim` [pcq], `Verif.VsOps.recorded_first` [pcq], `Verif.VsOps.recorded_kept` [pcq], `Verif.VsOps.nominal_visits_false` [pcq]

*Note:* The number is right if the first column has no missing value and there are visits.

### C452 — Names of microlensing results

*Status:* partial. *Model and proof:* Splitting at a word that does not begin with its own end.

*Theorems:* `Verif.LensCmp.parse_name` [pcq], `Verif.LensCmp.parse_short` [pcq], `Verif.LensCmp.parse_name_false` [pcq]

*Note:* Proved for names in which MicrolensingMetric occurs once, with parts without underscores; negation proved for a run with it in its name.

### C453 — Ranges of crossing times in the comparison

*Status:* partial. *Model and proof:* np.unique of sorted limits.

*Theorems:* `Verif.LensCmp.ranges_bins` [pcq], `Verif.LensCmp.ranges_nested_false` [pcq], `Verif.LensCmp.ranges_shared_start` [pcq]

*Note:* Proved for bins whose limits both grow; negation proved for bins that lie in one another.

### C454 — What the figure of merit plot shows

*Status:* partial. *Model and proof:* Disjoint series; an empty index array has floats.

*Theorems:* `Verif.LensCmp.series_spec` [pcq], `Verif.LensCmp.fom_refused` [pcq], `Verif.LensCmp.fom_once` [pcq], `Verif.LensCmp.fom_every_batch_false` [pcq]

*Note:* Proved when the figure is drawn, with the exact condition for it; negation proved for every set of results.

### C455 — Comparison matrices of microlensing results

*Status:* partial. *Model and proof:* Counts of disjoint events.

*Theorems:* `Verif.LensCmp.detected_fisher_cells` [pcq], `Verif.LensCmp.fisher_npts_cells` [pcq], `Verif.LensCmp.detected_npts_cells` [pcq], `Verif.LensCmp.cells_total` [pcq], `Verif.LensCmp.cells_partition_false` [pcq]

*Note:* The cells are given for all events; negation proved for the claim that every event is in one of them.

### C456 — The required number of points in the comparison

*Status:* partial. *Model and proof:* The default of the comparisons is used.

*Theorems:* `Verif.LensCmp.compare_ignores` [pcq], `Verif.LensCmp.compare_partial` [pcq], `Verif.LensCmp.compare_label_false` [pcq]

*Note:* Proved for ten points and events that meet no limit exactly; negation proved for other numbers.

### C457 — Results of one microlensing metric

*Status:* partial. *Model and proof:* Counts with arbitrary values under the mask.

*Theorems:* `Verif.LensCmp.results_mask` [pcq], `Verif.LensCmp.results_zero` [pcq], `Verif.LensCmp.results_empty` [pcq], `Verif.LensCmp.results_masked_false` [pcq]

*Note:* Proved with zeros under the mask, with the excess of the third; negation proved for the fraction of characterized events.

### C458 — Reading the results of microlensing runs

*Status:* partial. *Model and proof:* The list of methods of ResultsDb.

*Theorems:* `Verif.LensCmp.results_dbs` [p], `Verif.LensCmp.results_dbs_partial` [p], `Verif.LensCmp.results_dbs_false` [pcq]

*Note:* Negation proved; the intended result is proved for a class with the method.

### C459 — Nights with more than a number of filters

*Status:* partial. *Model and proof:* Finset cardinalities.

*Theorems:* `Verif.Small.nights_with_n` [pcq], `Verif.Small.nights_perm` [pcq], `Verif.Small.nights_minimum_false` [pcq]

*Note:* Counted as the class says; the argument is documented as a minimum, which nights_minimum_false refutes.

### C460 — Stars are matched to their solutions

*Status:* proved. *Model and proof:* Position of the first element not smaller, by induction on the sorted list.

*Theorems:* `Verif.Small.match_spec` [pcq], `Verif.Small.match_empty` [p]

*Note:* Without stars or solutions it is a ValueError.

### C461 — Uniformity of the self calibration

*Status:* partial. *Model and proof:* Median of shifted values; counting.

*Theorems:* `Verif.Small.uniformity_zero_point` [pcq], `Verif.Small.residMap_pixels` [pcq], `Verif.Small.uniformity_spec` [pq], `Verif.Small.mad_affine` [pcq], `Verif.Small.uniformity_fractions` [pcq], `Verif.Small.uniformity_high_false` [pcq], `Verif.Small.uniformity_columns_false` [pq]

*Note:* The fraction at high latitudes is divided by the number of all pixels, and the columns are asked for under other names than those read.

### C462 — Galaxy counts with and without a slicer agree

*Status:* proved. *Model and proof:* Unfold both and split on the options.

*Theorems:* `Verif.Small.pixCounts_eq` [pcq], `Verif.Small.pixCounts_nonneg` [pcq]

*Note:* The integral is an arbitrary functional; the completeness an arbitrary function.

### C463 — Galaxies in the extragalactic footprint

*Status:* partial. *Model and proof:* By the properties of ExgalM5WithCuts.

*Theorems:* `Verif.Small.depthLimited_partial` [pcq], `Verif.Small.depthLimited_other` [pcq], `Verif.Small.depthLimited_false` [pcq]

*Note:* Holds with the default bad value; with another one the bad value of the inner metric is not recognised.

### C464 — Normalization of a spectrum to a magnitude

*Status:* proved. *Model and proof:* Interpolation is linear in the flux; logarithms.

*Theorems:* `Verif.Small.fluxNorm_spec` [pcq], `Verif.Small.fluxNorm_flux` [pcq], `Verif.Small.fluxNorm_unique` [pcq], `Verif.Small.fluxNorm_error` [pcq]

*Note:* Over the reals.

### C465 — Column dictionaries and the observations that are read

*Status:* proved. *Model and proof:* Case split over the tables; induction over keys.

*Theorems:* `Verif.Small.colMap_names` [pcq], `Verif.Small.colMap_error` [pcq], `Verif.Small.colMap_default` [pcq], `Verif.Small.colMap_case` [pcq], `Verif.Small.readObs_cols` [pcq], `Verif.Small.readObs_builtin` [pcq], `Verif.Small.readObs_missing` [pcq], `Verif.Small.readObs_caller` [pcq]

*Note:* Lower case is that of ASCII letters; the entries of the dictionaries that are not names of columns are left out; the query itself is not modelled here.

### C466 — Star count metrics

*Status:* proved. *Model and proof:* Resolution of the imported name.

*Theorems:* `Verif.Small.starCount_type_error` [pcq], `Verif.Small.starCount_never` [pcq], `Verif.Small.starCountMass_position` [pcq], `Verif.Small.starCountMass_order_false` [pcq]

*Note:* Stated as it is; the count itself is an arbitrary function.

### C467 — Visible time of a field, fast version

*Status:* partial. *Model and proof:* Membership in the filtered samples; ceiling of the number of samples.

*Theorems:* `Verif.Eso.visibleFast_partial` [pcq], `Verif.Eso.visibleFast_mono` [pcq], `Verif.Eso.visibleFast_always` [pcq], `Verif.Eso.visibleFast_total_false` [pcq]

*Note:* The altitudes are arbitrary functions. The time may exceed the interval by one sampling interval.

### C468 — Visible time of a field per night

*Status:* partial. *Model and proof:* Induction over the dates.

*Theorems:* `Verif.Eso.visible_partial` [pcq], `Verif.Eso.visible_error` [pcq], `Verif.Eso.visible_total_false` [pcq]

*Note:* The altitudes are arbitrary functions. ValueError on a date without a sample below the limit.

### C469 — Merged sky templates

*Status:* proved. *Model and proof:* Powers and logarithms.

*Theorems:* `Verif.Eso.merged_eq` [pcq], `Verif.Eso.merged_le` [pcq], `Verif.Eso.merged_one` [pcq], `Verif.Eso.merged_two` [pcq]

*Note:* Over the reals.

### C470 — Templates split over files

*Status:* proved. *Model and proof:* Telescoping of cuts; a sorted list is not changed by sorting.

*Theorems:* `Verif.Eso.parts_flatten` [pq], `Verif.Eso.parts_balanced` [pcq], `Verif.Eso.load_files` [pcq], `Verif.Eso.load_eleven_false` [pcq]

*Note:* linspace with integers is taken as exact division rounded down.

### C471 — Index of a template

*Status:* proved. *Model and proof:* The sorted permutation is unique; positions in a product.

*Theorems:* `Verif.Eso.zodi_index` [pcq], `Verif.Eso.moon_index` [pcq]

*Note:* Spectra are not in the model, only the keys of the rows.

### C472 — Regenerated templates and their readers

*Status:* proved. *Model and proof:* Comparison of field names; algebra.

*Theorems:* `Verif.Eso.templates_read` [p], `Verif.Eso.zodi_latitude` [pq], `Verif.Eso.zodi_latitude_false` [pcq]

*Note:* Stated as it is; angles in degrees.

### C473 — Measured sky brightnesses

*Status:* partial. *Model and proof:* Membership in a join.

*Theorems:* `Verif.Eso.allSky_rows` [pcq], `Verif.Eso.allSky_mjd` [pcq], `Verif.Eso.allSky_date_false` [pcq], `Verif.Eso.diode_rows` [pcq], `Verif.Eso.diode_default` [pcq]

*Note:* The argument is not a date. Rounding of the time to six decimals in the query of diode_sky_db is left out.

### C474 — Images at a point

*Status:* proved. *Model and proof:* Loop equals filter.

*Theorems:* `Verif.Eso.images_spec` [pq], `Verif.Eso.images_sound` [pq]

*Note:* The distance and the test for a point in a polygon are arbitrary functions.

### C475 — Night and hours by the clock

*Status:* proved. *Model and proof:* Characterisation of floor.

*Theorems:* `Verif.HgPlot.civil_spec` [pcq], `Verif.HgPlot.civil_noon` [pcq]

*Note:* From the time of the clock; the offset from UTC is constant.

### C476 — Night and hours by the sun

*Status:* partial. *Model and proof:* Uniqueness of the wrapped angle.

*Theorems:* `Verif.HgPlot.solar_partial` [pcq], `Verif.HgPlot.solar_row` [pcq], `Verif.HgPlot.solar_false` [pcq]

*Note:* The row is wrong between the noon of the clock and the mean solar noon. UT1 = UTC.

### C477 — Rows of a month

*Status:* partial. *Model and proof:* Floor and inequalities.

*Theorems:* `Verif.HgPlot.row_eq` [pcq], `Verif.HgPlot.month_partial` [pcq], `Verif.HgPlot.month_disjoint` [pcq], `Verif.HgPlot.month_cover` [pq], `Verif.HgPlot.month_row_false` [pcq]

*Note:* Proved away from noon; refuted next to it.

### C478 — Colours of values and the colour bar

*Status:* partial. *Model and proof:* Induction over the months.

*Theorems:* `Verif.HgPlot.mapColors_equal` [pq], `Verif.HgPlot.mapColors_partial` [pcq], `Verif.HgPlot.yearColors_limits` [pq], `Verif.HgPlot.yearColors_error` [pq], `Verif.HgPlot.yearColors_bar_false` [pcq], `Verif.HgPlot.yearColors_none_false` [pcq]

*Note:* Proved for given limits and months with different values; refuted otherwise. The colour map itself is not modelled.

### C479 — Colours of categories

*Status:* partial. *Model and proof:* Invariant of the three loops: colours in use are different and not free.

*Theorems:* `Verif.HgPlot.categoryColors_partial` [pcq], `Verif.HgPlot.categoryColors_gray` [pcq], `Verif.HgPlot.monthMaps_assigned` [pcq], `Verif.HgPlot.monthMaps_false` [pcq]

*Note:* use_colors is empty, as in the calls of the plots. Colours that are not assigned differ between months.

### C480 — Legend

*Status:* proved. *Model and proof:* Lookup in a dictionary that is updated in a loop.

*Theorems:* `Verif.HgPlot.legend_wanted` [pcq], `Verif.HgPlot.legend_all` [pcq]

*Note:* Handles are arbitrary values.

### C481 — Lines that do not wrap

*Status:* proved. *Model and proof:* Labels are sorted; splitting a sorted list by labels.

*Theorems:* `Verif.HgPlot.lines_spec` [pcq]

*Note:* The days of the points go with their hours in the same way and are left out.

### C482 — Times of transit

*Status:* proved. *Model and proof:* The wrapped angle is unique.

*Theorems:* `Verif.HgPlot.transit_step` [pcq], `Verif.HgPlot.transit_exact` [pcq], `Verif.HgPlot.transit_moon` [pcq]

*Note:* The hour angle is taken as linear in time.

### C483 — Lines and bars on the same row

*Status:* partial. *Model and proof:* Algebra.

*Theorems:* `Verif.HgPlot.rows_agree` [pcq], `Verif.HgPlot.rows_shift` [pcq], `Verif.HgPlot.rows_false` [pcq]

*Note:* True exactly for y_min = 1/2.

### C484 — Plots for a range of dates

*Status:* proved. *Model and proof:* Cases.

*Theorems:* `Verif.HgPlot.plot_kind` [pq]

*Note:* Stated as it is.

### C485 — Stackers, summary metrics and plotters of a bundle

*Status:* partial. *Model and proof:* Induction over the list.

*Theorems:* `Verif.BunSet.stackers_spec` [p], `Verif.BunSet.summary_spec` [p], `Verif.BunSet.plotters_partial` [p], `Verif.BunSet.plotters_false` [p]

*Note:* One plotter, which the documentation allows, is a TypeError.

### C486 — Plot dictionary

*Status:* partial. *Model and proof:* Lookup in an updated dictionary; invariant of the calls.

*Theorems:* `Verif.BunSet.setPlot_spec` [pcq], `Verif.BunSet.setPlot_good` [pcq], `Verif.BunSet.reducedPlot_spec` [pcq], `Verif.BunSet.reducedPlot_title_false` [none]

*Note:* The title and labels of the parent are kept, which the comment excludes.

### C487 — Display dictionary and caption

*Status:* partial. *Model and proof:* Induction over the calls.

*Theorems:* `Verif.BunSet.display_entry` [pcq], `Verif.BunSet.display_caption` [pcq], `Verif.BunSet.displays_keys` [pcq], `Verif.BunSet.caption_spec` [p], `Verif.BunSet.caption_none` [p], `Verif.BunSet.display_none_false` [p], `Verif.BunSet.caption_stale_false` [p], `Verif.BunSet.reduced_display` [pcq]

*Note:* Numbers in captions are texts. Refuted for later changes of the plot dictionary and for None.

### C488 — Label from the constraint

*Status:* partial. *Model and proof:* Removal of a character is a filter; separators in patterns.

*Theorems:* `Verif.BunSet.label_given` [pcq], `Verif.BunSet.label_chars` [pcq], `Verif.BunSet.label_band` [pcq], `Verif.BunSet.label_equals` [pcq], `Verif.BunSet.label_collides_false` [pcq], `Verif.BunSet.label_blanks_false` [pcq]

*Note:* Refuted for several blanks and different constraints.

### C489 — Bundles written and read

*Status:* partial. *Model and proof:* Composition.

*Theorems:* `Verif.BunSet.round_trip` [pcq], `Verif.BunSet.round_root` [pcq], `Verif.BunSet.made_root` [pcq], `Verif.BunSet.round_units` [pcq], `Verif.BunSet.round_units_false` [pcq]

*Note:* The format of the file is not modelled here (C200). The units are lost.

### C490 — File in the results database

*Status:* partial. *Model and proof:* From the model of update_metric.

*Theorems:* `Verif.BunSet.db_file_partial` [pcq], `Verif.BunSet.db_row_stays` [pcq], `Verif.BunSet.db_suffix_false` [pcq], `Verif.BunSet.db_display_first` [pcq]

*Note:* Proved without suffix and for a new row.

### C491 — Plots of a bundle

*Status:* partial. *Model and proof:* Induction over the plotters.

*Theorems:* `Verif.BunSet.plot_spec` [pcq], `Verif.BunSet.plot_given` [none], `Verif.BunSet.plot_false` [p]

*Note:* A given plotter is an AttributeError.

### C492 — Bundles that are run for a constraint

*Status:* proved. *Model and proof:* Induction over the constraints with an invariant of the dictionary.

*Theorems:* `Verif.BunSet.current_spec` [p], `Verif.BunSet.cols_spec` [pcq], `Verif.BunSet.partition` [pcq], `Verif.BunSet.runAll_once` [pcq]

*Note:* All constraints have data; names and file roots of reduced bundles are not keys of the group.

### C493 — Reduced bundles in the group

*Status:* partial. *Model and proof:* Lookup in an updated dictionary.

*Theorems:* `Verif.BunSet.reduced_partial` [pcq], `Verif.BunSet.reduced_named` [pcq], `Verif.BunSet.reduced_false` [pq]

*Note:* Proved for new and different names, and for one bundle whose name is there.

### C494 — Plots of a group

*Status:* proved. *Model and proof:* Induction over the bundles.

*Theorems:* `Verif.BunSet.plots_spec` [pq], `Verif.BunSet.plots_stop` [p]

*Note:* plot_all itself is not modelled here.

### C495 — Points on a circle

*Status:* partial. *Model and proof:* Induction over the points with the lifted angle as invariant.

*Theorems:* `Verif.SkyPlot.circle_same_points` [pq], `Verif.SkyPlot.circle_no_jumps_partial` [pcq], `Verif.SkyPlot.circle_no_jumps_false` [pcq], `Verif.SkyPlot.bearings_mem` [pcq], `Verif.SkyPlot.bearings_end_partial` [pcq], `Verif.SkyPlot.bearings_past` [pcq], `Verif.SkyPlot.bearings_end_false` [pq]

*Note:* The position of the points (astropy) is not modelled; bearings are whole degrees.

### C496 — One projection for each part of a figure

*Status:* proved. *Model and proof:* Induction over the calls.

*Theorems:* `Verif.SkyPlot.subplot_forms` [pcq], `Verif.SkyPlot.skyproj_reused` [pcq], `Verif.SkyPlot.skyproj_distinct` [pcq]

*Note:* Figures stay in use, so that the weak references do not go.

### C497 — Values of points on a healpix grid

*Status:* partial. *Model and proof:* Induction over the points.

*Theorems:* `Verif.SkyPlot.healpix_length` [p], `Verif.SkyPlot.healpix_pixel_partial` [pcq], `Verif.SkyPlot.healpix_masked_false` [pcq], `Verif.SkyPlot.healpix_sum` [pcq]

*Note:* _healbin of rubin_scheduler is modelled from its use. Refuted for masked points.

### C498 — Scale and limits of the colours of a map

*Status:* proved. *Model and proof:* Case analysis.

*Theorems:* `Verif.SkyPlot.scale_log` [pq], `Verif.SkyPlot.scale_asked` [pq], `Verif.SkyPlot.scale_limits` [pcq], `Verif.SkyPlot.drawn_above` [p], `Verif.SkyPlot.drawn_all` [p], `Verif.SkyPlot.colorbar_fits` [pcq]

*Note:* The norm is a text; orientations are in small letters.

### C499 — Files from before version 1.0

*Status:* proved. *Model and proof:* Lookup after each renaming.

*Theorems:* `Verif.SkyPlot.init_old_gone` [pcq], `Verif.SkyPlot.init_new` [pcq], `Verif.SkyPlot.init_other` [pcq], `Verif.SkyPlot.init_all_or_nothing` [pq], `Verif.SkyPlot.old_header` [pcq]

*Note:* The values and the mask are passed on as they are.

### C500 — Radar plots

*Status:* proved. *Model and proof:* Arithmetic of the remainder; injectivity.

*Theorems:* `Verif.SkyPlot.radar_even` [pcq], `Verif.SkyPlot.radar_range` [pcq], `Verif.SkyPlot.radar_distinct` [pcq], `Verif.SkyPlot.radar_top` [pcq], `Verif.SkyPlot.radar_closed` [p], `Verif.SkyPlot.radar_one` [p], `Verif.SkyPlot.radar_frame` [pcq], `Verif.SkyPlot.radar_frame_top` [pcq], `Verif.SkyPlot.radar_colours` [pq]

*Note:* Drawing is not modelled.

### C501 — Plot of binned data

*Status:* partial. *Model and proof:* Induction over the bins.

*Theorems:* `Verif.SkyPlot.oned_points` [pq], `Verif.SkyPlot.bins_lengths` [p], `Verif.SkyPlot.oned_ymin_given` [pq], `Verif.SkyPlot.oned_ymin_zero_partial` [pq], `Verif.SkyPlot.oned_ymin_zero_false` [pcq], `Verif.SkyPlot.oned_colour` [pq], `Verif.SkyPlot.oned_defaults_false` [none]

*Note:* The mask is an array of the length of the values.

### C502 — Histogram of the distances of near-Earth objects

*Status:* partial. *Model and proof:* Induction over the objects.

*Theorems:* `Verif.SkyPlot.neo_count` [pq], `Verif.SkyPlot.nearest_iff` [pcq], `Verif.SkyPlot.neo_outward` [pq], `Verif.SkyPlot.neo_cover` [pcq], `Verif.SkyPlot.neo_apart_false` [p]

*Note:* An object exactly between two directions, which is an exception, is left out.

### C503 — Downloads of runs

*Status:* partial. *Model and proof:* Induction over the runs.

*Theorems:* `Verif.SkyPlot.dl_skip` [pcq], `Verif.SkyPlot.dl_all` [pcq], `Verif.SkyPlot.dl_content` [pcq], `Verif.SkyPlot.dl_dir` [none], `Verif.SkyPlot.dl_returns` [pcq], `Verif.SkyPlot.dl_metadata_false` [pcq]

*Note:* The network always answers; directories are made.

### C504 — Tables of families

*Status:* partial. *Model and proof:* Case analysis on the number of columns.

*Theorems:* `Verif.SkyPlot.table_subset` [pq], `Verif.SkyPlot.table_none` [pq], `Verif.SkyPlot.table_none_false` [none], `Verif.SkyPlot.table_no_summary` [none]

*Note:* Rows and rounding are not modelled.

### C505 — Plot of families

*Status:* partial. *Model and proof:* Membership.

*Theorems:* `Verif.SkyPlot.plot_runs` [pq], `Verif.SkyPlot.plot_no_summary_false` [none], `Verif.SkyPlot.plot_missing_run` [pq]

*Note:* plot_run_metric is not modelled here.

### C506 — When bundles share a file name

*Status:* proved. *Model and proof:* Merging of underscores splits at an underscore; cancellation.

*Theorems:* `Verif.Batch2.squeeze_split` [pq], `Verif.Batch2.root_metric` [pq], `Verif.Batch2.root_info` [pq], `Verif.Batch2.root_run` [pq], `Verif.Batch2.root_slicer` [pq], `Verif.Batch2.makeDict_eq` [pq]

### C507 — Batches with one bundle per band

*Status:* proved. *Model and proof:* Ends of the names tell the bands apart.

*Theorems:* `Verif.Batch2.band_root` [pcq], `Verif.Batch2.perBand_dict` [pcq], `Verif.Batch2.altaz_dict` [pcq], `Verif.Batch2.seasons_dict` [pcq]

*Note:* The condition per band is not part of the names.

### C508 — Bundles of the gaps between visits

*Status:* partial. *Model and proof:* Induction over the bands.

*Theorems:* `Verif.Batch2.timeGaps_dict` [pcq], `Verif.Batch2.timeGaps_subgroup_partial` [pcq], `Verif.Batch2.timeGaps_subgroup_false` [pcq]

*Note:* Missing: the subgroup of the single bands (timeGaps_subgroup_false).

### C509 — Bundles of metadata

*Status:* partial. *Model and proof:* Cancellation of common parts; the slicers end the names.

*Theorems:* `Verif.Batch2.metadata_dict_partial` [pcq], `Verif.Batch2.metadata_dict_false` [pcq]

*Note:* For valueName=None and slicers whose four letters stay as they are in file names. Missing: UniSlicer (metadata_dict_false).

### C510 — Bundles of slews

*Status:* proved. *Model and proof:* Cases.

*Theorems:* `Verif.Batch2.slew_dict` [pcq], `Verif.Batch2.slew_label` [pcq], `Verif.Batch2.slew_label_false` [pcq]

*Note:* Stated as it is.

### C511 — Bundles of filter changes

*Status:* proved. *Model and proof:* Cancellation of common parts.

*Theorems:* `Verif.Batch2.changes_dict` [pcq], `Verif.Batch2.whole_name_false` [pcq], `Verif.Batch2.change_label` [p]

*Note:* Stated as it is.

### C512 — Open shutter, and number of nights

*Status:* partial. *Model and proof:* Cardinality of intervals.

*Theorems:* `Verif.Batch2.shutter_dict` [pcq], `Verif.Batch2.fullRange_nights` [pcq], `Verif.Batch2.nights_false` [pcq]

*Note:* Missing: the number of nights from start to finish (nights_false).

### C513 — Summary of light curves

*Status:* partial. *Model and proof:* Sums over filled values.

*Theorems:* `Verif.Batch2.lightcurve_spec` [pcq], `Verif.Batch2.lightcurve_fractions` [pcq], `Verif.Batch2.lightcurve_empty` [pcq], `Verif.Batch2.lightcurve_total_false` [pcq]

*Note:* Missing: an empty footprint (lightcurve_total_false).

### C514 — Summary of microlensing

*Status:* partial. *Model and proof:* Counting.

*Theorems:* `Verif.Batch2.micro_error` [pq], `Verif.Batch2.micro_fraction_partial` [pcq], `Verif.Batch2.micro_more_false` [pcq], `Verif.Batch2.micro_total` [pcq]

*Note:* Missing: equality (micro_more_false). All values are finite.

### C515 — What is in the cache of spectra

*Status:* proved. *Model and proof:* Induction over the files.

*Theorems:* `Verif.SedCache.generate_lookup` [pcq]

*Note:* Paths do not end in a slash.

### C516 — A cache that was just generated is accepted

*Status:* partial. *Model and proof:* Joining with an absolute path forgets what precedes.

*Theorems:* `Verif.SedCache.validate_partial` [pcq], `Verif.SedCache.fresh_valid_partial` [pcq], `Verif.SedCache.fresh_valid_false` [pcq]

*Note:* Missing: relative paths (fresh_valid_false).

### C517 — When the checks of the cache fail

*Status:* partial. *Model and proof:* Evaluation of the branch.

*Theorems:* `Verif.SedCache.refused` [pcq], `Verif.SedCache.refused_false` [pcq]

*Note:* Stated as it is; missing: the claim itself (refused_false).

### C518 — The cache of spectra is used again

*Status:* partial. *Model and proof:* Splitting at white space gives words without white space.

*Theorems:* `Verif.SedCache.reuse_iff` [pcq], `Verif.SedCache.reuse_exact` [pcq], `Verif.SedCache.reuse_false` [pcq]

*Note:* Missing: paths with white space (reuse_false).

### C519 — Objects that a pickled cache may name

*Status:* proved. *Model and proof:* Cases.

*Theorems:* `Verif.SedCache.find_class` [pcq], `Verif.SedCache.load_refused` [pcq], `Verif.SedCache.load_written` [pcq], `Verif.SedCache.second_call` [pcq]

*Note:* Where numpy 2 keeps _reconstruct is not part of the repository.

### C520 — A library that was updated

*Status:* partial. *Model and proof:* The version file has the path only.

*Theorems:* `Verif.SedCache.stale` [pcq], `Verif.SedCache.stale_false` [pcq]

*Note:* Missing: updates in the same directory (stale_false).

### C521 — Limits of the wavelengths in the cache

*Status:* proved. *Model and proof:* Filtering.

*Theorems:* `Verif.SedCache.limits` [pcq]

*Note:* For a call that generates the cache; one that reads it applies the same function.

### C522 — Equality of spectra

*Status:* partial. *Model and proof:* Cases.

*Theorems:* `Verif.SedCache.eq_iff_partial` [p], `Verif.SedCache.eq_symm_false` [none]

*Note:* Missing: an empty flux (eq_symm_false).

### C523 — A spectrum that was cleared

*Status:* partial. *Model and proof:* The power 25 of 3631 is odd.

*Theorems:* `Verif.SedCache.cleared_iff` [p], `Verif.SedCache.cleared_badval` [p], `Verif.SedCache.zeropoints` [pcq], `Verif.SedCache.cleared_false` [pcq]

*Note:* Missing: the zeropoint (cleared_false).

### C524 — Names of stellar templates

*Status:* proved. *Model and proof:* Splitting at letters that are not digits.

*Theorems:* `Verif.SedCache.parse_name` [pcq]

*Note:* Conversion of digits to numbers is not modelled.

### C525 — The closest template

*Status:* proved. *Model and proof:* Minima of filtered lists.

*Theorems:* `Verif.SedCache.match_closest` [pcq]

### C526 — Reading the closest template

*Status:* partial. *Model and proof:* Evaluation.

*Theorems:* `Verif.SedCache.close_raises` [pcq], `Verif.SedCache.close_false` [pcq], `Verif.SedCache.stored_iff` [pcq]

*Note:* Missing: any result (close_false).

### C527 — The array of many bandpasses

*Status:* partial. *Model and proof:* Properties of the ceiling.

*Theorems:* `Verif.SedCache.setup_phi` [pcq], `Verif.SedCache.setup_phi_false` [pcq]

*Note:* Missing: ranges that exceed whole steps by at most half a step (setup_phi_false). A grid of one wavelength, which numpy would repeat, is left out.

### C528 — Segments of the hourglass plot

*Status:* proved. *Model and proof:* Induction two by two.

*Theorems:* `Verif.SedCache.segments_spec` [pcq], `Verif.SedCache.metric_segments` [pq]

### C529 — Whose values get_computed_vals reports

*Status:* partial. *Model and proof:* The attributes as a state machine; induction over the calls.

*Theorems:* `Verif.SkyS.computed_keys` [pq], `Verif.SkyS.computed_last` [pq], `Verif.SkyS.computed_fresh_partial` [pq], `Verif.SkyS.computed_fresh_false` [pq], `Verif.SkyS.computed_mixed` [pq], `Verif.SkyS.computed_refused` [pq], `Verif.SkyS.computed_moon` [pq]

*Note:* Exactly for calls with coordinates that are not refused, with twilight, moon and zodiacal light on. Missing: set_params and components that are off (computed_fresh_false).

### C530 — New magnitudes in the files of the sky model

*Status:* proved. *Model and proof:* By the definition, on lists of files.

*Theorems:* `Verif.SkyS.recalc_file` [pq], `Verif.SkyS.recalc_idem` [p], `Verif.SkyS.recalc_extra` [none], `Verif.SkyS.recalc_files` [pq]

*Note:* calc_mag is a parameter.

### C531 — The entry of the table of rates that is used

*Status:* partial. *Model and proof:* The last bin below a value in an increasing list.

*Theorems:* `Verif.SkyS.nearestIn_spec` [pq], `Verif.SkyS.lastBin_spec` [pcq], `Verif.SkyS.enquiry_outside` [pq], `Verif.SkyS.enquiry_partial` [pcq], `Verif.SkyS.enquiry_bands` [pq], `Verif.SkyS.enquiry_false` [pcq]

*Note:* When the table has all pairs of times. Missing: tables without some (enquiry_false).

### C532 — When the presto metric gives scores

*Status:* proved. *Model and proof:* From the characterisation of the criterion.

*Theorems:* `Verif.SkyS.presto_run` [pcq]

*Note:* The scores of a light curve are a parameter; see C329 for them.

### C533 — The telescopes for follow up

*Status:* proved. *Model and proof:* Lookup and filter.

*Theorems:* `Verif.SkyS.dms_spec` [pcq], `Verif.SkyS.telescopes_spec` [pq], `Verif.SkyS.telescopes_mono` [pq], `Verif.SkyS.telescopes_total` [pcq], `Verif.SkyS.places_nonzero` [pq]

### C534 — Tables of metrics that a user makes

*Status:* proved. *Model and proof:* Columns as lists.

*Theorems:* `Verif.SkyS.createSubset_spec` [pcq], `Verif.SkyS.createSubset_total` [pq]

### C535 — Columns of the descriptions of families

*Status:* proved. *Model and proof:* Permutation of the columns.

*Theorems:* `Verif.SkyS.familyCols_spec` [pcq]

### C536 — The file that gather_summaries writes

*Status:* proved. *Model and proof:* By cases.

*Theorems:* `Verif.SkyS.gatherOut_spec` [p]

### C537 — The plot of the pointings of a night

*Status:* proved. *Model and proof:* Permutation by bands.

*Theorems:* `Verif.SkyS.pointing_spec` [pcq], `Verif.SkyS.pointing_other` [pcq], `Verif.SkyS.track_spec` [pq]

### C538 — Labels of the plot of two arrays

*Status:* proved. *Model and proof:* By cases.

*Theorems:* `Verif.SkyS.xyDict_spec` [p]

### C539 — Time stamps of visits

*Status:* partial. *Model and proof:* Columns as association lists.

*Theorems:* `Verif.SkyS.stamp_partial` [pcq], `Verif.SkyS.stamp_arg` [pq], `Verif.SkyS.stamp_missing` [p], `Verif.SkyS.stamp_false` [p]

*Note:* For tables of pandas and arrays. Missing: dictionaries (stamp_false).

### C540 — The curve of the power spectrum

*Status:* proved. *Model and proof:* Filter of a range.

*Theorems:* `Verif.SkyS.power_spec` [pcq]

### C541 — Missing values in the test of stripes

*Status:* proved. *Model and proof:* Recasting entry by entry.

*Theorems:* `Verif.SkyS.strip_marks` [pcq], `Verif.SkyS.strip_spec` [pcq]

### C542 — What the figure of merit of static probes depends on

*Status:* proved. *Model and proof:* Permutation of the good values.

*Theorems:* `Verif.SkyS.probes_perm` [pq], `Verif.SkyS.probes_spec` [p]

*Note:* The emulator is a parameter, and so is the median, of which only that order does not matter is used.

### C543 — The line of the ecliptic on maps

*Status:* partial. *Model and proof:* Formulas of half angles.

*Theorems:* `Verif.SkyS.ecliptic_partial` [pcq], `Verif.SkyS.ecliptic_false` [pcq]

*Note:* At equinoxes and solstices, with sign and range elsewhere. Missing: all other points (ecliptic_false).

### C544 — The zone of the galaxy on maps

*Status:* proved. *Model and proof:* Monotonicity of the cosine.

*Theorems:* `Verif.SkyS.zone_spec` [pcq]

### C545 — Paths of satellites

*Status:* partial. *Model and proof:* Rows and columns as lists.

*Theorems:* `Verif.SkyS.paths_spec` [pq], `Verif.SkyS.paths_doc_false` [p]

*Note:* One row for each satellite. Missing: the documented shape (paths_doc_false).

### C546 — What the map of dust in three dimensions adds

*Status:* proved. *Model and proof:* Strings that differ in a letter.

*Theorems:* `Verif.SkyS.dustKeys_spec` [pcq], `Verif.SkyS.dustLook_spec` [none]

### C547 — The requirement of rapid revisits

*Status:* partial. *Model and proof:* Counting of intervals.

*Theorems:* `Verif.Batch3.rapid_spec` [pcq], `Verif.Batch3.rapid_partial` [pcq], `Verif.Batch3.rapid_false` [pcq]

*Note:* What the metric computes exactly; one means that the requirement is met if no two visits are nearer than 40 seconds. Missing: shorter times, and the converse (rapid_false).

### C548 — The area with rapid revisits

*Status:* partial. *Model and proof:* Counting of pixels.

*Theorems:* `Verif.Batch3.area_spec` [pcq], `Verif.Batch3.area_partial` [pcq], `Verif.Batch3.area_false` [pcq]

*Note:* When every pixel has visits. Missing: pixels without, where it is always too large (area_false).

### C549 — Percentiles of the uncertainties of parallax and proper motion

*Status:* partial. *Model and proof:* By the definition.

*Theorems:* `Verif.Batch3.parallax_percentile_partial` [pcq], `Verif.Batch3.motion_percentile` [pcq], `Verif.Batch3.motion_percentile_false` [pcq]

*Note:* For the parallax. Missing: the proper motion (motion_percentile_false).

### C550 — The parallax with visits in the y band alone

*Status:* partial. *Model and proof:* The grammar of conditions.

*Theorems:* `Verif.Batch3.y_partial` [pq], `Verif.Batch3.y_false` [pcq]

*Note:* For the column filter and conditions without or outside of brackets. Missing: all others (y_false).

### C551 — The metadata of the first year

*Status:* proved. *Model and proof:* The grammar of conditions.

*Theorems:* `Verif.Batch3.first_year` [pcq]

*Note:* night is a whole number. An empty text as extra condition, which is not None, is not a condition that means anything and not covered.

### C552 — The extra condition of the deep fields

*Status:* partial. *Model and proof:* Every bundle with its condition; the grammar of conditions.

*Theorems:* `Verif.Batch3.ddf_extra_partial` [pq], `Verif.Batch3.ddf_extra_general` [pq], `Verif.Batch3.ddf_extra_false` [p]

*Note:* For the metrics other than the four, with a condition without or outside of brackets. Missing: these four (ddf_extra_false).

### C553 — The median season length of a deep field

*Status:* partial. *Model and proof:* Every bundle with its condition.

*Theorems:* `Verif.Batch3.season_bundles` [pq], `Verif.Batch3.median_season_false` [pq], `Verif.Batch3.labels_partial` [pq]

*Note:* For the other metrics of a field. Missing: the median season length (median_season_false).

### C554 — The conditions of a deep field

*Status:* partial. *Model and proof:* The grammar of conditions.

*Theorems:* `Verif.Batch3.field_band` [pq], `Verif.Batch3.field_all_partial` [p], `Verif.Batch3.field_all_false` [p]

*Note:* For each band, and for all bands with a condition without or outside of brackets. Missing: conditions with or (field_all_false).

### C555 — The point of the main survey in ddfBatch

*Status:* proved. *Model and proof:* By cases on the name.

*Theorems:* `Verif.Batch3.point_slicer_false` [pcq], `Verif.Batch3.wfd_all_visits` [pq]

*Note:* The defect, stated as it is.

### C556 — The pixels of a deep field

*Status:* proved. *Model and proof:* Sorting without duplicates.

*Theorems:* `Verif.Batch3.field_pixels` [pcq]

*Note:* The test of the distance is a parameter.

### C557 — The bundles of the effective time

*Status:* partial. *Model and proof:* The rules of file names.

*Theorems:* `Verif.Batch3.teff_partial` [pcq], `Verif.Batch3.teff_bands` [pcq], `Verif.Batch3.teff_uni_false` [pcq], `Verif.Batch3.teff_night_false` [pcq]

*Note:* Different names with another slicer than UniSlicer. Missing: a bundle per night (teff_night_false), a UniSlicer (teff_uni_false).

### C558 — phaseGap

*Status:* proved. *Model and proof:* By cases.

*Theorems:* `Verif.Batch3.phase_gap_false` [none], `Verif.Batch3.phase_gap_keywords` [none]

*Note:* The defect, stated as it is.

### C559 — Names of metrics with another name of the column

*Status:* partial. *Model and proof:* Induction over the text.

*Theorems:* `Verif.Batch3.replaced_partial` [pcq], `Verif.Batch3.replaced_false` [pcq]

*Note:* When the name of the column does not occur before its place. Missing: when it does (replaced_false).

### C560 — Comments of a visit sequence

*Status:* proved. *Model and proof:* Induction over the calls.

*Theorems:* `Verif.Odds.comments_spec` [p], `Verif.Odds.comments_mem` [pq]

*Note:* Up to the order of the rows, which SQL does not fix. Constraints of the tables are not modelled.

### C561 — Versions of the software of a simulation

*Status:* proved. *Model and proof:* Induction over the list.

*Theorems:* `Verif.Odds.versions_all` [p], `Verif.Odds.versions_mem` [pq], `Verif.Odds.versions_order` [pcq]

*Note:* The order if each package is recorded once for the simulation.

### C562 — Indexes of prenights

*Status:* proved. *Model and proof:* Texts of dates are different; induction over the calls.

*Theorems:* `Verif.Odds.written_inj` [pcq], `Verif.Odds.prenight_spec` [pcq]

*Note:* For the same destination, and names of telescopes that are single names of directories. JSON is not modelled.

### C563 — Writing and reading a bandpass

*Status:* partial. *Model and proof:* Lines and words of texts.

*Theorems:* `Verif.Odds.throughput_back_partial` [pcq], `Verif.Odds.throughput_header_raises` [pcq], `Verif.Odds.throughput_back_false` [pcq]

*Note:* Without header or with a header of one line. Missing: headers of several lines (throughput_back_false).

### C564 — Cadence, season and campaign of the time delays

*Status:* proved. *Model and proof:* By the definitions.

*Theorems:* `Verif.Odds.tdc_cadence` [pcq], `Verif.Odds.tdc_season` [pq], `Verif.Odds.tdc_shallow` [pcq], `Verif.Odds.tdc_given` [pcq]

*Note:* For visits in the order of time; the metrics compared have a shortest exposure time that all visits meet.

### C565 — Directions of the numbers of the time delays

*Status:* proved. *Model and proof:* Monotonicity of powers.

*Theorems:* `Verif.Odds.tdc_pos` [pcq], `Verif.Odds.tdc_faster` [pcq], `Verif.Odds.tdc_longer` [pcq], `Verif.Odds.tdc_campaign` [pcq], `Verif.Odds.tdc_norm` [pcq]

*Note:* Over the real numbers.

### C566 — Metrics with a statistic

*Status:* proved. *Model and proof:* Membership and counts.

*Theorems:* `Verif.Odds.withStat_spec` [pq], `Verif.Odds.withAny_spec` [pq], `Verif.Odds.withAny_union` [pq]

### C567 — Names of metrics with their labels

*Status:* proved. *Model and proof:* Induction over the rows.

*Theorems:* `Verif.Odds.nameLabels_spec` [pcq], `Verif.Odds.nameLabels_first` [pcq]

### C568 — Noise after the offsets before

*Status:* proved. *Model and proof:* Sums and logarithms.

*Theorems:* `Verif.Odds.snr_spec` [pcq], `Verif.Odds.snr_perm` [pcq], `Verif.Odds.snr_dims` [pcq]

*Note:* The error before the random factor.

### C569 — Offsets by clouds

*Status:* partial. *Model and proof:* By cases.

*Theorems:* `Verif.Odds.clouds_clear_partial` [pcq], `Verif.Odds.clouds_raises` [pcq], `Verif.Odds.clouds_false` [pcq]

*Note:* Under a clear sky. Missing: clouds (clouds_false); the class says that it is not fully implemented.

### C570 — Counts of galaxies

*Status:* proved. *Model and proof:* By the definition.

*Theorems:* `Verif.Odds.galaxyCounts_raises` [none], `Verif.Odds.galaxyCounts_false` [none]

*Note:* The defect, stated as it is.

### C571 — Magnitudes of X-ray binaries

*Status:* proved. *Model and proof:* Monotonicity of the logarithm.

*Theorems:* `Verif.Odds.lmxb_spec` [pcq], `Verif.Odds.lmxb_periods` [pcq], `Verif.Odds.lmxb_near` [pcq], `Verif.Odds.lmxb_brighter` [pcq]

*Note:* Over the real numbers; random numbers are parameters.

### C572 — Names of the discovery bundles

*Status:* proved. *Model and proof:* No end of a label is an end of another.

*Theorems:* `Verif.MoBatch.batches` [pcq], `Verif.MoBatch.root_ne` [pcq]

*Note:* File names as in C506; children of the bundles are not modelled.

### C573 — Wider windows of discovery

*Status:* proved. *Model and proof:* Filters of the same list.

*Theorems:* `Verif.MoBatch.window_mono` [pcq], `Verif.MoBatch.quick_nested` [pcq]

*Note:* For any order of the rows.

### C574 — Stricter criteria of discovery

*Status:* partial. *Model and proof:* Counts of nights in windows.

*Theorems:* `Verif.MoBatch.nested` [pcq], `Verif.MoBatch.four_nested` [pcq], `Verif.MoBatch.single_pair` [pcq], `Verif.MoBatch.single_nested` [pcq], `Verif.MoBatch.triplets_false` [pcq]

*Note:* False of triplets (triplets_false): they may take 120 minutes, pairs 90. For rows in order of time, because of C112.

### C575 — Lower limits of the signal to noise

*Status:* partial. *Model and proof:* Nights stay as they are.

*Theorems:* `Verif.MoBatch.snr_partial` [pcq], `Verif.MoBatch.snr_false` [pcq]

*Note:* False in general (snr_false).

### C576 — Single detections

*Status:* partial. *Model and proof:* Nights that count, from the properties of the metric.

*Theorems:* `Verif.MoBatch.single_night` [pcq], `Verif.MoBatch.single_iff` [pcq], `Verif.MoBatch.single_misses` [pcq], `Verif.MoBatch.single_le_pair` [pcq], `Verif.MoBatch.single_false` [pcq]

*Note:* False (single_false); what is counted is single_iff.

### C577 — Bundles of characterization

*Status:* partial. *Model and proof:* Texts of numbers are different.

*Theorems:* `Verif.MoBatch.char_iff` [pcq], `Verif.MoBatch.char_partial` [pcq], `Verif.MoBatch.char_default` [pcq], `Verif.MoBatch.fmt0_near` [pcq], `Verif.MoBatch.char_false` [pcq]

*Note:* False of windows with the same rounding (char_false). Windows and bins are not negative.

### C578 — Curves of the plots of completeness

*Status:* partial. *Model and proof:* Words in texts.

*Theorems:* `Verif.MoBatch.over_time_partial` [pcq], `Verif.MoBatch.against_h` [pcq], `Verif.MoBatch.has_iff` [pq], `Verif.MoBatch.mem_all` [pcq], `Verif.MoBatch.over_time_false` [pcq], `Verif.MoBatch.all_false` [pcq]

*Note:* False with Time in other parts of a key (over_time_false) and of all curves (all_false). Plotting itself is not modelled.

### C579 — The Lambert projection keeps areas and does not fold the sky

*Status:* proved. *Model and proof:* Half-angle formula for the radius; injectivity of the sine on [-pi/2, pi/2] and of the angle.

*Theorems:* `Verif.Meanz.lambert_area` [pcq], `Verif.Meanz.lambert_dist` [pcq], `Verif.Meanz.lambert_inj` [pcq], `Verif.Meanz.lambert_north` [pcq], `Verif.Meanz.lambert_inside` [pcq]

*Note:* Real numbers instead of floats.

### C580 — The bias of the mean redshift is that of the year asked for

*Status:* partial. *Model and proof:* Congruence of the loop in the one table it reads; the key of year 11 is absent.

*Theorems:* `Verif.Meanz.run_year` [pq], `Verif.Meanz.year_error` [pq], `Verif.Meanz.year_false` [pcq]

*Note:* False as documented (year_false): the table of the following year is used (run_year).

### C581 — The bias has one row for each bin, and the fitted line keeps the total

*Status:* partial. *Model and proof:* The residuals of a least-squares line sum to zero; induction over the bands with the length of the total as invariant.

*Theorems:* `Verif.Meanz.run_partial` [pcq], `Verif.Meanz.lineFit_sum` [pcq], `Verif.Meanz.lineFit_length` [pq], `Verif.Meanz.far_error` [pq], `Verif.Meanz.far_false` [pcq]

*Note:* False with bins beyond the limit (far_false, far_error). The scatter of depths and the curve are parameters.

### C582 — The bias is proportional to the scatter of the depths

*Status:* proved. *Model and proof:* A least-squares line is linear in the heights; induction over the bands.

*Theorems:* `Verif.Meanz.run_scale` [pcq], `Verif.Meanz.run_uniform` [pcq], `Verif.Meanz.lineFit_scale` [pcq]

*Note:* The scatter of depths is a parameter.

### C583 — A mapping is applied to each value

*Status:* proved. *Model and proof:* Pointwise; case split on the lookup.

*Theorems:* `Verif.Meanz.apply_array` [p], `Verif.Meanz.apply_one` [pq]

*Note:* Conversion to the dtype of the metric is not modelled.

### C584 — The map of Gaia cannot be continued from its own checkpoint (stated as it is)

*Status:* proved. *Model and proof:* Evaluation on the two lists of names, which are constants of the code.

*Theorems:* `Verif.Meanz.restart_error` [none]

*Note:* A statement on two constant lists of names, evaluated by the kernel.

### C585 — The mesh of runs and metrics has each value at its place

*Status:* proved. *Model and proof:* The position of each label and value through orientation and transposition.

*Theorems:* `Verif.SumPlots.mesh_cells` [pcq], `Verif.SumPlots.mesh_T` [pq], `Verif.SumPlots.limits_spec` [pcq]

*Note:* The normalisation is a parameter (C280). Limits given as a list and automatic limits are not modelled.

### C586 — Colours, lines and markers of plots with uncertainties

*Status:* partial. *Model and proof:* Induction over the loop that sets the styles, with positions; a second call from the state after the first.

*Theorems:* `Verif.SumPlots.uncert_sep` [pcq], `Verif.SumPlots.uncert_common` [pcq], `Verif.SumPlots.palette_user` [p], `Verif.SumPlots.palette_after` [pcq], `Verif.SumPlots.palette_false` [p], `Verif.SumPlots.dash_false` [pq], `Verif.SumPlots.style_false` [p]

*Note:* False in part (palette_false, dash_false, style_false); what is drawn is uncert_sep and uncert_common. What matplotlib accepts as colours, lines and markers is not modelled.

### C587 — Shading of better and worse values

*Status:* proved. *Model and proof:* Case split on the two comparisons.

*Theorems:* `Verif.SumPlots.shade_spec` [pq], `Verif.SumPlots.shade_none` [pq]

*Note:* Limits of the axes are a parameter.

### C588 — Lines between families

*Status:* partial. *Model and proof:* Induction over the sums so far.

*Theorems:* `Verif.SumPlots.lines_partial` [pcq], `Verif.SumPlots.lines_single` [pcq], `Verif.SumPlots.lines_key` [pcq], `Verif.SumPlots.lines_false` [pcq]

*Note:* False of families with one run (lines_false, lines_single). That pandas gives a row, not a table, for a label that occurs once is part of the model.

### C589 — Bundles that are run together do not affect each other

*Status:* partial. *Model and proof:* The value of each bundle as a function of the array that the bundles before it leave; induction over the list.

*Theorems:* `Verif.SharedSlice.value_at` [p], `Verif.SharedSlice.values_length` [p], `Verif.SharedSlice.later` [p], `Verif.SharedSlice.alone_partial` [p], `Verif.SharedSlice.alone_order_partial` [p], `Verif.SharedSlice.harmless_iff` [pcq], `Verif.SharedSlice.harmless_order_iff` [pcq], `Verif.SharedSlice.dust_false` [pcq], `Verif.SharedSlice.clip_false` [pcq]

*Note:* False: the metrics of dust_false and clip_false of the package change the values of others. Right for bundles after metrics that do not write (alone_partial) or only reorder (alone_order_partial). C11 and C12 are about metrics that do not write. Exceptions and the cache are not modelled here.

### C590 — Dust is taken from the depths once

*Status:* partial. *Model and proof:* The loop over bands gives the extinction of each visit; induction over the bundles before.

*Theorems:* `Verif.SharedSlice.addDust_eq` [pcq], `Verif.SharedSlice.snn_alone` [pcq], `Verif.SharedSlice.dust_adds` [pcq], `Verif.SharedSlice.dust_false` [pcq], `Verif.SharedSlice.snn_harmless_partial` [p]

*Note:* False for other bundles (dust_false, dust_adds); the metric alone is right (snn_alone). A band without an extinction, a KeyError, is not modelled.

### C591 — Clipped strings of several bundles

*Status:* partial. *Model and proof:* Iteration of the clipping by induction over the bundles.

*Theorems:* `Verif.SharedSlice.clip_adds` [pq], `Verif.SharedSlice.clip_false` [pcq], `Verif.SharedSlice.clip_harmless_partial` [pq]

*Note:* False for other bundles (clip_false, clip_adds); the metric alone is C95 and C96.

### C592 — Each slice begins with the visits of the table; sorting is harmless

*Status:* proved. *Model and proof:* Induction over slices; two sorted permutations of visits with different times are equal.

*Theorems:* `Verif.SharedSlice.slices_alone` [pcq], `Verif.SharedSlice.slice_none` [pcq], `Verif.SharedSlice.reading_harmless` [none], `Verif.SharedSlice.sorting_harmless` [pq], `Verif.SharedSlice.sort_eq` [pq], `Verif.SharedSlice.sorting_alone` [pq]

*Note:* That indexing with numbers or truth values is a copy is part of the model.

### C593 — Simulations of a night with their statistics

*Status:* partial. *Model and proof:* The result as a filter of the table, and the substitution of parameters in both texts.

*Theorems:* `Verif.NightStats.sims_partial` [pcq], `Verif.NightStats.sims_age` [pcq], `Verif.NightStats.sims_no_tags_false` [pcq]

*Note:* False without tags (sims_no_tags_false). The default of the date is not modelled (C40).

### C594 — Which statistics a simulation is given

*Status:* partial. *Model and proof:* The object that is aggregated holds the last row of each name.

*Theorems:* `Verif.NightStats.stats_none` [pcq], `Verif.NightStats.stats_rows` [pq], `Verif.NightStats.objectAgg_mem` [pq], `Verif.NightStats.stats_all_partial` [pcq], `Verif.NightStats.stats_all_false` [pq]

*Note:* False for statistics of both kinds (stats_all_false). The package itself writes only statistics that are not accumulated. That the last value of a key is kept by JSONB_OBJECT_AGG is part of the model.

### C595 — Cells of metric values over pairs of orbital elements

*Status:* partial. *Model and proof:* digitize of sorted edges as membership of a bin; selection of places in two steps equals one filter.

*Theorems:* `Verif.OrbitPlots.digitize_iff` [pcq], `Verif.OrbitPlots.inBin_unique` [pcq], `Verif.OrbitPlots.inBin_exists` [pcq], `Verif.OrbitPlots.cells_spec` [pcq], `Verif.OrbitPlots.ownVals_length` [pq], `Verif.OrbitPlots.own_all_partial` [pq], `Verif.OrbitPlots.own_false` [pcq]

*Note:* False for objects with an H each (own_false). The drawing itself, filling of masked values and the choice of bins (C383) are not modelled.

### C596 — Points of metric values over pairs of orbital elements

*Status:* partial. *Model and proof:* The cases of the code, and the number of values that are selected.

*Theorems:* `Verif.OrbitPlots.points_iff` [p], `Verif.OrbitPlots.points_own_false` [pq]

*Note:* False for objects with an H each (points_own_false).

### C597 — The line at the mark of H

*Status:* partial. *Model and proof:* Lookup in the options laid over the defaults.

*Theorems:* `Verif.OrbitPlots.mark_iff` [pq], `Verif.OrbitPlots.mark_false` [pcq], `Verif.OrbitPlots.dict_same` [p]

*Note:* False for the key of the batches (mark_false, dict_same). The value of the completeness at the mark is C407.

### C598 — The length of Chebyshev segments meets the tolerance on the sky

*Status:* partial. *Model and proof:* Loop with a counter against an inductive specification of repeated halving.

*Theorems:* `Verif.ChebyFit.search_iff` [pcq], `Verif.ChebyFit.calc_length_iff` [pcq], `Verif.ChebyFit.given_iff` [p], `Verif.ChebyFit.guess_bounds` [pcq], `Verif.ChebyFit.length_error_false` [p]

*Note:* False for the error (length_error_false). The residual is that of one object; for several the code takes a percentile, so that some may have larger ones. Rounding of lengths is C62.

### C599 — Fitted segments cover the time span once and meet the tolerance

*Status:* partial. *Model and proof:* Induction on the depth with a count of the segments that hold a time.

*Theorems:* `Verif.ChebyFit.segments_good_partial` [pcq], `Verif.ChebyFit.subdivide_good` [pcq], `Verif.ChebyFit.subdivide_ends` [pcq], `Verif.ChebyFit.no_length_false` [pq]

*Note:* False for segments without a length (no_length_false). Ends of segments are taken as exact; the grid of times is C36. subdivide_ends needs residuals that grow with the length.

### C600 — Residuals and failures that are recorded with a fit

*Status:* partial. *Model and proof:* An invariant of all rows by induction on the depth.

*Theorems:* `Verif.ChebyFit.rows` [pq], `Verif.ChebyFit.vmag_false` [pq], `Verif.ChebyFit.failed_false` [pq]

*Note:* False for the magnitude (vmag_false) and for names (failed_false).

### C601 — Files of coefficients, residuals and failures

*Status:* partial. *Model and proof:* The rule of open for modes.

*Theorems:* `Verif.ChebyFit.append_false` [p], `Verif.ChebyFit.write_partial` [p]

*Note:* False with append (append_false). The format of numbers is not modelled.

### C602 — Number of supernovae and redshift limit at a point

*Status:* proved. *Model and proof:* The join of two tables, a filter, a sum and a median, against a sum over seasons.

*Theorems:* `Verif.SnResult.run_some_iff` [pq], `Verif.SnResult.number_sum` [pcq], `Verif.SnResult.zlim_bounds` [pcq], `Verif.SnResult.bad_season` [pcq], `Verif.SnResult.order_free` [pcq], `Verif.SnResult.reductions` [pcq], `Verif.SnResult.median_perm` [pcq], `Verif.SnResult.median_bounds` [pcq]

*Note:* Redshift limits and numbers of a season are parameters here.

### C603 — Seasons with too low efficiencies do not count

*Status:* partial. *Model and proof:* Sums over seasons with and without the sentinel.

*Theorems:* `Verif.SnResult.seasonZ_pos` [pq], `Verif.SnResult.checkDur_iff` [p], `Verif.SnResult.number_nonneg_partial` [pcq], `Verif.SnResult.sentinel_false` [pcq]

*Note:* False for the sentinel (sentinel_false).

### C604 — Visits that are points of light curves of supernovae

*Status:* proved. *Model and proof:* Membership in filtered products, with phases turned into times.

*Theorems:* `Verif.SnPoints.point_iff` [pcq], `Verif.SnPoints.point_row` [pcq], `Verif.SnPoints.length_le` [pcq]

*Note:* Interpolated fluxes and rounding of redshifts are parameters.

### C605 — The least signal to noise ratio of points of light curves

*Status:* proved. *Model and proof:* A bound of a real power, used at each point.

*Theorems:* `Verif.SnPoints.snr_floor` [pcq], `Verif.SnPoints.cut_void` [pcq], `Verif.SnPoints.snr_lt_five` [pcq], `Verif.SnPoints.cut_five` [pcq], `Verif.SnPoints.before_after` [pcq], `Verif.SnPoints.before_time` [pcq]

*Note:* The documentation of SNNSNMetric names 5 as the default; the code has 1. Stated as it is.

### C606 — Spectra of twilight between and beyond the filters

*Status:* partial. *Model and proof:* Piecewise linear functions by induction over the knots.

*Theorems:* `Verif.TwiSpec.ratio_between` [pcq], `Verif.TwiSpec.ratio_red` [pq], `Verif.TwiSpec.ratio_blue` [pcq], `Verif.TwiSpec.blue_negative` [pcq], `Verif.TwiSpec.nonneg_false` [pcq]

*Note:* Not negative is false (nonneg_false). Fluxes in filters are parameters.

### C607 — Spectra of twilight of each point

*Status:* partial. *Model and proof:* Writes to rows by number against a map over points.

*Theorems:* `Verif.TwiSpec.spec_points` [pq], `Verif.TwiSpec.high_sun` [pq], `Verif.TwiSpec.alone_false` [pcq]

*Note:* False with the sun above the limit (alone_false, high_sun).

### C608 — Scattered moonlight at a point

*Status:* proved. *Model and proof:* A sum over eight corners in a flat array against nested interpolation.

*Theorems:* `Verif.Moon.value_mean` [pcq], `Verif.Moon.value_sum` [pcq], `Verif.Moon.pixel_node` [pcq], `Verif.Moon.pixel_bounds` [pcq]

*Note:* Neighbours of a point on the sphere are an input; interpolation in one dimension is that of C272.

### C609 — Moonlight with the moon outside of the grid

*Status:* partial. *Model and proof:* The test of the largest altitude of a call against one of each point.

*Theorems:* `Verif.Moon.one_moon` [pcq], `Verif.Moon.high_moon` [pq], `Verif.Moon.alone_false` [pcq]

*Note:* False for calls with several altitudes of the moon (alone_false), and above the grid (high_moon).

### C610 — Titles of plots of several bundles

*Status:* proved. *Model and proof:* Sets of names against a condition on all pairs of bundles.

*Theorems:* `Verif.PlotNames.title_shared` [pcq], `Verif.PlotNames.title_joint` [pcq]

*Note:* Joint names are those of another property.

### C611 — Legends tell bundles apart

*Status:* partial. *Model and proof:* Cutting joined texts at blanks.

*Theorems:* `Verif.PlotNames.legend_changing` [pcq], `Verif.PlotNames.legend_each` [p], `Verif.PlotNames.distinct_partial` [pcq], `Verif.PlotNames.distinct_false` [p]

*Note:* False for names with blanks (distinct_false).

### C612 — Colours of fractions of populations

*Status:* partial. *Model and proof:* Injectivity of colours on the names, lifted to lists.

*Theorems:* `Verif.FracColors.no_color` [pcq], `Verif.FracColors.asteroid_distinct` [pcq], `Verif.FracColors.default_blue` [pcq], `Verif.FracColors.outer_partial` [pcq], `Verif.FracColors.outer_false` [pcq]

*Note:* False for the fraction with three filters (outer_false).

### C613 — Percentile curves against H

*Status:* partial. *Model and proof:* Percentiles are monotone in their rank; the median is the percentile of rank one half.

*Theorems:* `Verif.HCurves.median_half` [pcq], `Verif.HCurves.clone_curve` [pcq], `Verif.HCurves.curves_values` [pcq], `Verif.HCurves.curves_ordered` [pcq], `Verif.HCurves.own_error` [pcq]

*Note:* Right with cloned H; false for objects with their own H (own_error).

### C614 — Reductions over objects at one H

*Status:* partial. *Model and proof:* Cases of the shapes.

*Theorems:* `Verif.HCurves.one_first` [pcq], `Verif.HCurves.one_row` [pcq], `Verif.HCurves.reduced_partial` [pcq], `Verif.HCurves.reduced_false` [pcq]

*Note:* False with one H for several objects (reduced_false).

<!-- END TABLE -->

## Modelled code

Generated from the comments of the model. Each line is one definition and the code it
stands for.

<!-- BEGIN MODELLED -->

### `Verif/Model/Archive.lean`

Model of the visit sequence archive

* `rubin_sim/sim_archive/vseqmetadata.py`
* `rubin_sim/sim_archive/vseqarchive.py` (`add_file` 158-220)
* `sql/make_vseqmeta.sql`

Tables are lists of rows; each call of `VisitSequenceArchiveMetadata.query` is one
transaction (`vseqmetadata.py:229-294`). UUIDs, hashes, URLs are opaque types.

* `isTagged`: `vseqmetadata.py:946-967` (`COUNT(*) >= 1`).
* `tagOne`: One round of the loop in `tag` (`vseqmetadata.py:983-986`).
* `tag`: `vseqmetadata.py:969-986`.
* `untag`: `vseqmetadata.py:988-1012`: `none` is the ValueError.
* `TagOp.apply`: A client's call; a failing one changes nothing.
* `Pend`: What a client that has done its check is about to do.
* `Conc`: The shared table and the clients' pending second transactions.
* `Act`: A transaction of some client: the check of `tag`, the check of `untag`, or its pending write.
* `Conc.step`: The table has no uniqueness constraint (`make_vseqmeta.sql:47-50`), so the insertion always succeeds.
* `FileRow`: `make_vseqmeta.sql:63-69`.
* `getFileUrl`: `vseqmetadata.py:1188-1223`, for types other than "visits".
* `getFileSha`: `vseqmetadata.py:1225-1256`.
* `registerFile`: `vseqmetadata.py:1096-1186`. The primary key makes the insertion fail if the row exists; that case does not arise, since `getFileUrl` is asked first.
* `RegCall`: Arguments of a `register_file` call.
* `Arch`: The archive: the file store (by sequence directory and file name), the `files` table and the `visitseq_url` column. The directory of a sequence ends in its uuid (`vseqarchive.py:90-124`), so a location is a pair (uuid, file name).
* `AddCall`: A call of `add_file`; `crash` stops it after the write to the file store.
* `addFile`: `vseqarchive.py:158-220` (not modelled: conversion of sqlite visit files). The boolean tells whether the call succeeded.
* `condaGuard`: Python's `conda_env_hash is None != conda_env_json is None`, a chained comparison: `(hash is None) and (None != json) and (json is None)` (`vseqmetadata.py:1369`).
* `recordCondaEnv`: `vseqmetadata.py:1353-1389`; `current` is the result of `compute_conda_env`.
* `SimRow`: The columns of `simulations_extra` used by the queries. Days and times are integers (days; seconds).
* `formatParams`: Result of client-side parameter substitution (psycopg2): each `%s` consumes a parameter, `%%` is a percent sign, anything else after `%` is an error. Returns the number of parameters consumed.
* `tmplTags`: `vseqmetadata.py:1461-1469`.
* `tmplNoTags`: `vseqmetadata.py:1472-1479`.
* `between`: SQL `d BETWEEN f AND l`; NULL is not true.
* `simsOnNights`: `vseqmetadata.py:1410-1487`, after the defaults of the dates are filled in; `now` in seconds.
* `creationDay`: `make_vseqmeta.sql:75`: `DATE(creation_time - INTERVAL '12 hours')`, as a day number (session time zone UTC).
* `withDailyIds`: `make_vseqmeta.sql:76`: `ROW_NUMBER() OVER (PARTITION BY day ORDER BY time)`, given the order `sorted` in which the database went through the rows: each row with one more than the number of earlier rows of the same day.
* `getSimUuid`: `vseqmetadata.py:1749-1788`: `none` is the ValueError; the inner `Option` is `none` for the failing assertion on several rows.
* `Val`: The part of YAML used for simulation metadata. Dates and times are integers.
* `lookup`: Python `d[key]` / `key in d`.
* `SimMeta`: What `simulations_extra` holds on a simulation (`files` by type).
* `exportYaml`: `vseqmetadata.py:1690-1732`.
* `Imported`: What is recorded by an import.
* `dateOf`: `d["simulated_dates"][side]`, `none` on KeyError.
* `importYaml`: `vseqmetadata.py:1576-1650`. `labelTime` is the time read from the end of a label ("... run at <time>"), if any. `created = none` lets the database use the present time. Types of values are those written by the export.
* `Prenight`: A row of the prenight index.
* `ageDays`: `Timedelta.days`: whole days, rounded down.
* `selectStep`: The loop body of `select_latest_prenight_sim`, `prenightindex.py:445-457`. Each row is paired with the clock reading used for it.
* `selectLatest`: `prenightindex.py:421-464`.
* `Index`: An index table as returned by `get_prenight_index` (143-191): the empty `DataFrame()` of the double fallback has no columns.
* `uuidLoop`: `prenightindex.py:292-306`: the loop over telescopes.
* `getSimUuidIndex`: `prenightindex.py:250-306`.
* `Tbl`: The tables a sequence may be recorded in.
* `SeqRow`: A recorded sequence: its own table, uuid, url.
* `inTable`: PostgreSQL inheritance (`make_vseqmeta.sql:16-37`): a query on `visitseq` sees the rows of its child tables as well.
* `findTable`: `vseqmetadata.py:1391-1408`.
* `setUrl`: `vseqmetadata.py:531-555`: `none` is the ValueError of `_find_visitseq_table`.
* `getUrl`: `vseqmetadata.py:557-584`: outer `none` is an exception.
* `recordSeq`: `vseqmetadata.py:443-492`: insertion under a new random uuid.
* `SimRec`: A row of `simulations`: uuid, label, and the columns set by the second transaction of `record_simulation_metadata`.
* `recordSim`: `vseqmetadata.py:640-735`: `updateOk = false` when the second transaction raises (bad value, lost connection). Returns the table and whether the call returned.

### `Verif/Model/AreaMetrics.lean`

Model of `rubin_sim/maf/metrics/area_summary_metrics.py` and the footprint metrics of
`summary_metrics.py`

A metric value is `none` if it is not a number. `hp.nside2pixarea` is the area of the
sky divided by the number of pixels.

* `pixArea`: `pix_area`
* `areaSummary`: `AreaSummaryMetric.run`, `area_summary_metrics.py:53-65`, with the default `reduce_func`. `none` is the `ValueError` of the minimum of no values.
* `areaThreshold`: `AreaThresholdMetric.run`, lines 101-120.
* `footprintFraction`: `FootprintFractionMetric.run`, `summary_metrics.py:36`, 41-44: pairs of the footprint and the metric value, where masked values are zero.
* `median`: `np.median`
* `lastN`: `xs[-n:]`
* `foNv`: `FONv.run` without `norm`, `summary_metrics.py:78`, 82-99: median and minimum. `none` is the bad value.
* `foArea`: `FOArea.run` without `norm`, lines 140-150.

### `Verif/Model/Astrometry.lean`

Astrometry

Models of `rubin_sim/maf/utils/astrometry_utils.py`, of
`rubin_sim/maf/metrics/calibration_metrics.py`, `dcr_metric.py`, `optimal_m5_metric.py` and
`snr_weight.py`, over the real numbers. Of floating point infinities only those are kept that
reach the result.

* `total`: `np.sum` of `f` over the visits.
* `sigmaSlope`: `sigma_slope`, `astrometry_utils.py:26-32`, on pairs (x, sigma_y); `none` is NaN.
* `m52snr`: `m52snr`, `astrometry_utils.py:63-68`.
* `astromPrecision`: `astrom_precision`, `astrometry_utils.py:92`.
* `Visit`: The columns that the metrics of this file read.
* `snrStep`: One pass of the loop over filters, `calibration_metrics.py:122-124`: visits in the filter get their signal to noise, here for visits paired with the array.
* `snrLoop`: The loop, `calibration_metrics.py:120-124`, from an array of zeros.
* `errors`: Position errors, `calibration_metrics.py:125`.
* `finalSigma`: `ParallaxMetric._final_sigma`, `calibration_metrics.py:104-114`, on (error, ra, dec); `none` is infinity. Division by zero in line 110 gives infinity and so adds nothing in line 113; as zero is its own inverse here, the terms are the same.
* `parallax`: `ParallaxMetric.run` without normalisation, `calibration_metrics.py:116-126`.
* `parallaxNorm`: With normalisation, `calibration_metrics.py:127-138`; a number divided by infinity is zero.
* `pmKept`: The visits that are used and their errors, `calibration_metrics.py:242-254`: those in filters with at least two visits. The bad value is taken to be none of the errors.
* `pm`: `calibration_metrics.py:255-256`
* `bestDates`: `calibration_metrics.py:258-260`: the first half of the visits at zero and the others at the end of the baseline.
* `pmNorm`: `calibration_metrics.py:257-265`, where NaN becomes the bad value `none`.
* `properMotion`: `ProperMotionMetric.run`, `calibration_metrics.py:241-265`.
* `average`: `np.average` with weights, of `f`.
* `weightedR`: `ParallaxCoverageMetric._weighted_r`, `calibration_metrics.py:390-395`, on (weight, first, second).
* `fmod`: `x % y` of numpy, for `y` not zero.
* `spread`: `theta - np.min(theta)`, then its largest value; `none` for an empty array.
* `thetaCheck`: `ParallaxCoverageMetric._theta_check`, `calibration_metrics.py:370-382`, on the angles of the visits above the limit; `none` is the exception for no visits. In line 378 the product with pi comes after the remainder.
* `Coverage`: What `ParallaxCoverageMetric.run` gives.
* `coverage`: `ParallaxCoverageMetric.run`, `calibration_metrics.py:397-416`; weights as in 384-388, and `np.arctan2` as the argument of a complex number.
* `degen`: The correlation of `ParallaxDcrDegenMetric.run`, `calibration_metrics.py:526-551`, on (error, parallax, dcr), where the visits come twice, once for each coordinate. The fit is a library function: for independent columns it finds the coefficients 1 and 1, and the covariance is the inverse of the normal matrix. `none` for dependent columns.
* `declared`: Columns that the metrics say they need, with the default names, `calibration_metrics.py:65`, 200, 344 and 476-483.
* `read`: Columns that `run` reads, `calibration_metrics.py:116-138`, 241-265, 384-416 and 503-529.
* `dcrPrecision`: `DcrPrecisionMetric.run`, `dcr_metric.py:58-93`; `none` is infinity. The loop is over the six filters, so that visits in others keep a signal to noise of zero and an infinite error, and add nothing in line 83.
* `optimalM5`: `OptimalM5Metric.run` with neither option, `optimal_m5_metric.py:79-89`; visits are (m5, m5 on the meridian), at least one.
* `optimalM5Norm`: With `normalize`, lines 91-92.
* `optimalM5Diff`: With `mag_diff`, lines 81-82.
* `snrWeighted`: `SnrWeightedMetric.run`, `snr_weight.py:21-24`, on (value, m5).
* `radius`: `RadiusObsMetric.run`, `calibration_metrics.py:580-581` and 599-609, for one visit: the slice point in radians and the visit in degrees.
* `radiusUnits`: The unit that `RadiusObsMetric` gives, `calibration_metrics.py:591`.

### `Verif/Model/Bandpass.lean`

Throughput curves, `rubin_sim/phot_utils/bandpass.py`

A throughput curve is a list of pairs of wavelength and throughput. Numbers are elements of an
ordered field. `none` is an exception.

* `readThroughput`: `Bandpass.read_throughput` from the rows of a file that are not comments, `bandpass.py:177-188`.
* `interp0`: `scipy.interpolate.interp1d(wavelen, sb, fill_value=0, bounds_error=False)` for increasing wavelengths, `bandpass.py:308-309`.
* `halfGrid`: `np.arange(wavelen_min, wavelen_max + wavelen_step / 2, wavelen_step)`, `bandpass.py:223-228` and `bandpass.py:306`.
* `resampleBandpass`: `Bandpass.resample_bandpass`, `bandpass.py:302-317`.
* `addComponent`: One component in `Bandpass.read_throughput_list`, `bandpass.py:234-244`.
* `readThroughputList`: `Bandpass.read_throughput_list` of curves that were read, `bandpass.py:223-245`.
* `multiplyThroughputs`: `Bandpass.multiply_throughputs`, `bandpass.py:341-354`. Grids of different length are not equal, as in numpy before 1.25; products of arrays of different length raise, unless one of them has length one, which is not modelled.
* `imsimBandpass`: `Bandpass.imsim_bandpass`, `bandpass.py:119-128`.
* `effWavelen`: `Bandpass.calc_eff_wavelen`, `bandpass.py:395-399`, with `phi` up to date.

### `Verif/Model/BaseMetric.lean`

Registries and the base class of metrics

Models of `rubin_sim/maf/metrics/base_metric.py`, of the registries of `base_map.py`, `base_stacker.py` and
`base_slicer.py`, of `get_col_info.py`, of the names of reduced metrics (`metric_bundle.py:703-749`,
`metric_bundle_group.py:576-600`) and of `MetricBundleGroup.read_all` (`metric_bundle_group.py:750-835`).

Texts are lists of characters, dictionaries are lists of pairs with one pair for each key, in the order of
insertion. Classes are numbers. Printing and warnings are left out.

* `put`: `d[k] = v`
* `Def`: A class: the name of its module, its own name, and the class itself.
* `fullName`: `base_metric.py:22-30`, the same in `base_map.py:16-24` and `base_stacker.py:21-29`.
* `slicerName`: `base_slicer.py:24-27`.
* `addMetric`: `base_metric.py:31-34`: a second definition replaces the first.
* `addOnce`: `base_map.py:25-28`, `base_stacker.py:30-35` and `base_slicer.py:28-31`: a second definition is an exception; `skip` are the names that are left out.
* `addAll`: Definitions one after the other, until an exception.
* `addMaps`: The registry of maps, `base_map.py:17` and 27.
* `addStackers`: The registry of stackers, `base_stacker.py:22` and 34.
* `addSlicers`: The registry of slicers, `base_slicer.py:25` and 30.
* `Stacker`: A class of stackers: the columns that it adds and their units, which can be `None`.
* `colInfo`: `ColInfo.__init__`, `get_col_info.py:52-57`: sources and units; `known` are the units of the table in the code.
* `getUnits`: `get_units`, `get_col_info.py:62-80`.
* `ColReg`: `ColRegistry`: the columns, those of the database, and those of stackers with their classes.
* `ColReg.empty`: `ColRegistry.__init__`, `base_metric.py:67-70`.
* `addCol`: One step of `add_cols`, `base_metric.py:89-96`.
* `RegOp`: What is done with the registry.
* `regStep`: `clear_reg` and `add_cols`, `base_metric.py:72-96`.
* `removeFirst`: `t.replace(pat, "", 1)` for a pattern that is not empty.
* `removeAll`: `t.replace(pat, "")` for a pattern that is not empty; the number bounds the steps.
* `colStr`: `str` of a column.
* `metricName`: `base_metric.py:159-167`.
* `joinUnits`: `" ".join`, which takes texts only.
* `metricUnits`: `base_metric.py:185-189`.
* `reduces`: The names of functions that are added in `base_metric.py:171-176`; `ms` are the methods with their places, in alphabetical order. `reduce_funcs` has the name of the method, `reduce_order` its place.
* `metricDtype`: `base_metric.py:178-183`.
* `reducedName`: `metric_bundle.py:703-707`, with the name of the function from `metric_bundle_group.py:583`.
* `reducedOrder`: `metric_bundle.py:746`.
* `readName`: `metric_bundle_group.py:782`; `fn` is `__name__` of the function.
* `fileRoot`: `_build_file_root`, `metric_bundle.py:269-278`.
* `Bun`: A bundle: the name of its metric, the rest of its file name, and the functions of its metric.
* `Bun.root`: The name of the file of a metric of this name.
* `readReduced`: `metric_bundle_group.py:781-820`: the attribute of line 802 does not exist, which is not an `IOError`.
* `readAll`: `read_all`, `metric_bundle_group.py:750-835`: the bundles that are left, with their values.
* `tauOrder`: `galplane_time_sampling_metrics.py:107-108` and 204-205: the orders are put in after those of the base class. `pre` is what is left of the text in front, `taus` are the numbers as texts.
* `preVisit`: `reduceTau_` without `reduce`, line 108.
* `preGaps`: `reduce_Tau_` without `reduce`, line 205.

### `Verif/Model/Batch2.lean`

Model of the names of bundles made by the batches

`rubin_sim/maf/batches/common.py`, `altaz_batch.py`, `time_batch.py`, `metadata_batch.py`, `slew_batch.py`, `filterchange_batch.py`,
`openshutter_batch.py`. Of a bundle the name of its metric, its label, the first letters of the name of its slicer and its subgroup are
kept. Conditions are strings here; plots, colours and the computation of the metrics are not modelled.

* `Bun`: A bundle: metric, label, letters of the slicer, condition, subgroup and caption.
* `Bun.root`: `_build_file_root`, `metric_bundle.py:263-278`, with the name of the run set by `set_run_name` at the end of a batch.
* `fillDict`: The loop of `make_bundles_dict_from_list`, `metric_bundle_group.py:32-37`, with the dictionary so far.
* `makeDict`: `make_bundles_dict_from_list`
* `prefixLabel`: The label before that of the band, `common.py:66-72`.
* `bandLabel`: `info_labels` of `filter_list`, lines 73-79; `none` is "all".
* `bandText`: `sqls` of `filter_list`, lines 73-85, as text.
* `defaultBandCol`: The column of the bands when the batches do not give one, line 32.
* `perBand`: One bundle for every band and metric, with the same slicer.
* `altaz`: `altazHealpix`, `altaz_batch.py:57-94`; `altazLambert` differs in the plots. The columns of `colmap` do not matter for the names.
* `seasons`: The bundles of `seasons`, `time_batch.py:659-752`.
* `gapsBand`: The bundles of one band in `timeGaps`, `time_batch.py:541-608`, with the subgroup left in `displayDict` by the band before; gives it on.
* `gapsLoop`: The loop over the bands.
* `timeGaps`: `timeGaps`, `time_batch.py:514-610`.
* `extendedNames`: Names of `extended_metrics(colname, replace_colname=colname)`, `common.py:167-172` and lines 202-217, the replacement being by the same text.
* `metadataBasics`: `metadataBasics`, `metadata_batch.py:98-177`, for `valueName=None`; `sky` are the letters of the slicer given, "HEAL" otherwise.
* `slewUni`: The statistics of slew times, names and captions, `slew_batch.py:49-65`.
* `slewHist`: The histograms, lines 67-141.
* `slewLabel`: `info_label`, lines 40-42.
* `slewBasics`: `slewBasics`, lines 32-145; `slewtime` and `slewdist` are columns of `colmap`.
* `changeNames`: The names of `setupMetrics`, `filterchange_batch.py:11-57`.
* `changeLabel`: The label of both batches of filter changes, lines 94-100 and 154-160.
* `perNight`: `filtersPerNight`, lines 82-124; `nights` as text.
* `wholeSurvey`: `filtersWholeSurvey`, lines 146-182.
* `shutterLabel`: The label of `openshutterFractions`, `openshutter_batch.py:37-41`, also 70-74; `lower` is the start in lower case.
* `openShutter`: `openshutterFractions`, lines 31-100.
* `mean`: `np.mean`
* `summaryData`: The values a summary is given: those not masked, or all with the masked ones filled, `metric_bundle.py:635-652`.
* `summary`: One summary statistic: `badval` if there is no value, lines 653-656.
* `lightcurveSummary`: `lightcurve_summary`, `common.py:136-144`, applied to the values of a metric.
* `fracAbove`: `FracAboveMetric.run`, `simple_metrics.py:369-373`, with scale 1.
* `fracBelow`: `FracBelowMetric.run`, lines 386-390.
* `microlensingSummary`: `microlensing_summary`, `common.py:364-388`; all values are finite, so `RealMeanMetric` is the mean.
* `fullRange`: `FullRangeMetric` and `CountUniqueMetric` on the nights, `openshutter_batch.py:55-67`.

### `Verif/Model/Batch3.lean`

Model of the conditions and requirements of further batches

`rubin_sim/maf/batches/srd_batch.py`, `ddf_batch.py`, `visitdepth_batch.py`, `time_sci_batch.py`, `metadata_batch.py`. Conditions are lists of
tokens as in `Model/Batches.lean`. Plots, orders, groups and captions are not modelled, nor the values of the metrics except those of the
rapid revisits and of percentiles.

* `revisitMin`: `d_tmin` as given to the metric, `srd_batch.py:581` and 591: 40 seconds are turned to minutes and then divided as seconds. In days.
* `revisitPairs`: `d_tpairs`, `srd_batch.py:582` and 592, in days.
* `revisitMax`: `d_tmax`, `srd_batch.py:583` and 593, in days.
* `rapidRevisits`: The value of "RapidRevisits" at a point of the sky with visits at these times, `srd_batch.py:588-596`: `min_n1` is `nOne`, `min_n2` is `nTwo`.
* `revisitArea`: The summary "Area (sq deg)", `srd_batch.py:586-605`; `none` is a masked pixel and `pixArea` the area of a pixel of `npix`.
* `percentileMetric`: `PercentileMetric`, `simple_metrics.py:396-404`; the percentile is 90 unless given.
* `astrometryPercentiles`: Percentiles in the summaries of `astrometryBatch`, names and arguments, `srd_batch.py:261` and 428.
* `astrometrySummary`: The value of the summary with the name.
* `ySql`: `ysql`, `srd_batch.py:364-367`, of rows whose columns hold letters; the column of the bands in `colmap` is `bandCol`, not used.
* `firstYear`: The condition of `firstYearMetadata`, `metadata_batch.py:534-538`; `"night < 365.5"` on whole nights.
* `threeBands`: Three bands, `ddf_batch.py:222-225` and 261-264.
* `fieldSql`: `fieldsqls` of a field, `ddf_batch.py:497-507`; `note` is the test `scheduler_note like '%…%'`, `none` for the field "WFD".
* `Kind`: What a bundle of `ddfBatch` computes.
* `DBun`: Bundle: kind, band of its label (`none` for all bands, or for a label that names none) and condition.
* `six`: The six bands, `"ugrizy"`.
* `skyBundles`: The bundles of one field that are computed on the sky, `ddf_batch.py:140-475`.
* `fieldBundles`: The bundles of one field that are computed once, `ddf_batch.py:509-722`; in line 692 `f` is the last of `filterlist`, line 636.
* `ddfBundles`: The bundles of one field.
* `fieldName`: `fieldname`, `ddf_batch.py:129-131`.
* `PtSlicer`: The slicers of the metrics that are computed once.
* `ptSlicer`: `ptslicer`, `ddf_batch.py:485-492`.
* `fieldPixels`: The pixels of a field, `ddf_batch.py:89-107`: `near c i` tells if pixel `i` is within the radius of centre `c`; more than one centre is joined by `np.unique`.
* `tEff`: `tEffMetrics`, `visitdepth_batch.py:244-300`; `sky` are the letters of the slicer given, "HEAL" otherwise.
* `phaseGapArgs`: Arguments of `PhaseGapMetric` and, through `kwargs`, of `BaseMetric`, `phase_gap_metric.py:33-47`; `units` is given there.
* `callKeywords`: A call with keywords: one that is not an argument is a `TypeError`.
* `phaseGap`: `phaseGap`, `time_sci_batch.py:61-100`; lines 72-73 use the text of a condition as an index of a list. The number of bundles.
* `replaceAll`: `s.replace(old, new)`, from the left; `old` is not empty.
* `replacedNames`: Names of `extended_metrics(value, replace_colname=valueName)`, `common.py:202-216`.

### `Verif/Model/Batches.lean`

Model of the batches

`rubin_sim/maf/batches/common.py`, `time_batch.py`, `glance_batch.py`, `hourglass_batch.py`, `visitdepth_batch.py`: conditions, names and
captions. Conditions of SQL are lists of tokens, whose atoms are the tests they stand for; the text between the tokens is
not modelled.

* `Tok`: Tokens of a condition on rows `R`.
* `both`: `"(%s) and (%s)"`, as in `common.py:85`, `skycoverage.py:121`, `hourglass_batch.py:61`, `metadata_batch.py:536`.
* `bandList`: The bands of `filter_list`; `none` is "all".
* `bandSql`: `sqls` of `filter_list`, `common.py:64-86`; no condition is the empty list.
* `subsetSql`: Subsets of adjacent bands, `time_batch.py:215-229`.
* `glanceSql`: `sql_per_filt`, `glance_batch.py:67-79`.
* `yearEnd`: `365.25 * year` as an integer, `hourglass_batch.py:56-59`.
* `inYear`: The nights of a year of the hourglass, `hourglass_batch.py:56-59`.
* `beforeYear`: The nights up to a year for weak lensing, `science_radar_batch.py:686-689`.
* `combine`: `combine_info_labels`, `common.py:20-29`.
* `rstrip`: `s.rstrip(chars)`
* `shortName`: Names of metrics with the column left out, `common.py:178`, also lines 216 and 251.
* `fractions`: `fraction_population_at_threshold`, `common.py:331-341`: threshold and name of each.
* `captions`: Captions of the loop over filters, `time_batch.py:193-214`: the caption is added to.
* `subsetLabel`: The label of `nvisitsPerSubset`, line 420 of `visitdepth_batch.py`, without a footprint: `None += str` is an exception.

### `Verif/Model/Bins.lean`

Model of `optimal_bins` and `percentile_clipping` of
`rubin_sim/maf/utils/maf_utils.py`

Numbers are elements of an ordered field with a floor; NaN in the data is `none`.
The cube root in the Freedman-Diaconis rule is an arbitrary function.

* `pct`: `np.percentile(d, 100 q)` (linear interpolation); `none` for no data.
* `Num`: A numpy float after a division.
* `fdiv`: `a / b` with numpy semantics.
* `trunc`: `int(x)`
* `limitBins`: `maf_utils.py:150-165`: limits, NaN replacement, conversion.
* `optimalBins`: `optimal_bins`, 94-165.
* `clip`: `percentile_clipping`, 168-190, with the percentile as a fraction.

### `Verif/Model/BundleGroup.lean`

Model of `rubin_sim/maf/metric_bundles/metric_bundle_group.py`

* `_check_compatible` (144-177), `_find_compatible_lists` (179-215);
* the collection of unique stackers and the stacker runs (424-441);
* the slice loop of `_run_compatible` with and without the cache (458-533).

Not modelled: the database query, verbose printing, plotting, writing to disk,
exceptions raised inside metrics (metrics are total functions here).

* `Bundle`: What `_check_compatible` looks at. `S` slicers, `T` stackers, `M` maps.
* `EqTests`: The equality tests the code uses: `slicer1 != slicer2` (`BaseSlicer.__eq__`), `stacker != stacker2` (`base_stacker.py:84-120`) and the class names of the stackers. They are parameters because slicers and stackers are open classes.
* `pySortResult`: `list.sort()` sorts in place and returns `None`.
* `checkCompatible`: `metric_bundle_group.py:144-177`. Line 168 compares the *results* of the two `sort()` calls, i.e. `None != None`.
* `scanRest`: `metric_bundle_group.py:197-203`: scan of the remaining members with `break`; the local `compatible` it leaves behind is not read afterwards.
* `offerTo`: `metric_bundle_group.py:187-206`: body of the loop over existing lists. The append happens whatever the scan found. Returns the found flag.
* `placeKey`: `metric_bundle_group.py:184-214`: one bundle of the current dict.
* `findCompatibleLists`: `metric_bundle_group.py:179-215`: `compat` is `_check_compatible` on the bundles of two keys (first argument: the member of the list).
* `uniqStackers`: `metric_bundle_group.py:424-436`: `uniq_stackers` keeps the first of equal stackers in order (`in` uses `__eq__`).
* `runStackers`: `metric_bundle_group.py:438-441`: run the stackers one after the other, each overriding existing columns, on the shared `self.sim_data`.
* `groupData`: The table a group of bundles (given by their stacker lists) is evaluated on.
* `groupsData`: `metric_bundle_group.py:336-348`: the groups of one constraint are run one after the other on the *same* `self.sim_data`, which each group replaces by its stacked version. Returns the table each group sees.
* `Slice`: One item of the slicer iteration: `slice_point["sid"]`, the slice point and the rows selected by `idxs`.
* `RunState`: Metric values of all bundles of the group during the loop: `data b i` and `mask b i`, plus the `OrderedDict` cache (oldest entry first).
* `maskSlice`: `metric_bundle_group.py:478-483` (`len(slicedata) == 0`).
* `evalSlice`: `metric_bundle_group.py:511-522`: direct evaluation.
* `cacheGet`: Dictionary lookup `cache_dict[key]`.
* `cacheDel`: `del cache_dict[key]`.
* `cacheEvict`: `metric_bundle_group.py:506-509`: drop the oldest entry when too long.
* `cachedSlice`: `metric_bundle_group.py:486-509`: one non-empty slice with the cache.
* `sliceStep`: `metric_bundle_group.py:477-522`: one slice. `cacheSize = 0` means no cache (458-465).
* `maskBad`: `metric_bundle_group.py:523-533`: mask bad values. `isBad b v` is `v == badval` (or `is badval` for object arrays).
* `runSlices`: `metric_bundle_group.py:454-533`: the slice loop and the final masking. `garbage` is the content of `np.empty`, `mask0` the initial mask (`metric_bundle.py:224-240`: all `False`, or the slicer's own mask).

### `Verif/Model/BundleSet.lean`

Setting up, labelling, writing and plotting bundles

`rubin_sim/maf/metric_bundles/metric_bundle.py` and `metric_bundle_group.py`: what the constructor and the setters make of their arguments, the label
from the constraint, the dictionaries for plots and display, files and the rows in the database of results, plots, and the bookkeeping of a group.

Dictionaries are lists of pairs.  Objects that the code only passes on (stackers, metrics, plotters, figures, values) are arbitrary.

* `put`: `d[k] = v`
* `update`: `d.update(e)`
* `del`: `del d[k]`, if it is there
* `Item`: An item of a list that is given: an object of the right kind, `None`, or something else.
* `Arg`: An argument: `None`, one object, or a list.
* `stackerLoop`: The loop `metric_bundle.py:146-152`.
* `stackerList`: `metric_bundle.py:139-154`
* `objLoop`: The loops `metric_bundle.py:346-349` and `375-380`.
* `summaryMetrics`: `set_summary_metrics`, `metric_bundle.py:341-356`
* `plotFuncs`: `set_plot_funcs`, `metric_bundle.py:370-387`. `plot_funcs is isinstance(...)` is never true of a plotter, which cannot be iterated over. Those of the slicer are instances already or are made to be.
* `remove`: `s.replace(pat, "")`
* `oneBlank`: `s.replace(" ", " ")`
* `strip`: `s.strip(" ")`
* `buildLabel`: `_build_metadata`, `metric_bundle.py:249-261`
* `updateOpt`: `metric_bundle.py:399-400` and `442-443`
* `dropIf`: `metric_bundle.py:403-415`, for each of the two entries.
* `setPlot`: `set_plot_dict`, `metric_bundle.py:399-415`: `inf` tells whether a value is a number that is not finite, `zero` whether it is 0.
* `reducedPlot`: The plot dictionary of a reduced bundle, `metric_bundle.py:735-740`: its own is empty before.
* `About`: What a caption is made from: the comment and name of the metric, the name of the slicer, the constraint.
* `phrase`: `" ... %.2f." % x`, where `x` is `None` or a number that is printed as a text.
* `caption`: `metric_bundle.py:448-461`; `zp` and `norm` are the entries of the plot dictionary.
* `defaults`: `metric_bundle.py:433-438`
* `fillCaption`: `metric_bundle.py:447-461`: the caption is made if there is none.
* `setDisplay`: `set_display_dict`, `metric_bundle.py:433-462`: `auto` is the caption that would be made now.
* `displays`: A number of calls of `set_display_dict`, each with the caption that would be made at its time.
* `reducedDisplay`: The dictionary of a reduced bundle, `metric_bundle.py:741-751`: made by the constructor (`metric_bundle.py:198-200`), then from the one of its parent, then `order`, then what is given. `auto` is the caption for the reduced metric when the constructor is run, with an empty plot dictionary, and `auto'` afterwards.
* `Bun`: What a bundle has when it is written.
* `File`: The parts of the file `base_slicer.py:199-210` that are not the values and the slicer.
* `outfile`: `metric_bundle.py:492-495` and `522-525`
* `write`: `write`, `metric_bundle.py:522-536`, without the database.
* `read`: `read`, `metric_bundle.py:567-606`, of a file that is there. `str` is the text of an entry of the plot dictionary.
* `writeDb`: `write` with a database (`metric_bundle.py:522-538`, `492-505`): the name of the file, and the database, in which no suffix is given.
* `plot`: `plot`, `metric_bundle.py:797-816`: with a plotter (and its type), or with those of the bundle; the attribute `plotType` does not exist.
* `plotCurrent`: `plot_current`, `metric_bundle_group.py:714-726`: the bundles that were plotted, those for which there was a warning, and the error at which it stopped.
* `current`: `set_current`, `metric_bundle_group.py:257-262`
* `dbCols`: `metric_bundle_group.py:263-267`, as a set.
* `reducedDict`: The names under which the reduced bundles are added (`metric_bundle_group.py:575-594`): `reduced` are the new ones in order, with their names and file roots.
* `reduceCurrent`: `reduce_current`, `metric_bundle_group.py:575-601`, for the group.
* `runAll`: `run_all`, `metric_bundle_group.py:230-238`: the bundles that are run for each constraint (all have data), and the dictionary afterwards.

### `Verif/Model/ChebyFit.lean`

Fits of Chebyshev polynomials to the track of an object

Model of `rubin_sim/moving_objects/cheby_fits.py`: the search for the length of segments (`calc_segment_length`,
311-392), the fit of one segment with its subdivision (`calc_one_segment`, 487-538, `_subdivide_segment`, 540-585), and
the files (`write`, 587-689).

Times are numbers of units of the last decimal. What is a parameter: the residual of the position for a segment (pure
mathematics, `_get_coeffs_position`), the residuals of the other quantities, `none` if one is not a number
(`_get_coeffs_other`), the rounding of half a length, and that of a quotient (`rnd`, as in `roundLength` of
`Verif.Model.ChebySegs`, where the loop of `_round_length` is modelled). For the residual of a test length there is one
object, as in a subdivision. The ends of segments are exact (what the grid of times does to them is C36).

* `FErr`: What is raised; `attributeError` is that of `as_matrix`, which series of pandas do not have since version 1.0.
* `guess`: The first length in days, `cheby_fits.py:353-365`; `np.round` is the parameter `rnd`, any rounding to whole numbers. `int` of a positive number is its floor.
* `roundErr`: The errors of `_round_length`, 263-286: the list of failures is filled (279) before the `ValueError` (281).
* `search`: The loop of `calc_segment_length`, `cheby_fits.py:376-380`; the first number is `max_iterations + 1 - counter`. The result has it after the loop.
* `finish`: After the loop, `cheby_fits.py:381-392`.
* `calcLength`: `calc_segment_length` without an argument, from the first guess, `cheby_fits.py:370-392`.
* `givenLength`: `calc_segment_length` with an argument, `cheby_fits.py:328-337`: the length, and if there is a warning.
* `Res`: A row of `self.resids`.
* `Other`: The residuals of `_get_coeffs_other`.
* `Out`: What a fit has recorded for an object: segments with coefficients, residuals, and failures, where the first part is true if the failure has the name of the object (383) and false if it has the whole column of names (520).
* `Out.add`: Values of a subdivided segment are added, `cheby_fits.py:581-585`.
* `Setup`: What a fit is made of.
* `splitLoop`: The segments of a span, `cheby_fits.py:475-485`.
* `oneSegment`: `calc_one_segment`, `cheby_fits.py:503-538`; `sub` is `_subdivide_segment`. The residual of `vmag` is that of `geo_dist` (537).
* `runSegs`: The loop of `calc_segments`, `cheby_fits.py:478-485`, for one object.
* `subLength`: The length for a subdivision.
* `subdivide`: `_subdivide_segment`, `cheby_fits.py:551-585`, with a depth of recursion; only `ValueError` is caught (568).
* `calcSegs`: `calc_segments` for one object and a length that is set.
* `modeOk`: The check of modes by `open`: exactly one of create, read, write and append.
* `write`: `write`, `cheby_fits.py:607-689`: the lines of the three files after the call, from those of failures before (`none`: no file); `none` as a whole is the `ValueError` of `open`.

### `Verif/Model/ChebySegs.lean`

Model of `rubin_sim/moving_objects/cheby_values.py` and the segment arithmetic of
`rubin_sim/moving_objects/cheby_fits.py`

* `Seg`: A row of the coefficient table: object, time range, coefficients.
* `Cell`: A cell of the result: the initial zero, NaN, or the evaluation of a segment at a time (`_eval_segment`, 90-150, with `mask=False`).
* `minStart`: Smallest start and largest end of the matching segments; `none` for an empty table, where numpy raises `ValueError`.
* `pick`: `cheby_values.py:199-220`: the fill value of the column and the segments used at time `t`.
* `fillCol`: Lines 221-225: fill one column and overwrite the labels.
* `ephLoop`: The loop over times, lines 198-225: final labels and one column per time.
* `EphResult`: Result of a call: labels and columns, and the caller's `obj_ids` afterwards.
* `getEphemerides`: `get_ephemerides` with `obj_ids` given as an array, lines 155-231. The result array `ephemerides["obj_id"]` is the caller's array, so the comparison at the end sees the overwritten labels on both sides.
* `getEphemeridesAll`: `get_ephemerides` without `obj_ids`; `uniq` is `np.unique` of the object column.
* `segLoop`: The loop of `calc_segments`, `cheby_fits.py:465-485`, for one object, in units of the last decimal: `j` segments are done, `L` is the segment length, `P` the time span, `g` the granularity. The first four-fold inequality is `t_segment_start < t_end - eps` with `eps = L/(4g)`. Each segment is given by the first and last index of the grid times `t_start + k L/g`, `k ≤ K` it uses (`t_segment_start ≤ time < t_segment_end + eps`); these are the recorded ends (`calc_one_segment`, 491-508).
* `lastIndex`: `make_all_times`, 222-240: the last index `k` with `k L/g < P + L/(2g)`.
* `calcSegments`: `calc_segments` for one object. `P` iterations suffice for positive lengths.
* `roundLoop`: The loop of `_round_length`, 276-285, with `fuel` iterations left; `rnd P f` is `round(P/f)` in units of the last decimal.
* `roundLength`: `_round_length`, 259-295. The tolerance `10 ** -(n_decimal - 1)` is ten units.
* `threeSixtyToNeg`: `three_sixty_to_neg`, `cheby_fits.py:13-17`; empty arrays raise in numpy.

### `Verif/Model/Chebyshev.lean`

Model of `rubin_sim/moving_objects/chebyshev_utils.py`

Floating point numbers are idealised as elements of a field `K`; `np.linalg.inv` is
the exact inverse (an error for singular matrices). Arrays of points are handled
pointwise.

* `St`: The loop variables of `chebeval`, `chebyshev_utils.py:51-59`.
* `rescale`: Rescaled coordinate, lines 47-49.
* `St.init`: State before the loop, lines 51-56 (`v2` is overwritten before use).
* `stepV`: One iteration of the loop with velocity, lines 61-79; `tt` is the doubled coordinate of line 57, `n` the number of coefficients.
* `evens`: `np.arange(0, n, 2)`.
* `chebevalV`: `chebeval` with velocity and without mask, lines 13-86.
* `St0`: The loop variables without velocity.
* `step0`: One iteration of the loop without velocity, lines 88-94.
* `cheb0`: `chebeval` without velocity and without mask.
* `masked`: The mask, lines 81-85 and 95-97; NaN is `none`.
* `node`: `np.linspace(1, -1, n)`.
* `unit`: `cj[:] = 0; cj[i] = 1`, lines 150-151.
* `tmat`: `tmat`, lines 149-154 and 213-216; default interval (-1, 1).
* `tdot`: `tdot`, lines 149-154.
* `firstPt`: Index of the first and last point.
* `c2x`: Lines 218-222: `C2` without velocities; the two additional rows are `Sum.inr`.
* `bx`: The constraint rows of `C1`, lines 227-228.
* `c1x`: Lines 224-229: `C1` without velocities.
* `multX`: `make_cheb_matrix_only_x`, lines 231-238: the points are reversed at the end.
* `c2v`: Lines 157-171: `C2` with velocities. The last axis pair `(point, component)` is flattened by the code (component 0 position, 1 velocity).
* `bv`: The constraint rows, lines 176-179.
* `c1v`: Lines 162, 173-181: `C1` with velocities.
* `multV`: `make_cheb_matrix`, lines 183-190.
* `fitX`: `chebfit` without derivatives, lines 254-365 (coefficients; multipliers computed or precomputed by `make_cheb_matrix_only_x`).
* `fitV`: `chebfit` with derivatives; `h` is the length of the time interval.

### `Verif/Model/ColorSlope.lean`

Model of the metrics of colours and slopes, of vendors, uses and of the cadence for supernovae

`rubin_sim/maf/metrics/color_slope_metrics.py`, `chip_vendor_metric.py`, `use_metrics.py`, `sn_cadence_metric.py`.

* `timesIn`: Times of the visits in a filter.
* `wide`: Lines 42-45: the times span at least the length.
* `near`: Lines 56-57: there are gaps and the least is at most the length.
* `check`: `CheckColorSlope.__call__`, `color_slope_metrics.py:29-63`, on visits (filter, time). The loops only ask if some filter qualifies, so their order does not matter.
* `Obs`: A visit: the night, the depth, the filter in the column of the metric, and the filter and time in the columns `band` and `observationStartMJD`, if they exist.
* `binnedSum`: `int_binned_stat` of `rubin_scheduler` with the sum of its results: the statistic of the rows of each number.
* `deep`: Selection by depth, `color_slope_metrics.py:116-121` and lines 172-177; a filter without a limit is an exception.
* `view`: The columns used by the check, `color_slope_metrics.py:112`: always those with the names of the defaults.
* `hasThree`: A group has three rows, so that the check reads its columns.
* `run`: `ColorSlopeMetric.run`, `color_slope_metrics.py:114-125`.
* `run2`: `ColorSlope2NightMetric.run`, `color_slope_metrics.py:170-189`: `floor` and `ceil` of half of the night.
* `vendor`: `ChipVendorMetric._chip_names2vendor_id`, `chip_vendor_metric.py:20-32`, for one name.
* `chipVendor`: `ChipVendorMetric.run`, `chip_vendor_metric.py:34-43`, with the names of the chips.
* `uses`: The uses known, `use_metrics.py:9-21`.
* `use`: `UseMetric.run`, `use_metrics.py:31-53`, for one visit.
* `Cell`: What comes of `data_slice[col]`: a value for one visit, an array for a list.
* `useSlice`: `UseMetric.run` on the data of a slicer: arrays have no `startswith`. Membership of an array in a list asks for the truth of a comparison with each program, which exists for arrays of one element.
* `dayCounts`: Counts of `np.histogram` in bins of one day from `a`: all but the last are open at the end.
* `cadence`: The cadence, `sn_cadence_metric.py:88-93`: bins from `floor(min)` to `ceil(max)`, without the last edge.
* `declared`: Columns that `SNCadenceMetric` declares with its defaults, `sn_cadence_metric.py:53-65`.
* `read`: Columns that `SNCadenceMetric.run` reads with its defaults, `sn_cadence_metric.py:73-97`.

### `Verif/Model/Comparison.lean`

Comparison of runs

Models of `rubin_sim/maf/run_comparison/summary_plots.py`, `radar_plot.py`, `archive.py` and `gather_summaries.py`. Names
are lists of characters, `none` is not-a-number. Division by zero is not modelled: theorems exclude it.

* `Frame`: A data frame: names of the rows and columns and the values by position.
* `first`: `groupby(...).first()` along both axes, `summary_plots.py:86`: the first value that is a number.
* `freshName`: The name of the row of the reference, `summary_plots.py:93-95`; `fuel` bounds the loop.
* `Row`: A row of the table.
* `setRow`: `summary.loc[name] = row`
* `Baseline`: The rows that define the reference: one run, or the median over several, lines 97-100.
* `lift2`: All numbers, or none.
* `direct`: What is compared, lines 125-146: flags are `invert` and `mag`.
* `flags`: Flags of a metric: the first entry of the table of metrics; none without a table.
* `usedMetrics`: The metrics that are used, lines 70-77.
* `reference`: The reference.
* `normalize`: `normalize_metric_summaries`, `summary_plots.py:30-161`, for a table with runs as rows. With a table of metrics the columns are distinct.
* `radarVal`: One value of `normalize_for_radar`, `radar_plot.py:52-67`: `x0` is the value of the reference run.
* `expand`: All runs of the families, in order; an unknown family is an exception.
* `removeMissing`: `archive.py:273-277`: metrics that are not in the summary are removed.
* `select`: `get_metric_summaries`, `archive.py:235-285`: names of the rows and columns, for a summary with distinct names.
* `RunRec`: What is known of a run in a family.
* `familyRuns`: `get_family_runs`, `archive.py:332-341`: one row for each family and run.
* `getRuns`: `get_runs`, `archive.py:383-394`: grouped by all four columns; the order of the groups is not modelled.
* `strip`: `str.strip` for blanks.
* `replace2`: `replace(" ", " ")`
* `Stat`: A row of the query.
* `statName`: `make_summary_name`, `gather_summaries.py:42-52`.
* `put`: `d[k] = v`
* `combine`: `combine_result_dbs`, `gather_summaries.py:31-65`: the table by run and name. A directory without a database is `none`; the query of the empty database that is made then is an exception.
* `grow`: Repeated styles, `summary_plots.py:323-326`.

### `Verif/Model/Contrib.lean`

Model of metrics of `maf_contrib` that count visits and gaps

`triplet_metric.py`, `num_obs_in_survey_time_overlap_metric.py`, `intervals_between_obs_metric.py` and
`filter_pair_t_gaps_metric.py`. Times are elements of an ordered field; the change of dates to MJD is done by astropy and not
modelled, windows are pairs of numbers.

* `window`: `np.where((lo < times) & (times < hi))[0]`, as the times at these indices.
* `triplets`: `TripletMetric.run`, `triplet_metric.py:39-59`. `dmin` and `dmax` are in days (lines 33-34). `ratiomin` and `ratiomax` (lines 35-36) are attributes that `run` does not read.
* `ratioOk`: The test of `triplet_metric.py:128-133`, for the times of the three visits.
* `bandTriplets`: `triplet_metric.py:110-134`: the counter of one band, of the times of its visits.
* `bandset`: `triplet_metric.py:91`.
* `tripletsBand`: `TripletBandMetric.run`, `triplet_metric.py:87-135`: the counters, of visits with time and band.
* `reduceAll`: `reduce_bandall`, `triplet_metric.py:137-138`.
* `numObs`: `NumObsInSurveyTimeOverlapMetric.run`, `num_obs_in_survey_time_overlap_metric.py:32-43`.
* `obsDiff`: `obs_diff` of `intervals_between_obs_metric.py:44-57`.
* `Stat`: A number, `nan` of an empty list, or the exception for the unbound `result`.
* `intervals`: `IntervalsBetweenObsMetric.run`, `intervals_between_obs_metric.py:43-68`, for `stat` equal to `"mean"` or a text that is none of the three; the median is modelled elsewhere and `"std"` not.
* `Obs`: A visit of the filter pair metric.
* `chosen`: `filter_pair_t_gaps_metric.py:112-116`: times of the visits of a filter that are deep enough.
* `sameGaps`: `filter_pair_t_gaps_metric.py:124-132`: the matrix of differences, `np.tril(_, -1)` of it and what is not zero there.
* `diffGaps`: `filter_pair_t_gaps_metric.py:134-145`.
* `nearest`: `filter_pair_t_gaps_metric.py:160-176`, the rows with something that is not masked; `none` is the exception of `np.max` over an axis of length zero.
* `getDT`: `_get_d_t`, `filter_pair_t_gaps_metric.py:110-177`, of the data sorted by time; `dtmax` is the largest edge of `bins_diff`.
* `variance`: `np.std` squared
* `fom`: `filter_pair_t_gaps_metric.py:200-204`: the figure of merit of a histogram; `none` is nan and `⊤` the infinity of a division by zero.
* `nansum`: `np.nansum`, `filter_pair_t_gaps_metric.py:208`.
* `fomRun`: `run`, `filter_pair_t_gaps_metric.py:179-208`, of the histograms and clips of the pairs.

### `Verif/Model/Cosmology.lean`

Cosmology summary metrics

Models of `rubin_sim/maf/metrics/cosmology_summary_metrics.py`, over the real numbers. Parameters of
the model: power spectra and removal of multipoles (healpy), the clusters (sklearn), the emulated
figure of merit, and the polynomial fits of degree two and five. Not modelled: the standard deviation
that `get_stats_by_region` gives too, plots and printing.

* `power`: `cosmology_summary_metrics.py:84-87`, for a power spectrum.
* `totalPower`: `TotalPowerMetric.run`, `cosmology_summary_metrics.py:75-87`.
* `Bin`: A redshift bin: the greatest multipole, the model spectrum, the spurious power of the map and the fraction of the sky.
* `ells`: `np.arange(lmin, lmax)`, `cosmology_summary_metrics.py:356`.
* `modPower`: `cosmology_summary_metrics.py:361`.
* `obsPower`: `cosmology_summary_metrics.py:364`.
* `varPower`: `cosmology_summary_metrics.py:367-368`.
* `ftt`: `FTT`, `cosmology_summary_metrics.py:375` and 381.
* `fot`: `FOT`, `cosmology_summary_metrics.py:375` and 380.
* `fit`: `sigma8square_fit`, `cosmology_summary_metrics.py:383`.
* `fitError`: `sigma8square_error`, `cosmology_summary_metrics.py:384`.
* `sigma8Bias`: The result of `TomographicClusteringSigma8biasMetric.run`, `cosmology_summary_metrics.py:393-406`.
* `skyFraction`: The fraction of the sky, `cosmology_summary_metrics.py:305-312`, for an area in square degrees.
* `Res`: What a call gives or raises.
* `simpleFoM`: `StaticProbesFoMEmulatorMetricSimple.run`, `cosmology_summary_metrics.py:131-198`. The name of the spline class in line 196 does not exist in scipy.
* `simpleAreas`: The areas of the grid of each year, `cosmology_summary_metrics.py:155-182`.
* `yearModel`: The part of the model that `compute_dzfromdm` reads, `cosmology_summary_metrics.py:498-503`: the keys are "year1", "year2" and so on.
* `lineFit`: The values of the fitted straight line at the points, `cosmology_summary_metrics.py:582-585` (least squares).
* `clBias`: `compute_Clbias`, `cosmology_summary_metrics.py:533-586`, for bins that are all used; `quad` is the fit through the figure; a bin is its mean redshift and scatter.
* `Band`: A band: the scatter of the depth, and for each bin the mean redshift and the derivative.
* `totalBias`: `cosmology_summary_metrics.py:610-619`: the sum over the bands.
* `ratios`: The two ratios, `cosmology_summary_metrics.py:623-632`: for the first and the tenth year.
* `Pix`: A pixel: its value (`none` is NaN), and whether it is in the north.
* `regionValues`: `get_stats_by_region`, `cosmology_summary_metrics.py:644-666`: the values that are used.
* `mad`: `median_abs_deviation`.
* `scatter`: `frac_scatter`, `cosmology_summary_metrics.py:679-681`, for positive values.
* `stripiness`: `stripiness_test_statistic`, `cosmology_summary_metrics.py:669-683`; `none` is NaN or infinite.
* `stripes`: The decision, `cosmology_summary_metrics.py:840-846`.
* `expand`: `expand_labels`, `cosmology_summary_metrics.py:861-867`, for `maskval` zero.
* `areaFrac`: The fractions of `get_area_stats`, `cosmology_summary_metrics.py:869-883`.
* `keepNot`: The depths that remain if the other label is masked, `cosmology_summary_metrics.py:961-970`.
* `uniformArea`: `UniformAreaFoMFractionMetric.run`, `cosmology_summary_metrics.py:822-977`, for finite exposure times; `fom` is the figure of merit, `cluster` gives the labels.
* `baseInit`: Calling `BaseMetric.__init__` (`base_metric.py:131-140`) with keywords.
* `dropoutsInit`: `UDropoutsNumbersShallowestDepth.__init__` and `UDropoutsArea.__init__`, `cosmology_summary_metrics.py:1012-1013`: the first call.

### `Verif/Model/Crowding.lean`

Model of the crowding of stars

`rubin_sim/maf/metrics/crowding_metric.py`, `star_density.py`. Numbers are real; the maps of stars are two lists, the
magnitudes of the bins without the first edge and the cumulative numbers of stars.

* `lum`: Flux of a star, `crowding_metric.py:44`.
* `coeff`: The coefficient of the error, `crowding_metric.py:43-45`.
* `temp`: The errors before the coefficient, `crowding_metric.py:41-47`: running sums from the faint end.
* `crowdErr`: `_comp_crowd_error` without a magnitude, `crowding_metric.py:12-52`.
* `interp1d`: `interp1d`: linear between the points, an exception outside.
* `crowdErrAt`: `_comp_crowd_error` at a magnitude, `crowding_metric.py:48-52`.
* `crowdMag`: `CrowdingM5Metric.run`, `crowding_metric.py:98-117`, from the errors; nothing for an empty map.
* `crowdM5`: `CrowdingM5Metric.run`; nothing (an exception) without visits.
* `magLimit`: The depth at which the error is reached, `crowding_metric.py:189-190`.
* `nstars`: `NstarsMetric.run`, `crowding_metric.py:168-208`. A visit is its seeing and depth.
* `magUncert`: `CrowdingMagUncertMetric.run`, `crowding_metric.py:242-255`.
* `starDensity`: `StarDensityMetric.run`, `star_density.py:62-77`.

### `Verif/Model/Dates.lean`

Model of date handling in `rubin_sim/sim_archive` and `maf/stackers/date_stackers.py`

Times are elements of an ordered field with a floor (MJD in days, UTC, no leap
seconds, no rounding). Strings are lists of characters. The calendar that turns day
numbers into dates (astropy, pandas, datetime) is an arbitrary function.

* `Date`: `datetime.date`
* `daysIn`: Days in a month of the proleptic Gregorian calendar.
* `mkDate`: The check in the constructor of `datetime.date`.
* `decodeInt`: `dayobs_to_date` for integers, `util.py:27-31`; `none` is `ValueError`. Python's `//` and `%` round down.
* `digit`: A digit, as read by `int` on ASCII characters.
* `iso`: `date.isoformat()`
* `compact`: `isoformat().replace("-", "")`, as in `_compute_day_obs_int` (`date_stackers.py`).
* `fromIso`: `datetime.fromisoformat(s).date()` for the two calendar forms without time, `YYYY-MM-DD` and `YYYYMMDD` (`util.py:32-33`). Other forms are not modelled.
* `strLe`: Python's `a <= b` on strings.
* `dayObsMjd`: `_compute_day_obs_mjd` (`date_stackers.py`), and `convert_mjd_to_dayobs` in `make_sim_data_dir` (`sim_archive.py:145-150`).
* `dayObsTime`: `dayobs_to_date` for a `Time`: the date in the time zone UTC-12h (`util.py:34-44`).
* `dayObsStats`: `compute_nightly_stats`, `vseqarchive.py:67-68`: `pd.to_datetime(mjd + 2400000, unit="D", origin="julian")` subtracts the Julian date 2440587.5 of the Unix epoch; the date is the day number since the epoch, whose MJD is 40587.
* `dayObsDjd`: `compute_sim_start_and_end`, `prenight.py:260-264`: Dublin Julian Date of a sunset; the day zero 1899-12-31 has MJD 15019.
* `dayObsIsoPart`: `fetch_obsloctap_visits`, `sim_archive.py:560-563`: the date part of `Time(mjd - 0.5).iso`.
* `SimArgs`: `make_sim_data_dir`, `sim_archive.py:159-169`: first and last simulated day.
* `Night`: A row of `Almanac().sunsets`.
* `pyGet`: Indexing with Python semantics: negative indices count from the end.
* `simStartEnd`: `compute_sim_start_and_end`, `prenight.py:235-273`; `day` is the MJD of the date `dayobs_to_date(day_obs)`.
* `onNights`: The selection of visits at the end of `fetch_sim_for_nights`, `sim_archive.py:493-496`; `cal` turns day numbers into dates.
* `Stk`: Stackers, as far as they matter here: the day-of-observation one and others, named by the column they add.
* `StkArg`: The argument `stackers`.
* `FetchArgs`: The caller's arguments: `stackers`, and `get_sim_data_kwargs` (if given, with its entry `"stackers"`, if any).
* `fetchedCols`: Columns requested through a list of stackers, lines 476-480 and 497-499.
* `withIso`: The list after `stackers.append(maf.DayObsISOStacker())`.
* `setKw`: Entry set by `get_sim_data_kwargs["stackers"] = stackers`, lines 482-487, for an opsim database; a missing dictionary is replaced by a new one.
* `fetchCols`: `fetch_sim_for_nights`, lines 468-500, as far as columns are concerned: the columns the result has beyond those of the file, and the caller's arguments afterwards. `none` is `AssertionError`.
* `findLatest`: `find_latest_prenight_sim_for_nights`, `sim_archive.py:327-393`. `index d` is the prenight index of day `d` (with the clock reading at each row), `enum` the enumeration of the Python set of common uuids. `none` is `NoMatchingSimulationsFoundError`.

### `Verif/Model/Depth.lean`

Depth after dust

Models of `rubin_sim/maf/metrics/exgal_m5.py`, `weak_lensing_systematics_metric.py`,
`uniformity_metrics.py` and `scaling_metrics.py`, over the real numbers.

* `Val`: A float: a real number or NaN.
* `Val.eq`: `x == y`
* `Val.lt`: `x < y`
* `Obs`: The columns that these metrics read.
* `inBand`: `data_slice[data_slice[filter_col] == f]`
* `nFilters`: `len(set(data_slice[filter_col]))`
* `exgal`: `ExgalM5.run`, `exgal_m5.py:47-57`. The coadded depth is never the bad value -666 of `Coaddm5Metric` other than for no visits.
* `withCuts`: `ExgalM5WithCuts.run`, `weak_lensing_systematics_metric.py:54-75`. The inner metric has the default bad value, line 45.
* `nVisits`: `WeakLensingNvisits.run`, `weak_lensing_systematics_metric.py:111-121`.
* `rizTime`: `RIZDetectionCoaddExposureTime.run`, `weak_lensing_systematics_metric.py:197-210`; the bands that should be present are an attribute that is not read.
* `nestedRiz`: `NestedRIZExptimeExgalM5Metric.run`, `uniformity_metrics.py:351-362`, as the pair of depth and time.
* `Res`: What `run` gives or raises.
* `dot`: `np.dot` of depths and coefficients.
* `subMeans`: The loop that subtracts the mean depths, `uniformity_metrics.py:127-129` and 297-299: `depths` has one row, so that `depths[0]` is the whole row and others do not exist.
* `cuts`: The loop over depth cuts, `uniformity_metrics.py:138-148`: whether the result is bad.
* `Lin`: The parameters of the linear models.
* `zeroMeans`: The means that are used if none are given, `uniformity_metrics.py:83-85`.
* `single`: `SingleLinearMultibandModelMetric.run`, `uniformity_metrics.py:110-151`; `bands` are the bands of the model with their coefficients, line 95.
* `cutLow`: The cut at the faint limit, `uniformity_metrics.py:290-294`.
* `cutHigh`: The cut at the bright limit, `uniformity_metrics.py:290-294`.
* `cutDepth`: One depth after the cuts, `uniformity_metrics.py:290-294`.
* `nestedBin`: One bin of `NestedLinearMultibandModelMetric.run`, `uniformity_metrics.py:281-305`; the model is a dictionary.
* `bins`: All bins in turn; the first exception ends the loop.
* `nested`: `NestedLinearMultibandModelMetric.run`, `uniformity_metrics.py:264-310`.
* `multiband`: `MultibandExgalM5.run`, `uniformity_metrics.py:402-418`.
* `ngal`: `NgalScaleMetric.run`, `scaling_metrics.py:57-76`, for at least one visit and a pixel of `area` square arcminutes. The depth of no visits is minus infinity.
* `nlc`: `NlcPointsMetric.run`, `scaling_metrics.py:125-148`, for matching nside; `nstars` is the number of stars in the pixel from the map of each filter.

### `Verif/Model/DirectObs.lean`

Observations of moving objects, `rubin_sim/moving_objects/direct_obs.py`, `base_obs.py` and
`ooephemerides.py`

The ephemerides of OpenOrb and the angular separation are parameters. Names of spectra have at most
40 characters.

* `arange`: `np.arange`.
* `gridStart`: Start and end of the grid, `direct_obs.py:256-257`.
* `roughTimes`: `rough_times`, `direct_obs.py:255-258`.
* `roughTime`: The time of the grid that is used for a visit, `direct_obs.py:295-296`.
* `pyPred`: Element `i - 1` of a list in Python, where `-1` is the last one.
* `predIdx`: Position before a position, with `-1` as the last one.
* `nearest`: Nearest of the times with known positions, `direct_obs.py:300-306`.
* `objectTol`: `object_tol` for one object from its moves between the times, `direct_obs.py:206-212`.
* `covers`: Whether the times with known positions can be used, `direct_obs.py:188-196`.
* `whereIdx`: `np.where(mask)[0]`.
* `take`: `a[idx]`.
* `Visit`: A visit.
* `Row`: A row of the output: identifiers, the ephemeris, the visit columns that were transferred, and the changes of the magnitude.
* `Sso`: An object: its id, its spectrum, and its ephemeris with a mode.
* `roughIdx`: The visits that are near to the object, `direct_obs.py:295-296` with `base_obs.py:374`; `none` is an `IndexError`.
* `objectRows`: The rows of one object before magnitudes are known, with the indices of their visits, `direct_obs.py:313-349`.
* `collect`: The rows of all objects.
* `colorTurn`: One turn of the loop over spectra and bands, `direct_obs.py:356-364`; the list has the spectrum, the band and the colour of each row.
* `colorLoop`: The loops, `direct_obs.py:355-364`, over pairs of spectra and bands.
* `colors`: The colours of all rows; they are zero at first.
* `run`: `DirectObs.run` without known positions, `direct_obs.py:255-376`; `loss` is `calc_trailing_losses`. `none` stands for an exception.
* `degrees`: Degrees of an angle.
* `inCircle`: `_sso_in_circle_fov`, `base_obs.py:359-375`, for one visit; `sep ra dec ra' dec'` is `angular_separation` in degrees.
* `inRectangle`: `_sso_in_rectangle_fov`, `base_obs.py:397-401`, for one visit. `obs_degrees` is not used.
* `fovKind`: The footprint that is used, and the attribute after the call, `base_obs.py:459-468`.
* `infoKeys`: The keys of `info`, `base_obs.py:138-148`, for the footprint given to the constructor.
* `lossWith`: The loss with two constants, `base_obs.py:252-253`.
* `trailX`: `x`, `base_obs.py:251`.
* `trailing`: `calc_trailing_losses`, `base_obs.py:247-254`.
* `basicNames`: Names of basic ephemerides, `ooephemerides.py:517-533`.
* `fullNames`: Names of full ephemerides, `ooephemerides.py:393-433`.
* `outNames`: Names of the columns of the output, `direct_obs.py:215-250`, given the names of the visit columns.
* `copies`: Whether the ephemerides can be copied, `direct_obs.py:346-347`: every name is a column of the output.
* `swap20`: `np.swapaxes(a, 2, 0)`, as a function of the indices.
* `swap21`: `np.swapaxes(a, 2, 1)`.
* `ephColumn`: The column with number `c` of the ephemerides, `ooephemerides.py:511-536` and `387-435`; the velocity is apart.
* `ephVelocity`: The velocity, `ooephemerides.py:512` and `515`.
* `Raw`: What OpenOrb returns: values and an error code.
* `generate`: `generate_ephemerides`, `ooephemerides.py:594-619`: modes and types are read without regard to case; `none` is an exception. The error code is used for full ephemerides only.
* `Orbit`: The six elements of an orbit with epoch, `H` and `g`.
* `elemType`: `elem_type`, `ooephemerides.py:75`.
* `pack`: `_convert_to_oorb_elem` for the orbit with number `k`, `ooephemerides.py:121-158`.
* `unpack`: `convert_from_oorb_elem`, `ooephemerides.py:171-238`.

### `Verif/Model/Dust.lean`

Dust, `rubin_sim/phot_utils/sed.py` and `photometric_parameters.py`

Over the real numbers. `x` is the inverse wavelength in 1/micron. Later assignments to
`a_x[condition]` and `b_x[condition]` replace earlier ones where both conditions hold.

* `assign`: One masked assignment of `a_x` and `b_x`.
* `ccmOptical`: The optical part of the CCM law, `sed.py:973-977`, in `y = x - 1.82`.
* `odOptical`: The optical part of O'Donnell's law, `sed.py:1035-1039`.
* `infrared`: The infrared part, `sed.py:967-969`.
* `ultraviolet`: The ultraviolet part, `sed.py:981-983`.
* `ultraviolet2`: The second ultraviolet part, `sed.py:986-992`.
* `farUv`: The far ultraviolet part, `sed.py:996-998`, in `y = x - 8`.
* `law`: `a_x` and `b_x` at one wavelength, `sed.py:958-999` and `sed.py:1020-1061`, which differ in the optical part.
* `ccm`: `setup_ccm_ab` at a wavelength in nm, `sed.py:961-963`.
* `oDonnell`: `setup_o_donnell_ab` at a wavelength in nm, `sed.py:1023-1025`.
* `Chosen`: The values of `a_v` and `r_v` used by `add_dust`, or the exception.
* `choose`: Choice of parameters in `Sed.add_dust`, `sed.py:1109-1124`.
* `aLambda`: `a_lambda` of `add_dust`, `sed.py:1127`.
* `factor`: `dust` of `add_dust`, `sed.py:1130`, with `_ln10_04 = 0.4 * log(10)`.
* `addDust`: The new `flambda` of `Sed.add_dust` with given parameters, `sed.py:1127-1131`.
* `flatFrom`: `set_flat_sed` on a grid with step 1, `photometric_parameters.py:48` and `sed.py:494-495`.
* `dusted`: The spectrum with dust, in `fnu`: `fnu_toflambda`, `add_dust` and `flambda_tofnu`.
* `ax1`: `ax1` of `DustValues` for one bandpass, `photometric_parameters.py:45-57`; `lo` and `hi` are the ends of its wavelengths.

### `Verif/Model/Dwarf.lean`

Model of the metric for dwarf galaxies and of two tables of colours

`rubin_sim/maf/maf_contrib/lv_dwarfs/lv_dwarfs_metrics.py`,
`rubin_sim/maf/maf_contrib/lss_obs_strategy/galaxy_counts_metric_extended.py` and
`rubin_sim/maf/utils/stellar_mags.py`. Floats are real numbers. The draws of the random
generator are any numbers, the depths come from other metrics (`ExgalM5`), and the integral
over magnitudes and the function `erfc` are parameters.

* `fakeLF`: `make__fake_old_galaxy_lf`, `lv_dwarfs_metrics.py:62-75`: the bins of the file moved to the distance and the counts scaled.
* `sumLuminosity`: `_sum_luminosity`, `lv_dwarfs_metrics.py:115-123`; an empty list is an IndexError, here 0.
* `distMod`: The distance modulus, `lv_dwarfs_metrics.py:149-150`, for a distance in Mpc.
* `search`: The loop of `_dwarf_sblimit`, `lv_dwarfs_metrics.py:154-173`: `draw k` are the numbers of stars in g and i of the `k`th dwarf, brightest first; the result is the number of dwarfs tried and the last numbers.
* `limitDwarf`: The whole of the search, `lv_dwarfs_metrics.py:152-201`: the index of the dwarf whose magnitude is returned and the flag, none if there is no limit. There are 150 dwarfs with magnitudes below 5.
* `Attrs`: The attributes of the inner metric that matter: `star_density.py:52` has `mag_limit`.
* `starDensity`: `lv_dwarfs_metrics.py:331-334`: the limit is set and the density of stars asked for, which `star_density.py:69` does at `mag_limit`; `lum` is the luminosity function.
* `starsRequired`: The number of stars needed, `lv_dwarfs_metrics.py:342-361`.
* `DistLim`: What may be given for the limit of the distance.
* `distValue`: `lv_dwarfs_metrics.py:363-379`: the number that is passed on as a distance in Mpc; `point` is the distance of the point.
* `bandCorrection`: The correction for the band, `galaxy_counts_metric_extended.py:134-144`.
* `galCount`: The number of galaxies per magnitude, `galaxy_counts_metric_extended.py:146-176`, with the redshift bin that is used: an unknown one is changed to all.
* `galTotal`: The number of galaxies, `galaxy_counts_metric_extended.py:191-205`, where `integral` is what `quad` gives.
* `Row`: A row of the table, `stellar_mags.py:82`.
* `table`: The table, `stellar_mags.py:84-178`.
* `stellarMags`: `stellar_mags`, `stellar_mags.py:184-197`.

### `Verif/Model/Eso.lean`

Templates of the sky, visibility of fields, and a slicer for images

`rubin_sim/skybrightness/data/ESO_Spectra/eso_tools.py`, `rubin_sim/skybrightness/allsky_db.py` (with the reader in `interp_components.py`),
`rubin_sim/maf/maf_contrib/calculate_lsst_field_visibility_astropy.py`, `rubin_sim/maf/slicers/healpix_sdss_slicer.py`.

The altitudes of the target and of the sun are arbitrary functions of time; the program that makes the spectra, the tree search and the test whether a
point is in a polygon are arbitrary functions.  Databases are lists of rows.

* `arange`: `np.arange(a, b, d)`
* `visibleFast`: `calculate_lsst_field_visibility_fast` (`calculate_lsst_field_visibility_astropy.py:152-170`).
* `visibleNight`: One date of `calculate_lsst_field_visibility` (`calculate_lsst_field_visibility_astropy.py:62-105`): the time in days.
* `visible`: `calculate_lsst_field_visibility` (`calculate_lsst_field_visibility_astropy.py:53-107`): the total in days and the hours of each night.
* `merged`: One magnitude of `merged_spec` (`eso_tools.py:250-260`), from the magnitudes of the components; `z` is the logarithm of 3631.
* `cut`: `np.linspace(0, n, k + 1, dtype=int)[i]` (`eso_tools.py:335,487`).
* `part`: The rows of file `i` (`eso_tools.py:337-343,489-495`).
* `files`: The files that are written, with their names.
* `load`: `load_spec_files` on the sorted names (`interp_components.py:169-170`, `114-146`).
* `zodiRows`: The rows of `generate_zodi`, before they are sorted (`eso_tools.py:458-465`).
* `moonRows`: The rows of `generate_moon` (`eso_tools.py:296-312`).
* `lt2`: The order of `sort(order=["airmass", "hpid"])` (`eso_tools.py:483`).
* `lt3`: The order of `sort(order=["moonSunSep", "moonAltitude", "hpid"])` (`eso_tools.py:332`).
* `written`: The fields of the table that a generator writes (`eso_tools.py:165-170,212-217,318-324,371-376,418-423,471-476`); `merged_spec` copies those of the lower atmosphere.
* `wanted`: The dimensions that a reader wants (`interp_components.py:164,317,692,755`).
* `readDims`: Reading the dimensions (`interp_components.py:186-188`).
* `zodiLat`: The ecliptic latitude for which the spectrum of a pixel with colatitude `theta` is made, in degrees (`eso_tools.py:453`).
* `zodiTheta`: The colatitude at which a point is looked up, in degrees (`interp_components.py:776`).
* `trunc`: `"%i" % x`
* `allSky`: `all_sky_db` (`allsky_db.py:40-65`) with the default query: the rows and the date.
* `diode`: `diode_sky_db` (`allsky_db.py:70-93`); `env` is the environment variable.
* `imagesAt`: `HealpixSDSSSlicer._slice_sim_data` (`healpix_sdss_slicer.py:58-109`): the images are `0, …, n-1`; `dist` is the distance of the first corner from the point, `near` an enumeration of the ones that the tree finds, `inside` whether the point is in the polygon of the corners.

### `Verif/Model/Few.lean`

Quasars, structure functions, brown dwarfs, periodic stars

`rubin_sim/maf/metrics/qso_number_counts_metric.py`, `agnstructure.py`, `brown_dwarf_metric.py`, `night_pointing_metric.py` and
`periodic_detect_metric.py`.

Floats are real numbers; the change of times to half precision in `agnstructure.py:118` is left out.  Positions of Sun and Moon, the splines of `scipy` and its
F distribution are parameters.  Exceptions are values.

* `effwavelen`: `effwavelen`, `qso_number_counts_metric.py:44-51`.
* `zmax`: `zmax`, `qso_number_counts_metric.py:67-70`; a filter that is not known is an exception.
* `padded`: `qso_number_counts_metric.py:94-95`: the table with a row and a column of zeros in front.
* `cumulative`: `c_mz_data`, `qso_number_counts_metric.py:94-97`: the padded table with running sums along both axes; `j` counts magnitudes and `k` redshifts.
* `Slice`: What the slice point and the data say: the reddening, the area of the pixel and for each visit in the filter the depth and the magnitude of saturation.
* `qso`: `QSONumberCountsMetric.run`, `qso_number_counts_metric.py:116-138`; `count z m` is the spline, `exgal` the depth of the visits after extinction. `np.max` of nothing is an exception.
* `sfWeight`: `agnstructure.py:68-71`: the attribute `weight`, for `n` bins; `none` if it does not exist.
* `counted`: `agnstructure.py:127`.
* `sfGaps`: `agnstructure.py:115-120` for sorted times: all gaps that are not zero, or those of neighbours.
* `magErr`: `agnstructure.py:112`.
* `Obs`: A visit: filter, time and depth.
* `sfMag`: `agnstructure.py:96-100`: the magnitude with extinction; the filter is that of the first visit.
* `sf`: `SFUncertMetric.run`, `agnstructure.py:88-141`; `madStd` is `mad_std` of astropy.
* `Colors`: What `bd_colors` gives: a dictionary, or a tuple with one in it.
* `bdColors`: `bd_colors`, `brown_dwarf_metric.py:21-42`; a type that is not known is an exception.
* `magsOf`: The loop over the keys of the magnitudes, `brown_dwarf_metric.py:111-112`: a tuple is indexed by what is in it.
* `BdVisit`: A visit: filter, depth, seeing and amplitudes of the parallax.
* `atDist`: `brown_dwarf_metric.py:108-112`.
* `bdErr`: `brown_dwarf_metric.py:131-140`: the position errors; `none` is the infinity of a ratio of zero, in a filter without a magnitude.
* `bdSigma`: The sums of `_final_sigma`, `brown_dwarf_metric.py:118-128`, over the visits with a finite error; the others add nothing.
* `bdSnr`: `fitted_parallax_snr`, `brown_dwarf_metric.py:116,143`; a number divided by infinity is zero.
* `interp1d`: `interp1d` of `scipy` with `fill_value="extrapolate"`: the points are sorted, the segment is the one that contains `x` or the first or last, and the line of it is followed. `none` is what is not a number.
* `bd`: `BDParallaxMetric.run`, `brown_dwarf_metric.py:130-149`; `none` is what is not a number.
* `volume`: `VolumeSumMetric.run`, `brown_dwarf_metric.py:159-162`.
* `nightTimes`: The times of `NightPointingMetric.run`, `night_pointing_metric.py:44-50`.
* `chiFilt`: The weighted mean and chi squared of a filter, `periodic_detect_metric.py:107-116`.
* `chi1`: `chi_sq_1`, `periodic_detect_metric.py:104-116`; the order of the filters does not matter.
* `Star`: A star: period, mean magnitudes and amplitude.
* `starsOf`: The stars that are tried, `periodic_detect_metric.py:103-105`; `colors` is `stellar_mags`.
* `detect`: `PeriodicDetectMetric.run`, `periodic_detect_metric.py:88-133`; `sf` is `scipy.stats.f.sf`, `none` for what is not finite.

### `Verif/Model/FracColors.lean`

Colours of fractions of populations

Model of the colours of `plot_fractions`, `rubin_sim/maf/batches/moving_objects_batch.py:1374-1389`, with the colours that
`PlotHandler` gives to bundles without one (`plot_handler.py:456-488`), for bundles without a filter in the constraint. The
names are those of `run_fraction_summary` (1314-1329) and `fraction_population_at_threshold`.

* `Color`: Colours; `random` stands for those of line 482-487, which are different with probability one.
* `has`: `"6" in k` and the like.
* `setColor`: `moving_objects_batch.py:1374-1389`: the colour in the dict of a bundle, none before. The last one stays.
* `colors`: `_build_colors`, `plot_handler.py:456-488`, and the update with the dict of the bundle (202).
* `asteroid`: The names of the fractions of asteroids, 1314-1318.
* `outer`: The names of the fractions of outer objects, 1326-1329.

### `Verif/Model/GalPlane.lean`

Metrics of the galactic plane

Models of `rubin_sim/maf/metrics/galactic_plane_metrics.py` and `galplane_time_sampling_metrics.py`, over the real
numbers. The values of the priority map at the slice point are parameters: `prio f` for a filter, `total` for their
sum. `none` as a result is `badval`. The season of a time (`calc_season`) is a parameter.

* `Visit`: A visit: time, filter, depth and exposure time.
* `nvisits`: `galplane_nvisits_thresholds`, `galactic_plane_metrics.py:47-54`.
* `threshold`: `galplane_priority_map_thresholds`, `galactic_plane_metrics.py:72-78`.
* `deep`: The visits of a filter that are deep enough, `galactic_plane_metrics.py:202-203`, also 323-325.
* `Foot`: What the footprint metric gives.
* `footprint`: `GalPlaneFootprintMetric.run`, `galactic_plane_metrics.py:185-212`.
* `footReduce`: The functions of the time scales, `galactic_plane_metrics.py:83-90` with 167-173.
* `expTime`: `exp_time_per_filter`, `galactic_plane_metrics.py:318-334`; the indices of a set are each taken once.
* `timePerFilter`: `GalPlaneTimePerFilterMetric.run`, `galactic_plane_metrics.py:300-357`: a value for each filter, where `none` is `badval` for this filter only.
* `bandReduce`: The functions `reduce_u` to `reduce_y`, `galactic_plane_metrics.py:359-375`.
* `decay`: `calc_interval_decay`, `galplane_time_sampling_metrics.py:26-32`, of one interval.
* `visitIntervals`: `GalPlaneVisitIntervalsTimescaleMetric.run`, `galplane_time_sampling_metrics.py:110-135`.
* `gaps`: The gaps between seasons, `galplane_time_sampling_metrics.py:216-225`, of times in order.
* `sortedInPlace`: The data after the metric has run: the column of times is sorted in place, line 217.
* `seasonGaps`: `GalPlaneSeasonGapsTimescaleMetric.run`, `galplane_time_sampling_metrics.py:207-236`. `keys` are the values of maps at the slice point, in which that of the priority map is looked up. Together with the data afterwards.
* `gapsMaps`: The argument `maps` given to the base class: line 203 gives none, line 104 the priority map.

### `Verif/Model/Gaps.lean`

Model of `rubin_sim/maf/metrics/tgaps.py` and `cadence_metrics.py`

Times are elements of an ordered field. `none` is the bad value unless a comment says
otherwise. `reduce_func` arguments are left out: the functions give the array that is
reduced.

* `roll`: `np.roll(xs, i)`
* `allDiffs`: `all_diffs`, `tgaps.py:115-118`, 187-190, 249-252, before concatenation.
* `concatenate`: `np.concatenate`: `none` is the `ValueError` for an empty list of arrays.
* `tGaps`: The gaps of `TgapsMetric.run` (`tgaps.py:110-122`) and `TgapsPercentMetric.run` (183-192). The outer `none` is the bad value, the inner one an exception.
* `tGapsHist`: `TgapsMetric.run`.
* `tGapsPercent`: `TgapsPercentMetric.run`, lines 183-194; `len(dts)` is never zero.
* `nightGaps`: The gaps of `NightgapsMetric.run`, lines 244-256: `np.unique` of the nights first.
* `maxGap`: `MaxGapMetric.run`, lines 362-368.
* `arange`: `np.arange(a, b, step)`
* `gapsSampled`: `GapsMetric.run`, `tgaps.py:49-60`; `w` is `bin_size`, half the time scale.
* `Visit`: A visit: time and night; the rows are given in the order of `sort(order=mjd)`.
* `manyNights`: Nights of more than one visit, `tgaps.py:403-404`.
* `nightSpans`: The time spans of `NightTimespanMetric.run`, lines 402-411, in days; `none` for an index out of range.
* `intraGaps`: `dt[good]` of `IntraNightGapsMetric.run`, `cadence_metrics.py:313-323`.
* `interGaps`: `diff` of `InterNightGapsMetric.run`, lines 352-363; empty for fewer than two nights.
* `minAccumulate`: `np.minimum.accumulate`
* `templateCount`: The number of good visits of `TemplateExistsMetric.run`, `cadence_metrics.py:53-64`; `s` is the seeing in the order of time.
* `templateExists`: `TemplateExistsMetric.run`; `none` for a division by zero.
* `maxAbs`: `np.max(np.abs(...))` of the differences.
* `uniformityOf`: `cadence_metrics.py` lines 97-99, 208-211: `dates` sorted, with `dates[1]` subtracted from all differences.
* `uniformity`: `UniformityMetric.run`, `cadence_metrics.py:90-100`; `len` is the survey length in days. No visits raise an exception (`none`).
* `generalUniformity`: `GeneralUniformityMetric.run`, lines 134-152, with `min_value`, `max_value` filled in. Division by zero gives zero here, infinities in numpy; theorems exclude it.

### `Verif/Model/Grb.lean`

Model of `rubin_sim/maf/maf_contrib/grb_transient_metric.py`

`GRBTransientMetric`. The number drawn from the normal distribution for each phase is a parameter of the model; so is the fading
`alpha * 2.5 * log10(minutes)` of line 135. Rows with equal times may be sorted in any order, so the sort is a parameter, too.

* `Params`: Parameters, `grb_transient_metric.py:94-114`; `fade` gives the magnitudes after one minute at a time in days.
* `lightCurve`: `light_curve` for one visit, `grb_transient_metric.py:131-143`; `peak_time` is zero.
* `Row`: A row of `data_slice`, `lc_number`, `lc_mags` and `detected`.
* `mkRow`: `grb_transient_metric.py:163-175`.
* `zeroed`: `bandcounter` of `grb_transient_metric.py:177-185`.
* `bump`: `bandcounter[k] += 1`; `none` is the `KeyError`.
* `nBandDet`: `nbanddet` of `grb_transient_metric.py:204-212` for the visits `g` of a light curve.
* `filterLoop`: `grb_transient_metric.py:203-215`: the loop over the filters, with `bandcounter` and `nfilts_lci`.
* `perLc`: `grb_transient_metric.py:200-217` for one light curve. The order of `np.unique` is not kept: it does not matter.
* `counters`: `grb_transient_metric.py:193-217`: the counters of the rows, sorted by time.
* `room`: Line 158.
* `tshifts`: `grb_transient_metric.py:152`.
* `Res`: Numerators and denominator of the fractions, or an exception.
* `phases`: The loop over `tshifts`, `grb_transient_metric.py:154-217`; the counters are set to zero in each round (lines 177-185) and what is left of them is those of the last round.
* `run`: `run`, `grb_transient_metric.py:145-223`, up to the divisions.
* `filtAvg`: `reduce_band1_filt_avg`, `grb_transient_metric.py:225-227`, of the counters and the number of transients.

### `Verif/Model/HCurves.lean`

Curves of metrics against H

Model of the values of `MetricVsH`, `rubin_sim/maf/plots/mo_plotters.py:49-86`, of the H values of slicers of moving
objects (`mo_slicer.py:78-83`), and of `plot_single`, `rubin_sim/maf/batches/moving_objects_batch.py:1411-1466`. Values are
filled, one row for each object. The values of the bins of H (64-81, C384) are an input.

* `Slicer`: A slicer: the H of each object, and the range of H of clones, if there is one.
* `hvals`: `slice_points["H"]`, `mo_slicer.py:78-83`.
* `ncols`: `shape[1]`, `mo_slicer.py:79` and 82.
* `Red`: `np_reduce` of `plot_single`, `moving_objects_batch.py:1413-1450`.
* `Red.apply`: The value of a reduction.
* `Red.noAxis`: Whether it can be called without an axis: the lambdas need one.
* `mVals`: `m_vals`, `mo_plotters.py:53-86`; `none` is a TypeError.
* `collect`: All of a list, or the first exception.
* `plotSingle`: `plot_single`, `moving_objects_batch.py:1413-1466`: the curves in the order of the dict.

### `Verif/Model/HgPlot.lean`

Hourglass plots, second generation

`rubin_sim/maf/plots/hg_plotters.py`.

Times are days (MJD) in an ordered field.  A wall clock time is the MJD with the same digits: `local_times.to_julian_date()` is the date of the clock of
the time zone, whose distance `off` from UTC (in days) is constant here; so is `Timestamp.to_julian_date()`, which takes no account of the zone.  UT1 is not
distinguished from UTC.  Colours, patches and axes are arbitrary values; drawing is not modelled.

* `civil`: `_compute_hours_after_midnight` (`hg_plotters.py:902-906`), from the wall clock MJD: the Julian date is 2400000.5 more.
* `wrap180`: `Angle(x).wrap_at(180 * u.deg)`
* `solar`: `_compute_hours_after_solar_midnight` (`hg_plotters.py:929-942`) at time `t`, for the longitude in degrees.
* `inMonth`: `_plot_dates` for a month (`hg_plotters.py:485-489`, `515-516`): `first` is the MJD of the first day of the month and `next` of the first day of the next one.
* `row`: The row of a bar (`hg_plotters.py:264`, `487`, `517`, its middle): the reference is the day before the first of the month.
* `lineRow`: The row of the lines of twilight and transits of a night (`hg_plotters.py:206`, `209-211`, `563`, `1053`), when the lower limit of the axis is `yMin`.
* `barRow`: The row of a bar of a night (`hg_plotters.py:264`).
* `transitStep`: One step towards a transit (`hg_plotters.py:968-971`, `997-1000`): the hour angle of the body is `a` at time 0 and grows by `360 * r` in a day.
* `moonTransit`: `_compute_moon_transit_mjds` (`hg_plotters.py:993-1001`).
* `labels`: The running sum of `np.diff(hams, prepend=hams[0]) < 0` (`hg_plotters.py:1046`), after `prev` and with the sum `k` so far.
* `lines`: The lines that are drawn (`hg_plotters.py:1046-1059`, `1072-1081`).
* `mapColors`: `_map_colors` (`hg_plotters.py:291-305`) of values of which there is one: the places in the colour map and the limits of the colour bar. The limits are not bound if all values are equal.
* `yearColors`: The months of a year (`hg_plotters.py:726-734`, `177-198`): the places of each and what the last one gives for the colour bar.
* `put`: Setting an entry of a dictionary.
* `available`: The colours that may be used (`hg_plotters.py:853-864`).
* `assign`: The loop over the colours that are wanted (`hg_plotters.py:866-871`).
* `fill`: The loop over the categories (`hg_plotters.py:873-877`).
* `categoryColors`: `_assign_category_colors` (`hg_plotters.py:850-879`) with `N` colours.
* `monthMaps`: The colour maps of the months (`hg_plotters.py:726-729`, `786-792`) with values, of which those of each month are `np.unique`; the last of them is kept for the legend.
* `legend`: `_add_figure_legend` (`hg_plotters.py:396-422`): the labels with their handles; `patches` for the colours, `auto` from the axes.
* `plot`: `_plot` of the classes (`hg_plotters.py:147-150`, `613-616`, `667-670`, `718-734`): `drawn` is what happens while the data are drawn. The labels of the axes (`hg_plotters.py:93`) are called with one argument too many by two of them, and the first has no reference date (`hg_plotters.py:152,206`, `264`).

### `Verif/Model/Hourglass.lean`

Model of the hourglass metric

`rubin_sim/maf/metrics/hourglass_metric.py`: blocks of visits in one filter and the midnight of each. The positions of Sun and Moon
and the midnights themselves come from astroplan and are not modelled.

* `prev`: `np.roll(x, 1)[i]`
* `Visit`: A visit: its time and filter.
* `isBreak`: A change of filter, or more than two minutes from the visit before; `hourglass_metric.py:54-60`.
* `uniqN`: `np.unique` of numbers.
* `blocks`: `hourglass_metric.py:54-65`: first and last index of each block, of visits sorted by time.
* `perFilter`: `hourglass_metric.py:65-71`: time and filter at the ends of blocks.
* `midnightOf`: `hourglass_metric.py:107-115`: the midnight for a time, of the sorted midnights.
* `oneEach`: `hourglass_metric.py:88-90`: midnights with the same rounded tenth of a day are one; `key` is `np.round(midnights * 10)`.
* `nearestVal`: `nearest_val`, `hourglass_metric.py:13-14`: the first of the nearest.

### `Verif/Model/Kne.lean`

Populations of kilonovae and tidal disruption events

`rubin_sim/maf/maf_contrib/kne_metrics.py`, `tdes_pop_metric.py`, `presto_color_kne_pop_metric.py`.

Floats are the elements of an ordered field.  The files of light curves, the random draws and the pickled table of the presto metric are inputs.
`np.where(...)[0]` of a condition and the indexing by it are filters; `np.unique` of the filters is the list without repetitions.

* `lcInterp`: `KnLc.interp`, `TdeLc.interp` (`kne_metrics.py:126-133`, `tdes_pop_metric.py:55-62`): 99 outside the times of the file.
* `appMag`: The magnitude of a visit (`kne_metrics.py:346-352`; `tdes_pop_metric.py:160-162` with `distmod` zero).
* `Obs`: A visit with the magnitude of the event at its time.
* `det`: `mags < data_slice[self.m5_col]`.
* `nFilters`: `np.size(np.unique(filters))`.
* `prePeak`: `_pre_peak_detect` (`tdes_pop_metric.py:96-108`).
* `before`: The detections more than ten days before the peak, near the peak, and after it (`tdes_pop_metric.py:113`, `:118`, `:123`).
* `someColor`: `_some_color_detect` (`tdes_pop_metric.py:110-127`).
* `someColorPu`: `_some_color_pu_detect` (`tdes_pop_metric.py:129-151`).
* `someColorPnum`: `_some_color_pnum_detect` (`tdes_pop_metric.py:242-272`).
* `someColorPuPnum`: `_some_color_pu_pnum_detect` (`tdes_pop_metric.py:274-310`).
* `around`: The detections (`kne_metrics.py:355`).
* `multiDetect`: `_multi_detect` (`kne_metrics.py:177-186`), of the detections.
* `multiColor`: `_multi_color_detect` (`kne_metrics.py:282-291`).
* `inFilter`: The number of detections in a filter.
* `redColor`: `_red_color_detect` and `_blue_color_detect` (`kne_metrics.py:293-337`).
* `faintest`: `np.argmax` and `np.argmin` of the magnitudes: the first of the faintest, the first of the brightest.
* `rate`: The rate of a band (`kne_metrics.py:251-272`).
* `maxL`: The largest and smallest of a list of numbers (`np.max`, `np.min`).
* `span`: `max(ts) - min(ts)` of the detections.
* `ztf`: `_ztfrest_simple` (`kne_metrics.py:188-280`): `order` is the order of `set(filters)`, `ok` the bands kept; `none` is the error of `np.max` of nothing.
* `isclose`: `np.isclose` with the default tolerances.
* `matches?`: `all([np.isclose(...)])` of one file and one set of parameters (`kne_metrics.py:69`); `none` for the `KeyError`.
* `kneFilenames`: `get_kne_filename` (`kne_metrics.py:30-76`), the files given with their parameters.
* `presto`: `_presto_color_detect` (`presto_color_kne_pop_metric.py:202-228`).
* `Pt`: A detection in the table of the presto metric.
* `gap`: The gap `d_ts[i, j]` (`presto_color_kne_pop_metric.py:317`).
* `choose`: The choice among the two observations of the repeated band (`presto_color_kne_pop_metric.py:349-355`); `none` for `continue`.
* `sign`: `np.sign`.
* `coords`: The coordinates of a triplet: `d_t1`, `d_t2`, `d_mag`, `color` (`presto_color_kne_pop_metric.py:357-367`).
* `scores`: The two scores from the rates (`presto_color_kne_pop_metric.py:371-382`).
* `Hash`: What `_load_hash` keeps between calls: the region and the table.
* `loadHash`: `_load_hash` (`presto_color_kne_pop_metric.py:32-68`): the table returned and what is kept; `read` is the content of a file.
* `keepRegion`: The events kept by `generate_presto_pop_slicer` (`presto_color_kne_pop_metric.py:122-129`), given by galactic latitude.
* `rndm`: `rndm` (`kne_metrics.py:449-453`, `presto_color_kne_pop_metric.py:110-114`) for a draw `r`.
* `fileIndx`: `file_indx` (`kne_metrics.py:459`) for a draw `r` of `np.random.uniform(0, 1)`.
* `knPop`: The draws of `generate_kn_pop_slicer` (`kne_metrics.py:455-471`) from the state of `np.random`: `sphere` is `uniform_sphere` and `draws` the three calls after it. The state left behind is not returned.

### `Verif/Model/Lens.lean`

Microlensing events

`rubin_sim/maf/maf_contrib/microlensing_metric.py`.

Floats are reals here.  The light curve, the Fisher matrix and the counts of `MicrolensingMetric.run` are modelled; the inversion of the matrix
(`np.linalg.inv`) and the draw of positions on the sky are not, except for the choice of a pixel from a uniform draw.

* `sep`: `lightcurve_u` (`microlensing_metric.py:44`, `:67`).
* `amp`: `microlensing_amplification` (`microlensing_metric.py:27-49`).
* `ampFsfb`: `microlensing_amplification_fsfb` (`microlensing_metric.py:52-72`).
* `magnitude`: The magnitude of a visit: `self.mags[filtername] - 2.5 * np.log10(amplitudes)` (`microlensing_metric.py:382`, `:385`).
* `times`: The times of the visits (`microlensing_metric.py:333-334`).
* `infoPeak`: `info_peak_before_t0` (`microlensing_metric.py:75-99`).
* `coeffs`: `coefficients_pspl` (`microlensing_metric.py:102-144`): the list it returns.
* `flux`: The flux of the event the coefficients are about: the source amplified, and the blend.
* `coeffsFsfb`: `coefficients_fsfb` (`microlensing_metric.py:147-174`): `[c1, c0]`.
* `derivatives`: The derivatives of one visit in `fisher_matrix` (`microlensing_metric.py:220-225`): the assignments into `np.array(fsfb_derivatives)` fill a copy, so the list added is still zeros.
* `outer`: The matrix of one visit before the errors (`microlensing_metric.py:219`, `:226-230`): the upper half, its transpose, less the diagonal.
* `fisher`: `fisher_matrix` (`microlensing_metric.py:177-240`), for visits given by time and signal-to-noise ratio.
* `FVisit`: A visit as the Fisher branch of `run` sees it.
* `fisherRun`: The matrix at the end of the loop of `run` (`microlensing_metric.py:394`, `:455-480`): `infilt` is what the previous loop left, the visits of the last filter; `fs` and `fb` are those of the filter of the turn.
* `Pt`: A visit with its amplified magnitude and five-sigma depth.
* `snr`: `m52snr` (`rubin_sim/maf/utils/maf_utils.py`), as used at `microlensing_metric.py:388`.
* `uncert`: `mag_uncert` (`microlensing_metric.py:390`).
* `above`: `sigma_above > self.detect_sigma` for two visits (`microlensing_metric.py:418-432`).
* `ordered`: The number of entries of the matrix of pairs that pass (`microlensing_metric.py:432`, before the division by two).
* `nPre`: `n_pre` and `n_post` summed over the filters, for "detect" (`microlensing_metric.py:394-435`, `:497-498`).
* `detected`: The result for "detect" (`microlensing_metric.py:499-509`).
* `npts`: The result for "Npts" (`microlensing_metric.py:437-453`, `:510-511`).
* `cumul`: The cumulative sums divided by the largest of them (`microlensing_metric.py:579-581`).
* `draw`: The index in the ordered pixels for a uniform draw (`microlensing_metric.py:582-583`).

### `Verif/Model/LensCmp.lean`

Comparing the microlensing results of runs

`rubin_sim/maf/run_comparison/microlensing_compare.py`.

Strings are lists of characters.  The values of the metrics are rationals, infinite or `nan`.  Drawing is not modelled, except for which points
go into which series and which numbers go into which cell of a matrix.

* `parse`: `parse_t_e_run_types` (`microlensing_compare.py:90-105`): the name of the run, the type of the metric, the shortest and the longest crossing time.
* `unique`: `np.unique`.
* `ranges`: `zip(np.unique(min_t_e), np.unique(max_t_e))` (`microlensing_compare.py:188`, `:267`); a run is the pair of its limits.
* `inRange`: `(min_t_e >= i) & (max_t_e <= j)` (`microlensing_compare.py:189`, `:268`).
* `members`: `np.where((min_t_e >= i) & (max_t_e <= j))` (`microlensing_compare.py:189`, `:268`).
* `kinds`: The types in the order of the three panels (`microlensing_compare.py:193-196`).
* `series`: `sorted_idxs` (`microlensing_compare.py:201-208`): the runs of a range and of a type in the order of their names.
* `plotFom`: `plot_fom` (`microlensing_compare.py:198-216`): every range and every panel, with the indices that are drawn. An empty array of indices has floats in it, which numpy refuses as an index.
* `V`: A value of a metric.
* `V.lt`: `v < c`.
* `V.gt`: `v > c`.
* `V.eq`: `v == c`.
* `V.kept`: What is added up in line 132: values that are numbers, not negative, at most `10e10`.
* `Row`: A row of the data frame (`microlensing_compare.py:59-60`): the value in the file, and whether it is masked.
* `getResults`: `get_results` (`microlensing_compare.py:108-142`).
* `Matrix`: The four numbers of a comparison.
* `detectedFisher`: `detected_fisher_comparison` (`microlensing_compare.py:388-392`); an event is the pair of its Fisher and its detection value.
* `fisherNpts`: `fisher_npts_comparison` (`microlensing_compare.py:418-422`); the pair of the Fisher value and the number of points.
* `detectedNpts`: `detected_npts_comparison` (`microlensing_compare.py:445-449`); the pair of the detection value and the number of points.
* `Event`: An event of one run and range in the three metrics.
* `plotCompare`: The three matrices of `plot_compare` with the number in their labels (`microlensing_compare.py:286-313`): the comparisons get no limits, so they use their own.
* `resultsDbMethods`: The methods of `ResultsDb` (`results_db.py:167-1066`).
* `getResultsDbs`: `get_results_dbs` (`microlensing_compare.py:470-480`): for the files that match, the runs with at least one metric; `ids` is the number of metrics in a file.

### `Verif/Model/Maps.lean`

Maps

Models of `rubin_sim/maf/maps`, of the maps of a bundle (`metric_bundles/metric_bundle.py:156-181`) and of
those of a group (`metric_bundle_group.py:426-436`). Parameters of the model: the files, the pixel of a
position and interpolation (healpy). An array of positions is looked up element by element, so the
functions here have one position or pixel. Warnings and printing are left out, and `trilegal_map.py`
and `gal_coords_map.py`, which only call astropy and a tree.

* `Args`: What is asked for: a resolution, a directory or file, a pixel, a position, and whether to interpolate.
* `Sky`: `radec2pix` and `hp.get_interp_val`.
* `index`: `m[i]`
* `look`: `ebv_hp.py:52-62`.
* `Ebv`: The attributes of the function `eb_vhp`, with the number of files that were read.
* `hasDustmap`: `hasattr(eb_vhp, "dustmap")`, `ebv_hp.py:47`: the attribute has the name `dustMap`.
* `ebv`: `eb_vhp`, `ebv_hp.py:36-64`.
* `dustArgs`: `DustMap.run`, `dust_map.py:41-66`, at one slice point: the resolution of a healpix slicer, if it is one.
* `File`: A file of the map; a row holds distances and extinctions.
* `Ebv3`: The attributes of the function `ebv_3d_hp`.
* `hasMapFile`: `hasattr(ebv_3d_hp, "map_file")`, `ebv_3d_hp.py:72`: the attribute has the name `mapFile`.
* `mapFile`: `ebv_3d_hp.py:53-70`; `dir` is the directory of the data.
* `look3`: `ebv_3d_hp.py:117-133`.
* `ebv3`: `ebv_3d_hp`, `ebv_3d_hp.py:49-135`.
* `nearest`: `get_x_at_nearest_y`, `ebv_3d_hp.py:166-169`, on pairs; the first of the nearest.
* `distMod`: `dust_map_3d.py:171`.
* `distAt`: `distance_at_dmag`, `dust_map_3d.py:168-190`, on pairs of distance and extinction: `map` for the arrays of all slice points and otherwise for those of one.
* `prefixStr`: The text in front of the keys.
* `toKey`: `gp_priority_map_components_to_keys`, `galactic_plane_priority_maps.py:19-23`.
* `remove`: `t.replace(pat, "")` for a pattern that is not empty.
* `toComponents`: `gp_priority_map_keys_to_components`, `galactic_plane_priority_maps.py:26-28`.
* `Table`: A table of one filter: the columns by name.
* `Gal`: The attributes `maps` and `science_maps` of the function.
* `filters`: `galactic_plane_priority_maps.py:99`.
* `readAll`: The loop of `galactic_plane_priority_maps.py:106-117`; `enum` is an order of a set.
* `Got`: What the function gives: keys or values.
* `valueOf`: The value of one key, `galactic_plane_priority_maps.py:131-132`, 138-139 and 144-145.
* `valuesOf`: The dictionary of all keys.
* `galplane`: `galplane_priority_map`, `galactic_plane_priority_maps.py:84-147`.
* `galInit`: `GalacticPlanePriorityMap.__init__`, `galactic_plane_priority_maps.py:175-179`: the directory is not given.
* `galRun`: `GalacticPlanePriorityMap.run`, `galactic_plane_priority_maps.py:181-210`, with a healpix slicer.
* `stellar`: `StellarDensityMap.run`, `stellar_density_map.py:62-70`: the rows of the slice points. `pos` are the positions of the slice points, `near` the pixels of positions.
* `Map`: A map object: its class, its parameters and the keys that it adds.
* `Map.eq`: `__eq__`, `base_map.py:49-50`.
* `uniq`: `metric_bundle_group.py:434-436`.
* `Given`: The argument `maps_list` of a bundle.
* `Need`: What a metric needs: the name of a class, or an object.
* `addNeeds`: The loop over the maps of the metric, `metric_bundle.py:172-181`; `make` calls a class without arguments.
* `bundleMaps`: `metric_bundle.py:156-181`: a single map is assigned to another attribute.

### `Verif/Model/Masked.lean`

Model of masked metric values, `reduce_metric` and `compute_summary_stats`
(`rubin_sim/maf/metric_bundles/metric_bundle.py:622-770`)

Not modelled: plot/display dictionaries, file names, exceptions inside reducers
and summary metrics, the results database calls (see `Model/ResultsDb.lean`).

* `MArr`: `numpy.ma.MaskedArray`: data and mask of equal length.
* `MArr.compressed`: `MaskedArray.compressed()`: the unmasked data in order.
* `MArr.filled`: `MaskedArray.filled(v)`.
* `reduceLoop`: `metric_bundle.py:761-767`: the loop over slices. `garbage` is the content of `np.empty(len(slicer))`; `isBad` is `val == newmetric.badval`. Arrays are traversed together, position by position.
* `reduceMetric`: `metric_bundle.py:672-767`: metric values of the reduced bundle.
* `Summary`: A summary metric: its (cleaned) name, the `mask_val` attribute if it has one, and `run` on the array of values.
* `dictSet`: `metric_bundle.py:634-658`: `summary_values` after the loop, as an association list with dictionary semantics (assignment to an existing key replaces).
* `summaryValue`: `metric_bundle.py:644-657`: the value of one summary metric.
* `computeSummaryStats`: `metric_bundle.py:622-670`.

### `Verif/Model/Meanz.lean`

Mean redshifts, the Lambert projection, mappings and the map of Gaia

`MultibandMeanzBiasMetric` of `rubin_sim/maf/metrics/cosmology_summary_metrics.py`, `project_lambert` of `rubin_sim/maf/plots/spatial_plotters.py`,
`ApplyMappingMetric` of `rubin_sim/maf/metrics/simple_metrics.py` and the names in the files of `rubin_sim/maf/maps/create_gaia_density_map.py`. The standard deviation
of the depths and the quadratic curve through the four points of the figure are parameters; the straight line is given by the formula of least squares.

* `Bin`: One tomographic bin in one band: `meanz` and `dz_dm5`.
* `Year`: The model of one year: for each bin, the values of the bands.
* `Tomo`: `self.tomo_model["year%i" % n]`, by its number.
* `readBins`: The loop of `compute_dzfromdm`, `cosmology_summary_metrics.py:501-503`, over the numbers `zs` of the bins.
* `dzFromDm`: `compute_dzfromdm`, `cosmology_summary_metrics.py:475-505`: the model of the year after `year`.
* `lineFit`: `np.polyfit(x, y, 1)` and its values at `x`, lines 582-585. With one point, or all at one place, the line is flat.
* `maxZ`: `max_z_use`, lines 509, 528: 1.0 + 2 * 0.2.
* `clBias`: `compute_Clbias`, lines 533-586: `curve` is `poly_fit`; bins beyond the limit are left out. `np.polyfit` of nothing is a `TypeError`.
* `addTo`: `totclbias += clbias`, line 619: the shape of what there is stays.
* `stepBand`: One band of the loop, lines 612-620; `none` is the number 0 that the sum starts with.
* `bands`: The loop over the bands, lines 612-620.
* `fill`: `result["y1ratio"] = y1ratio`, lines 628-632, into an array of `zbins`.
* `run`: `run`, lines 473-633: `y1ratio` and `y10ratio`, with the deviations of the depths of the bands.
* `rPolar`: `r_polar`, `spatial_plotters.py:899`.
* `lambert`: `project_lambert`, `spatial_plotters.py:893-905`.
* `limit`: `max_val`, `spatial_plotters.py:1014-1016`.
* `applyArray`: `ApplyMappingMetric.run`, `simple_metrics.py:570-578`, for an array: `None` for what is not in the mapping.
* `applyOne`: The same for a single value: `KeyError`.
* `saved`: The names in a file saved on the way, `create_gaia_density_map.py:137-143`.
* `restoreKeys`: The names that are read on a restart, `create_gaia_density_map.py:63-65`.
* `restore`: Lines 60-65: a restart from the names of a file.

### `Verif/Model/MoBatch.lean`

Model of the batches for moving objects

`rubin_sim/maf/batches/moving_objects_batch.py`: `quick_discovery_batch`, `discovery_batch`, `characterization_inner_batch`,
`characterization_outer_batch` and the choice of curves in `plot_completeness`. Of a bundle the names are kept, and the criterion of discovery.
Times are fractions of a day, as rationals. Stackers, children of the bundles, plots and colours are not modelled.

* `digits`: A number as text.
* `Crit`: A criterion: the words of its label and the arguments of `DiscoveryMetric`; `limit` is `snr_limit`.
* `tMin`: `t_min = 5.0 / 60.0 / 24.0`, lines 205 and 350.
* `tMax`: `t_max = 90.0 / 60.0 / 24.0`, lines 206 and 351.
* `pairs`: Pairs in some nights of a window.
* `quickCrits`: The criteria of `quick_discovery_batch`, `moving_objects_batch.py:208-262`.
* `triplets`: The criterion of lines 384-394.
* `quad`: The criterion of lines 412-422.
* `single`: The criterion of lines 560-571.
* `discCrits`: The criteria of `discovery_batch` that use `DiscoveryMetric`, lines 355-614.
* `discName`: The name of a `DiscoveryMetric`, `mo_metrics.py:387-391`.
* `highName`: `MagicDiscovery` and `HighVelocityNights` get the name of their class, `mo_metrics.py:122-125`.
* `lossWords`: The words for the losses, `moving_objects_batch.py:162-169`, 306-315.
* `bundle`: One bundle: the label of the population, a blank, the words and the losses. The letters of the slicer are those of `MoObjSlicer`.
* `quickNames`: The metric and the words of all bundles of `quick_discovery_batch`.
* `discNames`: The metric and the words of all bundles of `discovery_batch`, with lines 616-650.
* `quickBatch`: `quick_discovery_batch`, lines 127-268.
* `discBatch`: `discovery_batch`, lines 271-655.
* `Crit.run`: `DiscoveryMetric.run` of a criterion on the rows `l` of one object, in order of time.
* `chances`: Whether `MoCompletenessMetric` with a threshold of 1 counts the object: at least one chance.
* `fmt0`: `"%.0f" % w` for `w` that is not negative: to the next whole number, halves to the even one.
* `windowName`: The name of the metric of one window, `moving_objects_batch.py:1017` and 1215.
* `binName`: The name of the metric of one bin, lines 1038 and 1236.
* `charNames`: The names of the metrics of `characterization_inner_batch`, lines 965-1098, or of `characterization_outer_batch`, lines 1163-1273.
* `charBun`: One bundle of these batches.
* `charBatch`: The two batches: all bundles have the same label (lines 1025, 1046 do not pass `md`).
* `windows0`: `np.arange(10, 200, 30.0)`, lines 960 and 1158.
* `bins0`: `np.arange(5, 185, 20.0)`, lines 963 and 1161.
* `has`: `s in t` for texts.
* `Curve`: One completeness: its key, and whether `run_completeness_summary` gave it times (lines 706-717).
* `wanted`: `keys`, lines 779-782.
* `plotTimes`: `plotTimes`, lines 786-791.
* `plotDiff`: `plotDiff`, lines 786-794.
* `plotComp`: `plotComp`, lines 786-796.
* `overTime`: The plot over time, lines 830-835: `plot_dict["times"]` of every curve.
* `allComp`: `allComp`, lines 881-889.

### `Verif/Model/MoBundles.lean`

Moving object slicer and bundle groups

Model of `maf/slicers/mo_slicer.py` and `maf/metric_bundles/mo_metric_bundle.py`. Orbits and observations are
lists, the identity of an object is a value of a type with equality (the code compares through the text of a query),
and files are functions from names to contents. Metrics, stackers and child metrics are functions. The table given to the
stackers is a value of any type, its number of rows is that of the observations. Plots, summary statistics and the results
database are left out.

* `Orbit`: A row of the orbits: object, H magnitude, and the rest.
* `Slicer`: A slicer that has been set up (`mo_slicer.py:28-64`); `oid` is the object of an observation.
* `Slicer.shape`: `mo_slicer.py:74-85`: the shape.
* `Slicer.nslice`: `mo_slicer.py:85`.
* `Slicer.hPoints`: `mo_slicer.py:78-83`: `slice_points["H"]`.
* `Slice`: One slice.
* `subsetObs`: `mo_slicer.py:107-114`: `subset_obs` (`q` is the query, `none` if there is no constraint).
* `sliceObs`: `mo_slicer.py:116-143`: `_slice_obs`.
* `next`: `mo_slicer.py:150-156`: `__next__`: `none` for `StopIteration`; the state is `self.idx`.
* `iterFrom`: The loop of Python over the slicer, with at most `fuel` rounds.
* `iter`: `mo_slicer.py:145-148`: `__iter__` starts again, whatever `self.idx` was; the rounds end after the last orbit.
* `slicerEq`: `mo_slicer.py:163-171`: `__eq__`.
* `Child`: A child bundle: its metric gets the value of the parent.
* `Bundle`: A bundle; `Q` is the type of constraints.
* `checkCompatible`: `mo_metric_bundle.py:395-425`: `_check_compatible`. `cls` is the class name of a stacker, `eq` its `__eq__`. The maps are compared by what `sort()` returns, which is always `None`.
* `place`: `mo_metric_bundle.py:455-479`: one key. The loop over the lists overwrites the flag; after it, the name of the loop variable is the last list.
* `findCompatible`: `mo_metric_bundle.py:427-480`: `_find_compatible`, for keys of the dict.
* `Arr`: A masked array of metric values.
* `Vals`: The values of a bundle and of its children.
* `setupVals`: `metric_bundle.py:224-240`: `_setup_metric_values` (the contents of the new array are anything).
* `Vals.maskAll`: Mask of the bundle and its children (`mo_metric_bundle.py:568-570` and 578-580).
* `evalChild`: `mo_metric_bundle.py:586-590`: a child.
* `evalCell`: `mo_metric_bundle.py:564-590`: one bundle, one object, one H value.
* `keysLoop`: `mo_metric_bundle.py:563-590`: all bundles of the list.
* `stack`: `mo_metric_bundle.py:560-561` with `mo_stackers.py:32-45`: the stackers; nothing is done for no rows.
* `hLoop`: `mo_metric_bundle.py:556-590`: the H values of an object. The table of one H value is used for the next one.
* `Point`: What `enumerate(self.slicer)` gives: number of rows, table, orbit, its H and the H values.
* `sLoop`: `mo_metric_bundle.py:554-590`.
* `runCompatible`: `mo_metric_bundle.py:526-590`: `_run_compatible`. The stackers are those of all the bundles of the group, also of those not in the list (line 534).
* `runConstraint`: `mo_metric_bundle.py:482-509`: `run_constraint`; `points c` are the slices of the observations that meet the constraint.
* `runAll`: `mo_metric_bundle.py:601-604`: `run_all`; `cs` is the list of the set of constraints (line 393), in some order.
* `infoLabel`: `mo_metric_bundle.py:265-278`: `_build_metadata`. The slicer has no attribute `obsfile` (it has `obs_file`), so that line 273 is used.
* `fileRoot`: `metric_bundle.py:263-276`: the default root of the file name (before unwanted characters are replaced).
* `setChildBundles`: `mo_metric_bundle.py:298-316`: the summary metrics of the bundle, and of each child bundle.

### `Verif/Model/MoMetrics.lean`

Model of `rubin_sim/maf/metrics/mo_metrics.py`

One object at one `H`: the observations of the object with the columns added by the
stackers. Floats are an ordered field. Not modelled: the construction of names and units,
`PeakVMagMetric` (a minimum).

* `Obs`: The columns used.
* `visible`: `_set_vis`, `mo_metrics.py:33-38`: whether a row is kept.
* `vis`: `sso_obs[vis]`
* `visIdx`: The positions `vis` themselves.
* `nObs`: `NObsMetric.run`, lines 249-255.
* `bincount`: `np.bincount`: counts of `0 .. max`; raises (`none`) for negative entries.
* `nObsNoSingles`: `NObsNoSinglesMetric.run`, lines 274-282; `none` is the error of `np.bincount`.
* `nNights`: `NNightsMetric.run`, lines 300-305.
* `obsArc`: `ObsArcMetric.run`, lines 324-329.
* `windowBins`: `self.window_bins`, line 738.
* `activityOverTime`: `ActivityOverTimeMetric.run`, lines 742-751.
* `pyMod`: Python's `x % m` of floats.
* `anomalyFromPeri`: The mean anomaly of line 834, for orbits given by their time of perihelion; `twoPi` is `2 * np.pi`.
* `anomalyFromEpoch`: The mean anomaly of lines 830-832, for orbits given by the anomaly (in degrees) at an epoch.
* `anomalyBins`: `self.anomaly_bins`, lines 811-812.
* `activityOverPeriod`: `ActivityOverPeriodMetric.run`, lines 838-843, given the anomaly of each visible observation.
* `obsPerNight`: `(n_idx - np.roll(n_idx, 1))[1:]` followed by the last night, lines 411-418 and 968-973: the number of observations on each of the nights `np.unique(nights)`.
* `nightsWith`: `n[np.where(obs_per_night >= self.n_obs_per_night)]`, lines 420, 976.
* `magic`: `MagicDiscoveryMetric.run`, lines 868-878. The nights of all rows are sorted and only then restricted to the visible positions.
* `fast`: Lines 910-913 and 959-962.
* `highVelocity`: `HighVelocityMetric.run`, lines 906-914.
* `highVelocityNights`: `HighVelocityNightsMetric.run`, lines 955-980.
* `clipSnr`: The clipped signal to noise, lines 1048-1052 and 1148-1152.
* `snrWeight`: `np.sum(clip_snr[match]) / self.snr_max`, lines 1062, 1160.
* `colorFlag`: The flag of lines 1176-1194, from the bands in `filter_weight`.
* `colorAsteroid`: `ColorAsteroidMetric.run`, lines 1147-1196.
* `lightcurveColor`: `LightcurveColorOuterMetric.run`, lines 1257-1282.
* `instantaneousColor`: `InstantaneousColorMetric.run`, lines 1323-1342; `dTime` is `self.n_hours / 24`.
* `median`: `np.median`
* `ptp`: `np.max(xs) - np.min(xs)`
* `inversionOk`: The condition of lines 1067-1083 on the longitudes and phase angles of the visible observations in one band.
* `inversion`: `LightcurveInversionAsteroidMetric.run`, lines 1046-1085.
* `Period`: One period of `KnownObjectsMetric`: the limits of time, the magnitude and the efficiency. `none` as a limit is no limit.
* `inPeriod`: The rows of a period, lines 1468-1469 and like.
* `pickObs`: `_pick_obs`, lines 1452-1461: `draws` are the random numbers.
* `knownLoop`: The periods in turn, lines 1468-1496. `draws i` are the random numbers of period `i`.
* `knownObjects`: `KnownObjectsMetric.run`, lines 1463-1496, with the switch times `t1 t2 t3`.
* `Disc`: The parameters of `DiscoveryMetric`, lines 362-373; the two counts are at least 1.
* `Found`: The result of lines 471-476.
* `index`: `a[idx]`
* `Disc.inRange`: `(dt >= self.t_min) & (dt <= self.t_max)`
* `Disc.steps`: Lines 441-443: the time from each observation to the one `n_obs_per_night - 1` later. `np.roll` by `1 - n` is the rotation to the left by `n - 1`.
* `Disc.goodNight`: `good` for one night, lines 424-445: `first` and `last` are the positions of its first and last observation in time order, `times` the sorted times, `p` is `vis_sort`. The loop takes the rows `vis_sort[first] .. vis_sort[last]` of the sorted times.
* `Disc.tracklets`: Lines 405-448: first and last position, in time order, of the nights that could make tracklets.
* `Disc.tracks`: Lines 451-475: `goodIdx`, `goodEnds` index `v = sso_obs[vis]`.
* `Disc.run`: `DiscoveryMetric.run`, lines 401-476; `none` is `badval`. `v` is `sso_obs[vis]` and `p` its `np.argsort` by time.
* `Found.nObs`: `DiscoveryNObsMetric.run`, lines 537-543.
* `Found.row`: `DiscoveryTimeMetric.run`, lines 564-576 (likewise the distance, position and velocity): the entry of the time sorted rows.

### `Verif/Model/MoStackers.lean`

Stackers for moving objects, `rubin_sim/maf/stackers/mo_stackers.py` and `mo_phase.py`

Over the real numbers, for one observation unless said otherwise. Random numbers are a stream.

* `appMag`: `AppMagStacker._run`, `mo_stackers.py:235-237`.
* `vmagSun`: `VMAG_SUN` and `KM_PER_AU`, `mo_stackers.py:19-21`.
* `radius`: `radius`, `mo_stackers.py:337`.
* `Obs`: The columns of one observation used for the coma, `mo_stackers.py:321-330`. `phaseVal` is the phase function at the phase angle.
* `afrho`: `afrho`, `mo_stackers.py:340-343`.
* `rho`: `rho`, `mo_stackers.py:347-348`.
* `comaWith`: Magnitude of the coma, `mo_stackers.py:350-358`; `unit` is the factor after `KM_PER_AU`, which is 1000 in the code.
* `coma`: As in the code, `mo_stackers.py:350`.
* `combine`: The sum of two sources in magnitudes, `mo_stackers.py:365`.
* `cometMag`: `CometAppMagStacker._run`, `mo_stackers.py:335-366`.
* `CometType`: Argument `comet_type`: a string, or a dictionary from keys to numbers.
* `cometParams`: The exponent and constant set by the constructor, `mo_stackers.py:291-311`; `none` is the `ValueError`.
* `snr`: Column `SNR` of `SNRStacker`, `mo_stackers.py:432-433`.
* `completeness`: `completeness`, `mo_stackers.py:434`.
* `vis`: Column `vis`, `mo_stackers.py:441`.
* `run`: `SNRStacker._run` on the rows of one object, `mo_stackers.py:434-442`: the column `vis`, and the rest of the stream of random numbers, which the stacker keeps for the next call.
* `runs`: Calls of one stacker, one after the other.
* `rotated`: The vector rotated to the ecliptic, `mo_stackers.py:477-482`, in radians.
* `degrees`: `np.degrees`
* `radians`: `np.radians`
* `mod360`: `x % 360`
* `ecliptic`: `EclStacker._run`, `mo_stackers.py:471-486`: latitude and longitude in degrees. `arctan2(y, x)` is the argument of `x + i y`.
* `logLinear`: `phase__log_linear`, `mo_phase.py:238`.
* `phaseHg`: `phase_hg`, `mo_phase.py:259-261`.

### `Verif/Model/MoSummary.lean`

Model of `rubin_sim/maf/metrics/mo_summary_metrics.py`

Arrays are lists, the first index is that of the object and the second that of `H`. The
names and units of the values are not modelled.

* `cumsumFrom`: `np.cumsum` from a starting value.
* `cumsum`: `np.cumsum`
* `sumOverH`: `sum_over_h`, lines 116-144, with the values of `dndh_func(hvalues)`.
* `integrateOverH`: `integrate_over_h`, lines 86-113.
* `binRatio`: `(np.diff(hvalues, append=hvalues[-1] + np.diff(hvalues)[-1])) / 0.1`, line 49 and others. Raises (`none`) for fewer than two values.
* `interp`: `np.interp` on the points `(x, y)`, the `x` increasing.
* `outside`: Lines 205 and 241: `(h_mark < h_vals.min()) or (h_mark > h_vals.max())`.
* `valueAtH`: `ValueAtHMetric.run`, lines 203-212.
* `columnMeans`: `np.mean(metric_vals.swapaxes(0, 1), axis=1)`: for each `H` the mean over the objects.
* `meanValueAtH`: `MeanValueAtHMetric.run`, lines 239-245, with `reduce_func=np.mean`.
* `totalNumber`: `TotalNumberSSO.run`, lines 175-178.
* `complete`: Lines 334-337, the completeness at one `H` from the values of all objects there; `none` is masked.
* `completeness`: Lines 334-337: `cols` has a list for each `H`.
* `hBins`: Lines 341-347: the bins in `H`.
* `binned`: Lines 349-353: the values for one `H` per object.
* `completenessSpread`: `MoCompletenessMetric.run`, lines 338-353, when there is not a value for each `H`.
* `completeAt`: `MoCompletenessAtTimeMetric.run`, lines 442-446, at one `H`: the fraction of the objects up to each of the times; masked objects are dropped.
* `hIndex`: The index of lines 452-457.
* `completenessAtTime`: `MoCompletenessAtTimeMetric.run`, lines 435-464, for cloned `H`: the values at each time and the new `self.hval`. `integrate` is `integrate_over_h(_, h_vals)` with the default distribution.
* `powerLaw`: `power_law_dndh`, lines 23-51: `anchor` is `(no, ho)` if both are given.
* `defaultIndex`: The default index of `power_law_dndh`.
* `neoGranvik`: `neo_dndh_granvik`, lines 54-60.
* `moCompleteness`: `MoCompletenessMetric.run` for cloned `H`, lines 328-365, with `hindex` as given to the constructor. Line 355 passes it as `Hindex=`, which `power_law_dndh` takes as one of its unused `**kwargs`, so that its own default is used.
* `initRaises`: `MoCompletenessAtTimeMetric.__init__`, lines 394-424: `true` when it raises, from `"...%.2f" % self.hval`.

### `Verif/Model/MoonLight.lean`

Scattered moonlight

Model of `MoonInterp._weighting`, `rubin_sim/skybrightness/interp_components.py:699-745`, for one column of spectra or
magnitudes. The neighbours of a point on the sphere with their weights (`get_neighbours`) are an input.

* `Pt`: A point: altitude of the moon, its separation from the sun, and the neighbouring pixels with weights.
* `place`: `intid2id(hpids.ravel(), ...)`, `interp_components.py:735`: the place of a pixel, zero if it is not there.
* `value`: The value of a point, `interp_components.py:711-743`.
* `weighting`: `_weighting`, `interp_components.py:704-745`: zeros if the moon is lower than the grid at all points.

### `Verif/Model/MoreStackers.lean`

Depth, distance, refraction and label stackers

`teff_stacker.py`, `sn_stacker.py`, `m5_optimal_stacker.py`, `neo_dist_stacker.py`,
`label_stackers.py`, `coord_stackers.py` and parts of `general_stackers.py` in
`rubin_sim/maf/stackers/`. Over the real numbers, for one visit unless said otherwise.

* `teff`: `compute_teff` for one visit, `teff_stacker.py:77-83`, with the fiducial depth of its band.
* `m5Coadd`: `CoaddStacker.m5_coadd`, `sn_stacker.py:152`.
* `Visit`: The columns used by `CoaddStacker`, `sn_stacker.py:47-57`.
* `near`: `idx`, `sn_stacker.py:77-79`.
* `fill`: `fill`, `sn_stacker.py:108-135`, on the visits of one group; `coadd` is `m5_coadd`.
* `groups`: The groups of visits of `CoaddStacker._run`, `sn_stacker.py:76-84`. `np.unique` sorts, here the groups have the order of first appearance. The median of equal nights is the night.
* `coaddRun`: `CoaddStacker._run`, `sn_stacker.py:74-87`; the tolerance is 1.0e-5 in the code.
* `minAirmass`: `min_airmass_possible`, `m5_optimal_stacker.py:108-109` and `general_stackers.py:253-254`, in radians.
* `normAirmass`: `NormAirmassStacker._run`, `general_stackers.py:250-255`; the latitude is in degrees.
* `kAtm`: `k_atm` and `sky_slopes`, `m5_optimal_stacker.py:96-107`. Bands are u, g, r, i, z, y.
* `m5Optimal`: `M5OptimalStacker._run`, `m5_optimal_stacker.py:108-125`; `lat` in radians, `dec` in degrees.
* `m5ColsReq`: `cols_req` of `M5OptimalStacker` for the default arguments, `m5_optimal_stacker.py:63-71`, 83-91.
* `m5ColsRead`: The columns that `_run` reads, `m5_optimal_stacker.py:108-124`.
* `helioDist`: `R`, `neo_dist_stacker.py:83`.
* `cosAlpha`: `(1.0 - R**2 - self.deltas**2) / (-2.0 * self.deltas * R)`, the cosine of the phase angle, `neo_dist_stacker.py:85`.
* `neoMag`: `appmag`, `neo_dist_stacker.py:85-91`.
* `maxGeoDist`: `MaxGeoDist`, `neo_dist_stacker.py:95-101`, for the magnitudes `mag` at the increasing distances `deltas`.
* `helioXY`: `NEOHelioX` before the flip and `NEOHelioY`, `neo_dist_stacker.py:104-112`.
* `halfval`: `halfval`, `neo_dist_stacker.py:115-118`, from the smallest azimuth.
* `flip`: `flip`, `neo_dist_stacker.py:119-122`.
* `dropU`: `s.replace("u,", "")`
* `ddName`: `define_ddname`, `label_stackers.py:78-81`.
* `label`: `WFDlabelStacker._run` for one visit, `label_stackers.py:96-113`: `disc` has the values of the footprint in the healpixels of the visit. Strings are cut to 15 characters. `nan >= x` is false.
* `clip1`: `np.where(x < -1, -1, x)` and `np.where(x > 1, 1, x)`
* `altAz`: `ra_dec2_alt_az`, `coord_stackers.py:60-78`, from the hour angle.
* `wrapRa`: `wrap_ra`, `coord_stackers.py:27`.
* `galactic`: `GalacticStacker._run`, `coord_stackers.py:110-119`: `toGal` is the transformation of the library, in radians.
* `galacticUnits`: `units`, `coord_stackers.py:99-102`.
* `dcr`: `DcrStacker._run`, `general_stackers.py:467-480`: `ra_dcr_amp` and `dec_dcr_amp`.
* `Moments`: `Dcr2Stacker._run`, `general_stackers.py:621-645`.
* `dcr2Init`: The attributes `zstacker` and `pastacker` of a `Dcr2Stacker`, `general_stackers.py:590-606`; `none` if there is no such attribute.
* `dcr2Uses`: The stackers that `_run` uses, `general_stackers.py:618-619`; `none` is the `AttributeError`.

### `Verif/Model/NDSlicer.lean`

`NDSlicer`

Models `rubin_sim/maf/slicers/nd_slicer.py`.

* `product`: `itertools.product(*xss)` as a list of tuples, last position varying fastest (used in `nd_slicer.py:86,96`).
* `Dim`: One slicing dimension after the bins were chosen: the column, its bin edges (`self.bins[d]`) and the result of `np.argsort` on the column.
* `Dim.lefts`: `nd_slicer.py:102-121`: the `left` positions of one dimension; the last entry is the number of rows.
* `Dim.slice`: `nd_slicer.py:130`: `self.sim_idxs[d][self.lefts[d][i] : self.lefts[d][i + 1]]`; `none` is an `IndexError`.
* `ndBinIdxs`: `nd_slicer.py:93-98`: `slice_points["bin_idxs"]`, the tuple of bin numbers of each slice; its length is `nslice` (`nd_slicer.py:76`).
* `interAll`: `set.intersection(*sets)` for at least one set, as a list of members. The order of `list(set)` is unspecified in Python; the model keeps the order of the first operand. No operand at all is a `TypeError` (`none`).
* `ndSlice`: `nd_slicer.py:123-132`: the rows of slice number `islice`.

### `Verif/Model/Names.lean`

Model of `rubin_sim/maf/utils/output_utils.py`

Strings are lists of characters.

* `repl`: `s.replace(c, r)` for a single character `c`.
* `subst`: The replacements of `name_sanitize`, lines 19-31, in order.
* `hasDouble`: `"__" in s`
* `halve`: `s.replace("__", "_")`: non-overlapping occurrences, from the left.
* `collapse`: The loop of lines 32-33, with a bound on the number of rounds; every round shortens the string, so its length suffices.
* `sanitize`: `name_sanitize`, lines 4-34.

### `Verif/Model/NightStats.lean`

Model of `sims_on_night_with_stats`

`rubin_sim/sim_archive/vseqmetadata.py:1489-1574`, with the table `nightly_stats` of `sql/make_vseqmeta.sql:158-174`.
Rows of `simulations_extra`, `BETWEEN` and the parameters of a query are those of `Model/Archive.lean` (C28).

The numbers of a row of statistics are one value. `JSONB_OBJECT_AGG` keeps the last of several values of one key, in the
order in which the database goes through the rows, which is the order of the list here.

* `StatRow`: A row of `nightly_stats`.
* `tmplTags`: The lines of `vseqmetadata.py:1526-1545`, without blanks before them.
* `tmplNoTags`: The lines of `vseqmetadata.py:1548-1566`.
* `paramsTags`: The number of parameters of the query with tags, `none` if it is not well-formed.
* `paramsNoTags`: The number of parameters of the query without tags, `none` if it is not well-formed.
* `setKey`: A key of a JSON object is set: an earlier value is replaced.
* `objectAgg`: `JSONB_OBJECT_AGG(value_name, TO_JSONB(ns) - ...)`, `vseqmetadata.py:1530-1533`: without the name, the sequence and the night, the flag and the numbers are left.
* `statsOf`: The column `stats` of the `LEFT JOIN` (`vseqmetadata.py:1527-1540`): NULL for a sequence without rows that night.
* `simsWithStats`: `vseqmetadata.py:1518-1574`, after the default of the date is filled in; `now` in seconds.

### `Verif/Model/Numpy.lean`

numpy primitives used by the slicers

These are library functions (not code of the repository); they are modelled by
their documented behaviour and belong to the trusted base. A data column with
`n` rows is a function `Fin n → α`; row numbers are elements of `Fin n`.

* `IsArgsort`: `p` is a possible result of `np.argsort(vals)`: a permutation of the row numbers along which the values are non-decreasing. The default sort of numpy is not stable, so *any* order among ties is allowed.
* `argsort`: A concrete argsort (insertion sort), used to show that `IsArgsort` can always be met and to run examples.
* `searchsortedLeft`: `np.searchsorted(xs, v, "left")` for a sorted `xs`: the number of leading entries strictly below `v` (numpy: `a[i-1] < v <= a[i]`).
* `pySlice`: Python slice `xs[l:r]` for non-negative bounds.

### `Verif/Model/NumpyMore.lean`

Further numpy primitives used by the metrics

Library functions, modelled by their documented behaviour (trusted base).

* `searchsortedRight`: `np.searchsorted(xs, v, "right")` for a sorted `xs`: the number of leading entries not above `v`.
* `diff`: `np.diff`
* `sort`: `np.sort`
* `SortedBy`: `s` is a possible result of sorting the rows `l` by `key` (`np.argsort` or `sort(order=...)`; rows with equal keys in any order).
* `inBin`: Entries of bin `i` of `np.histogram(xs, edges)`: half-open, but the last bin is closed.
* `histogram`: `np.histogram(xs, edges)[0]` for non-decreasing edges.

### `Verif/Model/Odds.lean`

Comments and indexes of the archive, text of bandpasses, time delays

Models of parts of `sim_archive/vseqmetadata.py`, `vseqarchive.py`, `prenightindex.py`, of
`phot_utils/bandpass.py` (writing and reading a file as text), of `maf/metrics/season_metrics.py`
(`TdcMetric`), of `maf/web/maf_run_results.py` (metrics with statistics), of `selfcal/offsets.py`,
`maf/maf_contrib/lss_metrics.py` and `xrb_metrics.py`.
Left out: the connection to the database, the order in which a database gives rows, the writing of
JSON and of decimal numbers, `calc_season` (a visit carries the whole number of its season), the
random numbers (parameters).

* `CRow`: A row of the table of comments; `none` for NULL.
* `CCall`: A call of `comment`.
* `comment`: `comment`, `vseqmetadata.py:1014-1057`: one of two INSERTs.
* `getComments`: `get_comments`, `vseqmetadata.py:1059-1094`, up to the order of the rows.
* `PRow`: A row of `simulation_packages`.
* `versions`: `get_software_versions_for_sim`, `vseqmetadata.py:1734-1747`.
* `Date`: A `datetime.date`.
* `dg`: A digit.
* `iso`: `date.isoformat()`
* `str`: `str(n)`
* `writtenAt`: Where `make_prenight_index` writes, `vseqarchive.py:953-959`: the names below the destination.
* `readAt`: Where `get_prenight_index_from_bucket` reads, `prenightindex.py:125-134`.
* `Made`: A call of `make_prenight_index` with the table of that night.
* `make`: The writing of a file, `vseqarchive.py:960`.
* `readIndex`: `get_prenight_index_from_bucket`, `prenightindex.py:119-140`; `none` when there is no file.
* `splitP`: The pieces of a text between the characters of a kind.
* `isNl`: Ends of lines in text mode.
* `isWs`: Blanks for `str.split()`.
* `words`: `line.split()`
* `Codec`: The writing and the reading of a number: `print` and `float`.
* `columns`: The line of the names of the columns without its end, `bandpass.py:416` and 418.
* `head`: The first line of `write_throughput`, `bandpass.py:409-418`.
* `dataLine`: A line of the data, `bandpass.py:420-424`.
* `writeText`: `write_throughput`, `bandpass.py:401-425`; `phi` gives the third column when it is written.
* `commented`: Does a line start with a sign of comments? `bandpass.py:167`
* `kept`: The lines that are read, `bandpass.py:167-173`.
* `numbers`: The two numbers of a line, `bandpass.py:174-175`.
* `readText`: `read_throughput`, `bandpass.py:166-188`; `none` for a ValueError.
* `TObs`: The columns that `TdcMetric` uses.
* `deep`: The visits deep enough behind the dust, `season_metrics.py:271-281`.
* `tdcMean`: `season_means[i]`, `season_metrics.py:296-300`.
* `tdcCamp`: The campaign, `season_metrics.py:288`.
* `tdcLengths`: The lengths of the seasons, `season_metrics.py:290`.
* `tdcSea`: The season in months, `season_metrics.py:291-293`.
* `tdcCad`: The cadence, `season_metrics.py:295-301`.
* `Norms`: The normalisations.
* `Tdc`: What `TdcMetric` gives.
* `tdcOf`: The formulas, `season_metrics.py:306-326`.
* `tdcRun`: `TdcMetric.run`, `season_metrics.py:269-326`, on visits in the order of time; `none` for `badval`.
* `withStat`: `metrics_with_summary_stat`, `maf_run_results.py:290-314`; a row of the statistics is the id of its metric and its name; `srt` sorts.
* `withAny`: `metrics_with_stats`, `maf_run_results.py:316-335`.
* `nameLabels`: `unique_metric_name_and_info_label`, `maf_run_results.py:354-367`, of names and labels.
* `clouds`: `OffsetClouds.__call__`, `offsets.py:56-83`: `self.SF` is None.
* `snrErr`: `OffsetSNR.__call__` for one star, `offsets.py:109-119`: its error before the random factor.
* `call`: The result of a call of a method with some arguments that have no default.
* `galaxyCounts`: `GalaxyCountsMetric.run`, `lss_metrics.py:35-45`: `ExgalM5.run`, `exgal_m5.py:47`, has two arguments without default and gets one.
* `catalogPorb`: The periods of the catalogue, `xrb_metrics.py:48-68`.
* `Ugrizy`: Magnitudes in the bands.
* `lmxb`: `lmxb_abs_mags`, `xrb_metrics.py:70-87`, from the periods that are drawn and their factors.

### `Verif/Model/OneDSlicer.lean`

`OneDSlicer` and `MovieSlicer`

Models `rubin_sim/maf/slicers/one_d_slicer.py` and
`rubin_sim/maf/slicers/movie_slicer.py`. Values are elements of an exact
linearly ordered field (floats idealised, no NaN).

* `SetupError`: Exceptions the slicer setup can raise.
* `arange`: `np.arange(start, stop, step, "float")` for a non-zero step: numpy documents the length as `ceil((stop - start)/step)`.
* `BinArgs`: Constructor arguments of `OneDSlicer` that decide the bins (`one_d_slicer.py:40-75`).
* `column`: The column as a list, in row order.
* `oneDBins`: `one_d_slicer.py:62-76,113-138`: the bin edges used by `OneDSlicer.setup_slicer` (with the constructor check on the arguments: giving `bins` together with one of the others is meant to warn, but calls the non-existent `warnings.warning`, line 70, and so raises). `nbins lo hi` stands for `np.round(optimal_bins(slice_col, lo, hi))`; a zero `nbins` (float division by zero, then a failing `arange`) is reported as `zeroDivision`.
* `movieBins`: `movie_slicer.py:92-143`: the bin edges used by `MovieSlicer.setup_slicer`. `binsArg` is the `bins` argument: a sequence (`.inl`), a number (`.inr`) or `None`. `nbins lo hi` stands for `int(optimal_bins(...))`. Unlike `OneDSlicer`, `bin_size` wins over `bins`, and given bins are sorted.
* `oneDSimIdxs`: `one_d_slicer.py:152-160`: `self.sim_idxs`, one list of row numbers per slice. `p` is the result of `np.argsort`.
* `OneDState`: State left by `OneDSlicer.setup_slicer` that slicing uses.
* `movieLeft`: `movie_slicer.py:152-167`: `self.left`, with the data length appended.
* `movieCumulative`: `movie_slicer.py:170-191`: slice `islice` in cumulative mode, `self.sim_idxs[0 : self.left[islice + 1]]`; `none` is an `IndexError`.
* `movieStep`: `movie_slicer.py:195-212`: slice `islice` in non-cumulative mode, `self.sim_idxs[self.left[islice] : self.left[islice + 1]]`.
* `oneDSetup`: `one_d_slicer.py:95-184`: `OneDSlicer.setup_slicer`. The maps and the units are not modelled. Slice `i` of the iteration is `simIdxs[i]`.

### `Verif/Model/Opsim.lean`

Model of the reading of simulations and of benchmarks

`rubin_sim/maf/utils/opsim_utils.py`. The database answers a query, a string, with a list of rows; strings are lists of characters.

* `Con`: What `get_sim_data` is given: a string (whether it is a file, with the tables in it, and whether it has a scheme as in a URL), a connection to sqlite, or another object.
* `joinCols`: `", ".join(cols)`
* `guess`: The table, `opsim_utils.py:62-80`, when neither it nor the full query is given.
* `colStr`: Line 83 of `opsim_utils.py`.
* `mkQuery`: The query, `opsim_utils.py:82-88`.
* `theQuery`: The query that is run: the full one if given, else one for the table given or guessed.
* `getSimData`: `get_sim_data`, `opsim_utils.py:18-118`; `exec` is the answer of the database, `resources` whether `lsst.resources` is installed.
* `designVisits`: Visits by filter, line 152 and 153 of `opsim_utils.py`.
* `benchmarks`: `scale_benchmarks`, `opsim_utils.py:219-233`: total visits and visits by filter.
* `depth`: One filter of `calc_coadded_depth`, `opsim_utils.py:256-258`; the logarithm is not finite for no visits or fewer.
* `coaddedDepth`: `calc_coadded_depth`, `opsim_utils.py:236-259`.

### `Verif/Model/OrbitPlots.lean`

Model of the plots of metrics against orbits

`rubin_sim/maf/plots/mo_plotters.py`: the cells of `MetricVsOrbit` (192-237), the points of `MetricVsOrbitPoints`
(293-354) and the mark of `MetricVsH` (129-135), and the dictionary of `make_completeness_bundle`
(`rubin_sim/maf/metric_bundles/mo_metric_bundle.py:89-107`).

The keys `hval` and `hwidth` are given (without them there is a `KeyError`, C383). The edges of the bins are a parameter,
in increasing order. An orbit is given by its two values. Masked values are filled (216-219), so values are a list.
Objects either share the values of H, then the metric has a value for each object and H, or have one H each, then it
has one value for each object. Colours and contours are not modelled.

* `digitize`: `np.digitize(vals, bins)`: the number of edges that are not above the value.
* `matchIdx`: `np.where(idxs == i)[0]` for `idxs = np.digitize(vals, bins) - 1`, `mo_plotters.py:226-234`.
* `takeVals`: `m_vals[idxs]`, `none` is the `IndexError` for a number that is too large.
* `xMatch`: `xmatch`, `mo_plotters.py:234`: places in `ymatch`.
* `cell`: One cell, `mo_plotters.py:232-237`.
* `cells`: All cells, `mo_plotters.py:231-237`.
* `ownIdx`: `hidx` for objects with an H each, `mo_plotters.py:209-215`.
* `ownVals`: `m_vals` for objects with an H each, `mo_plotters.py:218-219`.
* `orbitOwn`: `MetricVsOrbit` for objects with an H each.
* `PErr`: Errors of `MetricVsOrbitPoints`.
* `points`: `MetricVsOrbitPoints`, `mo_plotters.py:315-354`: the points with their colours. With an H each the values are a table of one column, whose places (329) do not fit the list of orbits (331); the number of colours has to be that of the points (339-342); `cbar` is only there with points in the foreground (350, 354).
* `lookupOpt`: The dictionary of a plotter: its defaults, then the options of the user.
* `drawnMark`: `MetricVsH`, `mo_plotters.py:129-135`: where a line is drawn for a mark; the default of `Hmark` is None (37).
* `setOpt`: A key of a dictionary is set.
* `completenessDict`: The dictionary that `make_completeness_bundle` gives to the new bundle, `mo_metric_bundle.py:89-106`: that of the old one with another label.

### `Verif/Model/Orbits.lean`

Orbits of moving objects, `rubin_sim/moving_objects/orbits.py`

A data frame is its number of rows, the three columns that are not numbers (`FORMAT`, `obj_id` and
`sed_filename`), and a list of named columns of numbers. Object ids are integers. The index of the
frame is always `0, 1, ...`, and there is no NaN. Warnings are not modelled.

* `Frame`: A `pandas` data frame of orbits.
* `Err`: Exceptions that are raised.
* `Obj`: An `Orbits` object, `orbits.py:19-21`; `rng` is the seed of the attribute `_rng` and how many numbers were drawn from it.
* `col`: A column of numbers.
* `has`: `c in orbits`.
* `del`: `del orbits[c]` for a column of numbers.
* `fill`: `orbits.assign(c=x)` for a new column with one value.
* `row`: `orbits.iloc[i]`, as a frame of one row.
* `dataCols`: `data_cols`, `orbits.py:25-63`.
* `Fmt`: What is known of the format after its column was read: the new `orb_format`, the frame that is left, and the exception if one is raised.
* `lacks`: Whether the column that belongs to a stated format is missing, `orbits.py:153-161`.
* `guess`: The format from the columns, `orbits.py:162-175`.
* `readFormat`: The format of the orbits, `orbits.py:142-175`.
* `sedOf`: `chance <= prob_c`, `orbits.py:257-260`.
* `sedOfQ`: The same from the perihelion distance and the eccentricity, where `a` is `q / (1 - e)`; with `e = 1` this is infinite, `orbits.py:244`.
* `generator`: The generator used by `assign_sed`, `orbits.py:251-255`.
* `assignSed`: `assign_sed`, `orbits.py:241-261`: the names, or an exception. `stream seed k` is number `k` of the random numbers with that seed; `norm x y z` is the length of a vector.
* `Out`: What a call of a method leaves: the object, the frame of the caller, and the exception.
* `fillIds`: The ids, `orbits.py:193-195`.
* `oddEpoch`: Whether the epoch is odd; only the first row is looked at, `orbits.py:179-184`.
* `complete`: The last part of `set_orbits`, from the missing columns on, `orbits.py:193-216`.
* `setOrbits`: `set_orbits` with a data frame, `orbits.py:126-216`. The columns `index` and `FORMAT` are deleted from the frame of the caller.
* `getItem`: `__getitem__`, `orbits.py:68-71`: a new object with row `i`.
* `iter`: `__iter__`, `orbits.py:73-77`.
* `updateOrbits`: `update_orbits`, `orbits.py:504-507`, where the new frame has no more rows than the old one. A frame with `obj_id` or `sed_filename` cannot be joined.
* `allEq`: `np.all(a == b)` for two columns: equal lengths, or one of length 1 that is repeated; otherwise the shapes do not agree.
* `colEq`: Comparison of one column.
* `eqLoop`: The loop over the columns, `orbits.py:83-87`, which returns in its first turn.
* `eq`: `__eq__`, `orbits.py:79-89`; `none` is the Python value.
* `scan`: The search for the header, `orbits.py:301-323`: the number of lines before the first orbit, less one, and the last of these lines. `isNum` tells which strings `float` accepts; a line is its list of values.
* `Header`: How the file is read, `orbits.py:300-341`: as a file without header, or with names after skipped lines. An empty header line is an `IndexError`.
* `header`: The header of a file, with `skiprows = None`.
* `body`: The lines that are read as orbits.
* `altNames`: `alt_names`, `orbits.py:425-466`. A comma is missing after `"S3MID"`.
* `replaceFirst`: Replace the first element equal to `x`, `orbits.py:476-477`.
* `renameOne`: One turn of the renaming, `orbits.py:470-477`; `none` is the `ValueError`.
* `renameAll`: All the turns, `orbits.py:469-477`.
* `rename`: The names of the columns after reading.
* `incCheck`: The check of the inclinations, `orbits.py:482-486`. The exception for negative inclinations is made but not raised; the ids are looked up.
* `readEnd`: The end of `read_orbits`, `orbits.py:482-489`.

### `Verif/Model/PerStar.lean`

Periodic stars

`rubin_sim/maf/maf_contrib/periodic_star_metric.py`, `periodic_star_modulation_metric.py`, `periodic_metric.py` and `var_depth_metric.py`.

Floats are real numbers.  A fitted value is an `Option ℝ`, where `none` is an infinity.  What `curve_fit` gives for a realisation of the noise is an input, as
are the numbers drawn for the true period and amplitude.  Exceptions are values.

* `names`: `filter2index`, `periodic_star_metric.py:29`, as the position among the six magnitudes.
* `mag`: `PeriodicStar.__call__` for one visit in a known filter, `periodic_star_metric.py:31-35`.
* `lightcurve`: `PeriodicStar.__call__`, `periodic_star_metric.py:16-36`: it takes nine parameters and knows six filters.
* `Fit`: A row of `fits`, without the phase, which is not looked at.
* `Cfg`: The options of the metric, `periodic_star_metric.py:110-118`.
* `discard`: `periodic_star_metric.py:164-168`: the magnitudes of the filters without visits.
* `within`: An error is within a tolerance; an infinite one is not.
* `recovered`: `periodic_star_metric.py:171-183` for one row; `period`, `amp`, `mags` are the true parameters.
* `fraction`: `periodic_star_metric.py:177-184`.
* `atDistance`: `periodic_star_metric.py:135-138`.
* `run`: `PeriodicStarMetric.run`, `periodic_star_metric.py:122-186`. The slice point has a distance modulus or not, or is not given; the visits are given by the time since the first and the filter; `fit` is what `curve_fit` gives for the realisations of the noise.
* `infinite`: `true_params * 0 + np.inf`, `periodic_star_modulation_metric.py:192`.
* `sizeOfObject`: `np.size` of an object that is not an array.
* `chosen`: `periodic_star_modulation_metric.py:191-208`: `nParams` is the number of true parameters.
* `subruns`: `periodic_star_modulation_metric.py:150`, for times from zero and a positive interval.
* `window`: `periodic_star_modulation_metric.py:156-159`.
* `Truth`: What is drawn for a subrun, `periodic_star_modulation_metric.py:170-176`.
* `subrun`: One subrun, `periodic_star_modulation_metric.py:161-233`; `none` if it has no visits.
* `modulation`: `PeriodicStarModulationMetric.run`, `periodic_star_modulation_metric.py:131-236`; the outer `none` of the value is nan, the mean of no fraction.
* `windowVal`: The window function at a frequency, `periodic_metric.py:35-41`.
* `windowVals`: `periodic_metric.py:37-41`: at `n` frequencies from zero to below `top`.
* `periodic`: `PeriodicMetric.run`, `periodic_metric.py:31-45`; `hasFloat` says whether numpy has the name `float`, which it has no more since version 1.24.
* `reducePeak`: `reduce_peak`, `periodic_metric.py:47-48`.
* `grid`: `np.arange(16, stop, step)`, `var_depth_metric.py:58` and `153`.
* `argmin`: The first of a list where a function is smallest, `np.argmin`.
* `varDepth`: The end of `VarDepth.run`, `var_depth_metric.py:150-157`: `res` has the differences of the thresholds at the magnitudes, `none` for nan, and `spline` the linear interpolation of the others.
* `scan`: The loop over the magnitudes, `var_depth_metric.py:108-146`: `diff` is the difference of the thresholds at a magnitude where the noise spans enough steps. After the first below zero the rest stay nan.

### `Verif/Model/Periodic.lean`

Phases, angles and intervals between visits

Models of `phase_gap_metric.py` (`PhaseGapMetric`), `kuiper_metrics.py`,
`cumulative_metric.py`, `coverage_metric.py`, `schedview_metrics.py` and the revisit metrics
of `cadence_metrics.py`, all in `rubin_sim/maf/metrics`. Numbers are elements of an ordered
field with a floor function.

* `fmod`: `x % y` of numpy, for `y` not zero.
* `maxGap`: `phase_gap_metric.py:63-69` for one period: the largest difference of sorted phases, with the one from the last to the first. `none` for no visits (`phases[-1]` fails).
* `Gaps`: What `PhaseGapMetric.run` gives; an entry `none` is NaN.
* `periods`: `phase_gap_metric.py:53-58`. With one period and different limits `np.max(periods)` is zero and the period 0/0.
* `phaseGap`: `PhaseGapMetric.run`, `phase_gap_metric.py:49-71`. `np.zeros(n_periods)` is filled from the front; for no periods the division in line 53 fails.
* `meanGap`: `reduce_mean_gap`, `phase_gap_metric.py:73-77`; NaN if one gap is.
* `kuiper`: `KuiperMetric.run`, `kuiper_metrics.py:14-26`; `none` for no visits (`np.max` of an empty array fails).
* `cumulative`: The value of `CumulativeMetric.run` (`cumulative_metric.py:33-46`) for a point `x`; `nights` are the nights in the order of the times.
* `cumulativePoints`: The points of lines 35-40: whole steps from the first to the last night, here integers.
* `yearBins`: Bins of `YearCoverageMetric`, `coverage_metric.py:36`: `np.arange(0, 3653, 365.25) - 0.5` has eleven entries.
* `yearCoverage`: `YearCoverageMetric.run`, `coverage_metric.py:45-48`.
* `rapidTimes`: The times of `RapidRevisitUniformityMetric.run` that are used, scaled and sorted, `cadence_metrics.py:196-206`; `none` is the bad value. Lines 193-194 raise `min_nvisits` to two.
* `rapidMax`: Lines 207-210 for the scaled times.
* `rapidUniformity`: `RapidRevisitUniformityMetric.run`, lines 196-211.
* `rapidRevisit`: `RapidRevisitMetric.run`, lines 234-242.
* `nRevisits`: `NRevisitsMetric.run` with `normed=False`, lines 276-281; `dt` in days.
* `nRevisitsNormed`: `NRevisitsMetric.run` with `normed=True`.
* `visitGaps`: The array that `VisitGapMetric.run` reduces, lines 396-400, in hours.
* `age`: `AgeMetric.run`, `schedview_metrics.py:35-39`. The outer `none` is the exception for no visits, the inner one `mask_val`.

### `Verif/Model/PlotH.lean`

Model of `rubin_sim/maf/plots/plot_handler.py`

A bundle is what the handler reads of it. Python sets are lists without repeats in an
arbitrary order. Strings which are only joined and compared are of an arbitrary type or
`String`; strings which are taken apart are lists of characters. Drawing itself
(matplotlib) is left out.

* `applyZpNorm`: `apply_zp_norm`, `plot_handler.py:12-19`; a missing key is as `None`.
* `pyInsert`: `list.insert(i, x)`: a negative index counts from the end, and indices out of range are moved to the nearest end.
* `filterOrder`: `self.filterorder`, line 111.
* `single`: A piece of a single letter.
* `forder`: `forder`, lines 123-129: the place of the last piece of the file root that is a band; `none` when there is no such piece.
* `Bundle`: What the handler reads of a bundle to put it in its place.
* `addBundle`: One turn of the loops of lines 122-130 and 133-141.
* `setBundles`: The list of bundles, lines 119-145: the empty list has no first element (131, 142), and all slicers have to have the name of the first.
* `Dict`: A dictionary: absent, `None` or a value.
* `upd`: `lo.update(hi)`
* `put`: `d[key] = v`
* `notNone`: The entries that are not `None`, lines 197-199.
* `Plotter`: What `set_plot_dicts` takes from a plotter: its defaults and the labels made for it (line 177).
* `resolve`: The dictionary of one bundle, lines 182-207: `auto` are the title, label, colour and format made by the handler.
* `Call`: One call of `set_plot_dicts` with `reset=False`, from the point of view of one bundle.
* `runCalls`: The dictionary of a bundle after some calls, the first of which resets it (lines 150 and 163-166).
* `UserDicts`: The dictionaries passed to the bundles, lines 168-170 and 205: one dictionary is used for all, and a list that is too short raises.
* `Atoms`: A value of a dictionary as `np.unique` sees it: the atoms of it, since arrays are flattened. A number or string is one atom, a pair of limits two.
* `keysToCheck`: The keys of line 583.
* `valuesOf`: `values`, line 598.
* `atomsOf`: All atoms of the values, `None` being one.
* `conflict`: `len(np.unique(values)) > 1`, line 599.
* `endsWith`: `key.endswith(s)`
* `fixKey`: Lines 599-617 for one key: the branches `Max` and `Min` take the largest and the smallest value, `title` the title made by the handler, and other keys are to be reset.
* `checkDicts`: `_check_plot_dicts`, lines 576-622. The keys are different, so that resetting them at the end (620-622) is the same as at once.
* `bandOrder`: `order`, lines 221 and 274.
* `jointWord`: The word at one place of the joint name, lines 234-245. `enum` is the order in which the set of words is read.
* `jointName`: `_combine_metric_names`, lines 222-250, as the list of the words which are joined by blanks. `names` are the different names, each in words, in the order of the set.
* `Combo`: The parts of the joint label of lines 339-345.
* `interAll`: `set.intersection(*sets)`
* `firstWords`: The words of the first of the phrases, lines 301-304.
* `bandsFirst`: The bands first and in order, lines 326-336.
* `combineLabels`: `_combine_metadata`, lines 278-345, for two or more different labels: `labels` are their phrases (lines 279-292) and `words` splits a phrase. `sortLen` orders the phrases by length (318-320).
* `filterColor`: `self.filtercolors`, lines 102-110; the colour of a blank is `None`.
* `ColorOf`: What is read of a bundle for its colour.
* `guessColor`: Lines 463-477: the colour of the dictionary, else that of the last piece between double quotes which is a band, if the constraint has the word `filter` in it, else `b`.
* `buildColors`: `_build_colors`, lines 456-488; `none` stands for colours at random.
* `displayOrder`: `order`, lines 542-548.
* `displayGroup`: `group` and `subgroup`, lines 549-556; the list is not empty.
* `PBundle`: What `plot` reads of a bundle: whether its values are objects, whether its dictionary says that they are colours, and the mask of its values.
* `Outcome`: What comes of `plot`.
* `canDraw`: The bundle is drawn, lines 681-690.
* `plot`: `plot` and `save_fig`, lines 657-766, in terms of which bundles are drawn and whether a file and a row in the database come of it.

### `Verif/Model/PlotNames.lean`

Titles and legends of plots of several bundles

Model of `PlotHandler._build_title` and `_build_legend_labels`, `rubin_sim/maf/plots/plot_handler.py`. Texts are lists of
characters. Names of runs, labels and metrics of the bundles are in sets (217-219, 257-259, 266-269), of which only the
number and, if there is one, the only element matter. The joint names (374) are parameters.

* `B`: A bundle: names of run, label and metric, and `plot_dict["label"]`.
* `count`: `len(self.run_names)` and the like.
* `only`: `list(self.run_names)[0]` and the like.
* `title`: `_build_title`, `plot_handler.py:364-375`.
* `legendOf`: The label of a bundle, `plot_handler.py:439-448`.
* `legend`: `_build_legend_labels`, `plot_handler.py:435-450`.

### `Verif/Model/Plotters.lean`

Model of the numbers that the plotters draw

`rubin_sim/maf/plots/spatial_plotters.py`, `two_d_plotters.py`, `nd_plotters.py`,
`mo_plotters.py` and `special_plotters.py`. Drawing (matplotlib, healpy) is left out: the
model gives the limits, the edges of bins and the points that are passed on. Numbers are
those of an ordered field; values that are masked are left out of the lists.

* `colorLims`: `set_color_lims`, `spatial_plotters.py:66-98`; `clip` is `percentile_clipping` with the percentile of the dictionary, if there is one.
* `histBins`: The edges of the bins when `bin_size` is given and the histogram is not cumulative, `spatial_plotters.py:459-470`.
* `cumBins`: The edges for a cumulative histogram, `spatial_plotters.py:451-455`.
* `skyLon`: Longitude on the map, `spatial_plotters.py:674` (also 612, 638, 643); `tau` is a full turn.
* `pairBins`: The edges of the bins of `VisitPairsHist`, `two_d_plotters.py:162`.
* `pairBars`: The heights of the bars, `two_d_plotters.py:161-170`: the middle of the bin times the number of nights in it.
* `twoDMap`: `TwoDMap`, `two_d_plotters.py:79-81`: values and mask of the bundle after the call.
* `indices`: The index of each value in an array of the given shape: `reshape` is in the order of rows.
* `sumWhere`: The sum of the values whose index has a property; masked values are left out before.
* `oneDSubset`: `OneDSubsetData`, `nd_plotters.py:179-205`, for a slicer with the attributes `attrs` and `shape` bins: the values at the bins of the axis. The number of dimensions is looked up as `slicer.nD` (186); the numbers of bins and of values have to be the same to be drawn.
* `twoDSubset`: `TwoDSubsetData`, `nd_plotters.py:69-89`: the value drawn at bin `i` of the x axis and bin `j` of the y axis. The axes that are left are in the order of the array, and the row is the bin of the y axis.
* `ndSlicerAttrs`: The attributes which `NDSlicer` sets, `nd_slicer.py:33-46` and 51-114, with those of `base_slicer.py:68-121`.
* `orbitKeys`: The keys of the defaults of `MetricVsOrbit`, `mo_plotters.py:152-167`.
* `orbitLookups`: The lookups of `MetricVsOrbit` for the width and the value of H, `mo_plotters.py:198-215`: `cloned` says that all objects have the same values of H, `hval` what is there for it.
* `hBins`: The bins of H of `MetricVsH`, `mo_plotters.py:65-74`.
* `hIndex`: `np.digitize(hvals, bins) - 1`, `mo_plotters.py:77-78`.
* `diameter`: The diameter in metres of an object with the magnitude `h`, `mo_plotters.py:112-115`.
* `foCurve`: The curve of `FOPlot`, `special_plotters.py:72-79`.
* `summaryHist`: `SummaryHistogram`, `special_plotters.py:200-208`, with `SumMetric`: the sum of each bin over the sky; `rows` are the values of the points.

### `Verif/Model/Proto.lean`

The prototype archive of simulations

`rubin_sim/sim_archive/prototype.py` and `make_sim_data_dir` of `rubin_sim/sim_archive/sim_archive.py`.

Days are numbers of days; that the order of the ISO dates is the order of the days is C65.  A simulation in the archive is known by the day on which it was
added and its number on this day, which is what its URI is made of.  Contents of files, hashes and values in the metadata are opaque.  A directory is a list of
names with contents.  Exceptions are values.  Left out: the HDF5 file itself, which is the tables that are written to it, the types of its columns, and logging.

* `nextIndex`: `prototype.py:61-73`: one more than the largest directory that is a number; `parse` is `int`, and the slash after the names is left out.
* `mkdir`: The directory is made, `prototype.py:74-75`; it is no exception if it is there already.
* `addDir`: `_next_sim_date_and_index`, `prototype.py:54-77`, on one day.
* `addDirs`: Several one after the other.
* `Two`: Two programs at the same time: each looks at the directories and makes one later.
* `FileInfo`: What the metadata have on a file.
* `collect`: The files without their hashes, `sim_archive.py:107-135`: the directory and the entries. There are rewards if both tables are given (115). `ins` are the types, the names without directory and the contents.
* `makeDir`: `make_sim_data_dir`, `sim_archive.py:107-200`: then the hashes (137-143) and the metadata (198-200).
* `cliFiles`: The files of the command line, `prototype.py:388-396`: the type is the name of the file.
* `copyLoop`: The loop of `transfer_archive_dir`, `prototype.py:117-126`: what is written and the exception.
* `transfer`: `transfer_archive_dir`, `prototype.py:107-128`; `files` are those of the metadata.
* `check`: `check_opsim_archive_resource`, `prototype.py:156-169`.
* `exportFiles`: The files in the metadata of a simulation that was exported, `prototype.py:1073-1096` and `vseqmetadata.py:1723-1729`: names and no hashes.
* `maxDate`: `prototype.py:244-254`: the last day of the compilation, at least 1900-01-01.
* `days`: `prototype.py:236-237`, 261.
* `readDay`: One day, `prototype.py:262-297`: from the archive, with what is in the compilation from there, or from the compilation.
* `readStep`: One day with the messages on simulations that are not in the archive, `prototype.py:299-305`.
* `readAll`: `read_archived_sim_metadata`, `prototype.py:236-316`: metadata and messages. No compilation is an empty one; the labels are part of the metadata.
* `St`: The archive, the compilation, and the day that it is.
* `nextId`: The number of the next simulation of a day, `prototype.py:73`.
* `St.step`: What is done with an archive: days go by, simulations are added, and `compile_sim_metadata` is run (`prototype.py:446-451`); the file is not changed if that is an exception.
* `Meta`: The metadata of a simulation: the keys with a meaning of their own, and all others.
* `MetaN`: What is read: none is NaN.
* `simRow`: A row of `simulations`, `prototype.py:458-476`.
* `simRows`: All rows.
* `compileTables`: `compile_sim_metadata`, `prototype.py:453-488`: a table without rows has no column `sim_uri` for the index.
* `columns`: The columns of a table; their order is left out.
* `fullRow`: A row of a table has all columns.
* `dropNan`: The values that are not NaN, `prototype.py:547-556` and 577-586.
* `readSim`: The metadata of one simulation, `prototype.py:535-586`.
* `readTables`: `read_sim_metadata_from_hdf`, `prototype.py:530-588`; without a column for the dates there is an exception (568).
* `Diff`: A difference, `prototype.py:642-658` and 664-679: the simulation and the key, if there is one.
* `differences`: `verify_compiled_sim_metadata`, `prototype.py:635-681`, for the metadata of both; `eq` is the comparison of values.
* `Sim`: What is used of the metadata of a simulation; none are keys that are not there.
* `consider`: One simulation, `prototype.py:796-809`.
* `findLatest`: `find_latest_prenight_sim_for_nights`, `prototype.py:790-822`: the simulation and its file.
* `latestOf`: The simulations as `read` gives them, `prototype.py:785-787`; `meta` is how the metadata are used.
* `fetch`: `fetch_sim_for_nights` without a file given, `prototype.py:873-878`: `None` has no items. `visits` are those in the file.
* `nominalVisits`: `fetch_sim_stats_for_night`, `prototype.py:1027-1032`.
* `tapAge`: The age of `fetch_obsloctap_visits`, `prototype.py:969`, for now and the beginning of the day asked for.
* `statsAge`: The age of `fetch_sim_stats_for_night`, `prototype.py:1025`.

### `Verif/Model/RealMetrics.lean`

Real-valued metrics of `rubin_sim/maf/metrics/simple_metrics.py`

Coadded depth and directional statistics over the real numbers. Unit vectors
(cos, sin) are complex numbers of modulus one; `np.hypot` is the modulus and
`np.arctan2(y, x)` the argument of `x + iy`.

* `coadd`: `Coaddm5Metric.coadd`, `simple_metrics.py:99-101`, on a non-empty list (for the empty list numpy gives minus infinity, see `coaddRun`).
* `Depth`: Results of `Coaddm5Metric.run`.
* `coaddRun`: `Coaddm5Metric.run`, `simple_metrics.py:103-111`; visits are (filter, m5) pairs.
* `meanVec`: Mean unit vector of angles given in radians.
* `angularSpread`: `AngularSpreadMetric.run`, `simple_metrics.py:534-542`.
* `rmod`: `x % y`
* `meanAngle`: `MeanAngleMetric.run`, `simple_metrics.py:464-479`, with angles in radians.

### `Verif/Model/ReqCols.lean`

Model of `MetricBundle._find_req_cols`
(`rubin_sim/maf/metric_bundles/metric_bundle.py:280-330`) and of
`ColInfo.get_data_source` (`rubin_sim/maf/stackers/get_col_info.py:82-104`)

Python sets of stacker classes are iterated in an unspecified order: `enum` is an
arbitrary enumeration of a finite set.

* `Registry`: `get_col_info.py:52-57,82-104` and the default instances `s()` of the stacker classes: `source col` is `get_data_source(col)` (`none` = database), `colsReq c` is `c().cols_req`.
* `Inst`: A stacker instance: its class and its `cols_req`.
* `St`: Local state of the method: `self.db_cols`, `self.stacker_list`, `new_stackers`.
* `classify`: `metric_bundle.py:296-302` and `317-321`: the loop over a set of columns.
* `dropKnown`: `metric_bundle.py:303-306` and `322-324`: drop classes already in the list.
* `initSt`: `metric_bundle.py:287-306`: before the `while`.
* `body`: `metric_bundle.py:308-324`: one pass of the `while` body.
* `loop`: `metric_bundle.py:308-324`: the `while` loop, `none` when not finished within `fuel` passes.
* `findReqCols`: `metric_bundle.py:280-330`: the whole method, returning the database columns and the stacker list.

### `Verif/Model/ResultsDb.lean`

Model of the MAF SQLite databases

* `rubin_sim/maf/db/results_db.py` (`update_metric` 397-470, `update_display`
  472-522, `update_plot` 524-549, `update_summary_stat` 551-620,
  `build_summary_name` 722-738);
* `rubin_sim/maf/db/tracking_db.py` (`add_run` 96-231, `delRun` 233-245).

Tables are lists of rows in insertion order. A primary key left out on insertion
gets SQLite's rowid rule without AUTOINCREMENT: one more than the largest id.
SQLite does not enforce the foreign keys. Each public call of ResultsDb is one
transaction (commit at its end). Not modelled: schema upgrades, read-only
queries, version table.

* `nextId`: SQLite rowid assignment.
* `MetricKey`: The five columns that identify a metric.
* `MetricRow`: `results_db.py:30-59`: a row of `metrics`.
* `MetricArgs`: Arguments of `update_metric`: `None` is allowed for the last four.
* `MetricArgs.key`: `results_db.py:435-442`: `None` becomes "NULL".
* `DisplayDict`: A display dictionary: entries may be missing or `None` (same treatment).
* `DisplayVals`: Content of a display row.
* `removeFirst`: Python `s.replace("(auto)", "", 1)` on characters.
* `cleanCaption`: `results_db.py:511-513`.
* `DisplayDict.vals`: `results_db.py:498-513`.
* `DB`: The four data tables.
* `updateMetric`: `results_db.py:397-470`.
* `updateDisplay`: `results_db.py:472-522`.
* `updatePlot`: `results_db.py:524-549`.
* `addStat`: One `session.add` + `commit` of a summary row.
* `tryStat`: `results_db.py:598-606`: the retry loop for one value. `sched` tells for each attempt whether the database is locked (`true`); an exhausted schedule means not locked. Returns the database, the shared counter, the remaining schedule.
* `storeStats`: `results_db.py:583-607`: the loop over a table of `(name, value)` rows; `tries` is initialised once, before the loop.
* `SummaryVal`: A summary value: a plain number or a table of named values.
* `updateSummaryStat`: `results_db.py:551-620`.
* `Op`: The public updating calls (retries as by default: no lock for `stat`).
* `stripSpaces`: Python `str.strip(" ")` on both ends, as in `.rstrip(" ").lstrip(" ")`.
* `buildSummaryName`: `results_db.py:722-738` (the result of `name.replace` is discarded there).
* `RunRow`: A row of `runs`: the id, the (relative) directory, and the other columns.
* `addRun`: `tracking_db.py:96-231`. `dir` is the directory after `relpath` (with "NULL" for `None`).
* `addRunCrash`: `tracking_db.py:172-186`: the table after the first commit of an update, i.e. what a crash between the two commits leaves behind.
* `delRun`: `tracking_db.py:233-245`.
* `TOp.apply`: A failing call leaves the table as it is.

### `Verif/Model/Satellites.lean`

Satellite constellations

Models of `rubin_sim/satellite_constellations/sat_utils.py`, `model_observatory.py` and
`basis_function.py`. Parameters of the model: positions and illumination of satellites (skyfield),
streaks (shapely), smoothing of maps (healpy), the almanac and random numbers. Numbers are formatted
after rounding to the digits that are printed. Not modelled: loading of ephemeris files.

* `zfill`: `{:0wd}`
* `fixed`: `{:w.df}` of `n` units of the last digit.
* `checksum`: `checksum`, `sat_utils.py:93-100`.
* `line1`: `tle1`, `sat_utils.py:103-105`.
* `line2`: `tle2`, `sat_utils.py:106-115`.
* `Shell`: A group of orbits.
* `turn`: `np.linspace(0, 360, n, endpoint=False)`
* `places`: Mean anomalies and nodes, `sat_utils.py:159-168`; random numbers are `a`, `b` and `off`.
* `meanMotion`: `satellite_mean_motion`, `sat_utils.py:39-55`, per unit of time.
* `Satellite`: A satellite.
* `create`: `create_constellation`, `sat_utils.py:154-177`; the shells come with their random numbers.
* `starlinkV1`: `nplanes` and `sats_per_plane`, `sat_utils.py:190-191`, 208-209 and 226-227.
* `Pos`: A satellite at a time.
* `visible`: `visible` of `update_mjd`, `sat_utils.py:283-301`: the altitude is NaN in the dark.
* `spot`: `_update_satellite_maps`, `model_observatory.py:137-155`, at one time and pixel.
* `Obsy`: The time, the night and the maps.
* `Obsy.start`: The state before the first time, `model_observatory.py:73-76`.
* `Obsy.set`: The setter of `mjd`, `model_observatory.py:113-121`, with the index and the night of the almanac and the maps for an index.
* `parentNside`: What the parent class gets as `nside`, `model_observatory.py:79-80`.
* `avoid`: `_calc_value`, `basis_function.py:25-40`; none is the number 0.
* `Track`: A satellite near a pointing: altitude and illumination at both ends, distance to the track.
* `close`: `sat_utils.py:410-413` and 427.
* `samples`: `np.round(vt / dt)`; halves go to the even number.
* `streak`: `_streak_length`, `sat_utils.py:461-488`, of a path of `n` points: a line of one point is an exception, one of no points has no length.
* `tally`: The loop, `sat_utils.py:438-458`, for pairs of pointings and lengths.
* `checkPointings`: `check_pointings`, `sat_utils.py:343-458`, for pointings and the tracks of the satellites, with paths of two points or more; lengths in radians.

### `Verif/Model/Seasons.lean`

Model of `rubin_sim/maf/metrics/season_metrics.py`

`calc_season` belongs to another package: a visit carries the whole number of its
season. `reduce_func` arguments are left out: the functions give the array that is
reduced.

* `Obs`: The columns used.
* `uniqueInt`: `np.unique` of whole numbers
* `findSeasonEdges`: `find_season_edges`, `season_metrics.py:22-42`, of the whole numbers of the seasons.
* `long`: `data_slice[long]`, lines 86, 116, 150.
* `seasonLengths`: `SeasonLengthMetric.run`, lines 92-94, after sorting by time.
* `campaignLength`: `CampaignLengthMetric.run`, lines 120-123.
* `mean`: `np.mean`
* `seasonMean`: One entry of `season_means`, lines 160-164.
* `meanFrequency`: `MeanCampaignFrequencyMetric.run`, lines 156-165, after sorting by time.

### `Verif/Model/Sed.lean`

Fluxes through bandpasses, `rubin_sim/phot_utils/sed.py` and `bandpass.py`

Numbers are elements of an ordered field. `none` stands for NaN and for the exceptions
raised on arrays that are too short; where an exception matters it is modelled separately.

* `lightspeed`: `PhysicalParameters`, `physical_parameters.py:4-15`
* `Params`: The values held by `PhotometricParameters`, `photometric_parameters.py:141-449`.
* `Band`: The arrays of `Bandpass`, `bandpass.py:71-80`.
* `Spec`: A spectrum given by wavelengths and one flux per wavelength.
* `trapz`: `trapezoid(y, x=x)`
* `allSome`: All entries, if none is NaN.
* `needResample`: `Sed._need_resample` for a given grid, `sed.py:719-724`.
* `resample`: `Sed.resample_sed` of a pair of arrays onto a given grid, `sed.py:769-818`.
* `calcAdu`: `Sed.calc_adu` of a spectrum in `fnu`, `sed.py:1219-1232`.
* `sbToPhi`: `Bandpass.sb_tophi`, `bandpass.py:327-331`; `none` if the norm is zero.
* `usedPhi`: The `phi` used by `calc_flux`, `sed.py:1323-1324`.
* `calcFlux`: `Sed.calc_flux` of a spectrum in `fnu`, `sed.py:1321-1327`.
* `calcErgs`: `Sed.calc_ergs` of a spectrum in `flambda`, `sed.py:1276-1284`.
* `manyFlux`: `Sed.many_flux_calc` for one row of `phiarray`, `sed.py:1656`.
* `toFnu`: `Sed.flambda_tofnu` of a pair of arrays, `sed.py:840-841`.
* `toFlambda`: `Sed.fnu_toflambda` of a pair of arrays, `sed.py:869-870`.
* `grid`: `arange(lo, hi + step, step)` as in `set_flat_sed`
* `flat`: The flat spectrum of `Sed.set_flat_sed` with the default grid, `sed.py:488-498`. The last wavelength is 1150 in exact arithmetic.
* `Spec.scale`: `Sed.multiply_flux_norm`, `sed.py:1393`.

### `Verif/Model/SedCache.lean`

The cache of spectra of `rubin_sim/phot_utils/sed.py`, comparisons of spectra, and stellar templates

A path is a list of characters. A spectrum is a list of pairs of wavelength and flux. The library of spectra is given by
the directories below each of its sub directories and by what `numpy.genfromtxt` gives for a path (`none` raises).
Dictionaries are lists of pairs. What is printed is left out.

* `join`: `os.path.join(a, b)` on POSIX.
* `isGz`: `name.endswith(".gz")`
* `Lib`: `sims_sed_library`: for each sub directory the directories below it (with the part of their path that follows the sub directory, empty for the sub directory itself) and their files; the contents of files; the entries of `starSED/kurucz`, `none` when there is no such directory.
* `walk`: `os.walk(os.path.join(root, sub))`: the path of each directory and its files.
* `allDirs`: `sed.py:224`
* `genFiles`: The files that are read, in order, `sed.py:239-248`.
* `totalFiles`: `total_files`, `sed.py:228-232`
* `loadOne`: The body of the `try`, `sed.py:247-258`: the cache when it is left, and the exception that leaves it.
* `generate`: The dictionary of `_generate_sed_cache`, `sed.py:226-260`; exceptions are passed over.
* `allowedObj`: `sed.py:102-106`
* `findClass`: `SedUnpickler.find_class`, `sed.py:108-132`; the value is the object that is named.
* `Global`: What `_global_lsst_sed_cache` can be.
* `Pickle`: A pickle: the objects it names and the value it gives when all of them are found.
* `found`: Whether a named object is found.
* `load`: `SedUnpickler(input_file).load()`, `sed.py:347`
* `checkedDirs`: `sed.py:155`
* `checkedFiles`: The names that are looked up, `sed.py:157-164`.
* `validate`: `_validate_sed_cache`, `sed.py:150-169`
* `readSed`: `Sed.read_sed_flambda` with the cache, `sed.py:513-554`; the cache of other spectra is left out.
* `compareOne`: One of the spectra compared, `sed.py:193-200`.
* `compareLoop`: The loop over numbers, `sed.py:192-200`.
* `compare`: `_compare_cached_versus_uncached`, `sed.py:179-200`. Before it is called the cache has been accepted.
* `checks`: The checks, `sed.py:353-355`.
* `cacheName`: `lsst_sed_cache_3.p`, `sed.py:310`
* `isWs`: Characters that `str.split()` splits at.
* `words`: `x.split()`
* `nLines`: The number of lines of a file, `input_file.readlines()`.
* `Disk`: What is in the directory of the cache: whether it and its parent exist, the pickle, and the text of `cache_version_3.txt`.
* `mustGenerate`: `must_generate`, `sed.py:318-338`
* `npClasses`: The objects named in a pickle of the cache; `multi` is the module of `_reconstruct`: `numpy.core.multiarray`, or `numpy._core.multiarray` since numpy 2.
* `written`: What `_generate_sed_cache` leaves on disk, `sed.py:264-273`.
* `obtain'`: `sed.py:340-347`
* `below'`: `wav <= wavelen_max`, `sed.py:365-372`; `none` is `numpy.inf`.
* `cut`: One spectrum, `sed.py:371-373`.
* `truncate`: `sed.py:362-375`
* `cacheSeds`: `cache_lsst_seds`, `sed.py:308-377`: what is on disk and in `_global_lsst_sed_cache` afterwards, and the exception. Exceptions have no attribute `message`, `sed.py:357`.
* `SedObj`: A `Sed`; numbers that are not a number are `none`.
* `arrEq`: Whether `numpy.testing.assert_array_equal` passes for an array and an array or `None`; values that are not a number are equal to each other, and no element is equal to `None`.
* `sameArr`: Both are `None`, or both are not and are equal, `sed.py:417-425` and `sed.py:437-445`.
* `sameFlambda`: `flambda`, `sed.py:427-435`: the first two conditions are the same.
* `badDiffers`: Whether the bad values differ, `sed.py:411-416`.
* `sedEq`: `Sed.__eq__`, `sed.py:407-447`
* `fresh`: `Sed()`, `sed.py:389-395`; `zp0` is `-2.5 * numpy.log10(3631)`.
* `clear`: `Sed.clear_sed`, `sed.py:652-656`; `zp1` is `-8.9`.
* `setRead`: What `Sed.read_sed_flambda` sets, `sed.py:567-573`.
* `parseName`: The parts of a base name that are read, `sed.py:1738-1747`: whether the metallicity is negative, its digits (in tenths), the digits of the surface gravity and of the temperature; `none` is an exception.
* `Combo`: A row of `param_combos`.
* `stored`: The column of names has 200 characters, `sed.py:1730` and `sed.py:1737`.
* `nearest`: Rows whose difference is the least, `sed.py:1754-1755`; `none`: the minimum of an empty array raises.
* `matches'`: The rows that match, `sed.py:1754-1760`.
* `readClose`: `read_close__kurucz`, `sed.py:1753-1773`: an array of strings cannot be compared with a number, `sed.py:1761`.
* `ends`: The first and the last wavelength of a curve.
* `range`: `wavelen_min` and `wavelen_max`, `sed.py:1591-1592`.
* `stepOf`: `wavelen_step`, `sed.py:1590`
* `phiWidth`: The width of `phiarray`, `sed.py:1594-1600`.
* `phiRow`: One row, `sed.py:1605-1611`: the curve on the new grid; an array of another length cannot be stored. An array of length one is stored in every element, which is left out.
* `setupPhi`: `Sed.setup_phi_array`, `sed.py:1590-1613`: the curves after it, which are normalized row by row by `sb_tophi`, and the step.
* `segments`: The segments that are drawn, `hourglass_plotters.py:47-52`: rows `0, 2, …` with the rows that follow; `none` is an `IndexError`.

### `Verif/Model/SedFiles.lean`

Reading, writing and normalising spectra, `rubin_sim/phot_utils/sed.py`, and
`PhotometricParameters`

Contents of files are values of any type. Names end in `.gz` or not, and do not end in `.gz.gz`.

* `Name`: A file name without suffix, and whether it has the suffix `.gz`.
* `State`: Files, and the two caches `_global_lsst_sed_cache` and `_global_misc_sed_cache`; a cache that is `None` is an empty one.
* `disk`: Reading from disk, `sed.py:541-554`.
* `cached`: `cached_source`, `sed.py:519-531`.
* `readSed`: `Sed.read_sed_flambda`, `sed.py:513-569`; `none` is an exception.
* `Op`: Calls of `read_sed_flambda`, and changes of files by others.
* `Out`: What a call gives.
* `gapval`: `gapval`, `sed.py:1460-1468`.
* `renormFlambda`: `Sed.renormalize_sed` with `normflux="flambda"`, `sed.py:1432-1477`; the points are wavelengths and `flambda`. `PhysicalParameters` has no attribute `wavelenstep`.
* `renormFnu`: `Sed.renormalize_sed` with `normflux="fnu"`, `sed.py:1432-1433` and `sed.py:1479-1519`; `flambdaGiven` says if `flambda` was passed as well. Without it, `np.interp` of `None` raises `TypeError`. `Sed` has no method `fnutoflambda`.
* `multiplySame`: `Sed.multiply_sed` of spectra on the same grid, `sed.py:1148-1155`.
* `written`: A wavelength written by `%.2f`, `sed.py:1571`, up to ties.
* `writeSed`: Wavelengths in the file, `sed.py:1566-1571`, without `print_fnu`.
* `writeLoop`: `Sed.write_sed` with `print_fnu`, `sed.py:1566-1569`: the number of lines written, and whether the loop ends. `fnu` is a pair of arrays, and `fnu[i]` raises for `i` from 2 on.
* `Field_`: The nine parameters in the order of the constructor, `photometric_parameters.py:142-154`.
* `BandName`: Names of bandpasses, `photometric_parameters.py:93`.
* `known`: Keys of the tables of defaults, `photometric_parameters.py:93-138`.
* `default`: Default values, `photometric_parameters.py:95-138`; `pi` stands for `np.pi`.
* `allFields`: Order in which parameters are checked, `photometric_parameters.py:268-308`.
* `construct`: The constructor, `photometric_parameters.py:209-308`; `none` if it raises.

### `Verif/Model/SedObj.lean`

The state of a `Sed` object, `rubin_sim/phot_utils/sed.py`

A `Sed` keeps wavelengths, fluxes per wavelength (`flambda`) and fluxes per frequency
(`fnu`). Methods called without arrays update the object. Operations that raise are kept,
with the state they leave behind. Numbers are elements of an ordered field; the filler of
`resample_sed` is a number.

* `Obj`: The arrays of a `Sed`, `sed.py:389-391`.
* `Obj.new`: A new object, `sed.py:383-404`.
* `Obj.tofnu`: `Sed.flambda_tofnu()`, `sed.py:833-849`. Without fluxes it raises after `fnu` is unset.
* `Obj.toflambda`: `Sed.fnu_toflambda()`, `sed.py:863-877`. Without `fnu` it raises and changes nothing.
* `Obj.ensureFnu`: `fnu` is calculated if it is not present, e.g. `sed.py:1214-1216`.
* `Obj.resample`: `Sed.resample_sed` of the object onto a given grid, `sed.py:770-818`.
* `Op`: Methods that change a `Sed`.
* `Op.run`: Effect of a method, `sed.py:454-498`, `648-676`, `883-918`, `1077-1136`, `1371-1402`, `1435-1524`.
* `runOps`: A sequence of method calls on a new object.

### `Verif/Model/SedT.lean`

Model of the metric for transients with a table of spectra

`rubin_sim/maf/maf_contrib/transient_ascii_sed_metric.py`. The magnitudes (`sncosmo`) and
their signal to noise are one function of the phase, the band and the depth; the duration of
the transient is a parameter. Numbers are those of an ordered field.

* `State`: What the metric keeps from one point to the next, lines 136-137.
* `ends`: The first and last time of a list of times, `none` if it is empty.
* `setup`: `setup_run_metric_variables`, lines 501-514, on the times of the visits: the state after it.
* `setupAll`: The state after several points.
* `shifts`: `time_phase_shifts`, lines 547-549.
* `Row`: A visit with its phase, the number of its transient and whether it is a detection.
* `fmod`: `x % y` for numbers.
* `idStart`: `transient_id_start`, lines 557-559.
* `ident`: The number of the transient of a visit, lines 465-468.
* `epoch`: The phase of a visit, lines 461-463.
* `mkRows`: `evaluate_snr_thresholds`, lines 580-593, and the rows of one phase shift, lines 461-476; `snr` is the signal to noise for phase, band and depth.
* `inTime`: `evaluate_filter_in_time_detection_criteria`, lines 405-422, on the detections of one transient; `searchsorted` counts the phases that are not later, as for sorted phases.
* `detected`: The criteria of one transient in turn, lines 282-324; `g` are its visits, which are next to each other as the visits are sorted by time.
* `numDetected`: The number of transients detected for one phase shift, lines 260-328.
* `phases`: The loop over the phase shifts, lines 625-636: the transients of the next shift are numbered from the last one (470).
* `run`: `run` without the light curves, lines 617-652.

### `Verif/Model/Selfcal.lean`

Self calibration

Models of `rubin_sim/selfcal/solver.py`, `star_tools.py`, `offsets.py` and `generate_catalog.py`.
Parameters of the model: the order of rows with equal keys after a sort, the least squares solver of
scipy, random numbers, and the tree of stars. The gnomonic projection is in rubin_scheduler. Not
modelled: messages of progress, and the sort of the caller's array in place (`solver.py:58`).

* `Obs`: An observation of a star on a patch.
* `Sorter`: A possible `sort(order=...)` for each key.
* `neighbours`: `solver.py:60-64` and `70-74`: rows with the key of a neighbour; `np.roll` is cyclic.
* `pass`: The body of the loop, `solver.py:58-75`.
* `core`: The loop, `solver.py:54-76`; the size never grows (`pass_le`).
* `setRange`: `a[lo:hi] = v`
* `renumber`: `solver.py:84-88` and `97-101`, for the sorted column `c` and its values.
* `Clean`: The state after `clean_data`.
* `cleanData`: `clean_data`, `solver.py:49-101`.
* `Row`: A row of the matrix with its two columns and their value, and the right side.
* `solveMatrix`: `solve_matrix`, `solver.py:103-126`; `np.max` of nothing is an exception.
* `returnSolution`: `return_solution`, `solver.py:128-143`.
* `solve`: `run` and `return_solution`.
* `gnomonic`: `gnomonic_project_toxy` of rubin_scheduler.
* `rotate`: `stars_project`, `star_tools.py:17-22`, after the projection.
* `maxy`: `maxy`, `star_tools.py:33`, for a radius in radians.
* `cell`: `star_tools.py:37-38`.
* `patchId`: `assign_patches`, `star_tools.py:28-42`, for `nsides` squared patches.
* `defaultRadius`: The default of `radius_fov` in radians, `star_tools.py:28`.
* `catalogPatch`: The patch in `generate_catalog`, `generate_catalog.py:154`: the radius is not given.
* `Res`: Values or an exception.
* `Out`: What an offset gives: an array of numbers, or something that can not be added to one: a structured array or None.
* `Offset`: An offset class.
* `noOffset`: `NoOffset`, `offsets.py:21-28`: a structured array.
* `put`: `d[k] = v`
* `dmags`: `generate_catalog.py:145` and 157-158.
* `obsMag`: `generate_catalog.py:161-164`.
* `magErr`: `calc_mag_errors` with `err_only`, `offsets.py:98-107`.
* `uncert`: `generate_catalog.py:167-170`.
* `catalog`: `generate_catalog`, `generate_catalog.py:95-98`, 144 and 187-188; the rows of a visit are a parameter.

### `Verif/Model/SharedSlice.lean`

Model of the visits that the bundles of a group share

`metric_bundle_group.py:477-522` (`MetricBundleGroup._run_compatible`), the part of `SNNSNMetric.run` before the light
curves (`sn_n_sn_metric.py:235-258`), `StringCountMetric.run` (`string_count_metric.py:55-69`) and metrics that begin
with `data_slice.sort(order=...)` (such as `cumulative_metric.py:34`, `cadence_metrics.py:55`).

`self.sim_data[slice_i["idxs"]]` (479) is indexed by a list, an array of numbers or of truth values, so it is a copy of
the rows. This copy is made once for a slice and is given to `metric.run` of all bundles, so what a metric writes into
it is there for the metrics after it. A metric is a function to its value and to the rows as it leaves them.

Simplified: no cache (C11 has it, for metrics that do not write), no exceptions in metrics, and masks of bad values
(C12) are left out. The extinction per band is a total function (a band without one would be a `KeyError`).

* `Metric`: `b.metric.run(slicedata, slice_point)`: the value and the rows of `slicedata` afterwards.
* `runBundles`: `metric_bundle_group.py:513-522`: the bundles one after the other on the same array.
* `takeRows`: `metric_bundle_group.py:479`: a copy of the rows.
* `sliceStep`: One round of `metric_bundle_group.py:477-522`: `none` for a slice without visits, which is masked (480-483).
* `runSlices`: `metric_bundle_group.py:477-522`: the values of all bundles for each slice.
* `Visit`: The columns of a visit that are used here.
* `dimBand`: One round of `sn_n_sn_metric.py:250-253`: the new depths of the visits in a band.
* `addDust`: `sn_n_sn_metric.py:248-254`: the depths of the visits are replaced in the array that was given.
* `snn`: `SNNSNMetric.run`, `sn_n_sn_metric.py:235-258`; `rest` is what follows, which works on copies (the selection of bands, 257-258, is one). The slice point is given by its `ebv`.
* `strCount`: `StringCountMetric.run`, `string_count_metric.py:55-71`; `rest` is what is made of the strings.
* `sorting`: A metric that begins with `data_slice.sort(order=self.mjd_col)`, such as `cumulative_metric.py:33-46`.
* `reading`: A metric that only reads the visits, such as `Coaddm5Metric`.

### `Verif/Model/SimpleMetrics.lean`

Model of `rubin_sim/maf/metrics/simple_metrics.py`

Values are elements of an ordered field with a floor; a data slice is the list of
values of the column. The trigonometric metrics and the coadded depth are in
`Model/RealMetrics.lean`; one-line calls of numpy functions (maximum, mean, median,
percentile) are not modelled.

* `fmod`: `x % t`
* `diffs`: `np.diff`
* `rotateAngles`: `_rotate_angles`, `simple_metrics.py:433-455`; `t` is the full turn.
* `fullRangeAngle`: `FullRangeAngleMetric.run`, `simple_metrics.py:500-502`.
* `mean`: `np.mean`
* `variance`: `np.std` squared.
* `rmsAngleSq`: `RmsAngleMetric.run`, `simple_metrics.py:488-490`, squared.
* `roundHE`: `np.round`: to nearest, ties to even.
* `countExplim`: `CountExplimMetric.run`, `simple_metrics.py:251-255`.
* `fracAbove`: `FracAboveMetric.run`, `simple_metrics.py:369-373`; `none` is `ZeroDivisionError`.
* `fracBelow`: `FracBelowMetric.run`, `simple_metrics.py:386-390`.
* `truth`: Truth value of a boolean array: itself for one element, an error for more; for none it is false or an error depending on the numpy version (`emptyOk`).
* `countBeyond`: `CountBeyondThreshold.run`, `simple_metrics.py:294-309`; `none` is `ValueError`.
* `maxPercent`: `MaxPercentMetric.run`, `simple_metrics.py:328-331`.
* `noutliers`: `NoutliersNsigmaMetric.run`, `simple_metrics.py:420-430`, with mean `mu` and standard deviation `sd`.

### `Verif/Model/SkyInterp.lean`

Interpolation of the components of the sky

Models of `rubin_sim/skybrightness/interp_components.py` and `twilight_func.py`. Arrays of points are treated point by
point (the `argsort` of `_indx_and_weights` is undone in the next line), spectra wavelength by wavelength: `values` is
the column of one wavelength or filter. A grid (`dim_dict`, from `np.unique`) is a strictly increasing list.

* `setRange`: `a[lo:hi] = v`
* `fill`: The loops of lines 49-50 and 64-65: the range of each key in the sorted column `c` is given its value.
* `scatter`: `result[order] = vals`
* `gather`: `ids[order]`
* `id2intid`: `id2intid`, `interp_components.py:38-53`, with the result of `argsort` and the contents of `np.empty`. The three results.
* `intid2id`: `intid2id`, `interp_components.py:56-69`, with the result of `argsort`.
* `get`: `a[i]`, where a negative index counts from the end.
* `IW`: The two indices and weights.
* `indxWeights`: `_indx_and_weights`, `interp_components.py:200-238`, of one point.
* `lin`: Lines 262-264: the weighted sum.
* `inRange`: `in_range`, `interp_components.py:250-253` (the extremes of a grid are its ends).
* `single`: `BaseSingleInterp._weighting`, `interp_components.py:240-266`.
* `airglow`: `Airglow._weighting`, `interp_components.py:321-344`: `values` is in the order of airmass and solar flux.
* `pixWeights`: The weights of neighbouring pixels, `interp_components.py:715-720` and 780-785: those not in the map are left out.
* `zodiacal`: `ZodiacalInterp._weighting`, `interp_components.py:761-798`; `nb` are the neighbouring pixels of the point.
* `logSpec`: `log_spec`, `interp_components.py:173-176`.
* `interpSpec`: `interp_spec`, `interp_components.py:268-273`, of a column of spectra.
* `interpMag`: `interp_mag`, `interp_components.py:275-281`, of a column of magnitudes.
* `Fit`: The five parameters of the fit.
* `twelve`: Twelve degrees in radians.
* `towards`: `towards`, `twilight_func.py:53`.
* `away`: `away`, `twilight_func.py:52`.
* `twilight`: `twilight_func`, `twilight_func.py:26-65`, of one point. `hp` is the parameter of its pixel if there are more than five.
* `zenith`: `zenith_twilight`, `twilight_func.py:68-83`.
* `twilightMag`: `TwilightInterp.interp_mag`, `interp_components.py:569-619`, of one point and filter: `none` is not a number. `high` says whether some point of the call has the sun above the limits.

### `Verif/Model/SkyModel.lean`

The model of the sky

Models of `rubin_sim/skybrightness/sky_model.py`, `utils.py` and the selection of times in `generate_hdf5.py`. Positions
of sun and moon (astropy) are parameters. Components are functions of a point, and a row is the spectrum or the fluxes
at a point. `none` in the place of a row is a row of not-a-number.

* `wrap`: `wrap_ra`, `utils.py:12-17`.
* `relMoon`: `calc_az_rel_moon`, `sky_model.py:54-62`.
* `airmassOf`: Airmass of an altitude, `sky_model.py:507` and 607.
* `altOf`: Altitude of an airmass, line 611.
* `Params`: The arguments of `set_params`, `sky_model.py:563-585`.
* `Point`: A point of the interpolation.
* `haversine`: `haversine` of rubin_scheduler.
* `conv`: `convert_func`, `sky_model.py:592-595`.
* `altRad`: Altitude in radians, lines 606-611.
* `setParams`: `set_params`, `sky_model.py:592-637`: the point of the interpolation.
* `targSep`: `moon_targ_sep` of `set_params`, line 612.
* `Loop`: The state of the loop of `_interp_sky`: which points have all components, and the sums.
* `inRange`: Whether a point is in the range of airmass.
* `goodPix`: `good_pix`, `sky_model.py:642`: indices of the points in the range of airmass.
* `goodPts`: `points[good_pix]`
* `addComp`: One component, `sky_model.py:680-689`: the indices of the empty rows are those among the good points, and are used for all points.
* `loop`: The loop over the components that are switched on: a component that was not loaded is an exception.
* `interpSky`: `_interp_sky`, `sky_model.py:649-697`, after the first check; an empty result of a component is not modelled. `flags` are the attributes for the components in their order, `objs` the components loaded by the constructor.
* `loaded`: The objects loaded by the constructor, `sky_model.py:176-180`: those of the components switched on.
* `State`: What is remembered between calls: whether coordinates are set, the number of entries of `ra`, the number of points and those out of range, and the spectra.
* `fresh`: After the constructor.
* `setRaDec`: `set_ra_dec_mjd`, `sky_model.py:304-324`: `spec` are the spectra of the `n` points, `bad` those out of range.
* `setPar`: `set_params`, `sky_model.py:597-647`: only a warning if all points are out of range, and no `ra`.
* `returnSpec`: `return_wave_spec`, `sky_model.py:699-714`, for `mags=False`.
* `returnMags`: `return_mags`, `sky_model.py:737-769`, for `mags=False` and one bandpass: `mag` is the magnitude of a spectrum, `none` for points out of range; the values of points without flux are not distinguished.
* `flux`: The flux of a component of magnitude `m`, with the constant `c`: `interp_components.py:279`.
* `toMag`: `return_mags` with `mags=True`, `sky_model.py:746`.
* `canInterp`: `generate_hdf5.py:164-176`: whether the map at `t` is that interpolated between `a` and `b`, within `dm` where all three have a number.
* `Thin`: The lists of the loop: the times kept, newest first, and the last five.
* `thinStep`: One step of the loop, `generate_hdf5.py:143-181`.
* `everyThird`: `mjds[::3]`, line 113.
* `thin`: The times of the file, oldest first; all of `mjds` have the sun low enough.

### `Verif/Model/SkyPlot.lean`

Maps with skyproj, radar plots, old files, and the archive of runs

`rubin_sim/maf/plots/skyproj_plotters.py`, `oned_plotters.py`, `neo_distance_plotter.py`, `rubin_sim/maf/run_comparison/radar_plot.py` and `archive.py`,
and the reading of files from before version 1.0 in `rubin_sim/maf/slicers/base_slicer.py`.

Drawing itself (matplotlib, skyproj), spherical trigonometry (astropy) and the network are left out; the model gives what is passed on to them.  Numbers
are those of an ordered field.

* `bearings`: The bearings of the points, `skyproj_plotters.py:55`, for whole numbers of degrees and a step that is positive.
* `unwrapOne`: One turn of the loop over the right ascensions, `skyproj_plotters.py:67-70`.
* `unwrapFrom`: The loop, `skyproj_plotters.py:66-71`.
* `unwrap`: `skyproj_plotters.py:65-71`
* `Subplot`: `plot_dict["subplot"]`: an integer, or a sequence.
* `normSubplot`: `skyproj_plotters.py:150-152`: `tuple` of an integer is a `TypeError`.
* `Inst`: An instance of a class of skyproj, made with the arguments `skyproj_kwargs`; `id` tells instances apart.
* `Call`: A call: the figure, and the entries `subplot`, `skyproj` and `skyproj_kwargs` of the dictionary.
* `Reg`: The instances that exist, by figure and part; figures that are still in use, so that none is taken away.
* `prepare`: `_prepare_skyproj`, `skyproj_plotters.py:150-171`; `isInst c d` says that `c` is `d` or a class derived from it.
* `calls`: Calls one after the other, with those that raise an exception left aside.
* `healbin`: `_healbin` of rubin_scheduler: the reduced values of the points of each pixel, `fill` where there are none.
* `toHealpix`: `_transform_to_healpix`, `skyproj_plotters.py:422-434` (the same in `spatial_plotters.py:176-187`); values that are masked are `none`.
* `compatible`: `_compatible_color_limits`, `skyproj_plotters.py:438`.
* `Scale`: What is passed to `draw_hpxmap`: the norm, the limits.
* `scale`: `skyproj_plotters.py:471-484`: `norm` and `given` are the norm and the limits in `draw_hpxmap_kwargs`, `clims` those of `set_color_lims`.
* `drawn`: The values that are drawn, `skyproj_plotters.py:492-497`.
* `colorbar`: Where the colour bar goes: `location`, `orientation`, `shrink` in hundredths, `skyproj_plotters.py:377-396`, for an orientation in small letters.
* `rename`: `slicer_init[n] = slicer_init[o]; del slicer_init[o]` if `o` is there, `base_slicer.py:472-474`.
* `renames`: The old names and the new ones, in the order of `base_slicer.py:469-491`.
* `convertInit`: The arguments of the slicer, `base_slicer.py:463-491`.
* `oldSlicer`: The slicer that is made, `base_slicer.py:492-499`: an argument that the class does not have is a `TypeError`, and the class is then called without.
* `copyKey`: A copy of an entry under another name, `base_slicer.py:455-462`.
* `oldHeader`: The header, `base_slicer.py:452-462`.
* `fmod`: `x % tau`
* `radarTheta`: The angles of the axes, `radar_plot.py:84-88`; `tau` is a full turn.
* `closeLine`: `_close_line`, `radar_plot.py:121-126`, on the points of a line; `x[0]` of an empty array is an `IndexError`.
* `polyVert`: `_unit_poly_verts`, `radar_plot.py:160-162`.
* `lineColours`: The colours of the lines, `radar_plot.py:181-188`; no list is `None` for every line.
* `onedPoints`: The points of the line, `oned_plotters.py:54-62`; values that are masked are `none`, `fill` is the fill value.
* `onedYMin`: The lower limit of the y axis, `oned_plotters.py:89-106`; `clip` is the lower limit of `percentile_clipping`, if it is used.
* `onedColour`: The colour of the line, `oned_plotters.py:68` and 78: the defaults (18-36) have no entry `color`.
* `neoThetas`: Directions of the cells in units of half a degree, `neo_distance_plotter.py:99-100`: from -180 degrees in steps of 3.5, up to 360 + 3.5 degrees later.
* `nearest`: Positions of the nearest values, `neo_distance_plotter.py:116-117`.
* `Neo`: One object: its ecliptic latitude, direction from the Earth, and the largest distance at which it is seen.
* `neoCell`: One cell of the histogram, `neo_distance_plotter.py:73-75` and 110-122: direction number `j`, radius `r`. An object with two nearest directions is an exception, which the model leaves out: it counts in both.
* `Run`: A row of the table of runs: name, path in the archive, address; `other` is the rest of the metadata.
* `dlStep`: One turn of the loop, `archive.py:443-452`: `join` is `os.path.join` with the directory, `web` what is at an address.
* `download`: `download_runs`, `archive.py:435-454`, from the table of runs on: the files afterwards, and what is returned, the names of the files by run.
* `tableCols`: The columns of the table of a family, `archive.py:542-556`: `summary` are the columns of the summary, `subset` the metrics of `table_metric_subset`, with their short names.
* `plotRuns`: The runs of the plot, `archive.py:569-571`: the run to compare with comes first, if it is not there.
* `plotted`: The runs and the metrics of the plot, `archive.py:568-574`: `runs` are those of the families, `summary` the runs and the metrics of the summary; no summary is an `AttributeError`, a run that it does not have a `KeyError`.

### `Verif/Model/SkyState.lean`

What the sky model remembers, its tables of magnitudes, and small programs around them

Models of parts of `rubin_sim/skybrightness/sky_model.py` and `utils.py`, of
`maf/maf_contrib/presto_color_kne_pop_metric.py`, `maf/stackers/n_follow_stacker.py` and `date_stackers.py`,
`maf/run_comparison/archive.py` and `gather_summaries.py`, `maf/plots/night_pointing_plotter.py`, `xyplotter.py` and
`spatial_plotters.py`, of the summary metrics of stripes and of the static probes, of the paths of satellites and of the
map of dust in three dimensions.  Floats are the elements of an ordered field or reals.  Positions from astropy, spectra,
light curves, the emulator and the plots themselves are inputs.

* `Attr`: The names that `get_computed_vals` reports, `sky_model.py:458-480`.
* `attributes`: The list of `get_computed_vals`, `sky_model.py:458-480`.
* `Ends`: How a call of `set_ra_dec_mjd` or `set_ra_dec_alt_az_mjd` ends: an array of dates, exact coordinates asked for, or not.
* `Kind`: The calls that set conditions. `set_ra_dec_mjd`, with `az_alt`; `set_ra_dec_alt_az_mjd`; `set_params`.
* `Call`: A call, with the components that are switched on at the time, and the values it computes.
* `gridSets`: What `_setup_point_grid` sets, `sky_model.py:495-561`.
* `setsOf`: What a call sets: `sky_model.py:251-313` for `set_ra_dec_mjd`, 344-381 for `set_ra_dec_alt_az_mjd`, which does not ask for exact coordinates, and 589-637 for `set_params`.
* `sets`: What a call sets.
* `step`: The attributes after a call.
* `after`: The attributes after some calls on a new model, which has none of them but `azs` (line 138, None).
* `computedVals`: `get_computed_vals`, `sky_model.py:482-488`.
* `bands`: The bands of `spec2mags`, `utils.py:37`.
* `skyDirs`: The directories of `recalc_mags`, `utils.py:72`.
* `magsOf`: The magnitudes of a spectrum, `utils.py:57-61`: a band for which `calc_mag` raises a ValueError stays at the zero of the new array.
* `Npz`: A file of templates: `spec` is a table of the spectra with their magnitudes and other columns, `extra` the names of other arrays in the file.
* `recalcFile`: `recalc_mags` on one file, `utils.py:81-89`.
* `recalc`: `recalc_mags`, `utils.py:77-89`: a file is a directory with a name; those that end in .npz in the directories of the list are rewritten.
* `Info`: The information that comes with the table.
* `nearestIn`: `abs(x - grid).argmin()`, `presto_color_kne_pop_metric.py:268-269`: the first of the nearest.
* `lastBin`: `np.where(x >= bins)[0][-1]`, `presto_color_kne_pop_metric.py:273-274`.
* `inBins`: The test of the ranges, `presto_color_kne_pop_metric.py:259-262`, for bins that are there.
* `Ans`: What `_enquiry` gives.
* `enquiry`: `_enquiry`, `presto_color_kne_pop_metric.py:259-276`, for grids of times and bins that are not empty.
* `aroundPeak`: The detections of `run`, `presto_color_kne_pop_metric.py:401`; the time is from the peak.
* `curve`: The light curve of `run`, lines 409-415.
* `prestoRun`: `run`, `presto_color_kne_pop_metric.py:400-432`: `score` is `_get_score` of the light curve. The parts are the detection and the two scores.
* `dms`: Degrees and minutes to degrees, `n_follow_stacker.py:94-97`.
* `telescopes`: `find_telescopes`, `n_follow_stacker.py:91-105`: `none` is a KeyError for a place that is not in the table.
* `places`: The places, `n_follow_stacker.py:67-89`.
* `scopes`: The telescopes, `n_follow_stacker.py:21-59`: aperture, name and place.
* `Arg`: An argument of `create_metric_subset`: a value for all metrics or a list.
* `Arg.column`: The column for `n` rows; lists of another length are a ValueError of pandas.
* `SubRow`: A row of a table of metrics; the index is the name of the subset and of the metric.
* `createSubset`: `create_metric_subset`, `archive.py:130-148`: `none` is the ValueError of pandas.
* `byRun`: `BY_RUN_COLS`, `archive.py:50`.
* `familyCols`: The columns of `get_family_descriptions` from a file, `archive.py:481-482`: `none` is the KeyError of pandas.
* `Gather`: The arguments of `gather_summaries`.
* `gatherOut`: The kind of file and its name, `gather_summaries.py:113-125`.
* `NVis`: A visit of a night: its band, time, altitude and azimuth.
* `bandColor`: The colors of the bands, `night_pointing_plotter.py:25-32`.
* `pointingPoints`: The points of the visits in the upper plot, `night_pointing_plotter.py:41-51`: `us` are the bands in the order of `np.unique`; each point has its color. `none` is a KeyError.
* `track`: The track of the moon or the sun, lines 61-68 and 80-81: `deg` is `np.degrees`.
* `upd`: `dict.update` for the value of one key.
* `xyDict`: The value of a key in `XyPlotter`, `xyplotter.py:23-26`.
* `powerSpectrum`: What `HealpixPowerSpectrum` draws, `spatial_plotters.py:337-360`: `cl` is the spectrum; `some none` is no figure, and `none` the ValueError of the maximum of nothing.
* `eclipticDec`: The declination of the line of the ecliptic, `spatial_plotters.py:609-611`; `inc` is the inclination.
* `zone`: The latitude of the zone of the galaxy, `spatial_plotters.py:630-632`: `sign` is 1 or -1.
* `Form`: The kinds of visits.
* `Cols`: A table of visits: names of columns with their values.
* `setCol`: Set a column of a table, as in pandas: in its place, or at the end.
* `Vals`: The values in a result: as they are, or as dictionaries from the number of the row.
* `stampRun`: The result of `run`, `date_stackers.py:62-84`: the kind of the result, its columns, and the columns of the argument afterwards. `stamp` converts a time. `none` is a KeyError for the column of the times.
* `PixVal`: A value of a map: masked, not finite, or a number.
* `unseen`: `hp.UNSEEN`.
* `recast`: The values given to the test of stripes, `cosmology_summary_metrics.py:737-745`.
* `stripRun`: `StripinessMetric.run`, `cosmology_summary_metrics.py:736-752`: `nside` is the resolution for a number of pixels (`none` is the ValueError of healpy), the outer `none` stands for the exceptions.
* `probesRun`: The summary of the static probes, `static_probes_fom_summary_metric.py:333-386`: the emulator gets the area and the median of the depths that are positive; `none` is not a number.
* `pathsArray`: `paths_array`, `sat_utils.py:324-341`, for one of the four arrays: `at` is the value for a satellite at a time; `none` is the ValueError of `np.vstack` of nothing.
* `dustKeys`: What `DustMap3D.run` sets, `dust_map_3d.py:134-137`; `fmt` is the format with one decimal.
* `dustKeynames`: The names of the map, `dust_map_3d.py:95-100`.
* `dustLook`: Where the map looks, `dust_map_3d.py:105-125`: the resolution and, if the slicer has none, whether it interpolates.

### `Verif/Model/SlicerFiles.lean`

Files of metric values, `rubin_sim/maf/slicers/base_slicer.py`

`write_data`, `read_data` and `output_json`, with the parameters of the classes of slicers.
Left out: files from before version 1.0, the contents of the header, `HealpixSDSSSlicer` and
`HourglassSlicer`.

* `PyVal`: Values of parameters.
* `Kw`: Keyword arguments.
* `lookup`: Value of a key.
* `Cls`: Classes of slicers.
* `spatial`: Parameters that all spatial slicers share, except for `badval`.
* `params`: Parameters of the constructors with their defaults; those without default are required. `uni_slicer.py:15`, `one_d_slicer.py:42-52`, `nd_slicer.py:31`, `movie_slicer.py:19-31`, `healpix_slicer.py:90-105`, `healpix_subset_slicer.py:152-168`, `user_points_slicer.py:60-75`, `time_interval_slicers.py:51-57, 146-153, 240-247`, `mo_slicer.py:27`.
* `initKeys`: The parameters in `slicer_init`. `base_slicer.py:85`, `one_d_slicer.py:84-92`, `nd_slicer.py:45`, `movie_slicer.py:84-88`, `healpix_slicer.py:136-141`, `healpix_subset_slicer.py:187`, `user_points_slicer.py:111-117`, `mo_slicer.py:30`.
* `Res`: Outcomes of a constructor.
* `bind`: All parameters with their values, or `none` if a required one is missing.
* `construct`: Call of a constructor: a TypeError for unknown or missing parameters; `MovieSlicer` looks for `ffmpeg` unless `force_no_ffmpeg` (`movie_slicer.py:63-72`).
* `radVal`: `np.radians` of a value; `rad` for numbers.
* `slicerInit`: `slicer_init` of a slicer with the given parameters. Those of `UserPointsSlicer` are in radians (`user_points_slicer.py:97-98, 111-117`), `MoObjSlicer` adds the files when it is set up (`mo_slicer.py:63-64`).
* `Slicer`: A slicer: its class, its parameters and what belongs to the metric values.
* `Values`: Metric values: data, with mask and fill value if they are a masked array.
* `File`: A file of metric values, `base_slicer.py:223-241`.
* `write`: `write_data`, `base_slicer.py:213-241`.
* `read`: `read_data`, `base_slicer.py:414-440`: the parameters are those of `slicer_init`, or the defaults after a TypeError; `none` is any other error.
* `badval`: `badval` of a slicer: the parameter; that of `NDSlicer` is always -666 (`nd_slicer.py:32`).
* `readBundle`: `MetricBundle.read`, `metric_bundle.py:574-577`: the fill value becomes that of the slicer.
* `DType`: Types of values.
* `refused`: The test at the start of `output_json`, `base_slicer.py:285`.
* `Points`: Slice points as far as `output_json` looks at them.
* `jsonData`: The data of the JSON output, `base_slicer.py:330-374`. `deg` changes radians to degrees, `mask` is `none` for plain arrays. The result `none` is an exception: one more edge than values is needed, and with a plain array the last edge is indexed (`[i + 1][0]`, line 372), which numbers do not allow; a masked value cannot be written either.
* `outputJson`: `output_json` of a slicer, `base_slicer.py:243-378`: outer `none` is an exception, inner `none` the result None.
* `jsonKeywords`: Keywords of `BaseSlicer.output_json`, `base_slicer.py:243-250`.
* `bundleKeywords`: Keywords in the call of `MetricBundle.output_json`, `metric_bundle.py:549-555`.
* `bundleJson`: `MetricBundle.output_json`, `metric_bundle.py:540-556`: `none` is an exception.

### `Verif/Model/Small.lean`

Smaller metrics and tools

`rubin_sim/maf/maf_contrib/example_new_metrics.py`, `selfcal_uniformity_metric.py`, `depth_limited_num_gal_metric.py`,
`lss_obs_strategy/galaxy_counts_with_pixel_calibration.py`, `star_count_metric.py` and `star_count_mass_metric.py`;
`rubin_sim/phot_utils/sed_utils.py`; `rubin_sim/maf/batches/col_map_dict.py`; `rubin_sim/moving_objects/utils.py`.

The solution of the self calibration, the pixel of a star, the integral over magnitudes and the error function are arbitrary functions.

* `nightsWithN`: `NightsWithNFiltersMetric.run` (`example_new_metrics.py:32-40`); a visit is its night and its filter.
* `matchArr`: `_match` (`selfcal_uniformity_metric.py:19-29`): the first array has `n` values `f 0, …`; `st` is what `np.argsort` gives for it.
* `Star`: A star with a solution: its pixel, its magnitude and the one that was fitted.
* `resid`: The residuals without the zero point (`selfcal_uniformity_metric.py:116-117`).
* `residMap`: The pixels of the map that have a value (`selfcal_uniformity_metric.py:119-127`), with the median of their stars.
* `mad`: `median_abs_deviation(xs, scale="normal")`, where `g` is the factor for a normal distribution.
* `uniformityOf`: `selfcal_uniformity_metric.py:127-157`: the results from the pixels with a value; `high` says which are at a high latitude. `none` is where something is not a number.
* `uniformity`: `PhotometricSelfCalUniformityMetric.run` (`selfcal_uniformity_metric.py:110-159`) after the fit.
* `uniformityCols`: The columns that the metric asks for (`selfcal_uniformity_metric.py:41-48`).
* `uniformityReads`: The columns that `run` reads (`selfcal_uniformity_metric.py:80-84`).
* `readAll`: Reading columns of a table that has only some.
* `pixBand`: The correction for the band (`galaxy_counts_with_pixel_calibration.py:79-100`).
* `pixCounts`: `galaxy_counts_with_pixel_calibration` (`galaxy_counts_with_pixel_calibration.py:74-171`); `complete` is `0.5 * erfc(mag - depth)`, `quad` the integral up to the limit.
* `extCounts`: `GalaxyCountsMetricExtended.run` for a place with visits in the band, `galaxy_counts_metric_extended.py:189-205`.
* `depthLimited`: `DepthLimitedNumGalMetric.run` (`depth_limited_num_gal_metric.py:101-110`), where `bad` is the bad value of the metric and `count` the number of galaxies from visits in the band; the two metrics inside have the default bad value.
* `imsimMag`: `-2.5 * np.log10(np.interp(wavelen, sed.wavelen, sed.fnu)) - sed.zp` (`sed_utils.py:50`).
* `fluxNorm`: `get_imsim_flux_norm` (`sed_utils.py:36-52`) at the wavelength `w` of the bandpass.
* `tableOf`: The entries of `col_map_dict` that are names of columns, for the lower case name of the dictionary (`col_map_dict.py:9-274`).
* `colMapDict`: `col_map_dict` (`col_map_dict.py:4-274`).
* `getAll`: Looking up keys one after the other.
* `readObs`: `read_observations` (`utils.py:30-59`): the dictionary of the caller afterwards, and the columns that are asked for, in some order.
* `Obj`: What a name in the package of star counts stands for.
* `starCounts`: The package has its files as members, none of which is replaced by a function (`star_counts/__init__.py:1-8`, `starcount.py:24`, `starcount_bymass.py:85`).
* `callName`: `name(...)` after `from .star_counts import name`.
* `callMember`: `name.attr(...)` after `from .star_counts import name`.
* `starCount`: `StarCountMetric.run` (`star_count_metric.py:53-56`): the columns of the first visit are taken by their number; `count` is the function of the position in degrees.
* `starCountMass`: `StarCountMassMetric.run` (`star_count_mass_metric.py:61-64`).

### `Verif/Model/SnN.lean`

Model of the supernova metrics: `rubin_sim/maf/metrics/sn_n_sn_metric.py`,
`rubin_sim/maf/utils/sn_n_sn_utils.py` (`SnRate`, `CovColor`, `load_sne_cached`, the points
of a light curve) and `rubin_sim/maf/metrics/sn_sl_metric.py`

Numbers are reals. The reference light curves (fluxes and their derivatives) and the
comoving volume of the cosmology are arguments. The tables of pandas are lists of rows;
`groupby` gives the rows of each key, in an order that is not part of the model. The
rounding to six decimals of `sn_n_sn_metric.py:1252` is left out.

* `coaddM5`: The depth of several exposures of the depths `ms` together. The reference against which `coadd` is measured; `coadd_m5` of `maf_utils.py:42-44`.
* `gapsAt`: `np.where(diff > season_gap)[0]`, `sn_n_sn_metric.py:1135-1136`.
* `setFrom`: `seasoncalc[indx + 1 :] = v`
* `assign`: `for i, indx in enumerate(flag): seasoncalc[indx + 1 :] = i + 2`, lines 1139-1140; `n` is the number of the first entry.
* `getseason`: `getseason`, lines 1132-1140, on the times in order (line 1130).
* `Visit`: A visit: the columns of lines 1084-1090.
* `keys`: `groupby([filter_col, night_col])`: the keys.
* `ofKey`: The visits of one key.
* `mean`: `mean` of a column.
* `coaddRow`: One row of `coadd_df`, lines 1084-1106; `single` is `exptime_single`.
* `coadd`: `coadd`, lines 1074-1108, but for the order of the rows.
* `t0min`: Lines 400-402: `T0_min`, `T0_max` for a season from `a` to `b` and the redshift `z`.
* `t0max`: Line 401.
* `keptZ`: Lines 402-406, with lines 534-536: the redshifts of a season that are kept.
* `linspace`: `np.linspace(a, b, n)`
* `calcDaymax`: `calc_daymax`, lines 601-608.
* `epochs`: `get_epochs`, lines 767-772, for one row of the array: the nights of the entries that are not masked. `np.diff` of masked entries is masked; the sum of a row that is all masked is masked, and line 715 makes it zero.
* `Point`: A point of a light curve.
* `Cuts`: The selection parameters.
* `t0s`: `np.unique(lcarr["daymax"])`, lines 677-681; two values of `daymax` are further apart than the tolerance of line 686, so that the flag of that line is equality.
* `pointsOf`: The points of the supernova `t`.
* `sampled`: `n_phmin` and `n_phmax` are those of `sn_n_sn_utils.py:284-285`; the cuts are `sn_n_sn_metric.py:705-713`, 840-843.
* `efficiencies`: `efficiencies`, lines 840-865: `ntot` and `nsel`; `cov` is `Cov_colorcolor` of the supernova.
* `effi`: Lines 456-462.
* `interp0`: `interp1d(..., bounds_error=False, fill_value=0)`
* `cum`: `np.cumsum`
* `zlim`: `zlim_or_nsn` with `zlim < 0`, `sn_n_sn_metric.py:1216-1233`; the rows are the redshift and the number of supernovae, in the order of the redshift. The quotient by a total of zero is not a number and never below one.
* `arange`: `np.arange(a, b, d)`
* `mids`: The middle of neighbouring values, `sn_n_sn_utils.py:699`.
* `diffs`: `dvol[1:] - dvol[:-1]`
* `snRate`: `SnRate.__call__`, `sn_n_sn_utils.py:697-724`, for `bins=None` and `account_for_edges=False`: redshifts and numbers of supernovae. `vol` is the comoving volume, `omega` the product `norm / steradian2_sqdeg`, `rate` and `dur` functions of the redshift.
* `edgeDuration`: Lines 713-716: `account_for_edges`.
* `broadcasts`: The arrays of `SnRate.__call__` have lengths; the product of lines 724 broadcasts arrays of the same length, or of length one.
* `shapesOk`: Line 724 is possible: `nb` bins are given (`bins`, lines 701-702) or made (698-699).
* `getNsn`: `get_nsn`, `sn_n_sn_metric.py:1320-1333`.
* `nsnOf`: `nsn`, lines 1290-1295.
* `finalRow`: The end of `run`, lines 311-319: the rows are `zcomp` and `nsn` of the seasons.
* `ripoche`: `ripoche_rate`, `sn_n_sn_utils.py:743-748`.
* `perrett`: `perrett_rate`, lines 763-772.
* `dilday`: `dilday_rate`, lines 788-796.
* `snRateOf`: `sn_rate`, lines 811-816: `none` for the `None` of a name that is not known.
* `det3`: `CovColor.det`, lines 891-894.
* `Fisher`: The entries of the Fisher matrix: `F_x0x0`, `F_x0x1`, ...
* `detM`: `var_color`, lines 847-870: `det_m`.
* `varColor`: `var_color`, lines 872-874.
* `fisherMat`: `sn_n_sn_metric.py:789-809`: the upper triangle of line 805 and the symmetric matrix of line 809, for one supernova.
* `sigmas`: `sigma_s_nparams`, lines 795-817: `fisher__big` has the matrices of the supernovae along its diagonal, entry `ia + 4 * iv` of the code being `(ia, iv)`. `none` is the `LinAlgError` of a matrix without inverse; the value is `Cov_colorcolor`.
* `Cache`: The attributes of `load_sne_cached`: `gammaName` and `data`.
* `loadCached`: `load_sne_cached`, `sn_n_sn_utils.py:373-382`; the second entry tells whether the file was read.
* `loadAll`: Several calls one after another.
* `flagged`: `get_flag`, lines 313-329, for one visit and one supernova: the phase `p`, the mean wavelength of the band `wl`, redshift `z` and flux.
* `phase`: Line 189: the phase of a visit.
* `flat`: `val[~mask]` of a masked two-dimensional array, in the order of numpy (by rows): the rows are supernovae, the columns visits.
* `tile`: `np.tile(arr, (nvals, 1))`
* `byRow`: `gen_par["z"][flag_idx[:, 0]]`, lines 214, 219: the value of the row, for each flag that is set, in the order of `np.argwhere`.
* `nLensed`: `n_lensed`, line 135.
* `NightRow`: A row of `night_slice`: filter, time, depth without dust, and the season of line 192.
* `seasonLensed`: One season, lines 202-214; `none` is a value that is not a number, the median of no gaps.
* `SlOut`: The value of `run`.
* `addOpt`: `a + b`, where a value that is not a number gives none.
* `sumOpt`: The sum of lines 200-214, where a summand that is not a number spoils the sum.
* `lensedRun`: `run`, lines 153-216, after `collapse_night`: the rows are in the order of time, `ax` is the extinction per unit of `ebv`, `m5min` the least depth; `wanted` is `[-1]` or the seasons asked for. `badval` is the attribute of `BaseMetric`.

### `Verif/Model/SnPoints.lean`

Points of simulated light curves of supernovae

Model of `LcfastNew.process_band` and `get_flag`, `rubin_sim/maf/utils/sn_n_sn_utils.py:174-329`, for one band, and of the
cut of `sn_effi` (`sn_n_sn_metric.py:677-679`). Arrays with a row for each simulated supernova are lists in the order of
their entries (masks of arrays select the same entries in the same order for each column). The interpolated fluxes and the rounding
of redshifts are parameters; components of the Fisher matrix are left out.

* `Gen`: A simulated supernova, a row of `gen_par`.
* `Obs`: A visit in the band.
* `Ref`: The reference of the band and the cuts.
* `Pt`: A row of the light curve.
* `phase`: `p`, `sn_n_sn_utils.py:181-189`.
* `fluxOf`: `fluxes_obs`, `sn_n_sn_utils.py:190-194`.
* `flag`: `get_flag`, `sn_n_sn_utils.py:313-329`.
* `point`: A row, `sn_n_sn_utils.py:255-285`.
* `processBand`: `process_band`, `sn_n_sn_utils.py:213-294`: the points with the flag (217-228, 255), without those that are too faint (291-292).
* `snrCut`: The cut of `sn_effi`, `sn_n_sn_metric.py:677-679`.

### `Verif/Model/SnResult.lean`

The value of the metric of numbers of supernovae at a point

Model of the end of `SNNSNMetric.run`, `rubin_sim/maf/metrics/sn_n_sn_metric.py:276-324`, of `zlim` and `nsn`
(1254-1295), `check_dur_z` (1335-1358) and of the reductions (1146-1157). Tables of pandas are lists of rows; the
redshift limit and the number of supernovae of a season, from its efficiencies, are parameters (`zlim_or_nsn`, which is in
`Verif.Model.SnN`). Numbers are idealised; a median is that of sorted values.

* `seasonZ`: `zlim` (1268-1273) and `nsn` (1290-1295): the value of a season, or the sentinel.
* `checkDur`: `check_dur_z`, `sn_n_sn_metric.py:1354-1358`: rows (season, z) of seasons with at least two redshifts.
* `merge`: `metric_values.merge(nsn_zcomp)` on the season, `sn_n_sn_metric.py:306`: pairs of zcomp and nsn.
* `median`: `Series.median`.
* `final`: `sn_n_sn_metric.py:311-319`: number and redshift limit, `none` is the bad value.
* `runSn`: From the estimate of redshifts, `sn_n_sn_metric.py:276-324`; the tables are `none` if `metric` gives None. The table of redshifts is not empty.
* `reduceN`: `reducen_sn` and `reducezlim`, `sn_n_sn_metric.py:1146-1157`, of the one record of a point.

### `Verif/Model/SnSnr.lean`

Signal to noise of supernovae against fake observations

`rubin_sim/maf/metrics/sn_snr_metric.py` and `rubin_sim/maf/utils/sn_utils.py`.

Floats are elements of an ordered field, or real numbers where there are roots.  The arrays of the reference files and their interpolation are
parameters.  Rows with the same time are sorted in some order.  Exceptions are values.  Contours, plots and the interpolation of `Lims` are left out.

* `columns`: `cols`, `sn_snr_metric.py:65-77`, for the default names of the columns (36-46).
* `snrFields`: The fields of what `snr_slice` gives, for one name of reference data, `sn_snr_metric.py:354-363` and 257-265.
* `Visit`: A row of the data: `filter` is the column of this name.
* `Season`: A row of `info_season`, `sn_snr_metric.py:302-313`.
* `seasonInfo`: `season_info`, `sn_snr_metric.py:288-315`.
* `moveStarts`: `sn_snr_metric.py:709-713`: each season but the first begins at least 20 days after the end of the one before; `prev` is this end.
* `checkSeasons`: `check_seasons`, `sn_snr_metric.py:705-715`, for at least one season.
* `Wanted`: Which seasons are asked for, `sn_snr_metric.py:116-122`: −1 are all.
* `wantedOf`: `sn_snr_metric.py:116-119`.
* `infos`: The seasons before the check, `sn_snr_metric.py:124-131`.
* `dates`: The dates of one season, `sn_snr_metric.py:225`.
* `daysMax`: The days of maximum of one season, `sn_snr_metric.py:235`.
* `allDays`: All of them, `sn_snr_metric.py:223-235`: `None` cannot be subtracted from.
* `getSeason`: `get_season`, `sn_snr_metric.py:393-399`: the mean of the seasons with the day in them, none if it is masked.
* `infoOf`: `infos`, `sn_snr_metric.py:254-255`: the row for a day is found by the place of its season among the seasons of all days in order.
* `Config`: A configuration: what is there for the keys.
* `m5Coadd`: `m5_coadd`, `sn_utils.py:296`; `log10` is the logarithm.
* `byBand`: `dict(zip(bands, values))[band]`: the last one of a band that is there more than once.
* `fakeTimes`: The times of one band in one season, `sn_utils.py:249-254`.
* `fakeRows`: The rows of one band and season, `sn_utils.py:252-272`.
* `fakeAll`: The loops, `sn_utils.py:247-272`, as pairs of season with its first day and band; the days are at least as many as the seasons.
* `makeFake`: `make_fake`, `sn_utils.py:236-277`; keys that are not there are exceptions, and so is an array of nothing (274).
* `fakeConfig`: The configuration of one season, `sn_snr_metric.py:469-481`: the keys are `Ra`, `Dec` and `Exposure_Time`.
* `genFakes`: `gen_fakes`, `sn_snr_metric.py:455-487`: the object has `observations` and not `Observations` (482).
* `detectionRate`: `detection_rate`, `sn_snr_metric.py:659-689`: the means of fields which have to be there, then for each season the part of the days on which the observations are not below the fakes; `days` are the days of a season and the values of both.
* `process`: `process`, `sn_snr_metric.py:168-178`: the signal to noise of the observations, of the fakes, and the rate; `days` gives the values on the days.
* `run`: `run`, `sn_snr_metric.py:110-146`; `cols` are the columns of the data. The value is none for `None`.
* `used`: The phase of a visit is used, `sn_snr_metric.py:240-245`.
* `snr`: `sn_snr_metric.py:350-352` for one day of maximum: `flux` is the light curve of the reference and `f5` the flux of a depth.
* `LiRow`: A row of a table of light curves.
* `lim`: `get_lims`, `sn_utils.py:72-82`: the limit for a redshift, none if it is not in the table.
* `contourValue`: What is drawn, `sn_utils.py:108`, for a time between visits and a flux of the depth.
* `pointsRef`: `points_ref`, `sn_utils.py:132-155`: the points of the last of the files.

### `Verif/Model/Snapshot.lean`

Snapshots of the scheduler, prenight simulations and conversions of files

`rubin_sim/sim_archive/prenight.py`, `make_snapshot.py`, `util.py` (`opsimdb_to_hdf5`, `hdf5_to_opsimdb`), `conda_packages.py`, and `drive_sim` of
`sim_archive.py`.

Floats are elements of an ordered field.  The random number generator gives numbers that are arguments here.  Schedulers, observations, tables and contents of
files are opaque.  Exceptions are values.  Left out: warnings other than the one on the minimum, logging, git, the parser of the command line, the simulator,
which is a function of the scheduler, pickle, of which only the compression of the file is kept, and the types of columns in the conversions.

* `Overhead`: The parameters of `AnomalousOverheadFunc` that are used, `prenight.py:89-144`.
* `Obs`: An observation: whether it is a `Mapping`, and what it has under three names.
* `slewTimeOf`: The time of the slew, `prenight.py:188-199`.
* `slewPart`: `prenight.py:184-207`; `draw` is what `rng.normal` gave.
* `modelOverhead`: `prenight.py:216-222`: the modelled overhead, if all is there.
* `overheadCall`: `AnomalousOverheadFunc.__call__`, `prenight.py:146-232`: the offset, and whether there is the warning that the minimum was not checked.
* `Disk`: Directories by name with the files in them, and the directories that are removed when the object that stands for them is dropped.
* `DataDir`: What `make_sim_data_dir` returns, `sim_archive.py:98-105,204-210`.
* `makeDir`: `sim_archive.py:56-210`, without the contents of the files: `fresh` is the name of a new directory.
* `Disk.drop`: The objects of temporary directories are dropped: on the return of the function that holds them, or on an exception.
* `prenightCli`: `run_prenight_sim_cli`, `prenight.py:309,350-370`: exit code and disk afterwards.
* `anomArgs`: The arguments of the overheads, `prenight.py:318-325`: slew scale and scatter.
* `Sched`: A scheduler: whether it keeps rewards, and its state.
* `Driven`: What the caller is given: the scheduler, whether there are rewards, and the directory.
* `driveSim`: `drive_sim`, `sim_archive.py:280-324`. `run` is the simulator, which gives rewards if it is asked to record them; `unknownOk` is whether `ResourcePath` takes the misspelt keyword `forceDirctory` (it does not). Results: what is returned, the scheduler that is in the archived files, and the disk.
* `Config`: A module that was imported: its `scheduler`, with or without `nside`, and its `get_scheduler`.
* `fromConfig`: `make_snapshot.py:66-74`: an attribute that is missing is an AttributeError, which is not caught by `except NameError`.
* `Example`: What `example_scheduler` gives: a scheduler, or a tuple with one, `make_snapshot.py:156-162`.
* `World`: Files with configurations: local ones by path, those of repositories by repository, reference and path.
* `load`: Import of a file; `none` is a file that is not there.
* `getScheduler`: `get_scheduler`, `make_snapshot.py:113-171`; `add` is `add_observations_array`, `visits` the observations in a database.
* `codecOf`: `make_snapshot.py:185-192`.
* `saveScheduler`: `save_scheduler`, `make_snapshot.py:174-195`: the file is a pickle in a compression.
* `readScheduler`: Reading with `open` and `pickle.load`, `make_snapshot.py:240-241` and `prenight.py:311-312`.
* `Tables`: A database or a store: tables by name. A path of which nothing is known is `none`.
* `toHdfGo`: `util.py:83-87`: the tables one after the other, the first of them on a new file.
* `toHdf`: `opsimdb_to_hdf5`, `util.py:54-92`: the file after the call.
* `stripKey`: `key.lstrip("/")`, `util.py:119`.
* `fromHdfGo`: `util.py:117-121`: a table that is there already is a ValueError; what was written before stays.
* `fromHdf`: `hdf5_to_opsimdb`, `util.py:95-126`, on a store with its keys in the order of `store`; a path without a file is an empty database.
* `MetaFile`: A file in `conda-meta`: whether its name ends in `.json`, and its contents, if they can be read, with name and version.
* `scan`: `conda_packages.py:40-52`.
* `sortItems`: `dict(sorted(packages.items()))`, `conda_packages.py:54`: the names are all different, so the versions do not matter.
* `condaPackages`: `get_conda_packages` without its cache, `conda_packages.py:27-65`: `files` is `none` without a prefix or directory, `env` the name in the path of Python.
* `cachedCalls`: The cache, `conda_packages.py:12`: calls one after the other, each with what is there at its time.

### `Verif/Model/Snr.lean`

Magnitudes, dust and signal to noise, `rubin_sim/phot_utils`

Over the real numbers: `sed.py` (magnitudes and dust), `signaltonoise.py`, `bandpass.py`
(zeropoint) and `predicted_zeropoints.py`. `none` is NaN or an exception.

* `newZp`: The zeropoint of a new `Sed`, `sed.py:393`.
* `clearedZp`: The zeropoint after `Sed.clear_sed`, `sed.py:655`.
* `fluxFromMag`: `Sed.flux_from_mag`, `sed.py:1240`.
* `magFromFlux`: `Sed.mag_from_flux`, `sed.py:1248`.
* `calcMag`: `Sed.calc_mag`, `sed.py:1339-1343`.
* `calcFluxNorm`: `Sed.calc_flux_norm`, `sed.py:1364-1369`; `badval` is NaN and equals nothing.
* `scaledTo`: A spectrum scaled to a magnitude: `calc_flux_norm` followed by `multiply_flux_norm`.
* `effToGeom`: `fwhm_eff2_fwhm_geom`, `signaltonoise.py:42-43`, and `fwhm_geom2_fwhm_eff`, `signaltonoise.py:64-65`.
* `neff`: `calc_neff`, `signaltonoise.py:96`.
* `instrNoiseSq`: `calc_instr_noise_sq`, `signaltonoise.py:115-124`.
* `nonSourceNoiseSq`: `calc_total_non_source_noise_sq`, `signaltonoise.py:154-180`.
* `calcSnrSed`: `calc_snr_sed`, `signaltonoise.py:518-545`.
* `counts5sigma`: `counts_5sigma` of `calc_m5`, `signaltonoise.py:291-296`.
* `calcM5`: `calc_m5`, `signaltonoise.py:288-305`.
* `skyCountsForM5`: `calc_sky_counts_per_pixel_for_m5`, `signaltonoise.py:215-247`.
* `scaleSkyM5`: `scale_sky_m5`, `signaltonoise.py:682-695`.
* `magErrorFromSnr`: `mag_error_from_snr`, `signaltonoise.py:323`.
* `calcGamma`: `calc_gamma`, `signaltonoise.py:352-386`.
* `noiseOverSignalSq`: The expression under the root in `calc_snr_m5`, `signaltonoise.py:427-429`, and in `calc_astrometric_error`; `x` is the flux at the limit over the flux of the source.
* `snrM5`: `calc_snr_m5` with a given `gamma`, `signaltonoise.py:423-431`; `none` is the root of a negative number.
* `calcSnrM5`: `calc_snr_m5`, `signaltonoise.py:420-431`.
* `magError`: The quadrature of `calc_mag_error_m5`, `signaltonoise.py:464-467`, and `calc_mag_error_sed`, `signaltonoise.py:603-604`.
* `calcMagErrorM5`: `calc_mag_error_m5`, `signaltonoise.py:462-470`, with `sigma_sys` set.
* `calcMagErrorSed`: `calc_mag_error_sed`, `signaltonoise.py:593-606`, with `sigma_sys` set.
* `astrometricError`: `calc_astrometric_error`, `signaltonoise.py:647-657`.
* `calcZpT`: `Bandpass.calc_zp_t`, `bandpass.py:378-387`.
* `predictedZp`: `predicted_zeropoint` and its variants for detector types, `predicted_zeropoints.py:59`, given the two coefficients of the band.
* `extinctionCoeff`: `extinction_coeff` of `predicted_zeropoint`, `predicted_zeropoints.py:39-46`.

### `Verif/Model/SpatialSlicers.lean`

Spatial slicers, `rubin_sim/maf/slicers/base_spatial_slicer.py`, `healpix_slicer.py`,
`healpix_subset_slicer.py`, `user_points_slicer.py`

The positions of the pixels (`healpy`) and the camera footprint (`rubin_scheduler`) are parameters;
the k-d tree is a list of points, its ball query gives the points of the closed ball in some order.
Coordinates are real numbers. Galactic coordinates, plots and warnings are left out.

* `xyz`: `_xyz_from_ra_dec` of `rubin_scheduler`, `base_spatial_slicer.py:149-151`.
* `dist3`: Distance of two points in space.
* `radians`: `np.radians`.
* `setRad`: `xyz_angular_radius` of `rubin_scheduler`, `base_spatial_slicer.py:200-202`.
* `Visit`: A visit: the columns `lon_col`, `lat_col` and `rot_sky_pos_col_name`.
* `dataOf`: `data_ra`, `data_dec`, `data_rot`, `base_spatial_slicer.py:128-135`.
* `ball`: The points within the distance, in order of the list (`query_ball_point`).
* `Camera`: The camera footprint: is the position in the footprint of the visit, in radians?
* `Setup`: What of a spatial slicer matters for its slices. `camera` stands for the footprint made of `camera_radius` and `camera_footprint_file`, `base_spatial_slicer.py:186-190`.
* `sliceIdxs`: Indices of one slice, `base_spatial_slicer.py:142-165`. `order` is the order of the ball query.
* `Val`: A value of `slice_points`: a scalar, or an array given by its rows.
* `keyShape`: `keyShape`, `base_spatial_slicer.py:174-178`.
* `pick`: The value of one key for one slice, `base_spatial_slicer.py:179-182`; `none` is an IndexError.
* `put`: Assignment to a key of a dictionary.
* `get`: Value of a key of a dictionary.
* `fillPoint`: The loop over the keys, `base_spatial_slicer.py:173-182`.
* `slicePoint`: `slice_point`, `base_spatial_slicer.py:147-148, 173-182`.
* `subsetPoint`: `slice_point` of a `HealpixSubsetSlicer`, `healpix_subset_slicer.py:253, 281-289`.
* `subsetIdxs`: Indices of a slice of a `HealpixSubsetSlicer`, `healpix_subset_slicer.py:254-272`. `pix` gives the positions of the pixels.
* `Iter`: State of the iteration, `healpix_subset_slicer.py:208-228`: the counter, if any.
* `iterStart`: `__iter__`, `healpix_subset_slicer.py:208-211`.
* `iterNext`: `__next__`, `healpix_subset_slicer.py:213-228`: the pixel and the new state, or the end. Without a counter there is an AttributeError, here as the end.
* `iterAll`: A `for` loop: call `__next__` until the end, at most `fuel` times.
* `subsetMask`: `self.mask`, `healpix_subset_slicer.py:190-191`.
* `initialMask`: The mask of new metric values, `metric_bundle.py:230-240`: `a.flat = mask` goes through the values of the array row by row and starts again with the mask when that is used up. Entry `(i, j)`.
* `circlePixels`: `make_circle_subset_slicer`, `healpix_subset_slicer.py:42-45`; `sep` is the angular separation.
* `wfdPixels`: `make_wfd_subset_slicer`, `healpix_subset_slicer.py:74-78`.
* `Coord`: An argument that is a number or a list of numbers, `user_points_slicer.py:91-94`.
* `Coord.list`: The list of an argument, `user_points_slicer.py:91-94`.
* `userPoints`: The points, in radians, `user_points_slicer.py:89-101`; `none` is the ValueError.
* `Cls`: Classes of spatial slicers.
* `isSub`: `issubclass`, the headers of the classes (`healpix_sdss_slicer.py:14`, `healpix_subset_slicer.py:82`).
* `Slicer`: Attributes of a spatial slicer. `points` are the values of `slice_points`, as dictionary.
* `healpixEq`: `HealpixSlicer.__eq__`, `healpix_slicer.py:164-177`.
* `subsetEq`: `HealpixSubsetSlicer.__eq__`, `healpix_subset_slicer.py:193-206`.
* `userEq`: `UserPointsSlicer.__eq__`, `user_points_slicer.py:120-141`.
* `eqMethod`: The method of the class; `HealpixSDSSSlicer` has that of `HealpixSlicer`.
* `pyEq`: `a == b` in Python: the method of the right operand first, if its class is a proper subclass.
* `Slicer.setup`: The setup of a slicer; `cam` makes the camera of its radius and file.
* `Slicer.visits`: The visits of a table, `base_spatial_slicer.py:128-135`: the three columns of each row.
* `Slicer.position`: Position of a slice, `healpix_slicer.py:152, 179-189`, `user_points_slicer.py:99-101`. `pix` gives the positions of the pixels for each `nside`.
* `Slicer.idxs`: Indices of slice `i` (`slicer[i]["idxs"]`), except for the class `HealpixSDSSSlicer`.

### `Verif/Model/Spectres.lean`

Resampling of spectra, `rubin_sim/phot_utils/spectral_resampling.py`

Numbers are elements of an ordered field; `none` in a result is NaN. One spectrum is
resampled (no leading dimensions) and no errors are propagated.

* `edge`: Edge number `i` of the bins of the wavelengths `w`, `make_bins`, `spectral_resampling.py:14-19`.
* `width`: Width of bin `i`, `make_bins`, `spectral_resampling.py:17-20`.
* `makeBins`: `make_bins`, `spectral_resampling.py:11-22`: edges and widths; `none` is the `IndexError` of fewer than two wavelengths.
* `advance`: The loops `while p(old_edges[i + 1]): i += 1`, `spectral_resampling.py:118-123`. `none` is the `IndexError` past the last edge. The fuel is the number of edges.
* `slice`: `a[start : stop + 1]`
* `State`: The pointers and the array of widths carried through the loop over new bins.
* `step`: One pass of the loop over new bins, `spectral_resampling.py:98-153`.
* `loop`: The loop over new bins `j, j + 1, ...`.
* `spectres`: `spectres`, `spectral_resampling.py:25-161`; the outer `none` is an `IndexError`.

### `Verif/Model/SsPipe.lean`

Model of the chain of tools for moving objects

`rubin_sim/maf/generate_ss.py`, `rubin_sim/moving_objects/make_lsst_obs.py`,
`rubin_sim/maf/run_moving_calc.py`, `rubin_sim/maf/run_moving_fractions.py`,
`rubin_sim/maf/run_moving_join.py` and parts of
`rubin_sim/maf/batches/moving_objects_batch.py`. Strings are lists of characters. A command is
the name of a program with options and values; what the shell does with spaces is left out.
Files are names; the metrics themselves are in other models.

* `removeGo`: `s.replace(pat, "")`; the number counts characters that are still to be skipped.
* `baseName`: `os.path.split(p)[-1]` and `os.path.basename`.
* `pathJoin`: `os.path.join`.
* `stem`: `".".join(x.split(".")[:-1])`, `make_lsst_obs.py:178`: nothing is left without a dot.
* `runName`: The name of the run, `make_lsst_obs.py:175`, `run_moving_calc.py:110`, `generate_ss.py:79`.
* `options`: The options of the programs: `make_lsst_obs.py:37-165`, `run_moving_calc.py:24-107`, `run_moving_join.py:22-34`, `run_moving_fractions.py:18-48`.
* `accepted`: `argparse`: an option may be given by its name or by a beginning of just one name.
* `obsName`: The name in the directory, `make_lsst_obs.py:182`.
* `npz`: `np.savez` adds the ending.
* `obsFile`: The file that is written, `make_lsst_obs.py:175-184` and 276-277.
* `makeObs`: A run of the program: `make_lsst_obs.py:169-173` and the file that is written.
* `runCalc`: Files of observations and directory of the results, `run_moving_calc.py:110-114`; `exit` without files is no error.
* `Defaults`: Defaults of a population, `moving_objects_batch.py:43-108`.
* `population`: The name that is looked up, `moving_objects_batch.py:110-122`.
* `popDefaults`: `ss_population_defaults`, `moving_objects_batch.py:110-124`.
* `hRange`: The values of H, `run_moving_calc.py:117-135`: what is given on the command line is used instead of the defaults.
* `charBatch`: Which batch characterises, `run_moving_calc.py:133-134` and 212-238: for other words the variable is not set.
* `orbitPops`: The names of populations with orbits, `generate_ss.py:25-34` and 37-46.
* `objtypes`: The types of objects, `generate_ss.py:48-58`.
* `orbitFile`: `generate_ss.py:24-46`: the file of orbits of a population in the directory of the data.
* `pops`: The populations, `generate_ss.py:60-77`.
* `pairs`: `generate_ss.py:79-80` and the pairs of lines 92, 103 and 124.
* `line`: One line of the script, `generate_ss.py:104-122`; `start` is the first night of a file.
* `script`: The script, `generate_ss.py:90-122`.
* `splitLine`: One part of a population that is split, `generate_ss.py:145-162`.
* `splitDir`: The directory of one part, `run_moving_join.py:58` and 66, `moving_objects_batch.py:1547`.
* `joins`: Which files are joined, `run_moving_join.py:78-90`.
* `Part`: One of the bundles to be joined: the H values, the orbits, and the values, none for masked ones.
* `sameSlicer`: The check of the slicers, `moving_objects_batch.py:1567-1570`.
* `joinValues`: The sums and the mask, `moving_objects_batch.py:1576-1580`, for each cell of the array.
* `combine`: `combine_subsets`, `moving_objects_batch.py:1553-1587`: bundles have no `plotDict` (line 1585).
* `selected`: The files that are read, `run_moving_fractions.py:66-70`, by their names; letters with a meaning for `glob` and hidden files are left out.
* `figroot`: The root of the names of figures, `run_moving_fractions.py:71-88`; `runs` are the names of the runs of the files.
* `times`: The times of the completeness, `run_moving_fractions.py:56-58`.
* `B`: What matters of a bundle: `h_mark` of its dict of plots (none if it is not there) and its H values.
* `compMark`: The mark of one bundle for the completeness, `moving_objects_batch.py:695-698`.
* `fracStep`: One round of the loop for the fractions, `moving_objects_batch.py:1337-1343`.
* `fracMarks`: The marks of all bundles, `moving_objects_batch.py:1335-1343`: the variable is kept.
* `compKind`: How many bundles of completeness there are for a metric, `moving_objects_batch.py:706-744`, with its place in the code.

### `Verif/Model/StackerEq.lean`

Equality of stackers

Model of `BaseStacker.__eq__` and of the attribute that a run leaves behind (`maf/stackers/base_stacker.py`). An object is its class,
an identity, and what `dir` lists, with the values of the attributes. Values have an equality (arrays are compared
with `array_equal`, the rest with `!=`); bound methods are equal if they belong to the same object.

* `Attr`: The value of an attribute.
* `Obj`: A stacker.
* `skipped`: `base_stacker.py:100`: the attributes that are not compared.
* `stackerEq`: `base_stacker.py:84-111`: `__eq__`.
* `stackerNe`: `base_stacker.py:113-120`: `__ne__`.
* `make`: A new stacker: no stacker calls the `__init__` of its base class, so that it has the attributes it sets itself (`base_stacker.py:63-79`), those of the class, and its public methods.
* `used`: `base_stacker.py:130-131`: a run sets the types of the columns if they are not set (`floats` is the new list; `none` is also taken for not set, as `isNone` says).

### `Verif/Model/Stackers.lean`

Model of stackers

* `rubin_sim/maf/stackers/base_stacker.py` (`_add_stacker_cols`, `run`);
* `general_stackers.py`: zenith distance, hour angle, parallactic angle,
  overhead, saturation, note root;
* `n_follow_stacker.py`.

A table is a list of named columns. Not modelled: dtypes, the `TypeError`
fallback for old-style stackers, warnings, pandas input.

* `Table`: A structured array: number of rows and named columns in order.
* `names`: `sim_data.dtype.names`
* `get?`: `sim_data[name]` (reading)
* `set`: `sim_data[name] = vals` for an existing column (no effect otherwise; numpy raises an error there).
* `Stacker`: A stacker class: `cols_added` and its `_run(sim_data, cols_present)`.
* `addStackerCols`: `base_stacker.py:122-155`. `fresh` is the content of `np.empty`, `isNone` tests `sim_data[col][0] is not None`.
* `Stacker.run`: `base_stacker.py:157-191`.
* `rowStacker`: A stacker that computes one new column row by row from other columns; used for the concrete stackers below. `_run` returns at once if the column is there.
* `zenithStacker`: `general_stackers.py:284-294` (`degrees=True`): `90 - altitude`.
* `hourAngle`: `general_stackers.py:673-699` for one visit: `lst` and `ra` in radians, result in hours.
* `radians`: `general_stackers.py:682-684`: `np.radians`.
* `haStacker`: `general_stackers.py:650-699` with `degrees=True`.
* `paStacker`: `general_stackers.py:702-769`. The nested hour angle stacker is run with its `run` method (no override) on the table. `pa ha dec` is the `arctan2` formula.
* `OverheadRow`: One visit of the overhead computation; `dayObs` is the value of the `day_obs_mjd` column.
* `overheadAux`: `general_stackers.py:813-849`. `none` is NaN; `maxGap = none` is infinity (minutes).
* `overhead`: The first element of both `np.diff(..., prepend=nan)` is NaN.
* `saturationPass`: `general_stackers.py:82-118` for the NaN bookkeeping: `mag r` is the computed magnitude of row `r` (`none` if the logarithm of a negative number), `neg r` is `remaining_counts_peak < 0` for row `r`. One pass of the loop over filters.
* `saturation`: The whole loop over `np.unique(filters)` (sorted filter names).
* `nFollow`: `n_follow_stacker.py:156-187` for one visit. `airmass lat lon step` is the airmass from a site; the third and fourth arguments of `ra_dec2_alt_az` are latitude and longitude (`coord_stackers.py:32`), the call passes them as `obs_lon, obs_lat`. Telescopes are `(lat, lon)` pairs.
* `noteRoot`: Python `note.split(",")[0]`.
* `noteRootStored`: `general_stackers.py:127-139`: stored in a `<U50` column, i.e. cut to 50 characters.

### `Verif/Model/Stars.lean`

Counts of stars along a line of sight

`rubin_sim/maf/maf_contrib/star_counts/starcount.py`, `starcount_bymass.py`, `stellardensity.py`, `coords.py`,
`spec_type.py`, `abs_mag.py`.

Floats are reals here (rationals for the interpolation tables).  `coords.eq_gal3` uses names that astropy and numpy do not have
(`u.radians`, `np.rad`), so `starcount` raises; the count is modelled for a direction already in galactic coordinates.
`scipy.optimize.fsolve` is not modelled: what `eq_gal` does with the root it finds is.

* `skyarea`: `skyarea` (`starcount.py:13`).
* `edge`: The `i`-th of the `distancebins = 51` edges (`starcount.py:14`, `:18`): equally spaced in the cube of the distance.
* `volumes`: The volumes of the shells of `star_vols` (`starcount.py:19`).
* `distances`: The distances of `star_vols` (`starcount.py:20`).
* `zsun`: `zsun`, `rsun`, `density_rsun` (`stellardensity.py:11-13`).
* `diskprofile`: `diskprofile` (`stellardensity.py:17-22`).
* `thindisk`: `thindisk` (`stellardensity.py:25-26`).
* `thickdisk`: `thickdisk` (`stellardensity.py:29-30`).
* `bulge`: `bulge` (`stellardensity.py:33-37`).
* `halo`: `halo` (`stellardensity.py:40-48`). At the centre numpy gives infinity where this gives `0`.
* `stellardensity`: `stellardensity` (`stellardensity.py:51-55`), `f = 0.1`.
* `degrees`: `np.degrees`, `np.radians`.
* `mod360`: `x % 360` of a float.
* `normalise`: What `eq_gal` does with the root `(b, ll)` of its equations (`coords.py:36-43`): the latitude and longitude in degrees.
* `equations`: The three functions whose zero `eq_gal` looks for (`coords.py:25-33`), for a direction `(a, d)` in radians.
* `clip`: The clipping of a cosine to `[-1, 1]` (`coords.py:58-61`, `:66-69`).
* `eqGal2`: `eq_gal2` (`coords.py:47-75`).
* `galCyn`: `gal_cyn` (`coords.py:89-99`): the distance from the axis of the galaxy, `rho`, and the height.
* `starcount`: `starcount` (`starcount.py:24-30`) along the direction `(b, l)` in galactic coordinates.
* `imf`: `IMF` (`starcount_bymass.py:18-27`).
* `mass`: `np.linspace(m1, m2, num=20)` (`starcount_bymass.py:86`).
* `fractions`: `massfractions` (`starcount_bymass.py:86-90`).
* `getDistance`: `get_distance` (`starcount_bymass.py:30-33`).
* `Band`: The bands of the survey.
* `gamma`: `gamma` and `m5` (`starcount_bymass.py:45-46`, `:57-58`).
* `magError`: `mag_error` (`starcount_bymass.py:44-53`): `calcm5 = 0` stands for the depth of the table.
* `noiseFun`: The values Python can hold in `newton(fun, 25)` (`starcount_bymass.py:62-68`): `fun` has no `return`.
* `massTable`: The table of `spec_type` (`spec_type.py:33-76`): masses and spectral types.
* `specRange`: `spec_range` (`abs_mag.py:33-70`).
* `absTable`: The absolute magnitudes of the six bands, in hundredths (`abs_mag.py:71-298`).
* `specType`: `spec_type` (`spec_type.py:32-87`): `interp1d` continued by its end values is `np.interp`.
* `bandTable`: The table of a band.
* `absMag`: One entry of the result of `abs_mag` (`abs_mag.py:299-318`).
* `absAll`: The list `abs_all` (`abs_mag.py:311-318`).
* `bands`: `bands` (`abs_mag.py:319`, `starcount_bymass.py:74`).
* `pick`: The absolute magnitude `dist_calc` picks (`starcount_bymass.py:75-77`).

### `Verif/Model/StringCount.lean`

Model of `rubin_sim/maf/metrics/string_count_metric.py` and `pair_metric.py`

Strings are lists of characters. `str.isdigit` is a parameter: a predicate on characters.

* `Str`: A string
* `splitSep`: `val.split(", ")`
* `hasSep`: `", " in val`
* `joinSep`: `", ".join(chunks)`
* `clip`: The loop body for `clip_end`, `string_count_metric.py:60-68`.
* `counter`: `Counter(xs)`: the different values in the order of first appearance with their numbers.
* `label`: Label of a value, lines 75, 78-81.
* `stringCount`: `StringCountMetric.run` without `percent`, lines 71-81: a structured array of one row. `none` is the `ValueError` of `np.zeros` for a field that occurs twice.
* `percent`: The values with `percent`, lines 82-87.
* `reduceNames`: `self.reduce_funcs` after the metric has been run on slices with these values, lines 90-93: the names, which are never removed.
* `reduceValues`: `Keylookerupper.__call__`, lines 17-18, on the value of each slice: `none` is the `ValueError` for a field that is not there.
* `occupied`: `bins_w_obs`, `pair_metric.py:50-60`.
* `pairs`: `PairMetric.run`, lines 49-69; `none` is the bad value. Times are in the units of `w`, `mMin` and `mMax` (`bin_size`, `match_min` and `match_max`, all positive).

### `Verif/Model/SumPlots.lean`

Plots of summaries of runs

`plot_run_metric_mesh`, `plot_run_metric_uncert`, the shading of `plot_run_metric` and `find_family_lines` of
`rubin_sim/maf/run_comparison/summary_plots.py`. What matplotlib draws is given by what it is called with; that it accepts the colours, lines and markers is not modelled.
Tables are given by their names and a function of the positions; normalised tables are a parameter (`Verif.Cmp`).

* `Frame`: A `DataFrame`: names of the rows and columns, names of the two axes, and values by position.
* `Frame.T`: `summary.T`.
* `runNames`: `RUN_COL_NAMES` and `METRIC_COL_NAMES`, `summary_plots.py:22-23`.
* `orient`: Lines 467-470.
* `limits`: Lines 478-480: the limits of the colours for a number.
* `metricLabel`: The first of several labels for a metric, lines 513-517, and the label, lines 530-532.
* `metricLabels`: The labels of the vertical axis, lines 509-532; `none` is a `KeyError`.
* `inverted`: The metrics with an inverse, lines 525-528.
* `runLabels'`: The labels of the horizontal axis, lines 537-541.
* `Mesh`: A plot: the labels of the columns and rows of coloured cells, in their order, and the value of the cell in column `x` and row `y`.
* `mesh`: `plot_run_metric_mesh`, `summary_plots.py:467-542`; `norm` is what the normalisation does to the values of a table with runs as rows.
* `setStyle`: The style of one metric, lines 650-661; `dflt` is `cmap_default`. Colours that were set before an error stay set, so the colours are returned with the error.
* `setStyles`: The loop of lines 648-661 from metric `i` on.
* `one`: `cycler.cycler(color=[c]) + cycler.cycler(linestyle=l) + cycler.cycler(marker=m)`, lines 671-676: the texts are taken apart into their letters, and all must be as many as the colours.
* `drawSep`: The `i`-th metric in a plot of its own, lines 667-681; the first uses the axes of lines 663-665.
* `drawAll`: The `i`-th metric in a common plot, lines 663-665 and 681: colours, lines and markers repeat.
* `draws`: All metrics.
* `uncert`: `plot_run_metric_uncert`, `summary_plots.py:630-697`, with the list of colours of `colorcet` before and after. `styles` has one entry for each metric, `none` for those that are not in the table of metrics.
* `shade`: The two shaded regions, `summary_plots.py:376-393`, of the values between `lo` and `hi`: from a lower to an upper value.
* `familyLen`: `len(families.loc[f]["run"])`, `summary_plots.py:703`: rows of the table by family. A family with one row gives the row, and then the length is that of the text of its run.
* `cumsum`: The sums so far, line 704.
* `familyLines`: `find_family_lines`, `summary_plots.py:700-705`; `none` is a `KeyError`.

### `Verif/Model/Surf.lean`

Limits of surface brightness

`rubin_sim/maf/metrics/surfb_metric.py` and `sky_sat_metric.py`.

Floats are real numbers.  Names of filters are single characters.  The warning of `surfb_metric.py:75-77` is left out.  Exceptions are values.

* `Args`: The arguments of `surface_brightness_limit_approx`, `surfb_metric.py:12-23`.
* `nPix`: `n_pix`, `surfb_metric.py:57-59`.
* `skyLim`: `surfb_metric.py:62`.
* `sourceLim`: `surfb_metric.py:66`.
* `rnLim`: `surfb_metric.py:69`.
* `limit`: `surface_brightness_limit_approx` for one visit, `surfb_metric.py:57-82`.
* `Visit`: A row of the data.
* `Table`: A dictionary by filter.
* `Metric`: The metric, `surfb_metric.py:130-147`.
* `init`: `surfb_metric.py:140-147`: the zero points and the extinctions kept, of those of the instrument and those given.
* `argsOf`: The arguments for a visit, `surfb_metric.py:156-168`.
* `run`: `SurfaceBrightLimitMetric.run`, `surfb_metric.py:149-171`: the exception for several filters is made and not raised.
* `skySat`: `SkySaturationMetric.run`, `sky_sat_metric.py:14-18`: `none` is what is not finite.

### `Verif/Model/TechMetrics.lean`

Model of `rubin_sim/maf/metrics/technical_metrics.py` and of `PairFractionMetric`
(`visit_groups_metric.py:15-68`)

A visit is a pair (time, state). The functions take the visits in the order of
`np.argsort` of the times; the theorems are about any such order. Times are in days.

* `changes`: `changes`: is the state of a visit different from that of the visit before (`technical_metrics.py:27`, 62, 117, 174).
* `nChanges`: `NChangesMetric.run`, `technical_metrics.py:25-28`.
* `changeTimes`: `changetimes = times[1:][condition]`.
* `dTimes`: `dtimes`, lines 64-71: time from the previous change, or from the first visit.
* `Val`: Results of metrics that may give the bad value; the outer `none` is an exception.
* `minTimeBetween`: `MinTimeBetweenStatesMetric.run`, lines 59-75 (minutes). The inner `none` is the bad value; no visits raise `IndexError`.
* `nFaster`: `NStateChangesFasterThanMetric.run`, lines 114-127; `cutoff` in minutes.
* `nWithinAt`: `nchanges = indx2 - indx1` at index `i`, lines 181-184.
* `maxWithin`: `MaxStateChangesWithinMetric.run`, lines 165-185; `span` in days.
* `openFraction`: `OpenShutterFractionMetric.run`, lines 216-220; rows (exposure, visit, slew time). `none` stands for a division by zero.
* `bruteOSF`: `BruteOSFMetric.run`, lines 265-271; rows (start in days, exposure in seconds), `maxgap` in days.
* `isPaired`: Lines 49-67 of `visit_groups_metric.py`: is the visit at `t` counted, among the sorted times `ts`?
* `pairFraction`: `PairFractionMetric.run`, `visit_groups_metric.py:44-68`; `none` for a division by zero.

### `Verif/Model/Template.lean`

Template and time lag metrics

Models of `rubin_sim/maf/metrics/incremental_template_metric.py` and `agn_time_lag_metric.py`, over
the real numbers. Not modelled: the season of the template (`calc_season` of the scheduler), and the
band of the visits, which only chooses constants.

* `airmass`: The best airmass, `incremental_template_metric.py:134-135`.
* `bestSeeing`: The scaled limit of seeing, `incremental_template_metric.py:136-138`; `lam` is the wavelength of the band.
* `bestM5`: The scaled limit of depth, `incremental_template_metric.py:148-152`; `k` is the extinction coefficient of the band, a negative number.
* `benchSeeing`: `incremental_template_metric.py:140-141`.
* `benchM5`: `incremental_template_metric.py:153-154`.
* `ok`: `incremental_template_metric.py:156-158`.
* `Out`: The results.
* `templateM5`: The depth of the template, `incremental_template_metric.py:184`.
* `templateSeeing`: The seeing of the template, `incremental_template_metric.py:187-196`.
* `diffM5`: The depth of a difference image, `incremental_template_metric.py:198-199`.
* `nAlerts`: The number of alerts, `incremental_template_metric.py:201`.
* `template`: `TemplateTime.run`, `incremental_template_metric.py:124-231`, for the rows after the sort by time at line 132; `none` is the bad value.
* `Agn`: A visit for `AgnTimeLagMetric`.
* `Lag`: What `AgnTimeLagMetric.run` gives.
* `Calc`: `calc_type`.
* `cutTime`: The time of a visit after the magnitude cuts, `agn_time_lag_metric.py:72-81`: zero if it is not used. The second and third branch assign to copies, but are never reached.
* `agnTimes`: The times that are used, in order, `agn_time_lag_metric.py:71-87`.
* `gcdDays`: `np.gcd.reduce(np.rint(val).astype(int))`; the rounding is a parameter, as it only matters at half days.
* `cadence`: The summary of the gaps, `agn_time_lag_metric.py:93-102`.
* `agnLag`: `AgnTimeLagMetric.run`, `agn_time_lag_metric.py:58-118`, for a positive lag, `0 ≤ z` and a positive threshold (so that the logarithms exist). The depth after dust, lines 60-69, is not used.

### `Verif/Model/TimeSlicers.lean`

Time interval slicers, `UniSlicer`, and slicer iteration

Models `rubin_sim/maf/slicers/time_interval_slicers.py`,
`rubin_sim/maf/slicers/uni_slicer.py`, and the iterator protocol of
`rubin_sim/maf/slicers/base_slicer.py` (also used by
`healpix_subset_slicer.py` and `mo_slicer.py`).

* `digitize`: `np.digitize(x, edges)` for increasing `edges`: the number of edges `≤ x`.
* `Idxs`: What `_slice_sim_data` may return as `idxs` (`time_interval_slicers.py:96-99`): a list of rows, or, when the list was empty, that empty list wrapped in another list.
* `Idxs.outerLen`: `len(sim_data[idxs])` as tested by the bundle runner: the length of the outermost dimension of the index.
* `Idxs.rows`: The rows selected, at any depth.
* `TimeState`: State of a `TimeIntervalSlicer` after `setup_slicer`: the slice point times and the groups `sid ↦ rows` (a `defaultdict(list)`).
* `timeSetup`: `time_interval_slicers.py:64-90`: `TimeIntervalSlicer.setup_slicer`, with `d = interval_seconds / 86400 > 0`. The minimum and maximum of an empty column raise (`none`).
* `TimeState.group`: `self.sim_idxs[islice]`: the rows with that group number, in row order, `[]` if there is no such group.
* `TimeState.slice`: `time_interval_slicers.py:92-107`: the indices and the slice point time of slice `islice`. The slice point duration is the interval.
* `BlockVisit`: The columns `BlockIntervalSlicer` uses. Times in days; `endMjd` is `mjd + duration/86400` (`time_interval_slicers.py:180`).
* `blockBreak`: `time_interval_slicers.py:182-184`: whether a new block starts after visit `a` when `b` follows it. `tol` is `gap_tolerance / 24`. Missing notes (`None`, which pandas never considers equal) are not modelled.
* `breaks`: The column `not (same_note and adjacent_times)`; after the last visit the shifted values are missing and the comparison is false, giving `True`.
* `cumsum`: `Series.cumsum()` of a boolean column, from a starting value.
* `blockSids`: `time_interval_slicers.py:184-186`: `cumsum().shift()` with the first entry filled by 0: the block numbers of the time-sorted visits.
* `blockRows`: The time-sorted visits paired with their block number.
* `blockNslice`: `time_interval_slicers.py:194`: `nslice = len(blocks)`, the number of distinct block numbers.
* `blockSlice`: `time_interval_slicers.py:196-214`: rows of block `islice`.
* `visitSlice`: `time_interval_slicers.py:255-280`: slice `islice` of a `VisitIntervalSlicer`: the row from the sorted index list, the slice point time and duration from the *unsorted* columns.
* `uniIndices`: `uni_slicer.py:30-53`: the boolean index of the only slice.
* `IterOp`: The two calls of the iterator protocol.
* `IterOut`: Result of `next()`.
* `iterStep`: `base_slicer.py:119-136` (and `healpix_subset_slicer.py:215-236` with `nslice = len(hpid)`, `mo_slicer.py:150-161` with `nslice = nSso`): one call. The state is the counter `self.islice`.
* `iterRun`: A history of calls, returning the outputs of the `next` calls in order.

### `Verif/Model/Tools.lean`

Model of the tools that keep track of runs

`rubin_sim/maf/db/tracking_db.py` (`add_run_to_database`), `rubin_sim/maf/show_maf.py`,
`rubin_sim/maf/web/maf_tracking.py`, `rubin_sim/maf/make_fbs_tracking_db.py`, the choice of files
in `scimaf_dir.py`, `glance_dir.py`, `ddf_dir.py` and `metadata_dir.py`, and
`rubin_sim/data/rs_download_data.py`. A directory is the list of the names from the root;
links are left out. The rows of the tracking database are in the model of the databases.

* `Rel`: A relative path: so many times up, then down.
* `common`: The number of names at the beginning that two directories share (`commonprefix`).
* `rel`: `os.path.relpath(path, start)` for the directories.
* `resolve`: The directory that a relative path means in another one.
* `TDir`: The directory of the file of the tracking database, as it is written: from the root or from here.
* `TDir.dirname`: `os.path.dirname` of it: the text without the last name.
* `looked`: The directory that is looked at, `tracking_db.py:285-286`: the path from the directory above the database is used from here.
* `addToDb`: `add_run_to_database`, `tracking_db.py:283-330` and `add_run`, 165: the path that is recorded.
* `opened`: The directory of the results of a run in the web pages, `maf_tracking.py:133-138`: the recorded path is used from here.
* `versionOf`: The version and date of the MAF run, `tracking_db.py:298-306`, for what is given and the rows of the results.
* `startRun`: The run whose page is opened, `show_maf.py:190-205` with `maf_tracking.py:46`: the first one in the order of the ids, whatever has been added.
* `trackingNames`: The names that a `MafTracking` has, `maf_tracking.py:25-106`.
* `dataPage`: The page with the data of a metric, `show_maf.py:66-90`; `npz` is what the run would give.
* `splitGo`: `x.split(pat)`; the number counts characters that are still to be skipped.
* `runVersion`: `make_fbs_tracking_db.py:47`.
* `runComment`: `make_fbs_tracking_db.py:51-52`.
* `runGroup`: The group of a run, `make_fbs_tracking_db.py:42-48`.
* `versions`: The versions that are recorded, `make_fbs_tracking_db.py:63-88`: for each directory the rows of its results, none without a file; the variable is kept between directories and runs.
* `globDb`: `glob("*.db")`: hidden files are not found.
* `dbFiles`: `scimaf_dir.py:37-41`, `glance_dir.py:26-30`, `ddf_dir.py:30-34`.
* `metaFiles`: `metadata_dir.py:50-65`: the first of each of two names is removed.
* `job`: What is done for a file: where the results go and which file is recorded, `scimaf_dir.py:42-45` and 86, `glance_dir.py:31-34` and 57, `ddf_dir.py:35-39` and 53.
* `afterAll`: The results after the batches of all files: each removes what is in its directory before (without `--no_clobber`); `res` are the results of a file.
* `dataDict`: `data_dict`, `rs_download_data.py:54-65`.
* `testing`: `rs_download_testing`, `rs_download_data.py:76-80`.
* `baseline`: `get_baseline`, `rs_download_data.py:31-34`, for the files of the directory in the order of `glob`.

### `Verif/Model/Transient.lean`

Model of `rubin_sim/maf/metrics/transient_metrics.py`

`TransientMetric`. Times, magnitudes and depths are elements of an ordered field with a
floor function. `np.argsort` puts rows with equal times in any order, so the sorting
function is a parameter of the model (see `Np.SortedBy`).

* `Visit`: The columns used by the metric, line 112.
* `Params`: Parameters, lines 82-107. `peaks` is the dictionary of lines 117-124; `years` is `survey_duration`; `partialLC` tells whether `count_method` is `"partialLC"`.
* `fmod`: `x % y` of numpy, for `y` not zero.
* `lightCurve`: `light_curve`, lines 138-162, for one visit: the slope first, then the peak of each key of the dictionary that equals the filter.
* `Row`: One row of the arrays `data_slice`, `time`, `lc_number` and `detected`.
* `mkRow`: Lines 199-211: the row of a visit.
* `ulc`: `np.unique` of the light curve numbers, lines 222 and 245.
* `bump`: `detected[le:ri] += n`
* `loop`: The loop over `zip(left, right)`, lines 223-234 and 246-257: to the rows `le` to `ri` is added the number that `score` gives for them.
* `prePeak`: Lines 231-234: one if enough is detected before the peak.
* `perFilter`: Lines 251-257: the number of filters in which all sections are sampled.
* `phase`: Lines 206-261 for one phase, given the rows: number of light curves found and the rows in their new order. `srt` is the sort of lines 217-221 and 240-244.
* `nTransMax`: Lines 184-187: transients that fit into the survey.
* `tshifts`: Line 188.
* `Res`: What `run` gives: numerator and denominator of the fraction, or the exception for an unbound variable or an empty array.
* `phases`: The loop over `tshifts`, lines 191-261; line 198 is the only place that sets `survey_start`.
* `run`: `run`, lines 164-268, up to the last division.

### `Verif/Model/TwiSpec.lean`

Spectra of twilight

Model of `TwilightInterp.interp_spec`, `rubin_sim/skybrightness/interp_components.py:621-681`. The flux of a point in a
filter (`twilight_func`, see `Verif.Model.SkyInterp`) and the flux of the sun in it (669) are parameters. Filters are in the
order of their effective wavelengths (492-495). Numbers are those of an ordered field.

* `P`: A point of the sky.
* `F`: A filter: effective wavelength, flux of points, flux of the sun.
* `line`: The line through two knots.
* `inside`: `interp1d` within the knots, linear.
* `interp1d`: `interp_f`, `interp_components.py:675`: the last value is the one outside of the knots.
* `blue`: `interp_blue`, `interp_components.py:677`: a spline of degree 1 goes on as the first line.
* `ratio`: `ratio` at a wavelength, `interp_components.py:672-678`.
* `goodP`: `good`, `interp_components.py:650-655`.
* `knots`: `yvals` of a point with the wavelengths, `interp_components.py:659-669`.
* `setRow`: `result[good[i]] = ...`, `interp_components.py:679`, for the point with a number.
* `interpSpec`: `interp_spec`, `interp_components.py:643-681`. `none` is an IndexError: with the sun too high at some point there is a single NaN for each filter (661-663), and 675 takes the last entry of a number.

### `Verif/Model/VectorMetrics.lean`

Model of `rubin_sim/maf/metrics/vector_metrics.py`

`none` is the bad value. Rows are pairs of the bin column and the accumulated column, in
the order given by the sort.

* `accumulateFrom`: The running values of a ufunc from a start value.
* `accumulate`: `function.accumulate(data)`
* `atEdges`: `AccumulateMetric.run`, `vector_metrics.py:79-87`, for rows already sorted.
* `countAtEdges`: `AccumulateCountMetric.run`, lines 91-99, with the default function `np.add`.
* `accumulateUniformity`: `AccumulateUniformityMetric.run`, lines 178-190.

### `Verif/Model/VisitGroups.lean`

Model of `VisitGroupsMetric` (`rubin_sim/maf/metrics/visit_groups_metric.py:71-341`)

Times are in days, nights are integers. The metric value is the list of nights with
their number of visits, in the order of nights.

* `Gap`: `timegood` and `timetooclose` of one difference of times.
* `gapOf`: Lines 190-195.
* `gapStep`: The loop body, lines 198-208: `nvisits` and `ntooclose`.
* `nightCount`: Lines 196-218: `nvisits` and `ntooclose` for the gaps of a night.
* `nightVisits`: Lines 184-223 for one night: `none` if the night is left out.
* `NV`: A night of the metric value.
* `runGroups`: `run`, lines 164-233; rows are (night, time). The empty list stands for the bad value.
* `inWindow`: `_in_window`, lines 245-248.
* `nVisitsInWindow`: `reduce_n_visits_in_window`, lines 250-263.
* `nNightsInWindow`: `reduce_n_nights_in_window`, lines 265-278.
* `inLunation`: `_in_lunation`, lines 280-282.
* `lunations`: `np.arange(nights[0], nights[-1] + 15, 30)`, lines 290-294, 313-317: the number of elements is the quotient rounded up; no nights raise `IndexError` (`none`).
* `hasGroup`: Does a group start at a night of the lunation? Lines 295-300.
* `nLunations`: `reduce_n_lunations`, lines 284-305.
* `seqInner`: The loop over the nights of a lunation, lines 327-337; the state is (`max_sequence`, `cur_sequence`).
* `seqStep`: One lunation, lines 320-337.
* `maxSeqLunations`: `reduce_max_seq_lunations`, lines 307-341.

### `Verif/Model/VsOps.lean`

Operations on the archive of visit sequences

`rubin_sim/sim_archive/vseqmetadata.py`, `vseqarchive.py`, and `fetch_obsloctap_visits` and `fetch_sim_stats_for_night` of `sim_archive.py`.

Floats are elements of an ordered field; missing values are `none`.  UUIDs are opaque.  A transaction is done or not.  Exceptions are values.  Days are numbers of
days, times of files are seconds.  The pool of connections is that of `psycopg2.pool.SimpleConnectionPool(1, 5)`.  Left out: the standard deviation in the
statistics, the connection itself, permissions, logging and what is printed.

* `Pool`: The pool: connections that are idle and that are in use.
* `getconn`: `getconn` of psycopg2; `none` is PoolError.
* `putconn`: `putconn` of psycopg2: kept if there are fewer idle ones than the minimum, else closed.
* `Client`: An object of the class: its pool, and whether its engine has its connection.
* `Client.new`: `vseqmetadata.py:211-225`.
* `Client.step`: `query` (`vseqmetadata.py:255-294`), `pd_read_sql` (372-381) and `insert_nightly_stats` (1299-1304). The engine of the last is new in each call, and its connection is taken from the pool and not put back. `false` is PoolError.
* `Client.run`: Calls one after the other: their outcomes and what is left.
* `connParam`: `vseqmetadata.py:187-209`: one of the parameters; the last argument is the variable of the module, which is `None` for the port. A key that is there with `None` is as good as none.
* `connParams`: `vseqmetadata.py:183-211`: what is passed to the pool.
* `construct`: Constructor on a dictionary of the caller, which is modified: what is passed on, and the dictionary afterwards, `vseqmetadata.py:183-209`.
* `Visit`: A visit: what is in `day_obs`, if there is such a column, and the other columns.
* `daysOf`: `vseqarchive.py:57-68`: the day of each visit; `none` is a time that is missing, with which a visit is in no group.
* `StatRow`: A row of the statistics.
* `describe`: `describe` of one column on one day, `vseqarchive.py:72`.
* `valuesOn`: The values of a column on a day that are not missing.
* `dayList`: The days with visits in their order.
* `nightlyStats`: `compute_nightly_stats`, `vseqarchive.py:54-87`.
* `DbStat`: A row of `nightly_stats`, `make_vseqmeta.sql:158-174`.
* `DbStat.key`: Its primary key, `make_vseqmeta.sql:173`.
* `insertStats`: `insert_nightly_stats`, `vseqmetadata.py:1294-1304`, on what `compute_nightly_stats` gives: all rows in one transaction.
* `queryStats`: `query_nightly_stats`, `vseqmetadata.py:1306-1325`.
* `Mixed`: A row of `mixedvisitseq`: the columns of the second transaction.
* `recordMixed`: `record_mixed_metadata`, `vseqmetadata.py:895-944`: the row is there before the dates are converted; `parse` is `dayobs_to_date`.
* `toHex`: `bytes.hex()`, `vseqarchive.py:802`.
* `fromHex`: `bytes.fromhex`: white space between bytes is skipped; `none` is the ValueError.
* `DbVal`: A value for the database.
* `cliValue`: `vseqarchive.py:506-508`.
* `updateCli`: `update_visitseq_metadata` of the command line, `vseqarchive.py:480-510` and `vseqmetadata.py:737-760`: sequences by UUID with their fields. An unknown UUID is the ValueError of `_find_visitseq_table`, an unknown field an error of the database.
* `fillUrls`: `vseqmetadata.py:129-132`: URLs for files that have none; `none` is the KeyError of a file without a name.
* `madeUpTime`: The time that is made up, `vseqmetadata.py:125`: noon (UTC) of the date and as many seconds as the index says.
* `withTime`: The metadata with a time of creation, `vseqmetadata.py:107-126`.
* `protoYaml`: `metadata_yaml_from_prototype`, `vseqmetadata.py:79-136`: `archived` is the metadata file, if it is there.
* `FileC`: A file: an opsim database, an HDF5 store, or something else.
* `sqliteSuffix`: `SQLITE_EXTINSIONS` and the test with it, `vseqarchive.py:45,207,709`.
* `archiveVisits`: `add_file` for visits, `vseqarchive.py:205-216`: the file that is in the archive. A database without tables has no HDF5 file to read.
* `getVisits`: `get_file` for visits, `vseqarchive.py:707-719`: the outcome and the destination afterwards.
* `NightRow`: A row of the almanac.
* `tapDays`: `sim_archive.py:552-563`: the first and the last day; `none` is an exception for nights that are not in the almanac.
* `tapAge`: The age of simulations that are considered, `sim_archive.py:566-572`.
* `StatVal`: A value in the statistics: a dictionary, of which the count is kept, or something else.
* `firstCount`: The loop over the values, `sim_archive.py:701-706`.
* `addNominal`: `sim_archive.py:700-714`: `url` is whether the visits can be read, `onNight` how many of them are on the night.
* `statsFromVisits`: The statistics from the visits, `sim_archive.py:687-691`: a night without visits is a KeyError, and a single column gives a series, which has no `set_index`.
* `fetchStats`: `fetch_sim_stats_for_night`, `sim_archive.py:632-716`: `sim` is the simulation, if one is found, with the statistics that are recorded and whether it has a URL.

### `Verif/Model/Web.lean`

Model of the pages of results

`rubin_sim/maf/web/maf_run_results.py`, `maf_tracking.py`. Strings are lists of characters. The sorting of metrics by several
columns is an arbitrary function `srt` that permutes its list.

* `Metric`: A row of the metrics, with the columns that matter here.
* `sortStr`: Sorted strings, by code points.
* `uniq`: `list(np.unique(...))` on strings.
* `firstPart`: `s.split("_")[0]`
* `lastPart`: `s.split("_")[-1]`
* `unplus`: `s.replace("+", " ")`
* `inSubgroup`: `metrics_in_subgroup` without its sorting, `maf_run_results.py:226-237`.
* `select`: `convert_select_to_metrics`, `maf_run_results.py:94-124`.
* `formValue`: The value of the form for a group and subgroup, `web/templates/metricselect.html`, line 50.
* `plotTypes`: The types of plots asked for, `maf_run_results.py:258-267`, for one type.
* `uniqueNames`: `unique_metric_names`, `maf_run_results.py:276-288`.
* `groups`: The groups and their subgroups, `maf_run_results.py:48-53`, `metrics_to_subgroups`.
* `infoKeys`: Keys of `metric_info`, `maf_run_results.py:400-426`, for a blank and for a metric.
* `orderNames`: The loop of `order_stat_names` and `all_stat_names`, `maf_run_results.py:611-645`.
* `fixedFractions`: The table fractions at fixed places.
* `statOrder`: `summary_stat_order`, `maf_run_results.py:56-88`, from the names of statistics.
* `statDict`: `stat_dict`, `maf_run_results.py:591-609`: names in order with the first of their values.
* `Plot`: A plot: its type, its file and its metric.
* `plotDict`: `plot_dict` of an array of plots, `maf_run_results.py:446-486`: types in order, each with its plots.
* `Slot`: A place on the page: blank or with plots.
* `hasFilter`: `re.search("_f_", file)`
* `slotOf`: The place of a filter with at most one plot.
* `pad`: Rows of three, lines 558-560 of `maf_run_results.py`.
* `orderPlots`: `order_plots`, `maf_run_results.py:502-562`; `metrics` are the ids of all metrics in the order of display.
* `Disk`: The tracking database on disk: its time of change and its rows (id, directory, name).
* `Tracking`: `MafTracking`: time and rows last read, and the results read so far.
* `initAt`: `__init__`, `maf_tracking.py:25-47`, with the database at the time of the first look, of the reading and of the sorting, which looks again and reads again if it changed; the rows of the first reading are assigned afterwards.
* `checkDb`: `_check_db`, `maf_tracking.py:49-53`, for a database that does not change meanwhile.
* `getRun`: `get_run`, `maf_tracking.py:106-139`; `read` makes the results from the directory and name now.

### `Verif/Model/Xrb.lean`

Outbursts of X-ray binaries

`rubin_sim/maf/maf_contrib/xrb_metrics.py`.

Floats are real numbers.  A magnitude is an `Option ℝ`, where `none` is the infinity that numpy gives at the start of the outburst (a division by zero
and the logarithm of zero, with warnings).  The random draws are inputs.

* `fred`: `XrbLc.fred` (`xrb_metrics.py:137-155`), for `t` not zero.
* `Params`: What `outburst_params` draws for an outburst (`xrb_metrics.py:123-135`); the magnitudes by filter are given where they are needed.
* `amplitude`: The amplitude of all outbursts (`xrb_metrics.py:114-115`).
* `duration`: `duration` (`xrb_metrics.py:119`).
* `lightcurve`: `XrbLc.lightcurve` (`xrb_metrics.py:157-198`) at one time, for the absolute magnitude of the filter.
* `observed`: Extinction and distance modulus added (`xrb_metrics.py:243-247`, `:401-406`).
* `visible`: `mags <= depth` of `detectable_duration` (`xrb_metrics.py:249`).
* `grid`: `np.linspace(0, duration, 10000)` (`xrb_metrics.py:225-226`).
* `step`: One filter of `detectable_duration` (`xrb_metrics.py:249-257`): `none` are the infinities.
* `detectable`: `detectable_duration` (`xrb_metrics.py:200-262`) for the times and, for each filter, at which of them the outburst is bright enough; `none` for `nan, nan`.
* `Visit`: A visit: its time from the start of the outburst, the magnitude of the outburst and the depth.
* `detected`: `np.where(mags < m5)` (`xrb_metrics.py:409`).
* `everDetect`: `_ever_detect` (`xrb_metrics.py:327-332`).
* `earlyDetect`: `_early_detect` (`xrb_metrics.py:338-355`).
* `meanDiff`: `_mean_time_between_detections` (`xrb_metrics.py:357-373`); the sorting does not change the mean and is left out.
* `meanTime`: The entry of `run` (`xrb_metrics.py:419-428`).
* `reduceMeanTime`: `reduce_mean_time_between_detections` (`xrb_metrics.py:457-462`).
* `possible`: `_possible_to_detect` (`xrb_metrics.py:375-391`) of the duration from `detectable_duration`.
* `fill`: Values put where a mask is true, the others where it is false (`xrb_metrics.py:104-107`); `none` is nan.
* `tauRise`: The rise times of `outburst_params` (`xrb_metrics.py:103-107`): `flip` from the generator of the object, `global n` are `n` draws of `loguniform.rvs`, which uses the state of `np.random`, `own n` are `n` draws of `self.rng.lognormal`.
* `pop`: The draws of `generate_xrb_pop_slicer` (`xrb_metrics.py:481-507`): positions and times from the generator of the seed, the parameters of the outbursts from an `XrbLc()` of its own, with the seed 42, and from the state of `np.random`.

### `Verif/Model/Yso.lean`

Young stars

`rubin_sim/maf/maf_contrib/young_stellar_objects_metric.py`.

Floats are real numbers, and `scipy.integrate.quad` is the integral.  A depth is a `WithBot ℝ`, where `⊥` is the minus infinity that numpy gives for the
logarithm of zero (the warning is turned off, `young_stellar_objects_metric.py:160`).  The limit of crowding (`Crowd.crowdM5`) and the extinction at the slice
point are inputs.

* `A`: `StarDensity.__init__`, `young_stellar_objects_metric.py:37`.
* `rGalac`: `young_stellar_objects_metric.py:46`.
* `density`: `StarDensity.__call__`, `young_stellar_objects_metric.py:39-51`: the stars per steradian and kpc.
* `Band`: What the metric has of a filter: the absolute magnitude, the signal to noise asked for (`young_stellar_objects_metric.py:126-128`) and the extinction per unit of reddening (`young_stellar_objects_metric.py:139-140`).
* `coadded`: `young_stellar_objects_metric.py:164`; the depths are those of the visits in the filter.
* `depth`: `young_stellar_objects_metric.py:165-169`; `crowdError` is the option of the metric and `crowd` what `CrowdingM5Metric` gives.
* `appMag`: `young_stellar_objects_metric.py:175-176`.
* `dist2`: `young_stellar_objects_metric.py:178-181`, where `100 ** -inf` is zero.
* `dist3`: `young_stellar_objects_metric.py:183-188`; `l` has the distances and the reddening at them. For minus infinity all the distances to the goal are infinite, so `argmin` gives the first, and the other candidate is `10 ** -inf`, zero (`dust_map_3d.py:187-190`).
* `final`: `young_stellar_objects_metric.py:192`; `np.min` of nothing raises an exception.
* `count`: `young_stellar_objects_metric.py:197-200`.
* `skyArea`: `young_stellar_objects_metric.py:144-149`; `pix` is `hp.nside2pixarea`.
* `Point`: What the slice point says.
* `run`: `NYoungStarsMetric.run`, `young_stellar_objects_metric.py:142-200`, from the distances in each filter; `limit` is `galb_limit` in degrees (`young_stellar_objects_metric.py:125`).
* `dists2`: The distances in all filters with the extinction of the whole line of sight, for each filter with the limit of crowding and the depths of the visits in it.

<!-- END MODELLED -->
