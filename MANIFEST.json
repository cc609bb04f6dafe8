{
 "claims": [
  {
   "property": "C01",
   "status": "proved",
   "theorems": [
    "Verif.C01_weighted_mean",
    "Verif.C01_constant"
   ],
   "note": "Every aggregated value is the insolation-weighted mean of its period and lies in the range of the contributing values."
  },
  {
   "property": "C02",
   "status": "proved",
   "theorems": [
    "Verif.C02_local",
    "Verif.C02_complete",
    "Verif.C02_empty_period_nan"
   ],
   "note": "Periods are independent, every row is used once, empty periods are NaN."
  },
  {
   "property": "C03",
   "status": "partial",
   "theorems": [
    "Verif.C03_missing_energy_biases_low",
    "Verif.C03_missing_energy_partial"
   ],
   "note": "The statement is false for missing energy with present insolation (witness); proved when both are missing together."
  },
  {
   "property": "C04",
   "status": "proved",
   "theorems": [
    "Verif.C04_encoding_independent",
    "Verif.C04_within_range",
    "Verif.C04_nan_iff",
    "Verif.C04_order_independent",
    "Verif.C04_dropna_changes_result"
   ],
   "note": "Encoding independence, range, NaN and order; the docstring claim about dropna is refuted by a witness."
  },
  {
   "property": "C05",
   "status": "partial",
   "theorems": [
    "Verif.C05_right_labeled",
    "Verif.C05_all_missing",
    "Verif.C05_gap_is_nan",
    "Verif.C05_instantaneous",
    "Verif.C05_regular_instantaneous",
    "Verif.C05_instantaneous_partial",
    "Verif.C05_instantaneous_trailing",
    "Verif.C05_trailing_refuted",
    "Verif.C05_regular",
    "Verif.C05_instantaneous_loses_interval_after_gap",
    "Verif.C05_right_labeled_keeps_interval_after_gap"
   ],
   "note": "Right-labeled power: proved. Instantaneous power: exact energies for any pattern of gaps (`C05_instantaneous`, `C05_regular_instantaneous`). There the documented statement fails twice: missing readings at the end of the record get the energy of the last valid reading (`C05_trailing_refuted`), and the interval after a gap is lost although both its ends are valid."
  },
  {
   "property": "C06",
   "status": "proved",
   "theorems": [
    "Verif.C06_instantaneous_integral",
    "Verif.C06_conserved",
    "Verif.C06_split",
    "Verif.C06_instantaneous_extrapolates"
   ],
   "note": "Instantaneous energy equals the integral of the piecewise linear power; conservation and splitting. Witness: extrapolation after the last sample."
  },
  {
   "property": "C07",
   "status": "proved",
   "theorems": [
    "Verif.C07_reproduces_samples"
   ],
   "note": "Interpolation reproduces the samples."
  },
  {
   "property": "C08",
   "status": "proved",
   "theorems": [
    "Verif.C08_default_limit",
    "Verif.C08_envelope",
    "Verif.C08_between",
    "Verif.C08_no_extrapolation"
   ],
   "note": "Interpolated values lie on the chord of neighbouring samples, never across gaps longer than the limit, never outside the data."
  },
  {
   "property": "C09",
   "status": "proved",
   "theorems": [
    "Verif.C09_columns",
    "Verif.C09_tz_mismatch",
    "Verif.C09_total"
   ],
   "note": "Column-wise, tz mismatch rejected, otherwise total."
  },
  {
   "property": "C10",
   "status": "proved",
   "theorems": [
    "Verif.C10_iterative",
    "Verif.C10_converged",
    "Verif.C10_methods",
    "Verif.C10_guess_near_one_is_not_optimized",
    "Verif.C10_nan_counts_as_converged"
   ],
   "note": "First factor whose last change is within the threshold, or ConvergenceError after max_iterations; any optimizer."
  },
  {
   "property": "C11",
   "status": "proved",
   "theorems": [
    "Verif.C11_measured_unit",
    "Verif.C11_expected_unit",
    "Verif.C11_nameplate",
    "Verif.C11_temperature_optional",
    "Verif.C11_pvwatts_equation",
    "Verif.C11_exact",
    "Verif.C11_pvwatts_exact"
   ],
   "note": "Unit covariance in measurement, model and nameplate; exactness on regular data; PVWatts equation."
  },
  {
   "property": "C12",
   "status": "proved",
   "theorems": [
    "Verif.C12_normalized",
    "Verif.C12_normalized_none",
    "Verif.C12_poa_tcell",
    "Verif.C12_csi",
    "Verif.C12_csi_zero",
    "Verif.C12_hour_angle",
    "Verif.C12_missing_rejected"
   ],
   "note": "Exact acceptance sets over the extended reals (NaN separate); csi in terms of the deviation from clear sky."
  },
  {
   "property": "C13",
   "status": "proved",
   "theorems": [
    "Verif.C13_two_way",
    "Verif.C13_quantile_filters",
    "Verif.C13_hampel",
    "Verif.C13_tukey"
   ],
   "note": "Mask unchanged under multiplication by any positive constant, for each of the five filters."
  },
  {
   "property": "C14",
   "status": "proved",
   "theorems": [
    "Verif.C14_rejects_iff",
    "Verif.C14_length",
    "Verif.C14_degenerate"
   ],
   "note": "Exact rejection condition, one decision per point, degenerate scales."
  },
  {
   "property": "C15",
   "status": "partial",
   "theorems": [
    "Verif.C15_tukey_fence_partial",
    "Verif.C15_lower_fence_ignores_k",
    "Verif.C15_witness"
   ],
   "note": "False for k other than 1.5: refutation for every such k and witness; the true part is kept as _partial."
  },
  {
   "property": "C16",
   "status": "proved",
   "theorems": [
    "Verif.C16_clip_filter",
    "Verif.C16_clearsky_filter"
   ],
   "note": "Dispatch of clip_filter and clearsky_filter including keyword checking."
  },
  {
   "property": "C17",
   "status": "partial",
   "theorems": [
    "Verif.C17_accepts_iff",
    "Verif.C17_level_out_of_range",
    "Verif.C17_monotone_partial",
    "Verif.C17_not_monotone_without_positive_values"
   ],
   "note": "Exact acceptance set; monotone in the level if some value is positive, witness that it fails otherwise."
  },
  {
   "property": "C18",
   "status": "proved",
   "theorems": [
    "Verif.C18_validation"
   ],
   "note": "Complete decision table of the validation."
  },
  {
   "property": "C19",
   "status": "proved",
   "theorems": [
    "Verif.C19_reproduces_table",
    "Verif.C19_within_table",
    "Verif.C19_monotone",
    "Verif.C19_thresholds",
    "Verif.C19_published",
    "Verif.C19_call",
    "Verif.C19_duplicates"
   ],
   "note": "Nodes, range, monotonicity for every increasing table; the four published tables; the call of the detection."
  },
  {
   "property": "C20",
   "status": "proved",
   "theorems": [
    "Verif.C20_order_independent"
   ],
   "note": "Complete result equal for every permutation of rows with distinct timestamps."
  },
  {
   "property": "C21",
   "status": "proved",
   "theorems": [
    "Verif.C21_pairs",
    "Verif.C21_partner_unique"
   ],
   "note": "Exact characterization of the reported values, uniqueness and age of the comparison partner."
  },
  {
   "property": "C22",
   "status": "proved",
   "theorems": [
    "Verif.C22_median",
    "Verif.C22_rate_bracketed",
    "Verif.C22_interval_bracketed",
    "Verif.C22_circular_ordered",
    "Verif.C22_degradation_ci"
   ],
   "note": "Median, range and ordering for all uncertainty methods; resampling arbitrary."
  },
  {
   "property": "C23",
   "status": "proved",
   "theorems": [
    "Verif.C23_linear_exact",
    "Verif.C23_linear_no_recenter",
    "Verif.C23_scale_invariant"
   ],
   "note": "Exact on linear data for every sampling; invariant under positive scaling for all methods."
  },
  {
   "property": "C24",
   "status": "partial",
   "theorems": [
    "Verif.C24_range",
    "Verif.C24_at_most",
    "Verif.C24_count_partial",
    "Verif.C24_count_refuted"
   ],
   "note": "Range and never-overcounts proved; the count is wrong when a sample is partner of two others (28/29 February): refuted with witness, exact otherwise."
  },
  {
   "property": "C25",
   "status": "proved",
   "theorems": [
    "Verif.C25_value_error_iff",
    "Verif.C25_circular"
   ],
   "note": "ValueError exactly for short or pairless data; circular block conditions. The circular block refits may additionally raise."
  },
  {
   "property": "C26",
   "status": "proved",
   "theorems": [
    "Verif.C26_minimizes",
    "Verif.C26_exact",
    "Verif.C26_scale"
   ],
   "note": "Unique minimizer, exact on exact data, unit independent."
  },
  {
   "property": "C27",
   "status": "proved",
   "theorems": [
    "Verif.C27_statistic",
    "Verif.C27_bounded",
    "Verif.C27_negate",
    "Verif.C27_reverse",
    "Verif.C27_monotone_invariant",
    "Verif.C27_increasing_max",
    "Verif.C27_constant_no_trend",
    "Verif.C27_increasing_detected",
    "Verif.C27_trend_symmetry"
   ],
   "note": "Statistic as pair counts, bound, symmetries, detection; verdict symmetric."
  },
  {
   "property": "C28",
   "status": "partial",
   "theorems": [
    "Verif.C28_variance_partial",
    "Verif.C28_ties_refuted",
    "Verif.C28_changes_verdict"
   ],
   "note": "False with ties: the tie term is added instead of subtracted (general refutation and a changed verdict); holds without ties."
  },
  {
   "property": "C29",
   "status": "proved",
   "theorems": [
    "Verif.C29_moving_average",
    "Verif.C29_rate_exact",
    "Verif.C29_missing_raises"
   ],
   "note": "Daily data of any length, any zero-mean seasonal component of period 365."
  },
  {
   "property": "C30",
   "status": "proved",
   "theorems": [
    "Verif.C30_identity",
    "Verif.C30_circular_blocks",
    "Verif.C30_sample_values",
    "Verif.C30_unknown_type",
    "Verif.C30_interval"
   ],
   "note": "Identity, circular blocks, sample values, unknown type, interval."
  },
  {
   "property": "C31",
   "status": "proved",
   "theorems": [
    "Verif.C31_numbering",
    "Verif.C31_days",
    "Verif.C31_partition",
    "Verif.C31_ordered",
    "Verif.C31_events"
   ],
   "note": "Numbering, days, detected events, partition and order of the intervals for every daily frame."
  },
  {
   "property": "C32",
   "status": "proved",
   "theorems": [
    "Verif.C32_valid_intervals_soil",
    "Verif.C32_rate_is_theil_sen"
   ],
   "note": "Sign and order of the reported rates; the rate is the Theil-Sen slope of the interval."
  },
  {
   "property": "C33",
   "status": "proved",
   "theorems": [
    "Verif.C33_recovery",
    "Verif.C33_profiles_le_one",
    "Verif.C33_perfect_clean",
    "Verif.C33_profile_days"
   ],
   "note": "Recoveries in [0,1], profiles at most 1 for every method, one value per analysed day; perfect clean restores to 1."
  },
  {
   "property": "C34",
   "status": "proved",
   "theorems": [
    "Verif.C34_weighted_mean",
    "Verif.C34_between"
   ],
   "note": "Each realization is the insolation-weighted mean of its profile; median and interval bracket it."
  },
  {
   "property": "C35",
   "status": "partial",
   "theorems": [
    "Verif.C35_levels_partial",
    "Verif.C35_levels_refuted"
   ],
   "note": "False: levels are assigned in set iteration order (witness with CPython small-set order); proved when the group numbers iterate in increasing order."
  },
  {
   "property": "C36",
   "status": "proved",
   "theorems": [
    "Verif.C36_unknown_method",
    "Verif.C36_no_valid_interval_srr",
    "Verif.C36_no_valid_interval",
    "Verif.C36_daily_required",
    "Verif.C36_daily_errors"
   ],
   "note": "NoValidIntervalError exactly without a valid interval; ValueError conditions."
  },
  {
   "property": "C37",
   "status": "proved",
   "theorems": [
    "Verif.C37_years",
    "Verif.C37_weighted_median",
    "Verif.C37_range",
    "Verif.C37_local",
    "Verif.C37_errors"
   ],
   "note": "Rows are the years, weighted ratios, bracketing, range, locality, errors."
  },
  {
   "property": "C38",
   "status": "proved",
   "theorems": [
    "Verif.C38_months",
    "Verif.C38_draws",
    "Verif.C38_range"
   ],
   "note": "Selection of intervals, share of draws by overlapping days, ranges and quantiles of the draws."
  },
  {
   "property": "C39",
   "status": "proved",
   "theorems": [
    "Verif.Cods.C39_sr_first_refuted",
    "Verif.Cods.C39_iterations",
    "Verif.Cods.C39_budget",
    "Verif.Cods.C39_every_component"
   ],
   "note": "Budget, cyclic order, every component for all fits; after switching off perfect cleaning the loop restarts at the first component of the order. The comment that this ensures SR first is false (witness)."
  },
  {
   "property": "C40",
   "status": "partial",
   "theorems": [
    "Verif.Cods.C40_best_refuted",
    "Verif.Cods.C40_last",
    "Verif.Cods.C40_small_partial"
   ],
   "note": "False: after bootstrapping the ratio is that of the last successful initial fit (general theorem and witness); proved for the small-signal branch."
  },
  {
   "property": "C41",
   "status": "partial",
   "theorems": [
    "Verif.Cods.C41_all_refuted",
    "Verif.Cods.C41_single_alternative_refuted",
    "Verif.Cods.C41_majority",
    "Verif.Cods.C41_not_decomposable",
    "Verif.Cods.C41_ok_partial",
    "Verif.Cods.C41_realizations",
    "Verif.Cods.C41_rejected_refuted"
   ],
   "note": "False: a result after bootstrapping implies that all sixteen fits were accepted (general refutation, KeyError witness; single alternatives never work); success theorem if all are accepted. Any result implies that at most eight were rejected; more than eight end in RuntimeError."
  },
  {
   "property": "C42",
   "status": "partial",
   "theorems": [
    "Verif.Cods.C42_missing_refuted",
    "Verif.Cods.C42_distribution",
    "Verif.Cods.C42_range_partial",
    "Verif.Cods.C42_smaller_error",
    "Verif.Cods.C42_no_soiling"
   ],
   "note": "Weights positive, sum one, ordered by error and by days without soiling; range of bootstrapped ratio and cleaning probability. Witness: a missing value of a refit counts as zero."
  },
  {
   "property": "C43",
   "status": "partial",
   "theorems": [
    "Verif.Cods.C43_order_refuted",
    "Verif.Cods.C43_consistent_partial",
    "Verif.Cods.C43_small_unit_refuted",
    "Verif.Cods.C43_api"
   ],
   "note": "False: upper bound first after bootstrapping (general); the numbers agree with the loss interval. Small signal: upper loss is a fraction, not percent (general)."
  },
  {
   "property": "C44",
   "status": "proved",
   "theorems": [
    "Verif.Cods.C44_exact",
    "Verif.Cods.C44_terminates",
    "Verif.Cods.C44_succeeds",
    "Verif.Cods.C44_near",
    "Verif.Cods.C44_none",
    "Verif.Cods.C44_count",
    "Verif.Cods.C44_separated",
    "Verif.Cods.C44_last_run_refuted",
    "Verif.Cods.C44_erased_refuted"
   ],
   "note": "Exact characterization by islands of candidate days, termination, success, count, distance. Witnesses: the last run reaching the end is dropped, a later window can erase an earlier event."
  },
  {
   "property": "C45",
   "status": "proved",
   "theorems": [
    "Verif.Cods.C45_clip",
    "Verif.Cods.C45_rates",
    "Verif.Cods.C45_days",
    "Verif.Cods.C45_days_zero",
    "Verif.Cods.C45_unclipped_rates_refuted",
    "Verif.Cods.C45_no_iteration_refuted",
    "Verif.Cods.C45_columns",
    "Verif.Cods.C45_lower_clip_refuted"
   ],
   "note": "Upper clip, rates, days since cleaning, column lengths for every successful call. Witnesses: no lower clip (the documentation names one), rates stay missing without clipping, ratio stays missing without pruning iterations."
  },
  {
   "property": "C46",
   "status": "proved",
   "theorems": [
    "Verif.Cods.C46_median",
    "Verif.Cods.C46_periodic",
    "Verif.Cods.C46_same_date",
    "Verif.Cods.C46_index",
    "Verif.Cods.C46_leap_day_refuted",
    "Verif.Cods.C46_one_year_refuted",
    "Verif.Cods.C46_complete",
    "Verif.Cods.C46_range",
    "Verif.Cods.C46_sample",
    "Verif.Cods.C46_sample_periodic",
    "Verif.Cods.C46_sample_count",
    "Verif.Cods.C46_sample_shift_refuted"
   ],
   "note": "Median over years, periodic, same calendar date, complete for at least 726 days, samples. Witnesses: day 366 missing, series of 182 to 366 days wiped out, sample shifted by a day."
  },
  {
   "property": "C47",
   "status": "proved",
   "theorems": [
    "Verif.C47_reporting",
    "Verif.C47_nonneg",
    "Verif.C47_all_online",
    "Verif.C47_all_offline",
    "Verif.C47_limit",
    "Verif.C47_limit_exact",
    "Verif.C47_exact"
   ],
   "note": "Non-negativity, zero when all or none report, the limit (exactly: the loss without limit cut to the room left), exactness for proportional inverters, default thresholds."
  },
  {
   "property": "C48",
   "status": "partial",
   "theorems": [
    "Verif.C48_maximal_runs_partial",
    "Verif.C48_outage_rows",
    "Verif.C48_whole_series",
    "Verif.C48_whole_series_refuted"
   ],
   "note": "Rows of the outages, maximal disjoint runs in order; false if the whole series is one outage (general statement and witness)."
  },
  {
   "property": "C49",
   "status": "partial",
   "theorems": [
    "Verif.C49_classification",
    "Verif.C49_meter_readings",
    "Verif.C49_real_loss_positive_partial",
    "Verif.C49_band_ordered",
    "Verif.C49_distribution_partial",
    "Verif.C49_single_row_fails",
    "Verif.C49_single_row",
    "Verif.C49_corrected_meter",
    "Verif.C49_corrected_missing",
    "Verif.C49_distribution_refuted",
    "Verif.C49_negative_loss_refuted",
    "Verif.C49_first_row_refuted"
   ],
   "note": "Classification, readings, ordered bounds; corrected meter; distribution exact after the first row of the outage. False parts with witnesses: loss attributed to the first row on top, negative loss, outage in the first row."
  },
  {
   "property": "C50",
   "status": "partial",
   "theorems": [
    "Verif.C50_total",
    "Verif.C50_lost_partition",
    "Verif.C50_range",
    "Verif.C50_missing",
    "Verif.C50_actual_partial",
    "Verif.C50_actual_refuted",
    "Verif.C50_range_refuted"
   ],
   "note": "Sum, partition of the lost production, exact range under sign hypotheses, exact formula for the actual production. False parts with witnesses: availability above one, production between periods lost."
  },
  {
   "property": "C51",
   "status": "proved",
   "theorems": [
    "Verif.C51_init",
    "Verif.C51_input",
    "Verif.C51_no_memory",
    "Verif.C51_results",
    "Verif.C51_idempotent",
    "Verif.C51_plot",
    "Verif.C51_failure_not_atomic_refuted"
   ],
   "note": "All histories of runs; plot; witness that a failed call stores other attributes."
  },
  {
   "property": "C52",
   "status": "partial",
   "theorems": [
    "Verif.FilterDict.C52_construct",
    "Verif.FilterDict.C52_pickle",
    "Verif.FilterDict.C52_set_item",
    "Verif.FilterDict.C52_update_partial",
    "Verif.FilterDict.C52_update_iterator",
    "Verif.FilterDict.C52_always_known",
    "Verif.FilterDict.C52_failure_unchanged",
    "Verif.FilterDict.C52_delete",
    "Verif.FilterDict.C52_other_methods",
    "Verif.FilterDict.C52_bypass_refuted"
   ],
   "note": "Construction, assignment, pickling, histories; failed calls change nothing. update with a one-shot iterator changes nothing silently; setdefault and |= bypass the check (witness)."
  },
  {
   "property": "C53",
   "status": "proved",
   "theorems": [
    "Verif.Chains.C53_conjunction",
    "Verif.Chains.C53_components",
    "Verif.Chains.C53_enabled",
    "Verif.Chains.C53_only_removes",
    "Verif.Chains.C53_order",
    "Verif.Chains.C53_clearsky_disable_refuted",
    "Verif.Chains.C53_aggregated",
    "Verif.Chains.C53_components_aggregated",
    "Verif.Chains.C53_sensor_clearsky_refuted"
   ],
   "note": "Exact conjunction for both filter stages with arbitrary filter functions, monotone, order independent; the stored component columns all carry the timestamps of the mask, each has the verdicts of its filter, and the mask is their conjunction. Witnesses: the clear-sky filter cannot be disabled, the sensor clear-sky filter also acts on clear-sky analyses."
  },
  {
   "property": "C54",
   "status": "partial",
   "theorems": [
    "Verif.Chains.C54_missing",
    "Verif.Chains.C54_value_error_partial",
    "Verif.Chains.C54_no_irradiance",
    "Verif.Chains.C54_no_temperature",
    "Verif.Chains.C54_no_clearsky",
    "Verif.Chains.C54_no_model",
    "Verif.Chains.C54_location_none_refuted"
   ],
   "note": "A missing input always fails without any change; ValueError if nothing else is wrong; a location given as None yields AttributeError (witness)."
  },
  {
   "property": "C55",
   "status": "partial",
   "theorems": [
    "Verif.Chains.C55_check",
    "Verif.Chains.C55_analysis_partial",
    "Verif.Chains.C55_too_short",
    "Verif.Chains.C55_usable_refuted",
    "Verif.Chains.C55_srr_unchecked"
   ],
   "note": "Exact condition of the check and of whole degradation analyses; rows without data count and soiling analyses are not checked (witnesses)."
  },
  {
   "property": "C56",
   "status": "proved",
   "theorems": [
    "Verif.Chains.C56_other_untouched",
    "Verif.Chains.C56_failure_keeps_results",
    "Verif.Chains.C56_requested",
    "Verif.Chains.C56_history",
    "Verif.Chains.C56_independent",
    "Verif.Chains.C56_unknown_names"
   ],
   "note": "All histories of calls, independence in any order, failing calls, requested names; arbitrary numerical functions."
  },
  {
   "property": "C57",
   "status": "proved",
   "theorems": [
    "Verif.Chains.C57_case",
    "Verif.Chains.C57_selects",
    "Verif.Chains.C57_after_analysis",
    "Verif.Chains.C57_stale_refuted"
   ],
   "note": "Accepted case strings and selected results for all objects; witness that a failed analysis leaves the plot inconsistent."
  },
  {
   "property": "C58",
   "status": "partial",
   "theorems": [
    "Verif.Clearsky.C58_on_map_partial",
    "Verif.Clearsky.C58_east_edge_refuted",
    "Verif.Clearsky.C58_south_edge_refuted",
    "Verif.Clearsky.C58_eastern_half_refuted",
    "Verif.Clearsky.C58_neighbourhood"
   ],
   "note": "Every location hits a pixel except within half a pixel of the eastern and southern edge, where the look-up misses every map (general refutations); also the eastern half of a column gets the next column."
  },
  {
   "property": "C59",
   "status": "proved",
   "theorems": [
    "Verif.Clearsky.C59_swing",
    "Verif.Clearsky.C59_peak",
    "Verif.Clearsky.C59_periodic",
    "Verif.Clearsky.C59_mean",
    "Verif.Clearsky.C59_range"
   ],
   "note": "Bound, extremes, period and mean over the reals; the returned temperature lies in the range of the monthly values for any dates, window and positive weights."
  },
  {
   "property": "C60",
   "status": "proved",
   "theorems": [
    "Verif.Deprecation.C60_transparent",
    "Verif.Deprecation.C60_metadata",
    "Verif.Deprecation.C60_history",
    "Verif.Deprecation.C60_error_filter",
    "Verif.Deprecation.C60_default_text",
    "Verif.Deprecation.C60_warn_function",
    "Verif.Deprecation.C60_refused",
    "Verif.Deprecation.C60_custom_text",
    "Verif.Deprecation.C60_object_text",
    "Verif.Deprecation.C60_fields"
   ],
   "note": "All functions, arguments, option values and histories of calls; exact text; refused exactly for pending with a removal."
  },
  {
   "property": "C61",
   "status": "proved",
   "theorems": [
    "Verif.Version.C61_clean_tag",
    "Verif.Version.C61_error",
    "Verif.Version.C61_unknown_style",
    "Verif.Version.C61_known_style",
    "Verif.Version.C61_identifies",
    "Verif.Version.C61_describe_round_trip",
    "Verif.Version.C61_describe_untagged",
    "Verif.Version.C61_pre_dirty_refuted",
    "Verif.Version.C61_pre_raises_refuted",
    "Verif.Version.C61_keywords",
    "Verif.Version.C61_keywords_set",
    "Verif.Version.C61_branches",
    "Verif.Version.C61_describe_styles",
    "Verif.Version.C61_archive_refs",
    "Verif.Version.C61_archive_version",
    "Verif.Version.C61_unexpanded",
    "Verif.Version.C61_get_versions",
    "Verif.Version.C61_pre_release",
    "Verif.Version.C61_pre_post",
    "Verif.Version.C61_pre_raises"
   ],
   "note": "All version-control states: clean tag, identification by the default version, parsing of git describe, errors, styles, archive keywords. Witnesses: pep440-pre hides dirtiness and raises for some tags."
  },
  {
   "property": "C62",
   "status": "partial",
   "theorems": [
    "Verif.Cods.C62_change",
    "Verif.Cods.C62_cleaning_event",
    "Verif.Cods.C62_soiling_event",
    "Verif.Cods.C62_soiling_monotone",
    "Verif.Cods.C62_soiling_deeper",
    "Verif.Cods.C62_soiling_affine",
    "Verif.Cods.C62_soiling_falls_partial",
    "Verif.Cods.C62_monotone",
    "Verif.Cods.C62_rises",
    "Verif.Cods.C62_quarter",
    "Verif.Cods.C62_affine",
    "Verif.Cods.C62_constant",
    "Verif.Cods.C62_soiling_constant",
    "Verif.Cods.C62_soiling_rise_refuted"
   ],
   "note": "Exact conditions for cleaning events and for soiling events, in terms of the rolling medians of the measurements; monotone in the tuner, only rises, at most a quarter, unit and offset independent, constant signals. Soiling events: monotone in the tuner, unit and offset independent, and falls of the signal if it is unchanged on 1 % of the days; witness: otherwise a rising day can be flagged as soiling event."
  },
  {
   "property": "C63",
   "status": "proved",
   "theorems": [
    "Verif.Cods.C63_monotone",
    "Verif.Cods.C63_keeps_best",
    "Verif.Cods.C63_missing",
    "Verif.Cods.C63_equal"
   ],
   "note": "Monotone, keeps the best, missing performance disables the pruning, equal performances kept."
  },
  {
   "property": "C64",
   "status": "proved",
   "theorems": [
    "Verif.Cods.C64_constant",
    "Verif.Cods.C64_constant_ratio",
    "Verif.Cods.C64_level",
    "Verif.Cods.C64_covariance",
    "Verif.Cods.C64_smoothed_covariance",
    "Verif.Cods.C64_smoother_succeeds",
    "Verif.Cods.C64_run"
   ],
   "note": "The columns of a run, exactly: noise estimate, start line, filter recursion with restarts only on event days, smoothing backwards between events, at the level of the call. Filtered level between prediction and measurement, covariances positive semidefinite and non-increasing under smoothing, no singular matrix, constant signals exact."
  },
  {
   "property": "C65",
   "status": "partial",
   "theorems": [
    "Verif.Cods.C65_today",
    "Verif.Cods.C65_moved",
    "Verif.Cods.C65_soiling",
    "Verif.Cods.C65_others",
    "Verif.Cods.C65_surrounding_refuted",
    "Verif.Cods.C65_count",
    "Verif.Cods.C65_sorted",
    "Verif.Cods.C65_edges",
    "Verif.Cods.C65_few_ignored",
    "Verif.Cods.C65_length",
    "Verif.Cods.C65_series"
   ],
   "note": "Exact effect of one step, forward pass invariants, events handed over. Witness: events around a confirmed one are kept, contrary to the documentation."
  },
  {
   "property": "C66",
   "status": "partial",
   "theorems": [
    "Verif.Cods.C66_succeeds_partial",
    "Verif.Cods.C66_fuel",
    "Verif.Cods.C66_diverges_refuted"
   ],
   "note": "Total success theorem for up to 100 pruning iterations; more than 100 never end on a constant signal (general refutation)."
  },
  {
   "property": "C67",
   "status": "partial",
   "theorems": [
    "Verif.Cods.C67_relative",
    "Verif.Cods.C67_clean_partial",
    "Verif.Cods.C67_no_events",
    "Verif.Cods.C67_renormalize_refuted",
    "Verif.Cods.C67_before",
    "Verif.Cods.C67_first_event_refuted"
   ],
   "note": "Exact ratio after the first event, 1 at every later event, 1 without events; up to the first event the exact ratio to the harmonic mean of the levels at the events. Witnesses: not 1 at the first event; renormalizing without events loses all values."
  },
  {
   "property": "C68",
   "status": "proved",
   "theorems": [
    "Verif.Cods.C68_segment",
    "Verif.Cods.C68_local",
    "Verif.Cods.C68_before_event",
    "Verif.Cods.C68_last_day"
   ],
   "note": "Segments are smoothed by themselves; locality; the day before an event and the last two days unsmoothed (C64_run states the same on the output of the call)."
  },
  {
   "property": "C69",
   "status": "partial",
   "theorems": [
    "Verif.Cods.C69_no_index_error",
    "Verif.Cods.C69_missing",
    "Verif.Cods.C69_position",
    "Verif.Cods.C69_third_refuted"
   ],
   "note": "Exact: IndexError-free for SR first or second within the budget; never a result for SR third (general refutation); ValueError without SR."
  },
  {
   "property": "C70",
   "status": "proved",
   "theorems": [
    "Verif.Cods.C70_product",
    "Verif.Cods.C70_residual",
    "Verif.Cods.C70_total",
    "Verif.Cods.C70_overlap",
    "Verif.Cods.C70_loss"
   ],
   "note": "All iteration histories."
  },
  {
   "property": "C71",
   "status": "proved",
   "theorems": [
    "Verif.Cods.C71_ratio",
    "Verif.Cods.C71_trend",
    "Verif.Cods.C71_trend_stl",
    "Verif.Cods.C71_seasonal",
    "Verif.Cods.C71_left_out",
    "Verif.Cods.C71_from_stl",
    "Verif.Cods.C71_from_yoy"
   ],
   "note": "All iteration histories, including which fit each returned component comes from and what is left out of the order."
  },
  {
   "property": "C72",
   "status": "partial",
   "theorems": [
    "Verif.Cods.C72_components_partial",
    "Verif.Cods.C72_flat_refuted"
   ],
   "note": "False for every flat index: ZeroDivisionError in the signal strength (general refutation)."
  },
  {
   "property": "C73",
   "status": "proved",
   "theorems": [
    "Verif.Cods.C73_stored",
    "Verif.Cods.C73_no_loss",
    "Verif.Cods.C73_errors",
    "Verif.Cods.C73_frequency",
    "Verif.Cods.C73_leading_gap"
   ],
   "note": "Exact stored series and errors."
  },
  {
   "property": "C74",
   "status": "proved",
   "theorems": [
    "Verif.Cods.C74_ordered",
    "Verif.Cods.C74_range",
    "Verif.Cods.C74_estimate_outside_refuted"
   ],
   "note": "All outcomes of fits and refits. Witness: the estimate can lie outside its interval."
  },
  {
   "property": "C75",
   "status": "proved",
   "theorems": [
    "Verif.Clip.C75_total",
    "Verif.Clip.C75_rejects",
    "Verif.Clip.C75_length",
    "Verif.Clip.C75_missing_kept"
   ],
   "note": "Totality, exact rejection, length, missing readings kept."
  },
  {
   "property": "C76",
   "status": "proved",
   "theorems": [
    "Verif.Clip.C76_unit_independent"
   ],
   "note": "All series, positive factors, cutoffs and windows."
  },
  {
   "property": "C77",
   "status": "proved",
   "theorems": [
    "Verif.Clip.C77_same_day_same_value"
   ],
   "note": "All series."
  },
  {
   "property": "C78",
   "status": "proved",
   "theorems": [
    "Verif.Clip.C78_cutoff_nonpos",
    "Verif.Clip.C78_no_plateau"
   ],
   "note": "Cutoff not positive: any series. No plateau: regular series whose days vary (otherwise a day counts as frozen and is interpolated)."
  },
  {
   "property": "C79",
   "status": "partial",
   "theorems": [
    "Verif.Clip.C79_cutoff_monotone_refuted",
    "Verif.Clip.C79_excludes_something_partial",
    "Verif.Clip.C79_detection_monotone_partial"
   ],
   "note": "The documented claim is false (witness). Proved: detection is monotone; a filter that excludes something still does at a higher cutoff."
  },
  {
   "property": "C80",
   "status": "partial",
   "theorems": [
    "Verif.Clip.C80_fine_excluded",
    "Verif.Clip.C80_fine_at_level",
    "Verif.Clip.C80_fine_default_window",
    "Verif.Clip.C80_fine_no_plateau",
    "Verif.Clip.C80_excluded_is_near_plateau",
    "Verif.Clip.C80_top_is_excluded",
    "Verif.Clip.C80_tight_plateau_is_excluded",
    "Verif.Clip.C80_default_window",
    "Verif.Clip.C80_first_readings_refuted"
   ],
   "note": "Soundness and completeness for regular series with steps of at least ten minutes and for increasing series with prevailing steps below ten minutes (C80_fine_*), without frozen days. False for the first k-1 readings (witness)."
  },
  {
   "property": "C81",
   "status": "partial",
   "theorems": [
    "Verif.Clip.C81_variable_sampling_warns",
    "Verif.Clip.C81_consistent_sampling_is_quiet_partial",
    "Verif.Clip.C81_regular_is_quiet_partial",
    "Verif.Clip.C81_short_regular_refuted"
   ],
   "note": "Warned if irregular; quiet if regular with at least 20 readings. False for shorter regular series (general refutation)."
  },
  {
   "property": "C82",
   "status": "partial",
   "theorems": [
    "Verif.Clip.C82_total",
    "Verif.Clip.C82_rejects",
    "Verif.Clip.C82_subminute_refuted",
    "Verif.Clip.C82_length",
    "Verif.Clip.C82_missing_kept"
   ],
   "note": "Success for readings at least a minute apart, rejections, length, missing readings. False for sampling below a minute: ZeroDivisionError (general refutation)."
  },
  {
   "property": "C83",
   "status": "proved",
   "theorems": [
    "Verif.Clip.C83_unit_and_offset_independent"
   ],
   "note": "All series and all models."
  },
  {
   "property": "C84",
   "status": "proved",
   "theorems": [
    "Verif.Clip.C84_nothing_predicted",
    "Verif.Clip.C84_constant_kept",
    "Verif.Clip.C84_between",
    "Verif.Clip.C84_excluded",
    "Verif.Clip.C84_predicted_is_excluded"
   ],
   "note": "Soundness, completeness, no holes, constant series, for all models."
  },
  {
   "property": "C85",
   "status": "partial",
   "theorems": [
    "Verif.Clip.C85_later_days_refuted",
    "Verif.Clip.C85_only_days_with_prediction_partial"
   ],
   "note": "Holds up to the last day with predicted clipping; later days inherit its levels (witness)."
  },
  {
   "property": "C86",
   "status": "proved",
   "theorems": [
    "Verif.Clip.C86_features_in_range",
    "Verif.Clip.C86_only_well_formed_rows_matter"
   ],
   "note": "All series; consequence: the result depends only on the answers to well-formed rows."
  },
  {
   "property": "C87",
   "status": "partial",
   "theorems": [
    "Verif.Plots.C87_points",
    "Verif.Plots.C87_histogram",
    "Verif.Plots.C87_line",
    "Verif.Plots.C87_colors_partial",
    "Verif.Plots.C87_drawn_partial",
    "Verif.Plots.C87_default_bins_refuted",
    "Verif.Plots.C87_colors_refuted"
   ],
   "note": "Points, histogram and line for all results. Refuted: default bins are zero below 40 values (ValueError); colours go by position, so unordered data get wrong ones. Proved for bins given and ordered data."
  },
  {
   "property": "C88",
   "status": "partial",
   "theorems": [
    "Verif.Plots.C88_total",
    "Verif.Plots.C88_trend",
    "Verif.Plots.C88_local",
    "Verif.Plots.C88_band_range_partial",
    "Verif.Plots.C88_band_order_refuted",
    "Verif.Plots.C88_overall",
    "Verif.Plots.C88_weekly_refuted",
    "Verif.Plots.C88_daily_partial",
    "Verif.Plots.C88_band"
   ],
   "note": "Trend, locality, overall rate, where the band is drawn and what its edges are. Refuted: the edges come from independent draws and may cross; weekly data give no trend. Proved for daily data."
  },
  {
   "property": "C89",
   "status": "partial",
   "theorems": [
    "Verif.Plots.C89_after_run",
    "Verif.Plots.C89_before_run",
    "Verif.Plots.C89_curve_end",
    "Verif.Plots.C89_error_bar_partial",
    "Verif.Plots.C89_error_bar_refuted"
   ],
   "note": "Figure after every successful run, curves and their ends. Refuted: the bar is mirrored if both error quantiles have the same sign; proved if they enclose zero."
  },
  {
   "property": "C90",
   "status": "proved",
   "theorems": [
    "Verif.Plots.C90_points",
    "Verif.Plots.C90_profile_count",
    "Verif.Plots.C90_profiles_le_one",
    "Verif.Plots.C90_rates",
    "Verif.Plots.C90_interval_profile"
   ],
   "note": "All successful analyses."
  },
  {
   "property": "C91",
   "status": "partial",
   "theorems": [
    "Verif.Plots.C91_points",
    "Verif.Plots.C91_drawn",
    "Verif.Plots.C91_mask_name_refuted",
    "Verif.Plots.C91_name_clash"
   ],
   "note": "All series and masks unless the names clash: a signal called \"mask\" loses its values (witness), other clashes raise ValueError."
  },
  {
   "property": "C92",
   "status": "proved",
   "theorems": [
    "Verif.Plots.C92_pairs",
    "Verif.Plots.C92_once"
   ],
   "note": "All pairs of series."
  },
  {
   "property": "C93",
   "status": "proved",
   "theorems": [
    "Verif.Clip.C93_fine_exact",
    "Verif.Clip.C93_regular_exact"
   ],
   "note": "Without frozen days; no negative readings for fine sampling."
  },
  {
   "property": "C94",
   "status": "proved",
   "theorems": [
    "Verif.Clip.C94_features_values",
    "Verif.Clip.C94_complete_rows"
   ],
   "note": "The standard deviation is represented by its square; floating-point rounding is not modelled."
  },
  {
   "property": "C95",
   "status": "proved",
   "theorems": [
    "Verif.C95_factor",
    "Verif.C95_division",
    "Verif.C95_first_year"
   ],
   "note": "All daily series; the statements on normalized values need a nonzero factor (infinities are not modelled)."
  },
  {
   "property": "C96",
   "status": "proved",
   "theorems": [
    "Verif.C96_units"
   ],
   "note": "All inputs and random numbers. Random numbers are parameters of the model; the half-width of the slope interval is a parameter depending on the fitted points."
  },
  {
   "property": "C97",
   "status": "proved",
   "theorems": [
    "Verif.C97_dates"
   ],
   "note": "All inputs, with and without recentering."
  },
  {
   "property": "C98",
   "status": "proved",
   "theorems": [
    "Verif.C98_steps",
    "Verif.C98_events"
   ],
   "note": "All inputs with nonzero renormalization factor."
  },
  {
   "property": "C99",
   "status": "proved",
   "theorems": [
    "Verif.C99_reporting",
    "Verif.C99_reporting_given",
    "Verif.C99_loss_rule",
    "Verif.C99_no_estimate",
    "Verif.C99_rescaled",
    "Verif.C99_error_table",
    "Verif.C99_outage_bounds"
   ],
   "note": "Thresholds not negative and known sizes positive for the loss rule; windows whose rescaled expected energy is zero are left out."
  },
  {
   "property": "C100",
   "status": "proved",
   "theorems": [
    "Verif.C100_interval_fit",
    "Verif.C100_linear_recovered"
   ],
   "note": "The width of the confidence interval in ranks (normal quantile times the variance of the rank statistic) is a parameter computed by scipy."
  },
  {
   "property": "C101",
   "status": "proved",
   "theorems": [
    "Verif.C101_fit",
    "Verif.C101_least_squares",
    "Verif.C101_recovers",
    "Verif.C101_recovers_single",
    "Verif.C101_zero_quantiles",
    "Verif.C101_product"
   ],
   "note": "The optimizer (scipy.optimize.minimize) is a parameter; what is assumed of it is stated in each theorem."
  },
  {
   "property": "C102",
   "status": "proved",
   "theorems": [
    "Verif.Clearsky.C102_value",
    "Verif.Clearsky.C102_independent",
    "Verif.Clearsky.C102_solar_time",
    "Verif.Clearsky.C102_no_data",
    "Verif.Clearsky.C102_frequency",
    "Verif.Clearsky.C102_time_of_day",
    "Verif.Clearsky.C102_refused",
    "Verif.Clearsky.C102_pixel"
   ],
   "note": "Times in increasing order in a zone with a fixed offset from UTC; the frequency divides a day; map contents, weights of the window and frequency inference are parameters."
  },
  {
   "property": "C103",
   "status": "proved",
   "theorems": [
    "Verif.C103_hampel",
    "Verif.C103_tukey"
   ],
   "note": "The lower fence has the fixed factor 1.5 of the code (see C15)."
  },
  {
   "property": "C104",
   "status": "proved",
   "theorems": [
    "Verif.C104_simple",
    "Verif.C104_circular"
   ],
   "note": "Random draws are parameters. The line of the code has the whole days divided by the number of rows as its step."
  },
  {
   "property": "C105",
   "status": "proved",
   "theorems": [
    "Verif.C105_units",
    "Verif.C105_uncalibrated"
   ],
   "note": "All inputs and arguments of the model."
  },
  {
   "property": "C106",
   "status": "proved",
   "theorems": [
    "Verif.C106_exclusive",
    "Verif.C106_no_warning",
    "Verif.C106_warning_iff"
   ],
   "note": "Successful runs whose expected power and subsystem table have one row per timestamp."
  },
  {
   "property": "C107",
   "status": "partial",
   "theorems": [
    "Verif.C107_periods",
    "Verif.C107_instantaneous",
    "Verif.C107_conserved_partial",
    "Verif.C107_conserved_refuted"
   ],
   "note": "Right-labeled power, and instantaneous power without gaps; frequencies at period starts (MS, QS, YS). The last row is always an empty period after the end of the data. Conservation fails if the data start within a period: the energy of this first period is dropped (C107_conserved_refuted); C107_conserved_partial says exactly what is missing."
  },
  {
   "property": "C108",
   "status": "proved",
   "theorems": [
    "Verif.Chains.C108_unit_of_power"
   ],
   "note": "Constructor, both normalizations and the three clipping filters are the concrete models; everything that sees only normalized data is universally quantified."
  },
  {
   "property": "C109",
   "status": "proved",
   "theorems": [
    "Verif.Chains.C109_divisor",
    "Verif.Chains.C109_level",
    "Verif.Chains.C109_no_values"
   ],
   "note": "The hypothesis that the quantile is not negative excludes series in which over 95 % of the intervals have negative energy."
  },
  {
   "property": "C110",
   "status": "proved",
   "theorems": [
    "Verif.C110_periods",
    "Verif.C110_chronological",
    "Verif.C110_clock",
    "Verif.C110_stable",
    "Verif.C110_stable_refuted"
   ],
   "note": "C110_periods gives the exact set of labels for every fixed-length frequency, C110_clock specialises to periods dividing a day, C110_stable is the extension property; C110_stable_refuted shows the extension property fails for periods longer than a day (2D), which the documentation does not promise."
  },
  {
   "property": "C111",
   "status": "proved",
   "theorems": [
    "Verif.C111_noise",
    "Verif.C111_outliers",
    "Verif.C111_noise_interval"
   ],
   "note": "C111_noise and C111_noise_interval are the perturbation bound (the circular block interval is not covered), C111_outliers the majority property of the reported median."
  },
  {
   "property": "C112",
   "status": "proved",
   "theorems": [
    "Verif.C112_superposition",
    "Verif.C112_same_rows",
    "Verif.C112_nonneg",
    "Verif.C112_interpolate",
    "Verif.C112_monotone",
    "Verif.C112_missing_refuted"
   ],
   "note": "Fixed-length target frequencies. C112_missing_refuted shows that the condition on missing readings is needed."
  },
  {
   "property": "C113",
   "status": "proved",
   "theorems": [
    "Verif.Chains.C113_performance",
    "Verif.Chains.C113_recover"
   ],
   "note": "proved for the whole chain from the stored inputs to the stored rate, with the numerical models of normalization, filters, aggregation and year-on-year plugged in; requires normalized_filter, aggregation periods that divide a day or are whole days, nonnegative irradiance, and model power not sampled more coarsely than the energy"
  },
  {
   "property": "C114",
   "status": "partial",
   "theorems": [
    "Verif.Chains.C114_stored_partial",
    "Verif.Chains.C114_stored_refuted"
   ],
   "note": "partial: holds for aggregation frequencies that divide a day or are whole days; refuted for others (periods of seven hours), where the regridding after the aggregated filter counts the periods from another midnight and loses the values"
  },
  {
   "property": "C115",
   "status": "partial",
   "theorems": [
    "Verif.Version.C115_command",
    "Verif.Version.C115_total_partial",
    "Verif.Version.C115_total_refuted",
    "Verif.Version.C115_archive",
    "Verif.Version.C115_directory",
    "Verif.Version.C115_tag_prefix",
    "Verif.Version.C115_checkout",
    "Verif.Version.C115_branch"
   ],
   "note": "partial: proved for archives, for every checkout git describes, and for every failure of git up to the description; refuted in general: if only `git show` or (without tags) `git rev-list` fails or prints nothing the import stops with AttributeError or IndexError"
  },
  {
   "property": "C116",
   "status": "proved",
   "theorems": [
    "Verif.C116_detection"
   ],
   "note": "For series without gaps. The distance between cleanings and the size of the restoration are hypotheses; the threshold is either given or inferred. Examples with both beside the theorem."
  },
  {
   "property": "C117",
   "status": "proved",
   "theorems": [
    "Verif.C117_perfect_clean",
    "Verif.C117_half_norm"
   ],
   "note": "End to end, from the inputs of soiling_srr to its outputs. With recentering the reported loss is the true loss divided by the first-year median of the soiled performance, so it exceeds the loss relative to the clean level; the theorem states the value as it is. `trim=False` is assumed. The z value of the Theil-Sen interval stays an arbitrary nonnegative function, since it does not matter when all slopes agree."
  },
  {
   "property": "C118",
   "status": "partial",
   "theorems": [
    "Verif.Clip.C118_history_partial",
    "Verif.Clip.C118_retry_refuted",
    "Verif.Clip.C118_stuck",
    "Verif.Clip.C118_failed_reading",
    "Verif.Clip.C118_constructor_retry",
    "Verif.Clip.C118_threads_refuted",
    "Verif.Clip.C118_threads_partial",
    "Verif.Clip.C118_threads_finish",
    "Verif.Clip.C118_settles"
   ],
   "note": "Fails as stated: `C118_retry_refuted` (a call after a failed read), `C118_threads_refuted` (two overlapping calls). `C118_stuck` shows that after a failed read no call in the process ever succeeds. Proved: histories without failures, all schedules after a first completed call, and that every settled state without failures is ready."
  },
  {
   "property": "C119",
   "status": "proved",
   "theorems": [
    "Verif.Version.C119_keywords",
    "Verif.Version.C119_none",
    "Verif.Version.C119_checkout",
    "Verif.Version.C119_unquoted",
    "Verif.Version.C119_chained",
    "Verif.Version.C119_line_ends",
    "Verif.Version.C119_registry"
   ],
   "note": "Regular expression and stripping are modelled on characters; white space is ASCII."
  },
  {
   "property": "C120",
   "status": "proved",
   "theorems": [
    "Verif.Cods.C120_progress",
    "Verif.Cods.C120_monotone",
    "Verif.Cods.C120_zero"
   ],
   "note": "Exact rational arithmetic; the formatting of the numbers is left out. A call with zero steps done would divide by zero (`C120_zero`); the analysis starts counting at one."
  },
  {
   "property": "C121",
   "status": "proved",
   "theorems": [
    "Verif.C121_sizes",
    "Verif.C121_inverters",
    "Verif.C121_calibration",
    "Verif.C121_outages",
    "Verif.C121_run",
    "Verif.C121_production"
   ],
   "note": "The plant and its records are a specification of their own (`Spec.Plant`). When the whole plant fails, the loss of the outage is exact (`C121_outages`), but its spreading over the rows is not (C49, `C49_distribution_refuted`), so the whole-run statement excludes that case."
  },
  {
   "property": "C122",
   "status": "proved",
   "theorems": [
    "Verif.Chains.C122_insolation",
    "Verif.Chains.C122_perfect_clean",
    "Verif.Chains.C122_half_norm"
   ],
   "note": "`Spec.SoiledRecord` collects the hypotheses, `Spec.Follows` says what the system did. Without recentering the level is that of the model, so a nameplate or expected power is then required."
  },
  {
   "property": "C123",
   "status": "proved",
   "theorems": [
    "Verif.C123_line",
    "Verif.C123_propagation",
    "Verif.C123_best",
    "Verif.C123_unbiased",
    "Verif.C123_draws",
    "Verif.C123_exact",
    "Verif.C123_units",
    "Verif.C123_moving_average",
    "Verif.C123_classical"
   ],
   "note": "The squares of rmse and standard errors are modelled, since square roots leave the rational numbers. The decomposition of the covariance that numpy computes is a parameter with its defining equation (`Spec.IsRoot`); the theorems on exact records need that equation only for a vanishing covariance."
  },
  {
   "property": "C124",
   "status": "proved",
   "theorems": [
    "Verif.C124_average",
    "Verif.C124_defined",
    "Verif.C124_regular",
    "Verif.C124_times",
    "Verif.C124_rescaled"
   ],
   "note": "After a gap in an irregular record the value is the average over the whole gap (an `example` in Props/ClearskyPoa.lean shows it), since the interval is taken to reach back to the preceding timestamp. pvlib's simulation is a parameter."
  },
  {
   "property": "C125",
   "status": "proved",
   "theorems": [
    "Verif.C125_yoy",
    "Verif.C125_yoy_levels",
    "Verif.C125_yoy_negative",
    "Verif.C125_ols",
    "Verif.C125_classical",
    "Verif.C125_srr",
    "Verif.C125_srr_levels",
    "Verif.C125_annual",
    "Verif.C125_monthly",
    "Verif.Cods.C125_cods",
    "Verif.Cods.C125_cods_levels",
    "Verif.Cods.C125_soiling_cods"
   ],
   "note": "A negative level is accepted and gives the interval with its limits exchanged (`C125_yoy_negative`). If CODS finds a small soiling signal it ignores the level: the degradation interval is that of the default level of the year-on-year analysis, even for a level of 200 % (`C125_cods_levels`)."
  },
  {
   "property": "C126",
   "status": "proved",
   "theorems": [
    "Verif.Chains.C126_analysis",
    "Verif.C126_ranges",
    "Verif.C126_csi",
    "Verif.C126_insolation",
    "Verif.C126_two_way",
    "Verif.C126_hampel",
    "Verif.C126_tukey"
   ],
   "note": "The two filters for which a looser setting can drop points are C17 (quantile_clip_filter) and C79 (logic_clip_filter)."
  },
  {
   "property": "C127",
   "status": "proved",
   "theorems": [
    "Verif.C127_moved",
    "Verif.C127_backwards",
    "Verif.C127_hampel_local"
   ],
   "note": "The window of hampel_filter is half open, so it is not symmetric (example)."
  },
  {
   "property": "C128",
   "status": "proved",
   "theorems": [
    "Verif.C128_two_steps",
    "Verif.C128_two_steps_uneven_refuted",
    "Verif.C128_units"
   ],
   "note": "C128_two_steps_uneven_refuted shows that the coarse period has to consist of whole fine ones."
  },
  {
   "property": "C129",
   "status": "proved",
   "theorems": [
    "Verif.Avail.C129_subsystem",
    "Verif.Avail.C129_analysis"
   ],
   "note": "Whole analysis, with default or given thresholds and sizes."
  },
  {
   "property": "C130",
   "status": "proved",
   "theorems": [
    "Verif.C130_interpolate",
    "Verif.C130_energy",
    "Verif.Avail.C130_availability"
   ],
   "note": "Fixed-length target frequencies; calendar frequencies depend on the calendar by design (C107)."
  },
  {
   "property": "C131",
   "status": "partial",
   "theorems": [
    "Verif.C131_paired_partial",
    "Verif.C131_same_times",
    "Verif.C131_longer_periods_refuted"
   ],
   "note": "partial: proved for periods that divide a day, and for every frequency when the times agree; refuted for longer periods when the series start on different days (everything is NaN)."
  },
  {
   "property": "C132",
   "status": "proved",
   "theorems": [
    "Verif.C132_periods",
    "Verif.C132_chronological",
    "Verif.C132_every_sample",
    "Verif.C132_between",
    "Verif.C132_two_steps"
   ],
   "note": "All series; the calendar (months, leap years, centuries) is proved from the day numbers. The steps need insolation that is not negative."
  },
  {
   "property": "C133",
   "status": "proved",
   "theorems": [
    "Verif.Cods.C133_changes",
    "Verif.Cods.C133_days",
    "Verif.Cods.C133_recover",
    "Verif.Cods.C133_first_year",
    "Verif.Cods.C133_exists"
   ],
   "note": "All indexes, histories and dates; STL, lowess and the Dickey-Fuller test stay parameters."
  },
  {
   "property": "C134",
   "status": "proved",
   "theorems": [
    "Verif.Chains.C134_samples",
    "Verif.Chains.C134_kept",
    "Verif.Chains.C134_default"
   ],
   "note": "Both cases, all filters. Hampel's and Tukey's rules are those of C103; pvlib's detection and hour angles are parameters; the threshold of the two-way window filter is positive."
  },
  {
   "property": "C135",
   "status": "proved",
   "theorems": [
    "Verif.C135_pattern",
    "Verif.C135_pattern_recentred",
    "Verif.C135_trend",
    "Verif.C135_season",
    "Verif.C135_season_recentred",
    "Verif.C135_seasonal_exact"
   ],
   "note": "For recentred data and for the circular block method the statement is about the rate; the confidence interval of the circular block method is not covered (its residuals come from a moving average over the season)."
  },
  {
   "property": "C136",
   "status": "proved",
   "theorems": [
    "Verif.Chains.C136_clearsky",
    "Verif.Chains.C136_clearsky_regular",
    "Verif.Chains.C136_filter",
    "Verif.Chains.C136_finish",
    "Verif.Chains.C136_sensor",
    "Verif.Chains.C136_regular"
   ],
   "note": "The exact conditions for a new object are for the default filters; for other filters the statements about filtering and about everything after the normalization apply. The clear-sky filter function (pvlib) is not modelled: whether it runs is a condition."
  },
  {
   "property": "C137",
   "status": "proved",
   "theorems": [
    "Verif.Chains.C137_no_memory",
    "Verif.Chains.C137_repeat",
    "Verif.Chains.C137_clearsky_supersedes",
    "Verif.Chains.C137_shared_mask"
   ],
   "note": "The numerical functions of the environment are deterministic functions of their arguments (the bootstrap of the year-on-year analysis and the Monte Carlo of the soiling analysis for given random numbers)."
  },
  {
   "property": "C138",
   "status": "proved",
   "theorems": [
    "Verif.Cods.C138_error",
    "Verif.Cods.C138_refits",
    "Verif.Cods.C138_model"
   ],
   "note": "Exact characterization of the reported numbers from the refits, and of the series each realization refits. Fits and refits themselves are parameters (any behaviour); see C39 and C69 to C72 for them."
  },
  {
   "property": "C139",
   "status": "proved",
   "theorems": [
    "Verif.C139_bad_days",
    "Verif.C139_exact",
    "Verif.C139_noise"
   ],
   "note": "At the level of the interval table (DailyRows holds for every table of daily rows, C31). The validity of the interval is a hypothesis: noise may well make an interval invalid by the documented conditions (C32)."
  },
  {
   "property": "C140",
   "status": "proved",
   "theorems": [
    "Verif.Cods.C140_revised",
    "Verif.Cods.C140_call",
    "Verif.Cods.C140_late_event_keeps",
    "Verif.Cods.C140_late_event"
   ],
   "note": "Exact membership of the revised list, on the state of an iteration and on the call with one iteration; that an event in the last six days keeps all events is general (`C140_late_event_keeps`), with a witness that it matters."
  },
  {
   "property": "C141",
   "status": "partial",
   "theorems": [
    "Verif.Cods.C141_origin",
    "Verif.Cods.C141_unit_partial",
    "Verif.Cods.C141_unit_refuted"
   ],
   "note": "Origin: proved for every call. Unit: proved for the first run of the filter (C141_unit_partial); with revision of the events it is false (C141_unit_refuted): _forward_pass returns variances as rate_std and zs_std, and _initialize_univariate_model squares them again."
  },
  {
   "property": "C142",
   "status": "proved",
   "theorems": [
    "Verif.Cods.C142_run",
    "Verif.Cods.C142_small"
   ],
   "note": "The external routines (STL with lowess, year-on-year rate, Dickey-Fuller test, square root) are parameters; the season fit is assumed to return a value for each day. What the filter does with what it is given is C64 and C140, what _force_periodicity does C46."
  },
  {
   "property": "C143",
   "status": "proved",
   "theorems": [
    "Verif.Cods.C143_no_gain",
    "Verif.Cods.C143_returned",
    "Verif.Cods.C143_run",
    "Verif.Cods.C143_leading_gap",
    "Verif.Cods.C143_flat_refuted",
    "Verif.Cods.C143_error"
   ],
   "note": "The last sentence is a defect, not a guarantee one would want. For a flat index (no season and no degradation found by the other packages) the call never gives a result (C143_flat_refuted): the residuals are constant, the comparison of amplitudes divides by zero, and the weights have no error to work with. Not modelled: `renormalize_SR` in **kwargs (TypeError in the refits). External routines and random numbers are parameters."
  },
  {
   "property": "C144",
   "status": "proved",
   "theorems": [
    "Verif.Chains.C144_new",
    "Verif.Chains.C144_history",
    "Verif.Chains.C144_known",
    "Verif.Chains.C144_assign",
    "Verif.Chains.C144_assign_aggregated",
    "Verif.Chains.C144_supersedes"
   ],
   "note": "Edits through setdefault and |= are outside the histories (they bypass the check, see C52_bypass_refuted and C52_other_methods)."
  },
  {
   "property": "C145",
   "status": "partial",
   "theorems": [
    "Verif.C145_same",
    "Verif.C145_lost",
    "Verif.C145_actual_partial",
    "Verif.C145_actual_refuted"
   ],
   "note": "The last part is false (`C145_actual_refuted`): the increase of the meter between the last row of a short period and the first row of the next is in no short period; `C145_actual_partial` gives the exact difference. The model lists periods that contain a timestamp (see rollup)."
  },
  {
   "property": "C146",
   "status": "proved",
   "theorems": [
    "Verif.C146_values",
    "Verif.C146_cleanings",
    "Verif.C146_divided",
    "Verif.C146_valid"
   ],
   "note": "No hypothesis on the renormalization factor; the two runs may have any outlier factors when the threshold is given."
  },
  {
   "property": "C147",
   "status": "proved",
   "theorems": [
    "Verif.C147_later",
    "Verif.C147_accepted",
    "Verif.C147_earlier",
    "Verif.C147_within_a_day_refuted"
   ],
   "note": "Calendar with leap years included. The restriction to a day is needed: C147_within_a_day_refuted."
  },
  {
   "property": "C148",
   "status": "proved",
   "theorems": [
    "Verif.C148_interpolate",
    "Verif.C148_energy",
    "Verif.C148_energy_instantaneous",
    "Verif.C148_last_period_refuted",
    "Verif.C148_default_limit_refuted"
   ],
   "note": "Both exceptions are needed: C148_last_period_refuted and C148_default_limit_refuted."
  },
  {
   "property": "C149",
   "status": "proved",
   "theorems": [
    "Verif.C149_ols",
    "Verif.C149_classical",
    "Verif.C149_yoy",
    "Verif.C149_yoy_400",
    "Verif.C149_other_refuted"
   ],
   "note": "The frequency inferred by pandas is taken to be the same for the moved index. C149_other_refuted: moving four New Year samples by 366 days changes the rate from -1 to -1097/732 %/year."
  },
  {
   "property": "C150",
   "status": "proved",
   "theorems": [
    "Verif.C150_same",
    "Verif.C150_reference",
    "Verif.C150_first_row_refuted"
   ],
   "note": "C150_first_row_refuted: the same three readings give -25, -50/3 or -50 %/year depending on the first row of the table."
  },
  {
   "property": "C151",
   "status": "proved",
   "theorems": [
    "Verif.C151_no_new",
    "Verif.C151_hidden",
    "Verif.C151_rate_refuted"
   ],
   "note": "C151_rate_refuted: one empty row changes the rate of four readings from -1.98 to -1.49 %/year."
  },
  {
   "property": "C152",
   "status": "proved",
   "theorems": [
    "Verif.C152_factor"
   ],
   "note": "In exact arithmetic; floating-point sums may differ in the last digits with the order."
  }
 ]
}