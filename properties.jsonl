{"id": "C01", "title": "Insolation-weighted aggregation is a true weighted average", "statement": "For every aggregation period with at least one sample, non-negative insolation, no missing data and positive total insolation, aggregation_insol returns sum(insolation*energy)/sum(insolation), and that value lies between the smallest and the largest normalized energy in the period; a constant energy series is returned unchanged.", "quantifier": "all energy and insolation series, all aggregation frequencies and period boundaries", "why_tests_cant": "tests compare one hand-computed series; the bound must hold for every weighting and every series length", "anchors": ["rdtools/aggregation.py: aggregation_insol"]}
{"id": "C02", "title": "Aggregation is local and complete", "statement": "The value aggregation_insol reports for a period is a function only of the samples whose timestamps fall in that period; every sample falls in exactly one reported period; periods without samples are reported as missing (NaN), never as a number.", "quantifier": "all time-stamped series and all bin widths", "why_tests_cant": "requires the absence of influence from any other sample, over all series", "anchors": ["rdtools/aggregation.py: aggregation_insol"]}
{"id": "C03", "title": "Missing energy is not silently counted as zero energy", "statement": "A sample whose energy is missing but whose insolation is present should not pull the aggregated value below the values actually measured in the period.", "quantifier": "all series with missing energy samples", "why_tests_cant": "needs a search over missing-data patterns; the code violates it for some pattern", "anchors": ["rdtools/aggregation.py: aggregation_insol"]}
{"id": "C04", "title": "Robust statistics ignore the encoding of missing data", "statement": "robust_quantile, robust_median and robust_mean give the same answer whether night-time/missing samples of a non-negative series are encoded as NaN or as 0, the answer never falls outside the range of the samples kept, and it does not depend on the order of the samples.", "quantifier": "all non-negative series and quantile levels in [0,1]", "why_tests_cant": "A test fixes one series and one missing-data pattern; the claim is that no pattern of NaN and 0 entries, in any order and at any quantile level, changes the result.", "anchors": ["rdtools/utilities.py: robust_quantile, robust_median, robust_mean"]}
{"id": "C05", "title": "Energy conversion never invents energy over data gaps", "statement": "energy_from_power without resampling returns, for each timestamp after the first, power integrated over the interval that ends there (left/right mean for power_type instantaneous, right value for right_labeled), and reports NaN for every interval longer than max_timedelta; the first timestamp never carries energy.", "quantifier": "all power series with arbitrary (sorted) timestamps and arbitrary gap limits", "why_tests_cant": "The position, number and length of gaps are unbounded, and the limit may coincide with a gap length exactly; a finite set of series cannot cover the boundary cases for every limit.", "anchors": ["rdtools/normalization.py: energy_from_power"]}
{"id": "C06", "title": "Energy is conserved when power is converted at a coarser period", "statement": "For gap-free power data, the energies that energy_from_power reports for consecutive target periods add up to the integral of the power over the union of these periods, and splitting a period into two sub-periods gives energies that add up to the energy of the whole.", "quantifier": "all power series, all alignments of target periods with samples", "why_tests_cant": "Conservation has to hold for every alignment of sample intervals with target periods; partial overlaps at period borders come in unboundedly many forms.", "anchors": ["rdtools/normalization.py: energy_from_power, _aggregate"]}
{"id": "C07", "title": "Interpolation reproduces the measurements", "statement": "interpolate evaluated at a timestamp where the source series has a valid sample returns exactly this sample, for every max_timedelta at least as large as the spacing around it.", "quantifier": "all sorted series, all target indexes", "why_tests_cant": "Tests compare a few interpolated points; the claim quantifies over every series, every target index and every gap limit.", "anchors": ["rdtools/normalization.py: _interpolate_series, interpolate"]}
{"id": "C08", "title": "Interpolated values never leave the envelope of their neighbours and never bridge gaps", "statement": "Every non-missing value returned by interpolate lies between the two nearest valid source samples around its timestamp, those two samples are at most max_timedelta apart, and timestamps before the first or after the last valid sample are NaN.", "quantifier": "all series, target timestamps and gap limits", "why_tests_cant": "An overshoot or a bridged gap can occur at any one target time of any gap configuration, so sampling target times never excludes it.", "anchors": ["rdtools/normalization.py: _interpolate_series, interpolate"]}
{"id": "C09", "title": "Interpolating a DataFrame is interpolating its columns", "statement": "interpolate on a DataFrame gives for each column exactly what interpolate gives for that column alone, with the same index; mixing tz-aware and tz-naive indexes is refused with ValueError before anything is computed.", "quantifier": "all frames and target indexes", "why_tests_cant": "Absence of influence between columns is a non-interference property relating two runs; a test only shows it for the columns tried.", "anchors": ["rdtools/normalization.py: interpolate"]}
{"id": "C10", "title": "irradiance_rescale terminates and only returns converged factors", "statement": "irradiance_rescale with method iterative either raises ConvergenceError after at most max_iterations optimizations or returns factor*modelled irradiance where the last change of the factor does not exceed convergence_threshold (a change that is NaN does not exceed it); with method single_opt exactly one optimization is made; any other method raises ValueError.", "quantifier": "all behaviours of the numerical optimizer, all thresholds and iteration limits", "why_tests_cant": "the optimizer's outputs are unbounded; tests only see well-behaved runs", "anchors": ["rdtools/normalization.py: irradiance_rescale"]}
{"id": "C11", "title": "PVWatts normalization is independent of the unit of power and exact for the model itself", "statement": "Normalizing data generated by the PVWatts model itself gives exactly 1 wherever insolation is positive; scaling measured power scales normalized energy by the same factor; scaling the nameplate power scales it inversely.", "quantifier": "all irradiance, temperature and power values", "why_tests_cant": "An algebraic law (scaling, exactness) over all real inputs; samples cannot distinguish it from an approximation that agrees at the sampled points.", "anchors": ["rdtools/normalization.py: pvwatts_dc_power, normalize_with_pvwatts, normalize_with_expected_power"]}
{"id": "C12", "title": "Range filters accept exactly the documented range and reject missing values", "statement": "normalized_filter, poa_filter, tcell_filter and csi_filter return True exactly for the points strictly (csi: inclusively) inside the documented bounds, and False for every missing value; a bound given as None imposes no restriction on that side.", "quantifier": "all values including NaN and infinities, all bounds", "why_tests_cant": "The verdict must be right at every value of a continuum, at both boundaries for every choice of bounds, and for NaN and infinities.", "anchors": ["rdtools/filtering.py: normalized_filter, poa_filter, tcell_filter, csi_filter"]}
{"id": "C13", "title": "Statistical outlier filters do not depend on units", "statement": "two_way_window_filter, insolation_filter, hampel_filter, directional_tukey_filter and quantile_clip_filter return the same mask when the input series is multiplied by a positive constant.", "quantifier": "all series and scale factors", "why_tests_cant": "A metamorphic relation between two runs for every series and every positive scale factor.", "anchors": ["rdtools/filtering.py: two_way_window_filter, insolation_filter, hampel_filter, directional_tukey_filter, quantile_clip_filter"]}
{"id": "C14", "title": "two_way_window_filter rejects exactly the points far from both rolling medians", "statement": "For a positive threshold a point is rejected if and only if it is present, at least five present points lie in the window before it and five in the window after it (both inclusive), and it deviates from both window medians by at least the threshold times the 99th percentile of the series; missing points and points with too little data around them are always kept.", "quantifier": "all series", "why_tests_cant": "The verdict depends on two medians over windows clipped at either end of the series and on the missing-data pattern; all positions and patterns are meant.", "anchors": ["rdtools/filtering.py: two_way_window_filter"]}
{"id": "C15", "title": "Tukey fences are k inter-quartile ranges wide on both sides", "statement": "The Tukey fence used by directional_tukey_filter should reach k inter-quartile ranges below the first and above the third quartile.", "quantifier": "all series and all k", "why_tests_cant": "The asymmetric fence is invisible at the default k used by the tests and shows only for other values of k.", "anchors": ["rdtools/filtering.py: _tukey_fence, directional_tukey_filter"]}
{"id": "C16", "title": "Clip filter selection", "statement": "clip_filter runs exactly the model that was named (quantile, xgboost, logic) with the caller's keyword arguments and raises ValueError for any other name; a pd.Series in gives one mask with the input's index out.", "quantifier": "all model names and keyword arguments", "why_tests_cant": "Dispatch over all strings and keyword arguments; tests try the two or three documented names.", "anchors": ["rdtools/filtering.py: clip_filter"]}
{"id": "C17", "title": "Quantile clip filter keeps only points below the clipping level", "statement": "quantile_clip_filter accepts a point iff it lies below 99 % of the requested robust quantile of the series, never accepts missing data, and accepts at least the points it accepted under a lower quantile level.", "quantifier": "all series and quantile levels", "why_tests_cant": "The kept set must lie below the level for every series and quantile, including ties at the level and missing readings.", "anchors": ["rdtools/filtering.py: quantile_clip_filter"]}
{"id": "C18", "title": "Logic/xgboost clip filters validate their inputs in a fixed order", "statement": "The time-series clipping filters raise TypeError for an input whose index is not a DatetimeIndex, ValueError for an unknown mounting type, IndexError for unsorted timestamps and an exception for ten or fewer points; on every other input no such error is raised.", "quantifier": "all inputs of the validation routine", "why_tests_cant": "Which error is raised when several preconditions fail at once depends on the order of the checks over all combinations of violations.", "anchors": ["rdtools/filtering.py: _format_clipping_time_series"]}
{"id": "C19", "title": "Clear-sky limits stay inside the published table", "statement": "pvlib_clearsky_filter's look-up of clear-sky thresholds interpolates within the published table: for any sampling frequency the thresholds lie between the smallest and largest tabulated value, reproduce the table at the tabulated frequencies and are linear in between. Limits given by the caller reach the detection unchanged if no look-up is asked for, and the detection sees each timestamp of either series exactly once, in order.", "quantifier": "all sampling frequencies", "why_tests_cant": "Sampling frequencies form a continuum; an index one past the table end shows only at or beyond specific frequencies.", "anchors": ["rdtools/filtering.py: pvlib_clearsky_filter"]}
{"id": "C20", "title": "Year-on-year degradation does not depend on input order", "statement": "degradation_year_on_year returns the same degradation rate, confidence interval, exceedance level, year-on-year values and usage counts for every permutation of the rows of its input, provided no timestamp occurs twice.", "quantifier": "all series and all permutations of rows", "why_tests_cant": "There are factorially many row orders of a series of any length.", "anchors": ["rdtools/degradation.py: degradation_year_on_year"]}
{"id": "C21", "title": "Year-on-year pairs are one year apart", "statement": "A year-on-year value is reported at t exactly when there is a present sample at t and the sample whose one-year anniversary is the latest one not after t lies no more than 8 days before t and is present; the value is the difference of the recentred energies in percent per 365 days. No other pairs are used and no such pair is missed.", "quantifier": "all timestamp sets", "why_tests_cant": "The pairing searches arbitrary irregular timestamps across leap years; a wrong partner can occur at a single pair of dates.", "anchors": ["rdtools/degradation.py: degradation_year_on_year"]}
{"id": "C22", "title": "The reported degradation rate and its interval are bracketed by the data", "statement": "The degradation rate is the median of the year-on-year values; it, and with the simple bootstrap both confidence bounds and the exceedance level, lie between the smallest and largest year-on-year value, and the lower confidence bound never exceeds the upper one (also for circular_block, OLS and classical decomposition).", "quantifier": "all series and all bootstrap resamples", "why_tests_cant": "Rate and interval come from random resampling; the bracketing has to hold for every outcome of the generator.", "anchors": ["rdtools/degradation.py: degradation_year_on_year, _degradation_CI"]}
{"id": "C23", "title": "Year-on-year recovers a linear trend exactly and ignores units", "statement": "On data that falls on a straight line, for every sampling, the year-on-year rate equals the true slope in percent of the recentering value; multiplying all energies by a positive constant leaves every reported rate unchanged when recenter is on.", "quantifier": "all slopes, intercepts, sampling times and scale factors", "why_tests_cant": "Slopes, intercepts, sampling times and scale factors form a continuum, and exact recovery is an equality a sampled test only approximates.", "anchors": ["rdtools/degradation.py: degradation_year_on_year"]}
{"id": "C24", "title": "Usage count tells how often a point contributes", "statement": "usage_of_points is 0, 1 or 2 for every timestamp and counts the number of valid year-on-year values the timestamp takes part in.", "quantifier": "all series", "why_tests_cant": "Counts depend on the arbitrary pairing structure of the timestamps; the code undercounts in a corner case that ordinary data do not reach.", "anchors": ["rdtools/degradation.py: degradation_year_on_year"]}
{"id": "C25", "title": "Year-on-year refuses unusable data", "statement": "degradation_year_on_year raises ValueError exactly when the data is more than one sampling step short of two calendar years or when no year-on-year pair exists; for circular_block also when the index has no fixed frequency or the block is longer than a third of the data. With no or the simple uncertainty method it otherwise returns a result.", "quantifier": "all inputs", "why_tests_cant": "The claim is about every input that must be refused, and about the order of refusals when several reasons apply.", "anchors": ["rdtools/degradation.py: degradation_year_on_year"]}
{"id": "C26", "title": "OLS degradation is exact on exact data and unit independent", "statement": "degradation_ols on data lying exactly on a line with non-zero intercept returns 100*slope/intercept per year; its fitted line minimizes the sum of squared residuals; scaling the energies leaves the rate unchanged.", "quantifier": "all sample times, slopes and intercepts", "why_tests_cant": "Exactness on every line and independence of every unit quantify over a continuum of inputs.", "anchors": ["rdtools/degradation.py: degradation_ols"]}
{"id": "C27", "title": "Mann-Kendall statistic is a signed rank statistic", "statement": "The Mann-Kendall statistic is bounded by the number of pairs, changes sign when the series is negated or reversed, is invariant under strictly increasing transformations, a strictly increasing series attains the maximum, and a constant series is reported as no trend.", "quantifier": "all series of any length", "why_tests_cant": "The statistic ranges over all orderings of series of any length, with the sign reversing under reversal.", "anchors": ["rdtools/degradation.py: _mk_test"]}
{"id": "C28", "title": "Mann-Kendall variance is corrected for ties", "statement": "With tied values the variance used by the test is the tie-corrected variance (smaller than the untied one).", "quantifier": "all series with ties", "why_tests_cant": "The correction matters only for tied data, which the tests do not contain, and for every tie pattern.", "anchors": ["rdtools/degradation.py: _mk_test"]}
{"id": "C29", "title": "Classical decomposition removes an exactly seasonal component", "statement": "degradation_classical_decomposition's year-long centered moving average of a linear trend plus a component of period one year with zero mean is the linear trend itself, so the seasonal component does not bias the rate; missing data raises ValueError.", "quantifier": "all periodic components, slopes and lengths", "why_tests_cant": "Every periodic component of every admissible length must vanish, not the few shapes used in tests.", "anchors": ["rdtools/degradation.py: degradation_classical_decomposition"]}
{"id": "C30", "title": "Bootstrap resampling preserves the model signal", "statement": "A bootstrap sample built from the identity resampling of the residuals equals the original signal; for every resampling each sample value is model value combined with one of the observed residuals; an unknown decomposition type raises ValueError.", "quantifier": "all signals, models, resamplings", "why_tests_cant": "The resamples are random; the claim holds for every draw of block starts.", "anchors": ["rdtools/bootstrap.py: _make_time_series_bootstrap_samples, _construct_confidence_intervals"]}
{"id": "C31", "title": "Soiling intervals partition the days", "statement": "Every day of the analysed period belongs to exactly one soiling interval; interval boundaries are exactly the detected cleaning events; interval ids increase by one at each event.", "quantifier": "all daily series and all cleaning detections", "why_tests_cant": "A partition property over all patterns of cleaning events, including adjacent events and events on the first or last day.", "anchors": ["rdtools/soiling.py: SRRAnalysis._calc_daily_df"]}
{"id": "C32", "title": "Valid soiling intervals soil, invalid ones carry no slope", "statement": "Every interval reported as valid has a non-positive soiling rate with low <= rate <= high <= 0 and lasts longer than min_interval_length; every interval reported as invalid has zero rate and zero bounds.", "quantifier": "all data, all fits", "why_tests_cant": "Validity is decided from regression outcomes that range over all data; tests see a handful of intervals.", "anchors": ["rdtools/soiling.py: SRRAnalysis._calc_result_df"]}
{"id": "C33", "title": "Inferred recoveries and losses are physical", "statement": "The inferred recovery of each interval lies in [0,1]; soiling profile values never exceed 1 for every Monte Carlo method, every analysed day has one value per profile, and under perfect_clean each soiling interval starts from a clean state.", "quantifier": "all interval tables and all random draws", "why_tests_cant": "Recoveries and losses are drawn at random; physical bounds must hold for all draws, not the seeded ones.", "anchors": ["rdtools/soiling.py: SRRAnalysis._calc_result_df, SRRAnalysis._calc_monte"]}
{"id": "C34", "title": "Soiling ratio is an insolation-weighted mean of profiles", "statement": "Each Monte Carlo soiling ratio lies between the minimum and maximum of its soiling profile, the reported ratio is the median realization, and the reported interval brackets it for every confidence level.", "quantifier": "all profiles, insolation weights, confidence levels", "why_tests_cant": "A weighted mean of random profiles: bounds have to hold for every draw and every insolation weighting.", "anchors": ["rdtools/soiling.py: SRRAnalysis._calc_monte, SRRAnalysis.run"]}
{"id": "C35", "title": "Random-clean levels belong to their own interval", "statement": "In the random_clean method the constant level drawn for a group of invalid intervals lies between the end of the soiling interval before it and the start of the interval after it, and is assigned to the days of that group.", "quantifier": "all interval sequences and random draws", "why_tests_cant": "The result depends on set iteration order; it is wrong only for some patterns of group identifiers that a test would have to guess.", "anchors": ["rdtools/soiling.py: SRRAnalysis._calc_monte"]}
{"id": "C36", "title": "SRR refuses data without valid intervals", "statement": "SRR analysis raises NoValidIntervalError exactly when no interval satisfies the validity conditions, and ValueError for a method name it does not know (when there is a repetition to simulate) or input that is not daily.", "quantifier": "all daily series", "why_tests_cant": "Every series without a valid interval must be refused, whichever check would fail first.", "anchors": ["rdtools/soiling.py: SRRAnalysis.__init__, _calc_daily_df, _calc_result_df, run"]}
{"id": "C37", "title": "Annual soiling ratios are per-year insolation-weighted and bracketed", "statement": "annual_soiling_ratios reports one row per calendar year present in the profiles, each median is bracketed by its confidence bounds and lies within the range of that year's profile values; data outside the year has no influence.", "quantifier": "all profiles, insolation series and confidence levels", "why_tests_cant": "Years are cut out of random profiles; the bracket has to hold for all draws, calendar spans and confidence levels.", "anchors": ["rdtools/soiling.py: annual_soiling_ratios"]}
{"id": "C38", "title": "Monthly soiling rates allocate samples by overlap", "statement": "monthly_soiling_rates draws from an interval for a month iff the interval overlaps the month, in proportion to the overlapping days, the number of draws for a month is at least reps and less than reps plus the number of intervals used, and rates lie between the bounds of contributing intervals.", "quantifier": "all interval tables, months and reps", "why_tests_cant": "Intervals overlap months in unboundedly many ways, and the number of samples is rounded per overlap.", "anchors": ["rdtools/soiling.py: monthly_soiling_rates, _count_month_days"]}
{"id": "C39", "title": "CODS decomposition terminates within its iteration budget", "statement": "iterative_signal_decomposition performs at most max_iterations component fits, fits the components cyclically in the order given, and after switching off the perfect-cleaning assumption continues with the first component of the given order.", "quantifier": "all component fits and error histories", "why_tests_cant": "Termination within the budget has to hold for every history of fit errors, including ones that never converge.", "anchors": ["rdtools/soiling.py: CODSAnalysis.iterative_signal_decomposition"]}
{"id": "C40", "title": "CODS returns its best fit", "statement": "The soiling ratio returned by run_bootstrap should be that of the initial fit with the largest weight.", "quantifier": "all sets of initial fits", "why_tests_cant": "The mistake is only visible when the best fit is not the last one, which depends on data and random settings.", "anchors": ["rdtools/soiling.py: CODSAnalysis.run_bootstrap"]}
{"id": "C41", "title": "CODS bootstrap survives rejected initial fits", "statement": "If at least half of the initial fits pass the stationarity test then the bootstrap loop should be able to draw every sample it needs.", "quantifier": "all outcomes of the initial fits", "why_tests_cant": "It takes a partial failure of the sixteen initial fits, which the test data never produce.", "anchors": ["rdtools/soiling.py: CODSAnalysis.run_bootstrap"]}
{"id": "C42", "title": "CODS model weights form a probability distribution", "statement": "The weights are non-negative, sum to one, a smaller error gets a larger weight, and every bootstrapped soiling ratio/cleaning probability is within the range of the individual fits.", "quantifier": "all error vectors", "why_tests_cant": "The weights must be a distribution for every error vector, including equal and extreme errors.", "anchors": ["rdtools/soiling.py: CODSAnalysis.run_bootstrap"]}
{"id": "C43", "title": "soiling_cods reports ordered confidence intervals", "statement": "The soiling-ratio confidence interval returned by soiling_cods should have its lower bound first, bracket consistent with the soiling-loss interval.", "quantifier": "all results", "why_tests_cant": "The mapping 1-x reverses the order of the bounds; a test with fixed numbers only shows one result.", "anchors": ["rdtools/soiling.py: soiling_cods"]}
{"id": "C44", "title": "CODS cleaning-event collapsing terminates and thins events", "statement": "_collapse (used by CODS) terminates on every input, never reports more events than there are runs of candidate days, reports events only within f days of a candidate day, and reports none if there are no candidates.", "quantifier": "all boolean series, metrics, window sizes", "why_tests_cant": "Termination cannot be observed by a finite test, and thinning must hold for every event pattern.", "anchors": ["rdtools/soiling.py: _collapse_cleaning_events"]}
{"id": "C45", "title": "CODS soiling ratio is clipped", "statement": "With clip_soiling the soiling ratio returned by the Kalman step never exceeds 1, rates are zero wherever the ratio does not change, and days since cleaning are non-negative and zero at cleaning events.", "quantifier": "all filter outputs", "why_tests_cant": "The bound must hold for every output of the Kalman filter, whose values a test does not control.", "anchors": ["rdtools/soiling.py: CODSAnalysis._Kalman_filter_for_SR"]}
{"id": "C46", "title": "Seasonal component is periodic", "statement": "The seasonal component used by CODS has the same value on the same day of year in every year, and for a signal of more than 366 days equals the median over years of the smoothed signal on the first 365 days of every year (the 366th day of a leap year has no value).", "quantifier": "all signals and calendars", "why_tests_cant": "Periodicity across leap years and year ends concerns every calendar position of every signal.", "anchors": ["rdtools/soiling.py: _force_periodicity, _make_seasonal_samples"]}
{"id": "C47", "title": "Inverter-level losses are non-negative and vanish when everything is online", "statement": "AvailabilityAnalysis reports a non-negative subsystem power loss at every timestamp, zero whenever all subsystems are reporting above threshold, and never more than what the system power limit allows.", "quantifier": "all subsystem power matrices and limits", "why_tests_cant": "All outage patterns of any number of subsystems, for every combination of limits.", "anchors": ["rdtools/availability.py: _calc_loss_subsystem"]}
{"id": "C48", "title": "System outages are disjoint maximal runs", "statement": "Each reported outage is a maximal run of timestamps with all subsystems offline during daytime; reported outages are disjoint and ordered, and every such run is reported.", "quantifier": "all looks-offline patterns, including runs at either end of the data", "why_tests_cant": "All on/off patterns of any length; runs touching either end of the data are the ones mis-handled and are easy to miss.", "anchors": ["rdtools/availability.py: _calc_loss_system"]}
{"id": "C49", "title": "Outage classification and energy accounting", "statement": "An outage is classified as real, comms or unknown solely from the cumulative meter difference compared with the expected-energy band; comms outages have no loss; real outages have loss equal to expected minus measured energy, non-negative; the distributed power loss integrates to the outage's loss.", "quantifier": "all outages and error quantiles", "why_tests_cant": "Classification compares energies with error quantiles over a continuum of numeric outcomes, ties included.", "anchors": ["rdtools/availability.py: _calc_loss_system, _calc_error_distributions"]}
{"id": "C50", "title": "Availability is between zero and one and consistent", "statement": "The total loss is the sum of subsystem and system loss, the lost production of the periods adds up to the energy of the total loss, the actual production of the periods adds up to the increase of the meter, and availability = actual/(actual+lost) lies in [0,1] for non-negative production.", "quantifier": "all loss series and periods", "why_tests_cant": "Bounds must hold for every loss series and every reporting period, including periods without expected energy.", "anchors": ["rdtools/availability.py: _combine_losses"]}
{"id": "C51", "title": "Availability inputs are validated first", "statement": "Construction refuses mismatched indexes with ValueError, plot before run raises TypeError, and after any history of successful and failed calls of run the results are those of the last successful call, as if it had been the only one; a failed call changes no results.", "quantifier": "all call histories", "why_tests_cant": "A property of call histories: nothing may be computed or stored before validation, whatever was called before.", "anchors": ["rdtools/availability.py: AvailabilityAnalysis.__init__, run, plot"]}
{"id": "C52", "title": "Filter parameter dictionaries only ever hold known filters", "statement": "A filter-parameter dictionary accepts only known filter names through construction, item assignment and update, an attempted invalid change raises KeyError and leaves the dictionary unchanged, and pickling round-trips.", "quantifier": "all operation sequences on the dictionary", "why_tests_cant": "all histories of dict operations; some dict operations bypass the check", "anchors": ["rdtools/analysis_chains.py: ValidatedFilterDict"]}
{"id": "C53", "title": "A point is kept iff every enabled filter keeps it", "statement": "The combined filter of an analysis keeps a timestamp iff every enabled filter accepts it; a missing verdict counts as reject; enabling one more filter can only remove points; the order of filters is irrelevant.", "quantifier": "all filter configurations and component masks", "why_tests_cant": "There are exponentially many filter configurations, each with all masks; tests switch on one filter at a time.", "anchors": ["rdtools/analysis_chains.py: TrendAnalysis._filter, _aggregated_filter"]}
{"id": "C54", "title": "Missing inputs are reported before filtering", "statement": "Enabling a filter whose required input (irradiance, cell temperature, power, location) is absent raises ValueError naming the input; no result is stored.", "quantifier": "all configurations", "why_tests_cant": "All combinations of enabled filters and provided inputs; the failing combination has to be guessed by a test.", "anchors": ["rdtools/analysis_chains.py: TrendAnalysis._filter, _sensor_preprocess, _clearsky_preprocess"]}
{"id": "C55", "title": "Trend analysis never runs on less than two years of usable data", "statement": "Sensor and clear-sky analyses raise ValueError if the filtered data is empty or spans less than 730 days.", "quantifier": "all filtered series", "why_tests_cant": "The usable span depends on what filters leave over; every filtered timestamp set is meant.", "anchors": ["rdtools/analysis_chains.py: TrendAnalysis._filter_check"]}
{"id": "C56", "title": "Sensor and clear-sky analyses are independent", "statement": "The results dictionary holds an entry only for analyses that completed; running one analysis, in any order and any number of times, never alters the other's stored results; only requested analyses appear.", "quantifier": "all call histories including failing calls", "why_tests_cant": "Non-interference over call histories, including histories in which a call fails half-way.", "anchors": ["rdtools/analysis_chains.py: TrendAnalysis.sensor_analysis, clearsky_analysis"]}
{"id": "C57", "title": "Plot methods select the stored analysis", "statement": "plot_degradation_summary, plot_soiling and plot_pv_vs_irradiance accept exactly 'sensor' and 'clearsky' and raise ValueError otherwise, before touching results.", "quantifier": "all case strings and histories", "why_tests_cant": "Selection over all strings and all histories of stored results, including missing and stale ones.", "anchors": ["rdtools/analysis_chains.py: TrendAnalysis.plot_degradation_summary"]}
{"id": "C58", "title": "Clear-sky temperature look-up stays on the map", "statement": "For every latitude in [-90,90] and longitude in [-180,180] the look-up should hit a pixel of the temperature map.", "quantifier": "all coordinates and map sizes", "why_tests_cant": "Rounding at the edges of the map shows only for coordinates within half a cell of the border, for every map size.", "anchors": ["rdtools/clearsky_temperature.py: get_clearsky_tamb, _get_pixel_value"]}
{"id": "C59", "title": "Clear-sky temperature swings around the daily mean", "statement": "The temperature returned lies within 35 % of the day-night difference around the mean of day and night temperature, at every hour.", "quantifier": "all hours and temperatures", "why_tests_cant": "A law over a continuum of hours, temperatures and positions.", "anchors": ["rdtools/clearsky_temperature.py: _get_temperature"]}
{"id": "C60", "title": "Deprecation decorator is transparent", "statement": "A deprecated function returns exactly what the original returns for the same arguments, exactly one warning of the project's category is emitted per call, and pending with a scheduled removal is refused. The text is the documented sentence, or the message given with its fields filled in; a field that does not exist raises KeyError.", "quantifier": "all functions, arguments and message options", "why_tests_cant": "Transparency quantifies over all functions, arguments, results and exceptions.", "anchors": ["rdtools/_deprecation.py: deprecated, _generate_deprecation_message"]}
{"id": "C61", "title": "Version strings identify the checkout", "statement": "The rendered PEP 440 version of a clean tagged checkout is the tag itself, distance and dirtiness are reflected in the suffix, an error yields 'unknown', and an unknown style raises ValueError. The branch styles insert .dev0 exactly when the branch is not master, pep440-post is pep440-old with the hash appended, and the two git-describe styles differ only at a tag itself. The pep440-pre style is the tag with .post0.dev and the distance, or with the next post-release number for a post-release tag, and raises ValueError if other text follows .post.", "quantifier": "all version-control states", "why_tests_cant": "The version string has to identify every reachable version-control state: tags, distances, dirty trees, missing git, archives.", "anchors": ["rdtools/_version.py: render, render_pep440, get_versions"]}
{"id": "C62", "title": "CODS event detection follows the data", "statement": "A larger tuner never detects more cleaning events; with a non-negative tuner only rises of the rolling median are detected and at most a quarter of the days; the detection does not depend on the unit or offset of the signal; a constant signal has no cleaning and no soiling events. The soiling events likewise only grow with a smaller tuner, include every day that falls more than a soiling event does, and do not depend on unit or offset. A detected soiling event should be a fall of the signal.", "quantifier": "all signals with gaps, windows and tuners", "why_tests_cant": "Detection compares differences with data-dependent quantiles; every signal, gap pattern and tuner is meant.", "anchors": ["rdtools/soiling.py: _rolling_median_ce_detection, _soiling_event_detection"]}
{"id": "C63", "title": "CODS pruning of cleaning events keeps the best ones", "statement": "A larger pruning sensitivity value never prunes more; the event with the best performance after it is never pruned; if one event has no performance value none is pruned; equal performances are all kept.", "quantifier": "all lists of performances after events", "why_tests_cant": "Pruning thresholds are quantiles of the list itself; which entry is dropped depends on the entire list.", "anchors": ["rdtools/soiling.py: _find_numeric_outliers, CODSAnalysis._Kalman_filter_for_SR"]}
{"id": "C64", "title": "CODS Kalman estimates are consistent", "statement": "The filtered level of a day lies between the measurement and the prediction, a day without measurement continues the trend, every covariance (filtered and smoothed) is symmetric positive semidefinite, smoothing never increases it and never fails on a singular matrix; a constant signal is reproduced exactly.", "quantifier": "all signals, noise parameters, events", "why_tests_cant": "An invariant of a recursive filter over series of any length.", "anchors": ["rdtools/soiling.py: CODSAnalysis._forward_pass, _smooth_results, _initialize_univariate_model"]}
{"id": "C65", "title": "CODS cleaning events are only moved to better days", "statement": "The Kalman pass keeps an event, drops it, or moves it to the day of the largest rise in the eleven days around it; it never adds events, keeps them sorted and distinct, leaves other events and those at the edges alone; a series of events passed in is used if it has more than four events and the right length. According to the documentation a confirmed event removes the events around it.", "quantifier": "all event lists and signals", "why_tests_cant": "The list is modified while the loop runs over it; the outcome depends on the full history of modifications.", "anchors": ["rdtools/soiling.py: CODSAnalysis._set_control_input, _forward_pass, _Kalman_filter_for_SR"]}
{"id": "C66", "title": "CODS Kalman step terminates and succeeds", "statement": "For every series of at least 13 days with a value on the first and the last day the Kalman step returns a result after at most pruning_iterations passes.", "quantifier": "all signals, gaps, event lists and options", "why_tests_cant": "Termination and absence of errors for all inputs cannot be established by finitely many runs.", "anchors": ["rdtools/soiling.py: CODSAnalysis._Kalman_filter_for_SR"]}
{"id": "C67", "title": "CODS perfect cleaning restores the ratio to one", "statement": "With perfect_cleaning the soiling ratio is 1 at every cleaning event, and between events it is the level relative to the last event; without events it is 1 throughout.", "quantifier": "all signals and event lists", "why_tests_cant": "Every signal and event list; a single event position where the reset is missed falsifies it.", "anchors": ["rdtools/soiling.py: CODSAnalysis._Kalman_filter_for_SR"]}
{"id": "C68", "title": "CODS smoothing does not reach across cleaning events", "statement": "The smoothed estimate of a day depends only on the filtered estimates between the surrounding events; the day before an event and the last day are not smoothed.", "quantifier": "all filter outputs and event lists", "why_tests_cant": "Independence of the smoothed past from the data after a cleaning relates two runs for every event list.", "anchors": ["rdtools/soiling.py: CODSAnalysis._smooth_results"]}
{"id": "C69", "title": "CODS accepts every order that contains the soiling component", "statement": "iterative_signal_decomposition works for an order with 'SR' first or second (after removing 'Rd' if 'STL' is used) and enough iterations to reach it, and refuses an order without 'SR' with ValueError. An order with 'SR' third is documented as allowed but never gives a result.", "quantifier": "all orders, options, signals, outcomes of other packages", "why_tests_cant": "All orders and every exception path of the packages involved.", "anchors": ["rdtools/soiling.py: CODSAnalysis.iterative_signal_decomposition"]}
{"id": "C70", "title": "CODS components multiply to the performance index", "statement": "Wherever everything is known, soiling ratio times seasonal component times degradation trend times residual equals the index; total_model is their product times the mean residual; the soiling loss is the mean of one minus the ratio in percent.", "quantifier": "all signals, options, iteration histories", "why_tests_cant": "An invariant of the alternating fit, for any number of iterations and any outcome of the component fits.", "anchors": ["rdtools/soiling.py: CODSAnalysis.iterative_signal_decomposition"]}
{"id": "C71", "title": "CODS components are normalized", "statement": "The soiling ratio returned does not exceed one; the degradation trend is one on the first day and linear with the reported rate (or the trend of STL divided by its first value); the seasonal component stays one if it is not in the order.", "quantifier": "all signals, options, iteration histories", "why_tests_cant": "An invariant of the alternating fit, for any number of iterations and any outcome of the component fits.", "anchors": ["rdtools/soiling.py: CODSAnalysis.iterative_signal_decomposition"]}
{"id": "C72", "title": "CODS handles a flat performance index", "statement": "A constant performance index (no soiling at all) should be decomposed into constant components.", "quantifier": "all constant series, orders with 'SR' and options", "why_tests_cant": "All constant series of any length under all options; division by a vanishing spread shows only on such data.", "anchors": ["rdtools/soiling.py: CODSAnalysis.iterative_signal_decomposition"]}
{"id": "C73", "title": "CODSAnalysis stores the given series", "statement": "The stored index is the given daily series without its leading missing days, every value keeps its day, and the first stored day has a value if any has. A series without daily frequency is refused with ValueError.", "quantifier": "all series", "why_tests_cant": "All series with gaps anywhere, also before the first reading.", "anchors": ["rdtools/soiling.py: CODSAnalysis.__init__"]}
{"id": "C74", "title": "CODS bootstrap intervals are ordered and within the refits", "statement": "With bootstrapping every reported interval (daily soiling ratio, rates, seasonal component and model; degradation rate; soiling loss) has its lower end first; estimates and ends of the degradation rate and soiling loss lie within the range of the accepted refits.", "quantifier": "all outcomes of fits and refits, confidence levels, numbers of realizations", "why_tests_cant": "All outcomes of sixteen fits and any number of random refits, at every confidence level.", "anchors": ["rdtools/soiling.py: CODSAnalysis.run_bootstrap"]}
{"id": "C75", "title": "logic_clip_filter is total on valid series", "statement": "For every series with more than ten readings, a sorted unique index and a known mounting type the filter returns one flag per reading; otherwise (ten readings or fewer, unknown mounting type) it raises. A missing reading is never marked as clipping.", "quantifier": "all series, cutoffs, rolling windows", "why_tests_cant": "Absence of errors on every series, cutoff and window length; tests run a handful of files.", "anchors": ["rdtools/filtering.py: logic_clip_filter, _format_clipping_time_series"]}
{"id": "C76", "title": "logic_clip_filter does not depend on the unit", "statement": "Multiplying the power by a positive constant (W to kW, power to energy) leaves the mask unchanged.", "quantifier": "all series, units, cutoffs, windows", "why_tests_cant": "A metamorphic relation between two runs for every series and unit.", "anchors": ["rdtools/filtering.py: logic_clip_filter, _calculate_max_rolling_range, _apply_overall_clipping_threshold"]}
{"id": "C77", "title": "logic_clip_filter treats equal readings of a day alike", "statement": "Two readings of the same day with the same value get the same flag.", "quantifier": "all series, cutoffs, windows", "why_tests_cant": "Relates every pair of equal readings of a day in every series.", "anchors": ["rdtools/filtering.py: logic_clip_filter"]}
{"id": "C78", "title": "logic_clip_filter keeps everything without a plateau", "statement": "With a cutoff of zero or less, or if the series has no plateau (no flat run of readings above a tenth of the daily maximum), nothing is marked as clipping.", "quantifier": "all series, windows", "why_tests_cant": "The absence of false positives has to be shown for every series without a plateau.", "anchors": ["rdtools/filtering.py: logic_clip_filter"]}
{"id": "C79", "title": "logic_clip_filter: a higher cutoff marks more readings", "statement": "According to the documentation, the higher the cutoff, the more values are determined as clipping.", "quantifier": "all series, pairs of cutoffs, windows", "why_tests_cant": "Relates two runs with different cutoffs on every input; the documented monotonicity fails for particular shapes only.", "anchors": ["rdtools/filtering.py: logic_clip_filter"]}
{"id": "C80", "title": "logic_clip_filter marks the plateaus", "statement": "On a regular series every excluded reading is within 2.5 % of a plateau reading of the same day (or at the overall plateau level), and the top of every plateau of a day is excluded, as is the whole plateau if the day's plateau readings are close to each other; the default window lasts the documented time. On a series sampled more often than every ten minutes the same holds for plateaus of quarter-hour medians: excluded are exactly the readings at the plateau levels of their day (and those at the overall plateau level), and a day without such a plateau loses nothing else.", "quantifier": "all regular series of at least ten-minute steps, all increasing series with prevailing steps below ten minutes, cutoffs, windows", "why_tests_cant": "Soundness and completeness of a detector against a definition of plateau: a test only compares selected series.", "anchors": ["rdtools/filtering.py: logic_clip_filter, _calculate_max_rolling_range"]}
{"id": "C81", "title": "The clipping filters warn about variable sampling and only then", "statement": "A warning is given if less than 95 % of the series is sampled at one interval, and none is given for a regularly sampled series.", "quantifier": "all indexes", "why_tests_cant": "The threshold compares counts of steps with the number of readings; it errs for particular lengths only.", "anchors": ["rdtools/filtering.py: _check_data_sampling_frequency"]}
{"id": "C82", "title": "xgboost_clip_filter is total on valid series", "statement": "For every sorted series of more than ten readings with a known mounting type the filter returns one flag per reading, whatever the trained model predicts; otherwise it raises. A missing reading is never marked as clipping.", "quantifier": "all series, all trained models", "why_tests_cant": "Absence of errors on every series and for every trained model; tests use the one shipped model.", "anchors": ["rdtools/filtering.py: xgboost_clip_filter, _format_clipping_time_series"]}
{"id": "C83", "title": "xgboost_clip_filter does not depend on unit or offset", "statement": "Replacing the power by a positive multiple plus a constant leaves the mask unchanged.", "quantifier": "all series, units, offsets, trained models", "why_tests_cant": "A metamorphic relation between two runs for every series, unit, offset and trained model.", "anchors": ["rdtools/filtering.py: xgboost_clip_filter, _calculate_xgboost_model_features"]}
{"id": "C84", "title": "xgboost_clip_filter excludes only high readings near predicted clipping", "statement": "An excluded reading is at least 10 % of the range above the minimum, at least 95 % (90 % for sampling below five minutes) of every reading of its day, and between the least predicted reading and 1.0025 times the greatest one; a predicted reading near the daily maximum is excluded; nothing is excluded if nothing is predicted or the series is constant; readings of a day between two excluded ones are excluded.", "quantifier": "all series, trained models", "why_tests_cant": "What is excluded depends on the predictions of the model; the bound must hold for every prediction.", "anchors": ["rdtools/filtering.py: xgboost_clip_filter"]}
{"id": "C85", "title": "xgboost_clip_filter leaves days without predicted clipping alone", "statement": "Readings are excluded between the levels found for clipping each day, so that on a day on which the model predicts no clipping nothing is excluded.", "quantifier": "all series, trained models", "why_tests_cant": "Days without predicted clipping can lie anywhere relative to days with it; the failure needs a particular order of days.", "anchors": ["rdtools/filtering.py: xgboost_clip_filter"]}
{"id": "C86", "title": "The clipping model only sees complete inputs in range", "statement": "Every row handed to the trained model is free of missing values, has scaled values and averages between 0 and 1 and at most the daily maximum, slopes between -1 and 1, ordered rolling statistics, a frequency of at least five minutes and the right mounting flag.", "quantifier": "all series", "why_tests_cant": "No row outside the range or with a missing feature may reach the model, for every series.", "anchors": ["rdtools/filtering.py: _calculate_xgboost_model_features, xgboost_clip_filter"]}
{"id": "C87", "title": "The degradation summary figure shows the analysed data", "statement": "Every reading is drawn once at its own time divided by the recentering factor; the histogram shows exactly the year-on-year values, with the reported rate; the line starts and ends where the reported rate puts it; with default settings the figure can be drawn for every result, and each reading has the colour of the number of year-on-year comparisons it takes part in.", "quantifier": "all year-on-year results, all energy series, all numbers of bins", "why_tests_cant": "Tests draw one figure and only check that it is returned; whether each point and colour is the right one depends on order, length and gaps of the series.", "anchors": ["rdtools/plotting.py: degradation_summary_plots"]}
{"id": "C88", "title": "The degradation time series figure shows running medians", "statement": "Every year-on-year value has one point of the trend at its own time; the value is the median of the values in the preceding window and depends on nothing outside it; the horizontal line is the reported rate; the band is drawn exactly where the trend is, its edges are the 2.5 and 97.5 % quantiles of the medians of 100 resamples of the window, lie in the range of the window, and the lower one is not above the upper one; regular data of any sampling give a trend.", "quantifier": "all year-on-year results, windows, random draws", "why_tests_cant": "The band is random and the trend depends on the sampling of the data; a test sees one draw of one series.", "anchors": ["rdtools/plotting.py: degradation_timeseries_plot"]}
{"id": "C89", "title": "The availability figure shows the analysis", "statement": "After a successful run a figure can be drawn. It shows the inputs unchanged, the total loss, and one curve per reported outage over exactly the timestamps of the outage; the curve ends at the meter reading before the outage plus the reported expected energy; the error bar spans the reported confidence interval. Before any run, or after a first run that failed before the losses were known, it raises TypeError.", "quantifier": "all inputs and settings for which the analysis succeeds", "why_tests_cant": "Whether the bar spans the interval depends on the sign of both error quantiles, which a sample of data sets does not cover.", "anchors": ["rdtools/plotting.py: availability_summary_plots", "rdtools/availability.py: AvailabilityAnalysis.plot"]}
{"id": "C90", "title": "The soiling figures show the analysis", "statement": "Every reading is drawn once divided by the recentering factor; as many profiles are drawn as asked for, all by default, none above one; the interval figure draws one point per day of each valid interval, starting at one and falling by the reported rate; the rate histogram has one entry per valid interval and none is positive.", "quantifier": "all inputs, settings and random draws for which the analysis succeeds", "why_tests_cant": "The claims range over all data sets, validity patterns of the intervals and random draws.", "anchors": ["rdtools/plotting.py: soiling_monte_carlo_plot, soiling_interval_plot, soiling_rate_histogram"]}
{"id": "C91", "title": "The filter tuning figure shows every reading with its own verdict", "statement": "Every reading appears exactly once at its own time and with its own value, coloured by the verdict of the mask for its timestamp, whatever the order of the mask and whatever the names of the series.", "quantifier": "all series, masks and names", "why_tests_cant": "Alignment by label and clashes of names only show for particular orders and names.", "anchors": ["rdtools/plotting.py: tune_filter_plot"]}
{"id": "C92", "title": "The energy against irradiance figure pairs readings of the same time", "statement": "A point is drawn exactly for two readings with the same timestamp; without duplicate timestamps every common timestamp gives exactly one point.", "quantifier": "all pairs of series", "why_tests_cant": "The alignment has to be right for every overlap of two indexes, including disjoint ones.", "anchors": ["rdtools/analysis_chains.py: TrendAnalysis.plot_pv_vs_irradiance"]}
{"id": "C93", "title": "logic_clip_filter excludes exactly the readings at plateau levels", "statement": "On series without days of nearly constant readings (and, for sampling below ten minutes, without negative readings) a reading is marked as clipping if and only if it belongs to the plateau levels of its day, or the high quantiles of all readings and of those at plateau levels agree within 0.5 %, more than 4 % of the readings are at plateau levels, and the reading is at least the high quantile of all readings. The levels are the least and greatest plateau reading of the day, for sampling below ten minutes two robust quantiles of the plateau readings.", "quantifier": "all regular series of at least ten-minute steps, all increasing series with prevailing steps below ten minutes, cutoffs, windows", "why_tests_cant": "An equivalence over all readings of all series: a test can show neither that nothing else is excluded nor that the overall rule applies exactly when it should.", "anchors": ["rdtools/filtering.py: logic_clip_filter, _apply_overall_clipping_threshold"]}
{"id": "C94", "title": "The clipping model is asked the published questions", "statement": "Every row handed to the trained model carries the scaled reading, its differences to both neighbours, the moving average and its differences, the relative range of the following readings, the daily maximum and the share of it, and the mean, variance, median, minimum and maximum of the slopes around the reading, with windows of five, three or two rows depending on the sampling interval. Every reading with a complete neighbourhood gives a row unless it and the readings that follow in its window are all at the minimum.", "quantifier": "all series, sampling intervals, mounting types", "why_tests_cant": "A feature computed from the wrong neighbour or over the wrong window still gives plausible predictions on test data; the equations must hold for every row of every frame.", "anchors": ["rdtools/filtering.py: _calculate_xgboost_model_features, xgboost_clip_filter"]}
{"id": "C95", "title": "Recentering makes the first year the reference", "statement": "With recentering, the renormalization factor soiling_srr reports is the median of the present performance values of the first year, that is the first day with a value and the 364 days after it; without, it is one. The normalized performance of every analysed day is its performance divided by the factor, so that the median of the first year becomes one.", "quantifier": "all daily performance series with missing days anywhere, all options", "why_tests_cant": "Where the first year ends and which days count only shows for particular combinations of leading gaps and record lengths.", "anchors": ["rdtools/soiling.py: SRRAnalysis._calc_daily_df, soiling_srr"]}
{"id": "C96", "title": "soiling_srr does not depend on units", "statement": "With recentering, multiplying the performance by any nonzero factor, the insolation by any nonzero factor, and precipitation and its threshold by any positive factor changes nothing in the outcome of soiling_srr but the reported renormalization factor: same soiling ratio, interval, exceedance level, interval table and profiles, same exceptions.", "quantifier": "all series, options, methods, random numbers, factors", "why_tests_cant": "Relates two runs for every input and every random outcome; unit tests compare a handful of numbers for one input.", "anchors": ["rdtools/soiling.py: soiling_srr, SRRAnalysis"]}
{"id": "C97", "title": "soiling_srr does not depend on the calendar", "statement": "Moving all series by the same time span moves all dates of the outcome of soiling_srr by that span and changes nothing else: no effect of leap days, month ends, years or the time of day of the daily timestamps.", "quantifier": "all series, options, methods, random numbers, time spans", "why_tests_cant": "Relates two runs for every input and every shift; tests have one calendar period.", "anchors": ["rdtools/soiling.py: soiling_srr, SRRAnalysis"]}
{"id": "C98", "title": "soiling_srr detects cleaning events by the documented rule", "statement": "The step reported for a day is the difference between the rolling medians of that day and the day before, each over day_scale days of normalized performance around it in which missing days take the latest value up to day_scale days old. A day starts a new soiling interval iff its step exceeds the threshold (the given one or the upper Tukey fence of the sizes of all steps) and/or it rained more than the rain threshold, as the criterion says, with rain on a neighbouring day sufficing for 'precip_and_shift', or the day borders an outage longer than day_scale days.", "quantifier": "all daily series with gaps, all thresholds, window lengths, criteria and precipitation series", "why_tests_cant": "An equivalence for every day of every series, with quartiles of all steps, windows at both ends and gaps of every length.", "anchors": ["rdtools/soiling.py: SRRAnalysis._calc_daily_df"]}
{"id": "C99", "title": "Availability losses follow the documented rules exactly", "statement": "A subsystem counts as reporting in a row iff its power (missing counts as zero) exceeds the given threshold, by default a thousandth of the 99 % quantile of its own record. There is a subsystem loss iff some subsystem does not report and the meter is below the full power extrapolated from the reporting ones by more than three quarters of the smallest missing share; the loss is then what the meter lacks to full power, bounded by the reporting share and by power_system_limit. The expected power is rescaled by one factor so that it agrees with the meter in total over the rows of normal operation (no loss, meter and expectation positive); the error bounds of an outage are interpolated, at its number of daylight rows, from the requested quantiles of the relative error of all windows of 2, 4, 8, ... consecutive normal rows.", "quantifier": "all power and energy tables with gaps, all thresholds, sizes, limits and quantiles", "why_tests_cant": "Strict or weak inequalities, missing sizes, ties and window boundaries matter only for particular rows; the rule is an equivalence for every row of every table.", "anchors": ["rdtools/availability.py: AvailabilityAnalysis._calc_loss_subsystem, _calc_error_distributions, _calc_loss_system"]}
{"id": "C100", "title": "The rate of a soiling interval is the Theil-Sen estimate", "statement": "The soiling rate of a valid interval is the median of the slopes of all pairs of its days with positive performance, each pair counted once; its confidence bounds are the slopes at the documented ranks, rounded half to even, the upper one capped at zero; the inferred losses lie on the line of that slope through the medians. Performance that falls exactly on a declining straight line is recovered exactly: the interval is valid and rate, bounds and losses are those of the line.", "quantifier": "all daily tables, all options, every number of days in the interval", "why_tests_cant": "Median and rank conventions differ between even and odd numbers of pairs and at ties; the statement must hold for every interval length.", "anchors": ["rdtools/soiling.py: SRRAnalysis._calc_result_df"]}
{"id": "C101", "title": "irradiance_rescale fits the modelled irradiance to the clear rows", "statement": "The iterative method returns one factor times the modelled irradiance. The factor is the ratio of the 90 % quantiles, accepted because it is within the threshold of 1, or the outcome of an optimization that changed it by at most the threshold and whose squared error on the rows counted as clear is not larger than before; with an optimizer that finds minima it is the least-squares factor of these rows. If the measurement is a positive multiple of the model, the result equals the measurement. If both 90 % quantiles are zero the result has no values.", "quantifier": "all pairs of series with missing values, thresholds, iteration limits and optimizers that are never worse than their start", "why_tests_cant": "Which rows count as clear changes with the factor; the claim holds for every data set and every conforming optimizer.", "anchors": ["rdtools/normalization.py: irradiance_rescale"]}
{"id": "C102", "title": "The clear-sky temperature at a time does not depend on the period asked for", "statement": "get_clearsky_tamb gives at each time the value of the daily cycle in solar time around the mean of the day and night values, which are windowed means of the monthly values around the neighbouring midnights; two calls for overlapping periods agree on the overlap. Where the map has no values nothing is returned and a warning is given. The frequency is that of the index, else the inferred one, else that of the first ten times, with a warning.", "quantifier": "all increasing times in a zone with fixed offset, frequencies dividing a day, places, maps, smoothing windows", "why_tests_cant": "Padding at both ends of the requested period must be long enough for every period; a test asks for one period.", "anchors": ["rdtools/clearsky_temperature.py: get_clearsky_tamb"]}
{"id": "C103", "title": "hampel_filter and directional_tukey_filter keep exactly the documented points", "statement": "hampel_filter keeps a reading iff it is present and its distance from the median of the readings around it is at most t0 times 1.4826 times the median of such distances in the same window. directional_tukey_filter keeps a reading iff its deviation from the median of the readings after it, or of those before it, lies strictly between the Tukey fences of all such deviations; windows with fewer than five present readings count as failed.", "quantifier": "all series with gaps, missing values and ties, all window lengths and factors", "why_tests_cant": "An equivalence for every reading of every series; edges of windows, ties and missing values decide single readings.", "anchors": ["rdtools/filtering.py: hampel_filter, directional_tukey_filter, _tukey_fence"]}
{"id": "C104", "title": "The year-on-year intervals are percentiles of refits", "statement": "With uncertainty_method 'simple' the confidence bounds and the exceedance level of degradation_year_on_year are the requested percentiles of the medians of the samples drawn from the year-on-year values. With 'circular_block' they are the percentiles of the rates degradation_year_on_year finds, without recentering, on the series obtained by dividing the recentred data by the straight line of the reported rate, resampling the quotients in circular blocks of consecutive rows, and multiplying back.", "quantifier": "all series without duplicate timestamps, confidence levels, block lengths and random draws", "why_tests_cant": "Relates the result to refits for every random outcome; tests only look at the scale of an interval.", "anchors": ["rdtools/degradation.py: degradation_year_on_year", "rdtools/bootstrap.py: _make_time_series_bootstrap_samples, _construct_confidence_intervals"]}
{"id": "C105", "title": "The availability analysis does not depend on units", "statement": "If the system power, the subsystem powers, the meter readings, the power limit and any given thresholds are multiplied by one positive constant, and the expected power by another one, AvailabilityAnalysis.run has the same outcome, reports the same periods with the same availability and the same outages with the same classification, and all losses and energies are multiplied by the first constant. In particular the expected power needs no calibration: multiplying it by a positive constant changes no result.", "quantifier": "all inputs with missing values, all arguments, every positive factor", "why_tests_cant": "A relation between two runs for every input and every pair of factors; comparisons at a boundary could depend on the unit.", "anchors": ["rdtools/availability.py: AvailabilityAnalysis.run"]}
{"id": "C106", "title": "The availability analysis counts no loss twice", "statement": "If no expected power is negative, at every row where a loss is charged to a system outage none is charged to subsystem outages, so the total loss is one of the two, and the warning of simultaneous losses is not given. The warning is given exactly if some row has a positive loss of both kinds.", "quantifier": "all inputs without negative expected power, all arguments of a successful run, every row", "why_tests_cant": "The two losses are computed from different inputs and outages are extended over nights; exclusion must hold for every pattern of reporting.", "anchors": ["rdtools/availability.py: AvailabilityAnalysis._combine_losses, AvailabilityAnalysis._calc_loss_subsystem, AvailabilityAnalysis._calc_loss_system"]}
{"id": "C107", "title": "Energy per calendar period is the integral of power over that period", "statement": "energy_from_power with a calendar frequency whose periods are longer than the sampling (month, quarter or year starts) returns, in order and labelled by its end, one value for each calendar period that starts on or after the day of the first timestamp, up to the period after that of the last timestamp: the sum of right-labeled power times time over the parts of the period that are covered by intervals of at most max_timedelta; periods without such parts are NaN. For gap-free data the energies add up to the energy of the power series.", "quantifier": "all power series with increasing timestamps, missing values and a median step below 28 days, periods of any number of months, all gap limits", "why_tests_cant": "Months have different lengths and any offset to the data; the sum must come out for every position of the first sample in its period.", "anchors": ["rdtools/normalization.py: energy_from_power, _aggregate"]}
{"id": "C108", "title": "An analysis does not depend on the unit of the power", "statement": "If the measured power (or energy), the expected power if one is passed and the nameplate power if one is passed are all multiplied by one positive constant, the TrendAnalysis constructor succeeds or raises as before, and every subsequent sequence of calls (set_clearsky, filter settings, sensor_analysis, clearsky_analysis) returns or raises as before and stores the same filters, aggregated performance, aggregated insolation and results. Without a nameplate power, only the measurements have to be multiplied.", "quantifier": "All measurement series, all constructor arguments, all positive constants, all sequences of calls, all three clipping filters and all weather, aggregation, degradation and soiling functions.", "why_tests_cant": "It is a relation between two whole sessions over all data and all call histories; tests compare single runs to stored numbers.", "anchors": ["rdtools/analysis_chains.py: TrendAnalysis.__init__, _pvwatts_norm, _filter, sensor_analysis, clearsky_analysis", "rdtools/normalization.py: normalize_with_pvwatts, normalize_with_expected_power, energy_from_power", "rdtools/filtering.py: clip_filter"]}
{"id": "C109", "title": "Level of the normalized energy without a nameplate power", "statement": "When TrendAnalysis has no power_dc_rated, the PVWatts-normalized energy is divided by one positive number, the 95 % quantile of the finite values above one thousandth of the 95 % quantile of all finite values; the result has level one by the same measure, infinite and missing values stay out, the insolation is unchanged. Without any finite value all values are missing.", "quantifier": "All energy, irradiance and temperature series whose 95 % quantile of normalized values is not negative and that contain a positive value.", "why_tests_cant": "A statement about a data-dependent quantile of every possible series.", "anchors": ["rdtools/analysis_chains.py: TrendAnalysis._pvwatts_norm", "rdtools/utilities.py: robust_quantile"]}
{"id": "C110", "title": "Insolation-weighted aggregation reports calendar periods that do not move as the record grows", "statement": "The periods returned by aggregation_insol are exactly the consecutive periods, counted from midnight of the day of the earliest sample, from the one holding the earliest sample to the one holding the last, in chronological order. When the period divides a day (including the default daily one) the boundaries are those of the clock, whatever the record, and adding samples outside a period leaves its reported value unchanged.", "quantifier": "Every record of insolation and normalized energy in any order, with any gaps, every fixed-length frequency; every extension of the record by samples outside a period.", "why_tests_cant": "The claim compares the output for a record with the output for every extension of it; tests try one record and one frequency.", "anchors": ["rdtools/aggregation.py: aggregation_insol"]}
{"id": "C111", "title": "Year-on-year degradation tolerates noise and outliers", "statement": "If every value passed to degradation_year_on_year is within e of a straight line of slope b per 365 days, then the reported rate, every year-on-year value, and (for the default uncertainty method) both ends of the confidence interval and the exceedance level are within 200*e/k percentage points of 100*b/k, where k is the reported recentering factor. If more than half of the year-on-year values lie in some range, the reported rate lies in that range whatever the remaining values are.", "quantifier": "Every series without duplicate timestamps (any order, any sampling, any gaps, any calendar dates), every noise level, every line; every possible set of outlying year-on-year values; every bootstrap draw.", "why_tests_cant": "Noise tolerance is a bound over every perturbation of the data; a test with random noise shows one perturbation.", "anchors": ["rdtools/degradation.py: degradation_year_on_year"]}
{"id": "C112", "title": "Energy is linear and monotone in power", "statement": "energy_from_power applied to a linear combination of two power series that share their timestamps and missing readings gives the same combination of their energies and fails exactly when one of them fails (so the energy of a plant is the sum of the energies of its parts); which intervals are reported missing depends only on where readings are missing; power that is never negative gives energy that is never negative; a series that is never below another gives energy never below the other's in any interval. interpolate is linear in the same sense.", "quantifier": "Every pair of power series with the same timestamps and missing readings, every pair of weights, every target frequency, gap limit and power type, every sign pattern.", "why_tests_cant": "A relation between the results for three different inputs, for every choice of readings; tests compare single inputs with fixed numbers.", "anchors": ["rdtools/normalization.py: energy_from_power, interpolate"]}
{"id": "C113", "title": "A sensor or clear-sky analysis recovers the degradation of a system that follows its model", "statement": "If the measured energy equals the energy of the model (PVWatts or the expected power) times a straight line in time, up to a relative error eps, in every interval that the filters accept within a period that they keep (elsewhere it may be anything), then every sensor_analysis or clearsky_analysis that completes stores a year-on-year rate that differs from the slope (in percent of the reference level) by no more than 200*eps plus the drift within one aggregation period, relative to the reference level; the reference level lies between the ratios of the first year; every stored performance value lies between the smallest and the largest ratio of measured to modelled energy among the accepted intervals of its period.", "quantifier": "every TrendAnalysis configuration (measured or clear-sky irradiance, PVWatts or expected power, measured energy or power), every choice of filters and keyword arguments besides normalized_filter being on, every record, every slope and noise level", "why_tests_cant": "A test runs the chain on one simulated system with a few filters; that no filter, interpolation, aggregation or reference choice can bias the rate beyond the noise is a statement about all systems and all configurations.", "anchors": ["rdtools/analysis_chains.py:TrendAnalysis.sensor_analysis", "rdtools/analysis_chains.py:TrendAnalysis.clearsky_analysis", "rdtools/analysis_chains.py:TrendAnalysis._sensor_preprocess", "rdtools/analysis_chains.py:TrendAnalysis._clearsky_preprocess", "rdtools/degradation.py:degradation_year_on_year"]}
{"id": "C114", "title": "The performance an analysis stores is the insolation-weighted mean of what its filters accepted", "statement": "After the preprocessing of a sensor or clear-sky analysis the stored aggregated performance has regular, increasing timestamps, and a period has a value in it exactly if the stored aggregated filter accepts the period and the samples accepted by the stored filter have nonzero insolation in it; the value is their normalized energy averaged with insolation as weight. No accepted period is lost and no rejected sample or period contributes.", "quantifier": "every TrendAnalysis configuration and record, every combination of filters and keyword arguments, every aggregation frequency that divides a day or is a whole number of days", "why_tests_cant": "Tests look at the final rate of a few datasets; that masks, two resamplings and the regridding agree on every period is a statement about all masks and all records.", "anchors": ["rdtools/analysis_chains.py:TrendAnalysis._sensor_preprocess", "rdtools/analysis_chains.py:TrendAnalysis._clearsky_preprocess", "rdtools/analysis_chains.py:TrendAnalysis._aggregated_filter", "rdtools/analysis_chains.py:TrendAnalysis._aggregate", "rdtools/aggregation.py:aggregation_insol"]}
{"id": "C115", "title": "Importing rdtools finds its version whatever git does", "statement": "rdtools.__version__ is determined without an exception in every installation: in a released archive from the keywords alone, without running git; in a checkout it is the PEP 440 version of the commit (tag, or tag+N.gHASH[.dirty], or 0+untagged.N.gHASH), with hash, dirtiness and ISO date, for any tag, branch state and history; when git is missing, fails or is not in a repository it is taken from the name of the directory or one of the two above it, else 0+unknown.", "quantifier": "every answer of the git commands (missing executable, other OS error, any return code, any output), every path, every state of a checkout (tagged or not, on a branch or detached, clean or dirty, any number of commits)", "why_tests_cant": "A test runs in one checkout with one git; that no combination of failing commands, outputs and paths makes the import fail or gives a wrong version is a statement about all of them.", "anchors": ["rdtools/_version.py:get_versions", "rdtools/_version.py:git_pieces_from_vcs", "rdtools/_version.py:run_command", "rdtools/_version.py:versions_from_parentdir", "rdtools/__init__.py:__version__"]}
{"id": "C116", "title": "The cleanings found are exactly the cleanings that took place", "statement": "Take a daily performance series without gaps that only falls between cleanings, by at most m a day, with at least day_scale days (odd) between its first day, the cleanings and its end. Suppose each cleaning restores more than the cleaning threshold, comparing the performance (day_scale - 1)/2 days after it with that as many days before its eve. Then the soiling analysis with the 'shift' criterion begins a new soiling interval on exactly the days of the cleanings. The threshold may be given (relative to the first-year median, or to 1 without recentering) or inferred, in which case it is enough that each cleaning restores more than 1 + outlier_factor times m.", "quantifier": "every gap-free series, every list of cleaning days, every loss pattern between them, every odd day_scale, given and inferred thresholds, with and without recentering, any insolation and precipitation", "why_tests_cant": "A test checks that one simulated series gives the number of intervals it was built with. That no cleaning is missed and none invented whatever the daily losses, including how the inferred threshold sits between the two kinds of shifts, is a claim about all series.", "anchors": ["rdtools/soiling.py: SRRAnalysis._calc_daily_df", "rdtools/soiling.py: soiling_srr"]}
{"id": "C117", "title": "A system that soils linearly between detected cleanings gets exactly its losses back", "statement": "Take a gap-free daily performance series that loses the same amount every day between cleanings and whose cleanings meet the conditions for exact detection, with intervals longer than min_interval_length and losses within max_negative_step. Then soiling_srr with 'perfect_clean' gives the same profile in every realization: on each day, one minus the performance lost since the last cleaning relative to the first-year median (or 1 without recentering). The reported ratio is the mean of the profile weighted by insolation, and the confidence limits and the exceedance level coincide with it. The reported intervals run from each cleaning to the eve of the next, are valid, and have the daily loss as their slope and its limits. With the default 'half_norm_clean' the profile is the performance itself, if every cleaning restores the level the performance is divided by.", "quantifier": "every such series, every number of realizations and every outcome of the random draws, every confidence level and exceedance probability, any insolation with a sum other than zero", "why_tests_cant": "The package's tests compare the ratio for one simulated series with a recorded number under one seed. That the answer is the true loss for every such system and does not depend on the random draws at all cannot be sampled.", "anchors": ["rdtools/soiling.py: soiling_srr", "rdtools/soiling.py: SRRAnalysis.run", "rdtools/soiling.py: SRRAnalysis._calc_result_df", "rdtools/soiling.py: SRRAnalysis._calc_monte"]}
{"id": "C118", "title": "The clipping model is loaded before it is used, whatever happened before", "statement": "Every call of xgboost_clip_filter whose model file can be read makes its predictions with the loaded model, whatever earlier calls did and whichever other calls run at the same time, and the file is read only once. The code guarantees this (1) for calls one after the other as long as no reading of the file fails, (2) for any number of threads and any schedule once one call has completed with no other in progress, and (3) again after any schedule without failures, once all calls that began are over. It does not hold in general: a failed reading leaves an empty classifier behind, so no later call in the process succeeds, and a call that overlaps with the first one may get the classifier before it is loaded and raise.", "quantifier": "every history of calls with failing and succeeding constructors and file reads, every number of threads, every interleaving of their steps", "why_tests_cant": "Unit tests make one call in one thread with an intact file. The claim is about all histories with transient failures and all thread schedules.", "anchors": ["rdtools/filtering.py: _load_xgboost_clipping_model", "rdtools/filtering.py: xgboost_clip_filter"]}
{"id": "C119", "title": "Packaging scripts read the same version keywords that an import would give", "statement": "Reading the version keywords from the file without importing it gives exactly the strings assigned to them in the file, whatever these strings contain (quotes and equal signs included), however the lines are indented, with comments behind them and any other lines around them; a file that cannot be opened or has no such lines gives no keywords. Functions registered as handlers of a version control system can be looked up under their system and method, registering one leaves the others alone, and the function itself is unchanged.", "quantifier": "every file with one assignment to each keyword among arbitrary other lines, every keyword string without line breaks; every registry and function", "why_tests_cant": "The file is rewritten by git archive with branch and tag names that no test enumerates.", "anchors": ["rdtools/_version.py: git_get_keywords", "rdtools/_version.py: get_keywords", "rdtools/_version.py: register_vcs_handler"]}
{"id": "C120", "title": "The progress bar of the CODS bootstrap is right at every step", "statement": "While a CODS bootstrap with verbose output runs, the bar printed after each step has constant length, its arrow covers the share of steps done (rounded, at least one character), never goes back and is full at the end; the time left is the time the remaining steps take at the pace so far, never negative and zero at the end.", "quantifier": "every number of steps and bar length, every step from the first to the last, every elapsed time", "why_tests_cant": "Tests do not look at printed output, and the rounding cases depend on the number of steps and the length of the bar.", "anchors": ["rdtools/soiling.py: _progressBarWithETA", "rdtools/soiling.py: CODSAnalysis.run_bootstrap"]}
{"id": "C121", "title": "An availability analysis recovers the losses of a plant", "statement": "For a plant whose inverters produce in proportion to their ratings and the weather, whose records may have gaps, and an expectation that is off by any factor, an availability analysis with default thresholds and sizes (1) estimates the relative sizes exactly, (2) attributes to each row exactly the power of the inverters out of operation, and nothing to inverters that merely do not report, (3) rescales the expectation to the power of the undisturbed plant, (4) lists the times in which nothing is recorded, each with exactly the energy lost in it, as communication outages if nothing was lost and as real ones otherwise, and (5) if the plant never fails as a whole, succeeds with the exact loss in every row and the exact lost production in every period, and for every period whose first and last rows are recorded the exact energy delivered from the first to the last of them and the availability that follows from the two.", "quantifier": "every plant (any number of inverters, ratings, weather, pattern of failures and of lost records with the majority condition), every factor of the expectation, every start, step and length of the data, every choice of periods and quantile levels", "why_tests_cant": "A test checks the analysis on a few simulated failures of a simulated plant. That the estimates, thresholds and comparisons of the stages together give back the true losses for every plant and failure pattern needs a proof through all stages.", "anchors": ["rdtools/availability.py: AvailabilityAnalysis.run", "rdtools/availability.py: AvailabilityAnalysis._calc_loss_subsystem", "rdtools/availability.py: AvailabilityAnalysis._calc_error_distributions", "rdtools/availability.py: AvailabilityAnalysis._calc_loss_system", "rdtools/availability.py: AvailabilityAnalysis._combine_losses"]}
{"id": "C122", "title": "A soiling analysis of measurements recovers the losses of the system", "statement": "Let the measured energy in the intervals that the filters accept be that of the model (expected power or PVWatts) times a ratio that falls by the same amount every day between cleanings, each large enough for the cleaning threshold. Then sensor_analysis or clearsky_analysis with 'srr_soiling' and daily aggregation, whatever filters take part as long as every day of the record keeps an accepted sample, succeeds and stores: the cleanings as interval borders; in every realization the loss since the last cleaning relative to the first year; the mean of it weighted with the insolation of the accepted samples as soiling ratio; and confidence limits equal to it. The stored insolation has the times of the stored performance and is, wherever there is a performance, the insolation that its samples were weighted with.", "quantifier": "every series of measurements and weather, every set of filters and parameters, every soiling rate per interval, every pattern of cleanings with the stated spacing, every list of random numbers, measured and clear-sky irradiance, known and unknown nameplate power", "why_tests_cant": "A test runs one simulated year through the chain and looks at one number. That the normalization, the filters, the aggregation, the regridding and the soiling analysis together neither shift days nor scale the losses, for every record, needs a proof through all of them.", "anchors": ["rdtools/analysis_chains.py: TrendAnalysis.sensor_analysis", "rdtools/analysis_chains.py: TrendAnalysis.clearsky_analysis", "rdtools/analysis_chains.py: TrendAnalysis._srr_soiling", "rdtools/analysis_chains.py: TrendAnalysis._sensor_preprocess", "rdtools/analysis_chains.py: TrendAnalysis._aggregate", "rdtools/soiling.py: soiling_srr"]}
{"id": "C123", "title": "Errors and confidence limits of the regressions are those of the estimated line", "statement": "degradation_ols reports the least-squares line, an rmse whose square is an unbiased estimate of the variance of the observations, standard errors that are the propagation of that variance through the estimates, and no weights that get every straight line right have smaller ones. The confidence interval consists of percentiles of the rates of drawn lines, which have the estimated line as mean and the reported errors as spread. If the record is a straight line all errors are zero and both limits are the rate; the same holds for degradation_classical_decomposition on a straight line with a seasonal component, whose trend is named by the sign of the slope. Multiplying all values by a constant multiplies rmse and standard errors by it and leaves the rate and its limits unchanged.", "quantifier": "every series with at least three samples at two different times, missing values anywhere, every confidence level, every list of draws; for the classical decomposition every seasonal component and every length of at least 371 days", "why_tests_cant": "A test compares the reported numbers of a few records with numbers computed once. That an error bar is the right one - unbiased, propagated with the covariance, optimal - is a statement about all records and all errors.", "anchors": ["rdtools/degradation.py: degradation_ols", "rdtools/degradation.py: degradation_classical_decomposition", "rdtools/degradation.py: _degradation_CI"]}
{"id": "C124", "title": "The modelled clear-sky irradiance of a record is the simulation averaged over its intervals and fitted to its clear samples", "statement": "Without clear-sky irradiance of the user, the analysis simulates it every minute and averages it: the first timestamp of the record gets no value, every other the mean of the simulated minutes since the preceding timestamp. For records with a constant interval of whole minutes these are exactly the minutes of the interval that ends at the timestamp. It is defined exactly for records in ascending order without duplicates in which every interval holds a simulated minute, else ValueError is raised. The averages are then multiplied by one factor: if the measurement is k times the simulation wherever the sky counts as clear, the factor is k whatever was measured under clouds, unless the ratio of the 90 % quantiles is within 1e-6 of 1, which is then used itself. Rescaling a simulation at other times than those of the measurement raises ValueError.", "quantifier": "every index of the measurement, regular or not, every simulated irradiance with missing values anywhere, every measurement, every factor, every optimizer that finds minima", "why_tests_cant": "A test simulates one day at one site on a regular grid. Which minutes enter which average, with irregular records, offsets and gaps, and that clouds do not move the factor, are statements about all records.", "anchors": ["rdtools/analysis_chains.py: TrendAnalysis._calc_clearsky_poa", "rdtools/normalization.py: irradiance_rescale"]}
{"id": "C125", "title": "A higher confidence level widens every reported interval and changes nothing else", "statement": "Run twice on the same data with the same random numbers, the year-on-year, regression, classical, soiling (SRR) and combined (CODS) analyses and the annual and monthly soiling tables report the same rates, ratios, tables and weights whatever confidence level and exceedance probability are requested. The interval of a lower level lies in that of a higher level, limits are missing at both levels or at neither, and a higher exceedance probability gives an exceedance level that is at most as high. If one level has a result, then exactly the levels of absolute value at most 100 % (and exceedance probabilities between 0 % and 100 %) have one. The soiling interval that soiling_cods returns has its upper limit first.", "quantifier": "every record, every outcome of every random draw, every pair of confidence levels and of exceedance probabilities, every option of the analyses", "why_tests_cant": "A test compares intervals of one or two levels for one seed. That no level, seed or record yields intervals that are not nested, or another rate, is a statement about all of them.", "anchors": ["rdtools/degradation.py: degradation_year_on_year", "rdtools/degradation.py: degradation_ols", "rdtools/degradation.py: degradation_classical_decomposition", "rdtools/bootstrap.py: _construct_confidence_intervals", "rdtools/soiling.py: soiling_srr", "rdtools/soiling.py: annual_soiling_ratios", "rdtools/soiling.py: monthly_soiling_rates", "rdtools/soiling.py: soiling_cods"]}
{"id": "C126", "title": "Loosening the limits of a filter never removes a point", "statement": "Moving the lower limit of normalized_filter, poa_filter, tcell_filter or hour_angle_filter down or the upper limit up (or dropping a limit of normalized_filter), raising the threshold of csi_filter and two_way_window_filter, t0 of hampel_filter or k of directional_tukey_filter, or lowering the quantile of insolation_filter keeps every point that was kept before. In an analysis whose filters are loosened in this way, or of which some are removed, every point kept before is kept.", "quantifier": "every series with any pattern of missing and infinite values, every pair of limits, every analysis with arbitrary filter functions", "why_tests_cant": "A test compares masks of two limits on one series; that no series exists for which a looser limit drops a point is a statement about all series, and the rolling filters compute their fences from the data.", "anchors": ["rdtools/filtering.py: normalized_filter", "rdtools/filtering.py: poa_filter", "rdtools/filtering.py: tcell_filter", "rdtools/filtering.py: csi_filter", "rdtools/filtering.py: hour_angle_filter", "rdtools/filtering.py: insolation_filter", "rdtools/filtering.py: two_way_window_filter", "rdtools/filtering.py: hampel_filter", "rdtools/filtering.py: directional_tukey_filter", "rdtools/analysis_chains.py: TrendAnalysis._filter"]}
{"id": "C127", "title": "Rolling filters depend on differences of time only", "statement": "Moving a record in time changes no decision of two_way_window_filter, directional_tukey_filter and hampel_filter. The first two treat past and future alike: the record read backwards gets the same decisions in reverse order. The decision of hampel_filter on a reading only depends on the rows less than a window away.", "quantifier": "every series with any pattern of missing values, every window, threshold and displacement", "why_tests_cant": "A test uses one record at one date. Independence of the date, symmetry and locality relate the results on all records.", "anchors": ["rdtools/filtering.py: two_way_window_filter", "rdtools/filtering.py: directional_tukey_filter", "rdtools/filtering.py: hampel_filter"]}
{"id": "C128", "title": "Insolation-weighted aggregation may be done in steps and in any unit", "statement": "Aggregating into fine periods and aggregating the result, weighted by the insolation of the fine periods, into coarse periods made of whole fine ones gives the same periods and values as aggregating the samples into the coarse periods at once, for non-negative insolation and any pattern of missing data. The unit of the insolation does not matter, and a factor on the energies is passed on.", "quantifier": "every record with non-negative insolation, every pair of frequencies of fixed length one of which divides the other, every unit", "why_tests_cant": "Agreement of two routes for all records: a mean of means is right on records with equal weights and wrong in general, so samples do not tell.", "anchors": ["rdtools/aggregation.py: aggregation_insol"]}
{"id": "C129", "title": "The order of the subsystems does not matter to an availability analysis", "statement": "With the columns of power_subsystem in another order, and low_threshold and relative_sizes (where given) reordered along, AvailabilityAnalysis finds the same subsystem losses, outages, corrected meter, total losses and results, or fails in the same way; each subsystem is found online at the same times.", "quantifier": "every record with any number of subsystems and any pattern of missing values, every permutation of the columns, default or given thresholds and sizes", "why_tests_cant": "The number of orders grows factorially and thresholds, sizes and losses are computed from all columns together; a test tries one or two orders.", "anchors": ["rdtools/availability.py: AvailabilityAnalysis._calc_loss_subsystem", "rdtools/availability.py: AvailabilityAnalysis.run"]}
{"id": "C130", "title": "Interpolation, energy and availability do not depend on the date", "statement": "Moving a record in time by any amount moves the result of interpolate (with the target times moved along) and of energy_from_power by the same amount and changes no value and no gap. AvailabilityAnalysis of a moved record, with the rollup periods moved along, reports the same losses, outages and energies under moved labels.", "quantifier": "every record with any pattern of missing values and irregular spacing, every displacement, every target frequency, gap limit and power type", "why_tests_cant": "Tests run at one date; resampling origins, index unions and label look-ups are exactly where a dependence on the date would creep in.", "anchors": ["rdtools/normalization.py: interpolate", "rdtools/normalization.py: energy_from_power", "rdtools/availability.py: AvailabilityAnalysis.run"]}
{"id": "C131", "title": "Aggregation pairs energy and insolation of the same time", "statement": "aggregation_insol accepts energy and insolation on different times. Every period from the first to the last sample of either is reported once; its value is the sum of the energies weighted with the insolation measured at the same time, divided by the insolation of the period. For series with the same times this is the aggregation of their rows.", "quantifier": "every pair of series without repeated times, every frequency of fixed length", "why_tests_cant": "The number of ways in which two indexes can overlap is unbounded, and numerator and denominator are resampled separately with an origin of their own.", "anchors": ["rdtools/aggregation.py: aggregation_insol"]}
{"id": "C132", "title": "Aggregation over months, years and weeks follows the calendar", "statement": "aggregation_insol with a calendar frequency (month or year starts or ends, weeks) reports every calendar period from the first to the last sample once, in order of time, under midnight of its first or last day. Every sample belongs to exactly one period. The value of a period is the sum of the energies weighted with the insolation of the same time, divided by the insolation of the period, and lies between the energies of the period. Months, years and weeks of hourly or daily aggregates are those of the record itself.", "quantifier": "every pair of series with unique insolation times, every calendar frequency, leap years and years of any number included", "why_tests_cant": "The length of the periods varies with the calendar (leap years, centuries) and the record may begin and end anywhere in a period.", "anchors": ["rdtools/aggregation.py: aggregation_insol"]}
{"id": "C133", "title": "The degradation rate of CODS is the year-on-year rate of the corrected index", "statement": "With the year-on-year method, the degradation rate returned by iterative_signal_decomposition is the median of the changes of the index, divided by season and soiling ratio, from the day a year before (365 or 366 days earlier) to each day that has a value on both, in percent of a level of the first 365 days. If the index is season times soiling times a linear decline and season and soiling returned are right up to constant factors, the rate (and the slope of the trend returned) is the true slope relative to a level between those of the first and the 365th day; with a complete first year it is exactly slope / (1 + slope * 182/365). A rate exists exactly if some day has a value on it and a year before.", "quantifier": "every daily index with any pattern of missing days, every start date, every iteration history that ends with the degradation component", "why_tests_cant": "The corrected index depends on the whole iteration history; leap years shift the partner days; which days are missing decides the median.", "anchors": ["rdtools/soiling.py: CODSAnalysis.iterative_signal_decomposition", "rdtools/degradation.py: degradation_year_on_year"]}
{"id": "C134", "title": "Which samples and periods an analysis uses, in numbers", "statement": "After any sensor or clear-sky preprocessing that succeeds, the stored filter accepts a timestamp exactly if it is a sample of the normalized energy and meets every enabled condition: normalized energy, irradiance and cell temperature strictly inside their limits, no clipping found, hour angle inside its limits (inclusive), measured irradiance within the allowed fraction of clear-sky irradiance (or clear sky detected), no rejection by the user's own mask; a missing value meets no condition. A fresh sensor analysis with default filters accepts exactly the samples with normalized energy above 0.01, irradiance between 200 and 1200, cell temperature between -50 and 110 and no clipping. The stored filter of aggregates accepts exactly the periods that are not far from both the medians of the periods before and of the periods after, have at least the chosen quantile of insolation, are no outlier by Hampel's or Tukey's rule and are not rejected by the user's mask (each if enabled), judged among all periods with accepted samples; with periods that fit whole days the stored performance has a value exactly there.", "quantifier": "every analysis (sensor or clear-sky), every combination of enabled filters and their limits, every input data, every result of pvlib's detection and hour angles", "why_tests_cant": "The chain builds masks on different indexes, aligns and combines them, aggregates, filters again and reindexes; tests check one combination of filters on one data set.", "anchors": ["rdtools/analysis_chains.py: TrendAnalysis._filter, _aggregated_filter, _call_clearsky_filter, _sensor_preprocess, _clearsky_preprocess", "rdtools/filtering.py: normalized_filter, poa_filter, tcell_filter, csi_filter, pvlib_clearsky_filter, hour_angle_filter, two_way_window_filter, insolation_filter"]}
{"id": "C135", "title": "Year-on-year: seasons cancel, trends add", "statement": "degradation_year_on_year applied to daily data (one sample per day, present or missing) that are a line plus any quantity that repeats every year reports exactly the slope of the line, in every year-on-year value and in the rate, whatever the season is and whichever samples are missing. More generally adding a repeating quantity to daily data changes nothing at all when not recentring (with the simple bootstrap or without uncertainty), and leaves the rate in units of the data unchanged when recentring; adding a line to data with any sampling changes every year-on-year value, the rate, both ends of the confidence interval and the exceedance level by exactly its slope. 29 February counts as 28 February.", "quantifier": "every daily series of any length and start, every season, every line, every set of missing samples, every bootstrap that draws positions", "why_tests_cant": "The claim of the method is about all seasons; tests use one sine wave with tolerances, and calendar effects (leap days, compared samples up to 8 days apart) show on some dates only.", "anchors": ["rdtools/degradation.py: degradation_year_on_year"]}
{"id": "C136", "title": "When the preprocessing of an analysis succeeds", "statement": "Filtering succeeds exactly if every enabled filter is given by keyword arguments, has its inputs and its function returns a mask, the user's own mask is None or a Series, and, for a clear-sky analysis, the clear-sky filter is enabled. After the normalization the whole rest (filtering, aggregation, filtering of the aggregates, all selections with the combined masks) succeeds exactly if those filters run and the entries of the aggregated filters are well-formed: no values of the measurements, no missing data and no index of the user's own mask can make a selection fail. A new TrendAnalysis with default filters therefore preprocesses for sensor_analysis exactly if irradiance was given, the normalization succeeds and power was given and passes the clipping filter; for power, irradiance and cell temperature recorded together at a regular step (more than ten readings, one valid power, logic clipping filter) it succeeds exactly if irradiance and, with a temperature coefficient, cell temperature are both present at one timestamp at least. After a successful set_clearsky it preprocesses for clearsky_analysis exactly if measured irradiance was given, the clear-sky irradiance and cell temperature were given or can be modelled for the location (the temperature also if expected power is used, which does not need it), the normalization succeeds, and the clipping and clear-sky filters run.", "quantifier": "every object, every filter configuration, every user mask, every series of measurements with any missing values, every aggregation frequency", "why_tests_cant": "A failure in one of some fifteen steps depends on the configuration, the inputs present, the masks' indexes and the missing values together; tests cover a handful of combinations.", "anchors": ["rdtools/analysis_chains.py: TrendAnalysis._filter, _aggregated_filter, _sensor_preprocess, _clearsky_preprocess"]}
{"id": "C137", "title": "An analysis has no memory of earlier analyses", "statement": "Whatever calls were made on a TrendAnalysis object (set_clearsky, changes of the filters, and sensor and clear-sky analyses with any arguments, successful or failing), the next analysis ends as if the history had consisted of the calls other than analyses: it raises the same exception, or it succeeds and stores the same filters, insolation, performance and results. In particular a successful analysis repeated later with the same arguments succeeds and stores the same, and after a successful set_clearsky earlier calls of set_clearsky make no difference to any later analysis. The missing values that an analysis replaces in place in the masks of the user (which other objects may share) influence no analysis either.", "quantifier": "every object, every history of public calls with caught exceptions, every case and all arguments of the next analysis, all results of the numerical functions", "why_tests_cant": "Analyses store modelled irradiance and temperatures, rewrite user masks and leave partial state when they fail; whether a leftover changes a later result depends on the whole history.", "anchors": ["rdtools/analysis_chains.py: TrendAnalysis.sensor_analysis, clearsky_analysis, _sensor_preprocess, _clearsky_preprocess, _filter, _aggregated_filter, _calc_clearsky_poa, _calc_clearsky_tamb, set_clearsky"]}
{"id": "C138", "title": "What the CODS bootstrap reports, in numbers", "statement": "After a successful run_bootstrap with bootstrapping, 16 P realizations were drawn (the next multiple of 16). Realization k P + j refits the j-th resample of initial fit k (model times residuals drawn in blocks of 90 days) divided by a varied seasonal component of the same fit k, and can only fail with ValueError. The refits that count are exactly those that succeed with residuals that pass the stationarity test, in order. Their weights are proportional to 1 / (error * (1 + share of days without soiling)). Degradation rate and soiling loss are the weighted sums over these refits, their intervals the (100 -/+ conf)/200 quantiles; on every day the intervals of soiling ratio, soiling rate, seasonal component and model are the quantiles of the values of the refits, and the bootstrapped ratio, rate, cleaning probability and the seasonal component are weighted sums, all over the same refits. The trend is the straight line of the reported rate; the model is trend times seasonal component times soiling ratio times the mean of the index divided by that product. The reported error is the root mean square difference between the index and this model.", "quantifier": "every environment of fits and refits (each may fail or be rejected), every number of repetitions, confidence level, start day and index with missing days", "why_tests_cant": "Sixteen models, hundreds of random realizations and several parallel lists that must stay aligned when realizations are dropped; tests only compare a few end results of one seed with tolerances.", "anchors": ["rdtools/soiling.py: CODSAnalysis.run_bootstrap, _make_seasonal_samples", "rdtools/bootstrap.py: _make_time_series_bootstrap_samples"]}
{"id": "C139", "title": "The rate of a soiling interval tolerates noise and bad days", "statement": "In the interval summary of soiling_srr, if more than half of the pairs of days with positive performance of a valid interval are pairs of days whose normalized performance is within eps of one straight line (all but one day in four suffice from eight days on), the reported soiling rate is within 2 eps per day of the slope of that line, whatever was measured on the other days; with eps = 0 it is exactly that slope. If all days of the interval are within eps of a falling line, the reported losses at the start and at the end of the interval are also within eps (1 + 2 (length of the interval in days)) of the values of the line.", "quantifier": "every record, interval, set of bad days, noise level and width of the confidence interval of the fit", "why_tests_cant": "Unit tests use a few noisy series with a fixed seed; the breakdown point of the estimate is a statement about arbitrary values on an arbitrary minority of days.", "anchors": ["rdtools/soiling.py:SRRAnalysis._calc_result_df", "rdtools/soiling.py:soiling_srr"]}
{"id": "C140", "title": "Which cleaning events a CODS iteration removes and adds", "statement": "An iteration of the CODS filter removes exactly the cleaning events after which the median estimated level of the week is lower than the lower quartile over all events by more than clean_pruning_sensitivity times the distance of the quartiles, and adds exactly the days of the largest rate around runs of days with a rate above max_soiling_rates, if there are at least two such days. With one iteration and no change of the events the columns of the first pass are returned. An event without a full week after it keeps every event from being removed.", "quantifier": "all signals, sensitivities, limits, events", "why_tests_cant": "Which events are removed depends on quartiles over all events and on the smoothed estimates of the whole series; tests fix a seed and look at the number of events.", "anchors": ["rdtools/soiling.py: CODSAnalysis._Kalman_filter_for_SR, _find_numeric_outliers, _collapse_cleaning_events"]}
{"id": "C141", "title": "The CODS filter does not depend on the origin or unit of the index", "statement": "Adding a constant to the performance index adds it to the levels the CODS filter estimates and changes neither the estimated rates nor the cleaning events. Expressing the index, the process noise, the initial standard deviations and the limit of the rate in another unit expresses levels and rates in that unit and leaves the events the same.", "quantifier": "all signals with missing days, options, given or detected events, numbers of iterations, constants and positive factors", "why_tests_cant": "An invariance relates two runs on signals of any length through medians, quartiles, event decisions, the recursion of the filter and its restarts; a test compares two runs on one signal, and the tests use fractions only.", "anchors": ["rdtools/soiling.py: CODSAnalysis._Kalman_filter_for_SR, _forward_pass, _set_control_input, _smooth_results, _initialize_univariate_model"]}
{"id": "C142", "title": "What the iterations of the CODS decomposition do", "statement": "A CODS decomposition runs a sequence of fits. The soiling fit gets the index divided by the trend, the season and the mean residual, with the cleaning events found in the index, or from the third iteration on those of the last soiling fit and those found in the residuals, the detection being made less sensitive by 1.2 and the pruning more sensitive by 1.1 each time. The seasonal fit gets the index divided by the soiling ratio, the degradation fit the index divided by season and soiling ratio. Perfect cleaning is assumed until half of the iterations are over or the error has improved by less than the criterion over a round; the run stops when after a further round it again has, or with the last iteration. The result consists of the last components, with residuals, shift, total model and error calculated from them, and the soiling signal is called small exactly if the spread of the ratio relative to that of the residuals is below the significance.", "quantifier": "all performance indexes with missing days, orders, options, results of the external fits, and numbers of iterations", "why_tests_cant": "The result depends on a history of fits of any length, each on the results of those before, and on decisions taken on errors one round apart; a test sees the final numbers of one signal only.", "anchors": ["rdtools/soiling.py: CODSAnalysis.iterative_signal_decomposition, _RMSE, _rolling_median_ce_detection, _collapse_cleaning_events, _force_periodicity"]}
{"id": "C143", "title": "What a soiling_cods run consists of, and that it reports no gain", "statement": "The soiling ratio soiling_cods returns, its confidence limits, and all daily ratios and their limits are at most one. A run with bootstrapping consists of sixteen initial decompositions of the index, one for each combination of the alternatives of order, cleaning sensitivity, pruning sensitivity and forward fill; the reported daily ratio is that of the last combination. Then each initial fit is resampled the same number of times, and each sample, divided by a varied seasonal component, is decomposed again with sensitivities between the first and last alternative, process noise within a factor of 1.5, and at most four iterations, the results being placed on the days of the index. Exactly the fits with stationary residuals count for the reported values and limits. Missing days before the first reading make no difference. A performance index that is the same number every day gives no result at all (not: a result without soiling).", "quantifier": "all performance indexes, alternatives, noise levels, criteria, numbers of repetitions, random numbers and results of the external routines", "why_tests_cant": "The result depends on random resamples and on sixteen fits of an iterative procedure; a test runs one seed on one synthetic signal.", "anchors": ["rdtools/soiling.py: soiling_cods, CODSAnalysis.run_bootstrap, CODSAnalysis.iterative_signal_decomposition, CODSAnalysis.__init__"]}
{"id": "C144", "title": "An analysis applies the filters the user configured, and no others", "statement": "A new analysis object knows eight filters for single values and five for aggregated ones and has documented defaults active, without the temperature filter if expected power was given without cell temperature. After any history of calls the two filter dictionaries contain exactly what the configuring calls alone would have produced: analyses and set_clearsky never add, remove or change a filter, except that missing verdicts in a mask are filled. Only known filters can be configured; a rejected assignment changes nothing, an accepted one replaces all filters, and once both dictionaries have been assigned, earlier filter settings no longer influence any analysis.", "quantifier": "all inputs of the constructor, all histories of analyses, clear-sky settings, assignments to and edits of the filter dictionaries, including failing ones", "why_tests_cant": "The claim is about histories of arbitrary length including failing calls; the tests check single assignments on a fresh object.", "anchors": ["rdtools/analysis_chains.py: TrendAnalysis.__init__, filter_params, filter_params_aggregated, ValidatedFilterDict, _filter, _aggregated_filter"]}
{"id": "C145", "title": "Availability results over periods of different lengths agree", "statement": "The roll-up period changes nothing but the results table: losses, error distributions and outages are the same, and the analysis succeeds with every valid period if it does with one. If every long period consists of short ones (months and years, for instance), the lost production of a long period is the sum of the lost productions of its short periods, every short period lies in a listed long one and vice versa, and the actual production of a long period is the sum of the actual productions of its short periods.", "quantifier": "all inputs, arguments and pairs of roll-up periods of which one refines the other", "why_tests_cant": "The claim relates two runs with arbitrary periods; the tests check one roll-up of fixed data.", "anchors": ["rdtools/availability.py: AvailabilityAnalysis.run, _combine_losses"]}
{"id": "C146", "title": "Looser settings of soiling_srr find more cleanings and keep more intervals", "statement": "The cleaning criterion and the thresholds of soiling_srr decide only which days count as cleanings: renormalization factor, days, performance, insolation and steps do not depend on them. A lower clean_threshold (or a smaller outlier_factor when it is inferred), a lower precip_threshold, and moving from precip_and_shift to shift to precip_or_shift or from precip to precip_or_shift only add cleanings; the soiling intervals found then divide the former ones. For the same days, a smaller min_interval_length, a larger max_relative_slope_error, a larger max_negative_step and turning trim off only add valid intervals: the analysis succeeds if it did before and every valid interval stays valid with the same days, rate, bounds and inferred losses.", "quantifier": "all daily series with gaps, and all pairs of settings of which one is looser than the other", "why_tests_cant": "The claim compares two runs on arbitrary data with arbitrary pairs of settings; tests run a few fixed settings.", "anchors": ["rdtools/soiling.py: SRRAnalysis._calc_daily_df, _calc_result_df"]}
{"id": "C147", "title": "A longer record keeps the year-on-year rates found before", "statement": "When a record that was analysed with degradation_year_on_year is continued with later samples (after the first year, if the data is recentered), the recentering factor and every year-on-year value already reported stay exactly as they were, new values only appear at the new times, the usage count of no sample decreases, and with the same sampling step the longer record is accepted too. Samples added at least a day before the record change no existing value except by the ratio of the recentering factors. (Samples added within a day before it can change a value at the end of February.)", "quantifier": "all series with distinct timestamps in any order, all continuations, and all settings", "why_tests_cant": "The claim compares runs on a record and on each of its extensions; tests run fixed records.", "anchors": ["rdtools/degradation.py: degradation_year_on_year"]}
{"id": "C148", "title": "Later readings do not change earlier interpolated values and energies", "statement": "When a series is continued with later samples and max_timedelta is given, interpolate returns the same value at every time that is not after the last valid sample of the shorter series, and energy_from_power reports the same periods with the same energies up to that sample (right-labeled power with gaps and irregular steps; instantaneous power without gaps). The last, incomplete period and the default max_timedelta are exceptions: both can change.", "quantifier": "all series with increasing timestamps, all continuations, all target times, periods and limits (target period longer than the median step)", "why_tests_cant": "The claim compares runs on a record and on each of its continuations; tests run fixed records.", "anchors": ["rdtools/normalization.py: interpolate", "rdtools/normalization.py: energy_from_power"]}
{"id": "C149", "title": "Degradation results depend on the data and not on the date", "statement": "Moving every timestamp of a record by the same amount of time leaves the results of degradation_ols and degradation_classical_decomposition unchanged (rate, intercept, slope, moving average, or the error raised), for any amount. For degradation_year_on_year the rate, confidence interval, exceedance, recentering value, year-on-year values and point usage are unchanged, the times of values and usage moving along, when the record is moved by a multiple of four years within 1901-2097 or by any multiple of 400 years; other moves can change the rate, since calendar anniversaries differ.", "quantifier": "all records, all moves (year on year: all multiples of four years in 1901-2097 and all multiples of 400 years), all options, all bootstrap draws", "why_tests_cant": "The claim compares runs on a record and on each of its translations in time; tests use fixed dates.", "anchors": ["rdtools/degradation.py: degradation_ols", "rdtools/degradation.py: degradation_classical_decomposition", "rdtools/degradation.py: degradation_year_on_year"]}
{"id": "C150", "title": "The least-squares rate depends on the readings and the first timestamp only", "statement": "degradation_ols gives the same rate, slope and intercept (or the same error) for two records whose first timestamps agree and whose rows with values are the same up to order: rows without a value after the first row, and the order of the rows after the first, make no difference. If the first timestamps differ, the slope is still the same and the intercept is the fitted line read at the other first timestamp, so the rate relative to year 0 changes: an empty first row or a record in another order gives another rate.", "quantifier": "all pairs of records with the same readings", "why_tests_cant": "The claim compares a record with every rearrangement and every insertion of empty rows; tests use fixed sorted records.", "anchors": ["rdtools/degradation.py: degradation_ols"]}
{"id": "C151", "title": "What rows without a value do to year-on-year degradation", "statement": "Adding rows without a value to a record never adds or changes a year-on-year value of degradation_year_on_year (recentering value unchanged, both calls successful); a value is lost exactly when an added row is a later partner of that sample, i.e. its anniversary is not after the sample and after the anniversary of the partner with a value. Since such rows hide partners, the rate is not a function of the readings alone.", "quantifier": "all records with distinct timestamps, all sets of added empty rows, all options and draws", "why_tests_cant": "The claim compares a record with every way of inserting empty rows; tests use fixed records.", "anchors": ["rdtools/degradation.py: degradation_year_on_year"]}
{"id": "C152", "title": "What the factor of irradiance_rescale depends on", "statement": "The factor by which irradiance_rescale multiplies the modelled irradiance depends on the measured values, the modelled values and the pairs of both, in any order: two records that agree in these get the same factor or the same error. Neither the order of the rows nor rows without values matter.", "quantifier": "all pairs of records, both methods and unknown ones, all iteration limits and thresholds, every minimizer that is a function of the objective and the start value", "why_tests_cant": "The claim compares all orders of a record and all insertions of empty rows, for every minimizer; tests use one synthetic series.", "anchors": ["rdtools/normalization.py: irradiance_rescale"]}
