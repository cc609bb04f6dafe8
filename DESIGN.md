# Formal model of rdtools in Lean 4: design

Source of truth: `/repo/rdtools` at the pinned commit (read as text, never run).
The Lake project is `lean/`. Model modules are `lean/Verif/Model/*.lean`, independent specifications
`lean/Verif/Spec/*.lean`, helper lemmas `lean/Verif/Lemmas/*.lean`, property theorems
`lean/Verif/Props/*.lean`. The properties are listed in `properties.jsonl`, their theorems in
`MANIFEST.json`, the attempts to break them in `seeded/LOG.jsonl`.

## Conventions

* **Numbers.** Floats are exact rationals `ℚ`; NaN is `none` in `Cell = Option ℚ`. Where division by
  zero or infinite bounds are observable the type `Flt` (nan, -inf, fin q, +inf) is used. Rounding and
  overflow of floats are not modelled: every numeric theorem is about exact arithmetic.
* **Time.** Timestamps are integers (nanoseconds, or day numbers where the code works per day). The
  proleptic Gregorian calendar is modelled for `DateOffset(years=...)`, years, months and days of
  year. Time zones, daylight saving and calendar frequencies (months as sampling period) are not.
* **Series** are lists of (timestamp, value) pairs or, on a fixed daily index, lists of cells.
* **Exceptions** are values: `Except PyErr α`, one constructor per Python exception class. Messages
  are dropped except where a property speaks about them; warnings and prints are not modelled unless
  a property speaks about them (deprecation).
* **Randomness, optimizers and other packages** (scipy, statsmodels, pvlib, xgboost, filterpy, arch,
  h5py, matplotlib) are function parameters. What is assumed about them is a hypothesis of the theorem.
  The Kalman recursion of filterpy is short and is modelled itself (predict, update, smoother).
* **State** is threaded explicitly: an object is a structure, a method returns the new object together
  with the outcome, also when it fails.
* **Loops without an obvious bound** take a number of passes (`fuel`); running out is a distinct error
  and theorems show that it does not happen or, for one case, that it must happen.
* **Theorem names** start with the property id. `_partial`: only part of the property holds or is
  proved. `_refuted`: the code violates (part of) the property or its documentation; either a general
  theorem or a concrete witness evaluated by the kernel. A claim is `partial` in the manifest if the
  property as stated does not hold in full.
* Beside the theorems, `example`s show concrete non-trivial cases that satisfy the hypotheses.

## Properties: what is modelled, how it is proved, outcome

| Id | Property | Model | Proof | Outcome |
|---|---|---|---|---|
| C01 | Insolation-weighted aggregation is a true weighted average | Model/Aggregation, Flt | bins as integer quotients; weighted mean bounded by induction over the rows of a bin | proved: Every aggregated value is the insolation-weighted mean of its period and lies in the range of the contributing values. |
| C02 | Aggregation is local and complete | Model/Aggregation | partition of the rows by bin number; locality by filter congruence | proved: Periods are independent, every row is used once, empty periods are NaN. |
| C03 | Missing energy is not silently counted as zero energy | Model/Aggregation | negation witness; the true part by equality of the two index sets | partial: The statement is false for missing energy with present insolation (witness); proved when both are missing together. |
| C04 | Robust statistics ignore the encoding of missing data | Model/Utilities, Stats | quantile of a sorted list lies between neighbours; permutation invariance of sorting; filter equality | proved: Encoding independence, range, NaN and order; the docstring claim about dropna is refuted by a witness. |
| C05 | Energy conversion never invents energy over data gaps | Model/Normalization (`_aggregate`, `energy_from_power`) | right-labeled and instantaneous power: refinement to an interval sum over sorted breakpoints (Spec/Normalization), telescoping | partial: Right-labeled power: proved. Instantaneous power: exact energies for any pattern of gaps (`C05_instantaneous`, `C05_regular_instantaneous`). There the documented statement fails twice: missing readings at the end of the record get the energy of the last valid reading (`C05_trailing_refuted`), and the interval after a gap is lost although both its ends are valid. |
| C06 | Energy is conserved when power is converted at a coarser period | Model/Normalization | trapezoid terms equal the integral of the piecewise linear function; telescoping | proved: Instantaneous energy equals the integral of the piecewise linear power; conservation and splitting. Witness: extrapolation after the last sample. |
| C07 | Interpolation reproduces the measurements | Model/Normalization, Frame | look-up in the reindexed column | proved: Interpolation reproduces the samples. |
| C08 | Interpolated values never leave the envelope of their neighbours and never bridge gaps | Model/Normalization, Frame | normal form `interpolateSeries_eq`, then bracketing neighbours and convex combination | proved: Interpolated values lie on the chord of neighbouring samples, never across gaps longer than the limit, never outside the data. |
| C09 | Interpolating a DataFrame is interpolating its columns | Model/Normalization | case analysis; mapM over columns | proved: Column-wise, tz mismatch rejected, otherwise total. |
| C10 | irradiance_rescale terminates and only returns converged factors | Model/Normalization (`rescaleLoop`) | loop invariant over the remaining iterations; optimizer is a parameter | proved: First factor whose last change is within the threshold, or ConvergenceError after max_iterations; any optimizer. |
| C11 | PVWatts normalization is independent of the unit of power and exact for the model itself | Model/Normalize | linearity of the energy pipeline, field algebra | proved: Unit covariance in measurement, model and nameplate; exactness on regular data; PVWatts equation. |
| C12 | Range filters accept exactly the documented range and reject missing values | Model/Filtering, Flt | case analysis over the extended reals | proved: Exact acceptance sets over the extended reals (NaN separate); csi in terms of the deviation from clear sky. |
| C13 | Statistical outlier filters do not depend on units | Model/Filtering | scale equivariance of quantiles and rolling medians | proved: Mask unchanged under multiplication by any positive constant, for each of the five filters. |
| C14 | two_way_window_filter rejects exactly the points far from both rolling medians | Model/Filtering | exact rejection condition from the median absolute deviation | proved: Exact rejection condition, one decision per point, degenerate scales. |
| C15 | Tukey fences are k inter-quartile ranges wide on both sides | Model/Filtering | general refutation for k other than 1.5 | partial: False for k other than 1.5: refutation for every such k and witness; the true part is kept as _partial. |
| C16 | Clip filter selection | Model/Filtering | decision table | proved: Dispatch of clip_filter and clearsky_filter including keyword checking. |
| C17 | Quantile clip filter keeps only points below the clipping level | Model/Filtering, Utilities | monotonicity of quantiles | partial: Exact acceptance set; monotone in the level if some value is positive, witness that it fails otherwise. |
| C18 | Logic/xgboost clip filters validate their inputs in a fixed order | Model/Filtering | decision table | proved: Complete decision table of the validation. |
| C19 | Clear-sky limits stay inside the published table | Model/Filtering, Model/ClearskyFilter | induction over a table of knots; interpolation by relation; sorted union of the two indexes | proved: Nodes, range, monotonicity for every increasing table; the four published tables; the call of the detection. |
| C20 | Year-on-year degradation does not depend on input order | Model/Degradation, Calendar | sorting gives a normal form of permutations | proved: Complete result equal for every permutation of rows with distinct timestamps. |
| C21 | Year-on-year pairs are one year apart | Model/Degradation, Calendar | specification of the as-of partner (Spec/Degradation), uniqueness in a sorted list | proved: Exact characterization of the reported values, uniqueness and age of the comparison partner. |
| C22 | The reported degradation rate and its interval are bracketed by the data | Model/Degradation, Bootstrap | median and percentile bounds | proved: Median, range and ordering for all uncertainty methods; resampling arbitrary. |
| C23 | Year-on-year recovers a linear trend exactly and ignores units | Model/Degradation | algebra of the year-on-year quotient; scale equivariance through all steps | proved: Exact on linear data for every sampling; invariant under positive scaling for all methods. |
| C24 | Usage count tells how often a point contributes | Model/Degradation | counting partners; witness for 28/29 February | partial: Range and never-overcounts proved; the count is wrong when a sample is partner of two others (28/29 February): refuted with witness, exact otherwise. |
| C25 | Year-on-year refuses unusable data | Model/Degradation | exact error conditions | proved: ValueError exactly for short or pairless data; circular block conditions. The circular block refits may additionally raise. |
| C26 | OLS degradation is exact on exact data and unit independent | Model/Degradation (`degradation_ols`) | normal equations, convexity of the squared error | proved: Unique minimizer, exact on exact data, unit independent. |
| C27 | Mann-Kendall statistic is a signed rank statistic | Model/Degradation (`_mk_test`) | pair counts by induction | proved: Statistic as pair counts, bound, symmetries, detection; verdict symmetric. |
| C28 | Mann-Kendall variance is corrected for ties | Model/Degradation | general refutation with ties | partial: False with ties: the tie term is added instead of subtracted (general refutation and a changed verdict); holds without ties. |
| C29 | Classical decomposition removes an exactly seasonal component | Model/Degradation | periodic sums over 365 consecutive days | proved: Daily data of any length, any zero-mean seasonal component of period 365. |
| C30 | Bootstrap resampling preserves the model signal | Model/Bootstrap | index arithmetic modulo the length | proved: Identity, circular blocks, sample values, unknown type, interval. |
| C31 | Soiling intervals partition the days | Model/Soiling | fold invariants over the daily frame, partition into runs (Spec/Soiling) | proved: Numbering, days, detected events, partition and order of the intervals for every daily frame. |
| C32 | Valid soiling intervals soil, invalid ones carry no slope | Model/Soiling | median of slopes | proved: Sign and order of the reported rates; the rate is the Theil-Sen slope of the interval. |
| C33 | Inferred recoveries and losses are physical | Model/Soiling | invariant over the list of intervals for each method | proved: Recoveries in [0,1], profiles at most 1 for every method, one value per analysed day; perfect clean restores to 1. |
| C34 | Soiling ratio is an insolation-weighted mean of profiles | Model/Soiling | weighted means and percentiles | proved: Each realization is the insolation-weighted mean of its profile; median and interval bracket it. |
| C35 | Random-clean levels belong to their own interval | Model/Soiling | iteration order of a set is a parameter; witness with the CPython order; true part for increasing order | partial: False: levels are assigned in set iteration order (witness with CPython small-set order); proved when the group numbers iterate in increasing order. |
| C36 | SRR refuses data without valid intervals | Model/Soiling | exact error conditions | proved: NoValidIntervalError exactly without a valid interval; ValueError conditions. |
| C37 | Annual soiling ratios are per-year insolation-weighted and bracketed | Model/Soiling (`annual_soiling_ratios`) | grouping by year, percentile bounds | proved: Rows are the years, weighted ratios, bracketing, range, locality, errors. |
| C38 | Monthly soiling rates allocate samples by overlap | Model/Soiling (`monthly_soiling_rates`) | overlap in days, allocation of draws by rounding up | proved: Selection of intervals, share of draws by overlapping days, ranges and quantiles of the draws. |
| C39 | CODS decomposition terminates within its iteration budget | Model/CodsDecomp | loop invariant with a ghost log of fitted components | proved: Budget, cyclic order, every component for all fits; after switching off perfect cleaning the loop restarts at the first component of the order. The comment that this ensures SR first is false (witness). |
| C40 | CODS returns its best fit | Model/CodsBootstrap | the variable that survives the loop of stage 1; witness | partial: False: after bootstrapping the ratio is that of the last successful initial fit (general theorem and witness); proved for the small-signal branch. |
| C41 | CODS bootstrap survives rejected initial fits | Model/CodsBootstrap | counting the samples left by accepted fits; totality theorem | partial: False: a result after bootstrapping implies that all sixteen fits were accepted (general refutation, KeyError witness; single alternatives never work); success theorem if all are accepted. Any result implies that at most eight were rejected; more than eight end in RuntimeError. |
| C42 | CODS model weights form a probability distribution | Model/CodsBootstrap | normalization of positive weights, convex combinations | partial: Weights positive, sum one, ordered by error and by days without soiling; range of bootstrapped ratio and cleaning probability. Witness: a missing value of a refit counts as zero. |
| C43 | soiling_cods reports ordered confidence intervals | Model/CodsBootstrap | monotonicity of quantiles; general refutation | partial: False: upper bound first after bootstrapping (general); the numbers agree with the loss interval. Small signal: upper loss is a fraction, not percent (general). |
| C44 | CODS cleaning-event collapsing terminates and thins events | Model/CodsEvents | refinement of the loop to islands of candidate days (Spec/Cods) | proved: Exact characterization by islands of candidate days, termination, success, count, distance. Witnesses: the last run reaching the end is dropped, a later window can erase an earlier event. |
| C45 | CODS soiling ratio is clipped | Model/CodsKalman | invariants of the filter run | proved: Upper clip, rates, days since cleaning, column lengths for every successful call. Witnesses: no lower clip (the documentation names one), rates stay missing without clipping, ratio stays missing without pruning iterations. |
| C46 | Seasonal component is periodic | Model/CodsEvents, Lemmas/CalendarYear | median over equal days of the year | proved: Median over years, periodic, same calendar date, complete for at least 726 days, samples. Witnesses: day 366 missing, series of 182 to 366 days wiped out, sample shifted by a day. |
| C47 | Inverter-level losses are non-negative and vanish when everything is online | Model/Availability | clip algebra, quantile equivariance | proved: Non-negativity, zero when all or none report, the limit (exactly: the loss without limit cut to the room left), exactness for proportional inverters, default thresholds. |
| C48 | System outages are disjoint maximal runs | Model/Availability | run-length specification (Spec/Availability) | partial: Rows of the outages, maximal disjoint runs in order; false if the whole series is one outage (general statement and witness). |
| C49 | Outage classification and energy accounting | Model/Availability | case analysis per outage, sums over rows | partial: Classification, readings, ordered bounds; corrected meter; distribution exact after the first row of the outage. False parts with witnesses: loss attributed to the first row on top, negative loss, outage in the first row. |
| C50 | Availability is between zero and one and consistent | Model/Availability | partition of rows into periods | partial: Sum, partition of the lost production, exact range under sign hypotheses, exact formula for the actual production. False parts with witnesses: availability above one, production between periods lost. |
| C51 | Availability inputs are validated first | Model/Availability | state machine, induction over histories | proved: All histories of runs; plot; witness that a failed call stores other attributes. |
| C52 | Filter parameter dictionaries only ever hold known filters | Model/FilterDict | invariant over histories of operations | partial: Construction, assignment, pickling, histories; failed calls change nothing. update with a one-shot iterator changes nothing silently; setdefault and |= bypass the check (witness). |
| C53 | A point is kept iff every enabled filter keeps it | Model/Chains | fold of conjunctions; filter functions are parameters | proved: Exact conjunction for both filter stages with arbitrary filter functions, monotone, order independent; the stored component columns all carry the timestamps of the mask, each has the verdicts of its filter, and the mask is their conjunction. Witnesses: the clear-sky filter cannot be disabled, the sensor clear-sky filter also acts on clear-sky analyses. |
| C54 | Missing inputs are reported before filtering | Model/Chains | state machine, failing calls | partial: A missing input always fails without any change; ValueError if nothing else is wrong; a location given as None yields AttributeError (witness). |
| C55 | Trend analysis never runs on less than two years of usable data | Model/Chains | exact condition | partial: Exact condition of the check and of whole degradation analyses; rows without data count and soiling analyses are not checked (witnesses). |
| C56 | Sensor and clear-sky analyses are independent | Model/Chains | frame conditions for every call, induction over histories | proved: All histories of calls, independence in any order, failing calls, requested names; arbitrary numerical functions. |
| C57 | Plot methods select the stored analysis | Model/Chains | case analysis | proved: Accepted case strings and selected results for all objects; witness that a failed analysis leaves the plot inconsistent. |
| C58 | Clear-sky temperature look-up stays on the map | Model/ClearskyTemp | rounding arithmetic over ℚ | partial: Every location hits a pixel except within half a pixel of the eastern and southern edge, where the look-up misses every map (general refutations); also the eastern half of a column gets the next column. |
| C59 | Clear-sky temperature swings around the daily mean | Model/ClearskyTemp | real cosine from Mathlib; convexity | proved: Bound, extremes, period and mean over the reals; the returned temperature lies in the range of the monthly values for any dates, window and positive weights. |
| C60 | Deprecation decorator is transparent | Model/Deprecation | string equations, induction over calls | proved: All functions, arguments, option values and histories of calls; exact text; refused exactly for pending with a removal. |
| C61 | Version strings identify the checkout | Model/Version | string equations | proved: All version-control states: clean tag, identification by the default version, parsing of git describe, errors, styles, archive keywords. Witnesses: pep440-pre hides dirtiness and raises for some tags. |
| C62 | CODS event detection follows the data | Model/CodsEvents | quantile counting and equivariance | partial: Exact conditions for cleaning events and for soiling events, in terms of the rolling medians of the measurements; monotone in the tuner, only rises, at most a quarter, unit and offset independent, constant signals. Soiling events: monotone in the tuner, unit and offset independent, and falls of the signal if it is unchanged on 1 % of the days; witness: otherwise a rising day can be flagged as soiling event. |
| C63 | CODS pruning of cleaning events keeps the best ones | Model/CodsEvents, CodsKalman | monotonicity of comparisons | proved: Monotone, keeps the best, missing performance disables the pruning, equal performances kept. |
| C64 | CODS Kalman estimates are consistent | Model/CodsKalman | 2×2 matrix algebra, induction over days | proved: The columns of a run, exactly: noise estimate, start line, filter recursion with restarts only on event days, smoothing backwards between events, at the level of the call. Filtered level between prediction and measurement, covariances positive semidefinite and non-increasing under smoothing, no singular matrix, constant signals exact. |
| C65 | CODS cleaning events are only moved to better days | Model/CodsKalman | effect of one step, invariant of the event list | partial: Exact effect of one step, forward pass invariants, events handed over. Witness: events around a confirmed one are kept, contrary to the documentation. |
| C66 | CODS Kalman step terminates and succeeds | Model/CodsKalman | totality of each stage, decreasing event lists | partial: Total success theorem for up to 100 pruning iterations; more than 100 never end on a constant signal (general refutation). |
| C67 | CODS perfect cleaning restores the ratio to one | Model/CodsKalman | segments between events | partial: Exact ratio after the first event, 1 at every later event, 1 without events; up to the first event the exact ratio to the harmonic mean of the levels at the events. Witnesses: not 1 at the first event; renormalizing without events loses all values. |
| C68 | CODS smoothing does not reach across cleaning events | Model/CodsKalman | locality of the backward recursion | proved: Segments are smoothed by themselves; locality; the day before an event and the last two days unsmoothed (C64_run states the same on the output of the call). |
| C69 | CODS accepts every order that contains the soiling component | Model/CodsDecomp | absence of IndexError through all stages; general refutation for the third place | partial: Exact: IndexError-free for SR first or second within the budget; never a result for SR third (general refutation); ValueError without SR. |
| C70 | CODS components multiply to the performance index | Model/CodsDecomp | data invariant of the loop | proved: All iteration histories. |
| C71 | CODS components are normalized | Model/CodsDecomp | component invariant of the loop | proved: All iteration histories, including which fit each returned component comes from and what is left out of the order. |
| C72 | CODS handles a flat performance index | Model/CodsDecomp | invariant: all components flat; general refutation | partial: False for every flat index: ZeroDivisionError in the signal strength (general refutation). |
| C73 | CODSAnalysis stores the given series | Model/CodsDecomp (`codsInit`) | induction over leading missing days | proved: Exact stored series and errors. |
| C74 | CODS bootstrap intervals are ordered and within the refits | Model/CodsBootstrap | monotonicity and bounds of quantiles, convex combinations | proved: All outcomes of fits and refits. Witness: the estimate can lie outside its interval. |
| C75 | logic_clip_filter is total on valid series | Model/ClipLogic | absence of errors through every stage | proved: Totality, exact rejection, length, missing readings kept. |
| C76 | logic_clip_filter does not depend on the unit | Model/ClipLogic | equivariance of every stage under scaling | proved: All series, positive factors, cutoffs and windows. |
| C77 | logic_clip_filter treats equal readings of a day alike | Model/ClipLogic | the verdict is a function of day and value | proved: All series. |
| C78 | logic_clip_filter keeps everything without a plateau | Model/ClipLogic | nothing detected, hence no band and no overall level | proved: Cutoff not positive: any series. No plateau: regular series whose days vary (otherwise a day counts as frozen and is interpolated). |
| C79 | logic_clip_filter: a higher cutoff marks more readings | Model/ClipLogic | monotone detection; witness against the masks | partial: The documented claim is false (witness). Proved: detection is monotone; a filter that excludes something still does at a higher cutoff. |
| C80 | logic_clip_filter marks the plateaus | Model/ClipLogic | refinement of the rolling range to plateaus of readings, or of quarter-hour medians below ten minutes (Spec/ClipLogic) | partial: Soundness and completeness for regular series with steps of at least ten minutes and for increasing series with prevailing steps below ten minutes (C80_fine_*), without frozen days. False for the first k-1 readings (witness). |
| C81 | The clipping filters warn about variable sampling and only then | Model/ClipLogic (`samplingWarning`) | counting of steps | partial: Warned if irregular; quiet if regular with at least 20 readings. False for shorter regular series (general refutation). |
| C82 | xgboost_clip_filter is total on valid series | Model/ClipXgb | absence of errors; the model is an arbitrary function | partial: Success for readings at least a minute apart, rejections, length, missing readings. False for sampling below a minute: ZeroDivisionError (general refutation). |
| C83 | xgboost_clip_filter does not depend on unit or offset | Model/ClipXgb | affine equivariance of interpolation, invariance of the min-max scaling | proved: All series and all models. |
| C84 | xgboost_clip_filter excludes only high readings near predicted clipping | Model/ClipXgb | case analysis of the final verdict, levels as extremes of predicted readings | proved: Soundness, completeness, no holes, constant series, for all models. |
| C85 | xgboost_clip_filter leaves days without predicted clipping alone | Model/ClipXgb | forward fill by label; witness | partial: Holds up to the last day with predicted clipping; later days inherit its levels (witness). |
| C86 | The clipping model only sees complete inputs in range | Model/ClipXgb, Spec/ClipXgb | bounds of every column | proved: All series; consequence: the result depends only on the answers to well-formed rows. |
| C87 | The degradation summary figure shows the analysed data | Model/Plotting (`summaryPlot`) | drawn elements as a value; witnesses for bins and colours | partial: Points, histogram and line for all results. Refuted: default bins are zero below 40 values (ValueError); colours go by position, so unordered data get wrong ones. Proved for bins given and ordered data. |
| C88 | The degradation time series figure shows running medians | Model/Plotting (`timeseriesPlot`) | running median against the independent median; draws are parameters; witnesses | partial: Trend, locality, overall rate, where the band is drawn and what its edges are. Refuted: the edges come from independent draws and may cross; weekly data give no trend. Proved for daily data. |
| C89 | The availability figure shows the analysis | Model/Plotting (`availabilityPlot`, `objPlot`), Model/Availability | composition with a successful run; witness for the bar | partial: Figure after every successful run, curves and their ends. Refuted: the bar is mirrored if both error quantiles have the same sign; proved if they enclose zero. |
| C90 | The soiling figures show the analysis | Model/Plotting, Model/Soiling | composition with a successful analysis | proved: All successful analyses. |
| C91 | The filter tuning figure shows every reading with its own verdict | Model/Plotting (`tuneFilterPlot`) | alignment by label; witness for the name | partial: All series and masks unless the names clash: a signal called "mask" loses its values (witness), other clashes raise ValueError. |
| C92 | The energy against irradiance figure pairs readings of the same time | Model/Plotting (`irradianceScatter`) | inner join | proved: All pairs of series. |
| C93 | logic_clip_filter excludes exactly the readings at plateau levels | Model/ClipLogic (`logicClipFilter`, `applyOverall`, `inBand`), Spec/ClipLogic (`AtDayLevel`, `OverallRule`) | equivalence: band test = level predicate, overall condition = rule, detection lemmas of C80 | proved: Without frozen days; no negative readings for fine sampling. |
| C94 | The clipping model is asked the published questions | Model/ClipXgb (`featureRow`, `featureTable`), Spec/ClipXgb (`Describes`) | rolling windows as explicit index ranges; telescoping sums | proved: The standard deviation is represented by its square; floating-point rounding is not modelled. |
| C95 | Recentering makes the first year the reference | Model/Soiling (`srrRenorm`, `srrNorm`, `calcDailyDf`) | first 365 rows of a daily index = label range of a year; independent median (Spec/Filtering) | proved: All daily series; the statements on normalized values need a nonzero factor (infinities are not modelled). |
| C96 | soiling_srr does not depend on units | Model/Soiling (`soilingSrr`) | equivariance of every stage under scaling | proved: All inputs and random numbers. Random numbers are parameters of the model; the half-width of the slope interval is a parameter depending on the fitted points. |
| C97 | soiling_srr does not depend on the calendar | Model/Soiling (`soilingSrr`) | equivariance of every stage under translation of the index | proved: All inputs, with and without recentering. |
| C98 | soiling_srr detects cleaning events by the documented rule | Model/Soiling (`calcDailyDf`), Spec/SrrShift | refinement of fill, rolling median, difference and quartiles to index-wise specifications | proved: All inputs with nonzero renormalization factor. |
| C99 | Availability losses follow the documented rules exactly | Model/Availability (`lossRow`, `lossSubsystem`, `errorDistributions`, `outageInfo`) | refinement of each row to a relational rule over the subsystems; sorted list of normal rows; quantiles by `IsQuantile`; interpolation by relation | proved: Thresholds not negative and known sizes positive for the loss rule; windows whose rescaled expected energy is zero are left out. |
| C100 | The rate of a soiling interval is the Theil-Sen estimate | Model/Soiling (`theil`, `calcResultDf`), Spec in Props/SrrTheil | pairwise slopes equal to an index-wise list, rounding characterised, medians of affine data | proved: The width of the confidence interval in ranks (normal quantile times the variance of the rank statistic) is a parameter computed by scipy. |
| C101 | irradiance_rescale fits the modelled irradiance to the clear rows | Model/Rescale (objective, clear rows, first guess, both methods) | last factor of the loop by C10; the objective is a quadratic of the factor, minimised by its vertex | proved: The optimizer (scipy.optimize.minimize) is a parameter; what is assumed of it is stated in each theorem. |
| C102 | The clear-sky temperature at a time does not depend on the period asked for | Model/ClearskySeries (daily frame, months, smoothing, interpolation on the grid, nearest time, solar hour), real numbers | closed form of every stage, padding shown long enough for the window | proved: Times in increasing order in a zone with a fixed offset from UTC; the frequency divides a day; map contents, weights of the window and frequency inference are parameters. |
| C103 | hampel_filter and directional_tukey_filter keep exactly the documented points | Model/Filtering (`hampelFilter`, `directionalTukeyFilter`), Spec in Props/Outliers | rolling medians as medians of the present readings in a window; quantiles by `IsQuantile` | proved: The lower fence has the fixed factor 1.5 of the code (see C15). |
| C104 | The year-on-year intervals are percentiles of refits | Model/Degradation (`yoy`), Model/Bootstrap | samples of the model meet a relational resampling specification; refits are successful runs of `yoy` | proved: Random draws are parameters. The line of the code has the whole days divided by the number of rows as its step. |
| C105 | The availability analysis does not depend on units | Model/Availability (`run`) | every stage commutes with the change of units (Lemmas/AvailUnits) | proved: All inputs and arguments of the model. |
| C106 | The availability analysis counts no loss twice | Model/Availability (`run`, `overlapWarning`) | a row with system loss is a daylight row of an outage (C48), where no subsystem reports (C47) | proved: Successful runs whose expected power and subsystem table have one row per timestamp. |
| C107 | Energy per calendar period is the integral of power over that period | Model/EnergyCal (`calPoint`, `calGrid`, `aggregateCal`, `energyFromPowerCal`), on the calendar of Model/Calendar | the period starts are exactly the midnights of firsts of months (C92); terms of the rectangular sum between two grid points (as C05), telescoping over the grid | partial: Right-labeled power, and instantaneous power without gaps; frequencies at period starts (MS, QS, YS). The last row is always an empty period after the end of the data. Conservation fails if the data start within a period: the energy of this first period is dropped (C107_conserved_refuted); C107_conserved_partial says exactly what is missing. |
| C108 | An analysis does not depend on the unit of the power | Model/ChainsNumeric: constructor, pvwatts and expected-power normalization with renormalization, clipping filters plugged into the chain of Model/Chains | Simulation between the two objects through every method (Lemmas/ChainsTwin), scaling lemmas of C11, C13, C76, C83 at the leaves; induction over the calls | proved: Constructor, both normalizations and the three clipping filters are the concrete models; everything that sees only normalized data is universally quantified. |
| C109 | Level of the normalized energy without a nameplate power | Model/ChainsNumeric `pvwattsNorm`, `renormalize` | Identification of the computed divisor with the declarative quantile of Spec/Quantile, positivity, homogeneity of quantiles | proved: The hypothesis that the quantile is not negative excludes series in which over 95 % of the intervals have negative energy. |
| C110 | Insolation-weighted aggregation reports calendar periods that do not move as the record grows | aggregationInsol, startDay, binOf (as for C01) | labels characterised by divisibility and comparison with sample times; the extension property follows from the characterisation and the entry formula; 2-day counterexample by evaluation | proved: C110_periods gives the exact set of labels for every fixed-length frequency, C110_clock specialises to periods dividing a day, C110_stable is the extension property; C110_stable_refuted shows the extension property fails for periods longer than a day (2D), which the documentation does not promise. |
| C111 | Year-on-year degradation tolerates noise and outliers | yoy, yoyCore, yoyTable (as for C20-C25) | each year-on-year value is bounded using the exact pairing of C21 and the year length bound of its partner; the median is bracketed; majority by counting in a sorted arrangement | proved: C111_noise and C111_noise_interval are the perturbation bound (the circular block interval is not covered), C111_outliers the majority property of the reported median. |
| C112 | Energy is linear and monotone in power | energyFromPower, aggregate, interpolateSeries (as for C05-C08) | two series on one index are a list of pairs; every step is shown to act on the pairs whatever the weights; signs are followed through each step; order from linearity and sign | proved: Fixed-length target frequencies. C112_missing_refuted shows that the condition on missing readings is needed. |
| C113 | A sensor or clear-sky analysis recovers the degradation of a system that follows its model | Model/ChainsDaily.lean (the environment of a degradation analysis), Model/Chains.lean, Model/ChainsNumeric.lean | inversion of the session program to the normalization, C03 weighted-mean bounds per period, C111 for the year-on-year rate | proved: proved for the whole chain from the stored inputs to the stored rate, with the numerical models of normalization, filters, aggregation and year-on-year plugged in; requires normalized_filter, aggregation periods that divide a day or are whole days, nonnegative irradiance, and model power not sampled more coarsely than the energy |
| C114 | The performance an analysis stores is the insolation-weighted mean of what its filters accepted | Model/ChainsDaily.lean, Model/Chains.lean | inversion of the session program, then the row-by-row characterization of resampling, selection and asfreq | partial: partial: holds for aggregation frequencies that divide a day or are whole days; refuted for others (periods of seven hours), where the regridding after the aggregated filter counts the periods from another midnight and loses the values |
| C115 | Importing rdtools finds its version whatever git does | Model/VersionGit.lean (calls of git as a function of the arguments, paths, `get_versions`) | case analysis over the calls; round trip with a specification of git; induction over path components | partial: partial: proved for archives, for every checkout git describes, and for every failure of git up to the description; refuted in general: if only `git show` or (without tags) `git rev-list` fails or prints nothing the import stops with AttributeError or IndexError |
| C116 | The cleanings found are exactly the cleanings that took place | `calcDailyDf` with the centred rolling median, the shift and the threshold, as for C98. | Spec: `SoilsBetween`, `Spaced`, `Restores`. A centred median of an odd window over a run bounded by its ends lies between the end values, so away from cleanings the median does not rise and falls at most `m`, and at a cleaning it rises by more than `Restores` says. For the inferred threshold, fewer than a quarter of the shifts belong to cleanings, so the third quartile is at most `m`; the interquartile range is at most `m`. | proved: For series without gaps. The distance between cleanings and the size of the restoration are hypotheses; the threshold is either given or inferred. Examples with both beside the theorem. |
| C117 | A system that soils linearly between detected cleanings gets exactly its losses back | `soilingSrr` from inputs to the summary. | C116 gives the runs; the Theil-Sen fit of a line is that line (C100); the recovery of an interval ending at `e` leads back to the clean level, so all start losses are 1 and each draw gives the same profile; percentiles of equal numbers are that number. | proved: End to end, from the inputs of soiling_srr to its outputs. With recentering the reported loss is the true loss divided by the first-year median of the soiled performance, so it exceeds the loss relative to the clean level; the theorem states the value as it is. `trim=False` is assumed. The z value of the Theil-Sen interval stays an arbitrary nonnegative function, since it does not matter when all slopes agree. |
| C118 | The clipping model is loaded before it is used, whatever happened before | `loadStep`: each thread is at a program point of `_load_xgboost_clipping_model` or before `predict`; a step reads or writes the global once; constructor and file read may fail. | Invariants over schedules: the warm state (loaded classifier in the global, no thread before its assignment) and the stuck state (never loaded, nobody will) are preserved by every step. Counterexamples are concrete schedules. | partial: Fails as stated: `C118_retry_refuted` (a call after a failed read), `C118_threads_refuted` (two overlapping calls). `C118_stuck` shows that after a failed read no call in the process ever succeeds. Proved: histories without failures, all schedules after a first completed call, and that every settled state without failures is ready. |
| C119 | Packaging scripts read the same version keywords that an import would give | `gitGetKeywords` with `strip`, `startswith` and the search of `=\s*"(.*)"`; `registerHandler`. | Splitting the joined lines gives the lines back; other lines leave the dict alone; on an assignment the first `=` followed by a quote is the one after the name and the greedy group ends at the last quote. | proved: Regular expression and stripping are modelled on characters; white space is ASCII. |
| C120 | The progress bar of the CODS bootstrap is right at every step | `progressBar` with Python's rounding half to even. | `pyRound` is monotone, within one half of its argument and the identity on integers. | proved: Exact rational arithmetic; the formatting of the numbers is left out. A call with zero steps done would divide by zero (`C120_zero`); the analysis starts counting at one. |
| C121 | An availability analysis recovers the losses of a plant | The stages of `run` as modelled for C47-C51 and C99, on the records of a `Plant`. | Thresholds separate seen from unseen inverters; the median of the normalized powers is the relative size by majority; the loss rule (C99) then gives the missing power; sound rows give the scale and zero errors; counter differences give the outage losses; communication outages add zero. | proved: The plant and its records are a specification of their own (`Spec.Plant`). When the whole plant fails, the loss of the outage is exact (`C121_outages`), but its spreading over the rows is not (C49, `C49_distribution_refuted`), so the whole-run statement excludes that case. |
| C122 | A soiling analysis of measurements recovers the losses of the system | `soilingEnv`: the degradation environment of C113 with the model of `soiling_srr` in place of the abstract soiling analysis. | The two aggregates have one index and C114 gives their values; C113 pins the performance of a day between equal bounds; the level of an unknown nameplate cancels because detection, medians and losses scale; then C117. | proved: `Spec.SoiledRecord` collects the hypotheses, `Spec.Follows` says what the system did. Without recentering the level is that of the model, so a nameplate or expected power is then required. |
| C123 | Errors and confidence limits of the regressions are those of the estimated line | `regressionInfo`, `drawParams`, `degradationOlsFull`, `degradationClassicalFull`: everything the two functions return. | Closed forms of the weights of the observations and their sums; the Gauss-Markov argument with the difference of two weightings; leverages add up to two; C27 and C29 for the classical decomposition. | proved: The squares of rmse and standard errors are modelled, since square roots leave the rational numbers. The decomposition of the covariance that numpy computes is a parameter with its defining equation (`Spec.IsRoot`); the theorems on exact records need that equation only for a vanishing covariance. |
| C124 | The modelled clear-sky irradiance of a record is the simulation averaged over its intervals and fitted to its clear samples | `minuteTimes`, `backfillId`, `groupMeans`, `averagedClearsky`, `clearskyPoaSeries`. | The id of a minute is the first timestamp not before it, so the groups are the intervals; equal numbers of groups and timestamps mean that no interval is empty; a permutation argument for regular records; the least-squares factor over clear samples is unique (C101). | proved: After a gap in an irregular record the value is the average over the whole gap (an `example` in Props/ClearskyPoa.lean shows it), since the interval is taken to reach back to the preceding timestamp. pvlib's simulation is a parameter. |
| C125 | A higher confidence level widens every reported interval and changes nothing else | `yoy`, `degradationOlsFull`, `degradationClassicalFull`, `soilingSrr`, `annualSoilingRatios`, `monthlySoilingRates`, `runBootstrap`, `soilingCods`. | The random numbers are parameters of the model, so two runs share everything up to the percentiles; these are monotone in the level (`percentileE_mono`, `quantile_mono`). | proved: A negative level is accepted and gives the interval with its limits exchanged (`C125_yoy_negative`). If CODS finds a small soiling signal it ignores the level: the degradation interval is that of the default level of the year-on-year analysis, even for a level of 200 % (`C125_cods_levels`). |
| C126 | Loosening the limits of a filter never removes a point | `normalizedFilter` … `directionalTukeyFilter`, `Chains.filter`. | Order of the extended numbers; the median absolute deviation and the interquartile range are non-negative; conjunction theorem C53 for the analysis. | proved: The two filters for which a looser setting can drop points are C17 (quantile_clip_filter) and C79 (logic_clip_filter). |
| C127 | Rolling filters depend on differences of time only | `twoWayWindowFilter`, `directionalTukeyFilter`, `hampelFilter`. | Each filter as a function of the row; windows are mapped to windows by shifts and reflection; medians and quantiles ignore order. | proved: The window of hampel_filter is half open, so it is not symmetric (example). |
| C128 | Insolation-weighted aggregation may be done in steps and in any unit | `aggregationInsol`. | Same labels by C110, sums over nested periods, quotient times denominator; night periods are NaN with weight zero. | proved: C128_two_steps_uneven_refuted shows that the coarse period has to consist of whole fine ones. |
| C129 | The order of the subsystems does not matter to an availability analysis | `lossSubsystem`, `run`. | Reordering commutes with every row-wise operation; sums, means, minima and medians ignore order; the mask only enters through any(). | proved: Whole analysis, with default or given thresholds and sizes. |
| C130 | Interpolation, energy and availability do not depend on the date | `interpolateSeries`, `aggregate`, `energyFromPower`, `Avail.run`. | Every index operation of the model commutes with a translation of the labels. | proved: Fixed-length target frequencies; calendar frequencies depend on the calendar by design (C107). |
| C131 | Aggregation pairs energy and insolation of the same time | Model/AggregationAlign (`alignedProduct`, `aggregationInsolOn`). | Labels by C110; sum over the union of times reduces to the rows of the insolation; periods without insolation are 0/0. | partial: partial: proved for periods that divide a day, and for every frequency when the times agree; refuted for longer periods when the series start on different days (everything is NaN). |
| C132 | Aggregation over months, years and weeks follows the calendar | Model/AggregationCal (`periodNo`, `periodLabel`, `resampleSumCal`, `aggregationInsolCal`). | Months, years and weeks as consecutive runs of days (Lemmas/CalendarMonth), then as C131; nested sums for the steps. | proved: All series; the calendar (months, leap years, centuries) is proved from the day numbers. The steps need insolation that is not negative. |
| C133 | The degradation rate of CODS is the year-on-year rate of the corrected index | Model/CodsYoy (`yearOnYearRate`, `yoyEnv`): the decomposition of Model/CodsDecomp with the year-on-year rate of Model/Degradation. | C71 (origin of the rate) with C21/C22; partner days from the calendar; median of an arithmetic sequence. | proved: All indexes, histories and dates; STL, lowess and the Dickey-Fuller test stay parameters. |
| C134 | Which samples and periods an analysis uses, in numbers | Model/ChainsClear (`skyEnv`, `clearskyMask`, `csiMask`, `hourAngleMask`): the environment of Model/ChainsDaily with the clear-sky and hour angle filters of rdtools/filtering.py. | C53 (conjunction over the applied filters) with C12, C14 and quantiles for each filter; the inputs of the filters are shown to be those of the final object; C110 for the periods. | proved: Both cases, all filters. Hampel's and Tukey's rules are those of C103; pvlib's detection and hour angles are parameters; the threshold of the two-way window filter is positive. |
| C135 | Year-on-year: seasons cancel, trends add | Model/Degradation (`yoy`, `yoyTable`, `asofYear`) and the calendar of Model/Calendar. | Anniversaries on the calendar: on a complete daily index the latest sample at least a year before is that of the same day of the year (Lemmas/Anniversary); then equivariance of the table, of medians and of percentiles under a shift. | proved: For recentred data and for the circular block method the statement is about the rate; the confidence interval of the circular block method is not covered (its residuals come from a moving average over the season). |
| C136 | When the preprocessing of an analysis succeeds | Model/Chains (`filter`, `aggregatedFilter`, `finish`, `boolIndex`, `sensorPreprocess`) with the numerical functions of Model/ChainsDaily. | The steps are decomposed in both directions; the combined mask has every timestamp of the series, so `series[mask]` never raises; regular series by the closed form of energy_from_power (C05) and totality of the logic filter (C75). | proved: The exact conditions for a new object are for the default filters; for other filters the statements about filtering and about everything after the normalization apply. The clear-sky filter function (pvlib) is not modelled: whether it runs is a condition. |
| C137 | An analysis has no memory of earlier analyses | Model/Chains: the object's state with everything an analysis stores. | A simulation: the object with the history's analyses is related to the object without them by a relation that allows stored series which the other object would compute itself, and user masks with missing values replaced; analyses on one side (by `analysis_keeps`) and settings on both sides keep it; two related objects run in lockstep, the stored attributes becoming equal stage by stage. | proved: The numerical functions of the environment are deterministic functions of their arguments (the bootstrap of the year-on-year analysis and the Monte Carlo of the soiling analysis for given random numbers). |
| C138 | What the CODS bootstrap reports, in numbers | Model/CodsBootstrap, Model/Bootstrap, Model/CodsEvents | stage folds as filterMap, uniform flattening, quantile specification | proved: Exact characterization of the reported numbers from the refits, and of the series each realization refits. Fits and refits themselves are parameters (any behaviour); see C39 and C69 to C72 for them. |
| C139 | The rate of a soiling interval tolerates noise and bad days | the interval table of `_calc_result_df` with the Theil-Sen fit (Model/Soiling, Model/Stats) | counting: m days on a line give m(m-1)/2 slopes near its slope, a majority of the slopes bounds their median; medians are monotone, so the median performance is within eps of the line at the median day | proved: At the level of the interval table (DailyRows holds for every table of daily rows, C31). The validity of the interval is a hypothesis: noise may well make an interval invalid by the documented conditions (C32). |
| C140 | Which cleaning events a CODS iteration removes and adds | CodsKalman: pruneEvents, addEvents, revise, pruneLoop | membership in the lists unfolded to medians, quartiles and islands of the specification; uniqueness of islands; first iteration of the loop | proved: Exact membership of the revised list, on the state of an iteration and on the call with one iteration; that an event in the last six days keeps all events is general (`C140_late_event_keeps`), with a witness that it matters. |
| C141 | The CODS filter does not depend on the origin or unit of the index | CodsKalman, CodsEvents: the whole call | every step shown to commute with y -> s*y + c: filling, medians, quantiles, detection and collapsing of events, noise, Theil-Sen line, prediction, update, control input, smoother, revision; induction over days, borders and iterations; counterexample by evaluation | partial: Origin: proved for every call. Unit: proved for the first run of the filter (C141_unit_partial); with revision of the events it is false (C141_unit_refuted): _forward_pass returns variances as rate_std and zs_std, and _initialize_univariate_model squares them again. |
| C142 | What the iterations of the CODS decomposition do | CodsDecomp: the whole call | relational specification of fits, errors and decisions, day by day; invariant of the loop with the history of components, induction over the remaining iterations | proved: The external routines (STL with lowess, year-on-year rate, Dickey-Fuller test, square root) are parameters; the season fit is assumed to return a value for each day. What the filter does with what it is given is C64 and C140, what _force_periodicity does C46. |
| C143 | What a soiling_cods run consists of, and that it reports no gain | Model/CodsFull: the bootstrap of CodsBootstrap with the decompositions of CodsDecomp as its fits | C138 and C142 put together; the index arithmetic of the alternatives; leading gaps of samples; quantiles of clipped ratios; general refutation | proved: The last sentence is a defect, not a guarantee one would want. For a flat index (no season and no degradation found by the other packages) the call never gives a result (C143_flat_refuted): the residuals are constant, the comparison of amplitudes divides by zero, and the weights have no error to work with. Not modelled: `renormalize_SR` in **kwargs (TypeError in the refits). External routines and random numbers are parameters. |
| C144 | An analysis applies the filters the user configured, and no others | Model/Chains, Model/FilterDict | histories: relation between the object and the one that received the configuring calls only, by induction; contents of dictionaries by lookup | proved: Edits through setdefault and |= are outside the histories (they bypass the check, see C52_bypass_refuted and C52_other_methods). |
| C145 | Availability results over periods of different lengths agree | Model/Availability | the run decomposed into its stages; partition of the interval energies by the labels of the short periods; telescoping sums of readings | partial: The last part is false (`C145_actual_refuted`): the increase of the meter between the last row of a short period and the first row of the next is in no short period; `C145_actual_partial` gives the exact difference. The model lists periods that contain a timestamp (see rollup). |
| C146 | Looser settings of soiling_srr find more cleanings and keep more intervals | Model/Soiling | both runs share the frame, the steps and the outages; monotonicity of detection, rain, criterion and of the numbers of cleanings up to a day; validity is monotone in the settings (`ValidInterval`), and a valid row does not depend on them | proved: No hypothesis on the renormalization factor; the two runs may have any outlier factors when the threshold is given. |
| C147 | A longer record keeps the year-on-year rates found before | Model/Degradation | samples after a time are no partners of it (`latest_append`); the merged table of the longer record starts with that of the shorter one; earlier samples by the characterization of pairs (C21) | proved: Calendar with leap years included. The restriction to a day is needed: C147_within_a_day_refuted. |
| C148 | Later readings do not change earlier interpolated values and energies | Model/Normalization | the row before and the row after a time lie in the shorter series; sums over consecutive rows (C05, C06) do not see rows after the end of the period | proved: Both exceptions are needed: C148_last_period_refuted and C148_default_limit_refuted. |
| C149 | Degradation results depend on the data and not on the date | Model/Degradation, Model/Calendar | every step of the routines commutes with the move; the days of civil years repeat every 1461 days between 1901 and 2099 and every 146097 days, so the anniversaries move along | proved: The frequency inferred by pandas is taken to be the same for the moved index. C149_other_refuted: moving four New Year samples by 366 days changes the rate from -1 to -1097/732 %/year. |
| C150 | The least-squares rate depends on the readings and the first timestamp only | Model/Degradation | the sums of least squares are those of the readings in any order; moving the abscissae moves the intercept along the line | proved: C150_first_row_refuted: the same three readings give -25, -50/3 or -50 %/year depending on the first row of the table. |
| C151 | What rows without a value do to year-on-year degradation | Model/Degradation | by the characterization of pairs (C21): a larger set of times can only move the latest anniversary to an added row | proved: C151_rate_refuted: one empty row changes the rate of four readings from -1.98 to -1.49 %/year. |
| C152 | What the factor of irradiance_rescale depends on | Model/Rescale | the percentiles of permuted lists agree; both filters select complete rows only, so the objectives agree as functions | proved: In exact arithmetic; floating-point sums may differ in the last digits with the order. |

## Trusted base

* The kernel of Lean 4.33.0 and the definitions of Lean core and Mathlib that occur in statements
  (`ℚ`, `ℝ` and `Real.cos` for C59, `List` functions, `List.insertionSort`, `List.Perm`, sums).
* Axioms: every theorem depends on at most `propext`, `Classical.choice` and `Quot.sound` (checked with
  `#print axioms`). No own axioms, no `sorry`, no `native_decide`, no `bv_decide`. Witnesses and
  examples are evaluated by the kernel (`decide +kernel`), not by the compiler.
* The correspondence between the Python text and the Lean definitions is by reading. Each definition
  cites file and lines; simplifications are stated in its comment.
* The semantics of the pandas and numpy primitives used is stated in `Model/Basic`, `Model/Frame`,
  `Model/Stats`, `Model/Flt` (NaN-skipping sums, linear-interpolation quantiles, alignment, reindex,
  forward and backward fill, rolling windows, resampling bins, IEEE division and comparison).

## Modelled code

| File | Modelled | Not modelled |
|---|---|---|
| aggregation.py | all, for equal and for different times of the two series; fixed periods, months, years, weeks | business-day and quarter frequencies |
| utilities.py | `robust_*` | |
| normalization.py | `energy_from_power`, `_aggregate`, `_interpolate_series`, `interpolate`, `normalize_with_*`, `pvwatts_dc_power`, `irradiance_rescale` with objective and clear rows, index steps | the optimizer (parameter), frequency inference (parameter), frequencies at period ends ('ME'), the range of `pd.date_range` for calendar frequencies (any range on the frequency) |
| filtering.py | range filters, csi, clear-sky look-up table and call of the detection, dispatch, quantile clipping, insolation, hampel, two-way window, directional Tukey, hour angle, validation of clipping input, `logic_clip_filter` and `xgboost_clip_filter` complete with features | pvlib detection itself, the trained XGBoost model (parameter) |
| degradation.py | `degradation_year_on_year`, `degradation_ols`, `_degradation_CI`, `degradation_classical_decomposition`, `_mk_test` | square roots of the errors, p-values, plots |
| bootstrap.py | all | random generator (parameter) |
| soiling.py (SRR) | `SRRAnalysis` complete: daily frame, result frame, Monte Carlo, `run`, annual and monthly tables | distributions (draws are parameters), `theilslopes` intervals (parameter) |
| soiling.py (CODS) | `CODSAnalysis` complete: constructor, event detection, Kalman filter with smoothing and pruning, iterative decomposition, bootstrap; `soiling_cods`, helper functions | STL and the ADF test inside CODS (parameters), random numbers (parameters); the year-on-year rate is a parameter in C39–C43 and C69–C74 and the model of degradation.py in C133; the fits of the bootstrap are parameters in C40–C43, C74, C138 and the decomposition model in C143; `renormalize_SR` given as a keyword to `soiling_cods` |
| availability.py | `AvailabilityAnalysis` complete, its plot | |
| analysis_chains.py | `TrendAnalysis` (setters, filters, workflows, results), `ValidatedFilterDict` | the clear-sky irradiance and temperature models and pvlib's clear-sky detection and hour angle inside the chain (parameters; what rdtools does around them is modelled on its own); constructor, both normalizations, all filters, aggregation, the year-on-year rate and the soiling estimate are composed from their models (ChainsNumeric, ChainsDaily, ChainsClear, ChainsSoiling) |
| clearsky_temperature.py | `get_clearsky_tamb` from times to temperatures: frequency, pixel look-up, daily frame, smoothing, interpolation, daily cycle | h5 file contents, weights of the Gaussian window and frequency inference (parameters), zones with changing offset, frequencies not dividing a day |
| _deprecation.py | wrappers, messages, docstrings | arbitrary `%` formats |
| _version.py | rendering, parsing of git describe, keywords | running git (parameter) |
| plotting.py | the data drawn by all functions | styles, labels, the figures themselves; resampling in the band is a parameter |

## Disagreements between code and documentation found

Each is stated in a `_refuted` theorem unless marked (noted only).

* aggregation: a missing energy with present insolation lowers the aggregate (C03); with periods longer than a day and series that
  start on different days the result is NaN throughout (C131).
* utilities: the docstring says missing values are ignored; they take part in the threshold as zeros (C04).
* normalization: with instantaneous power the interval after a gap is lost, the last value is extrapolated, a period that
  ends inside a long step is NaN, all-missing power raises IndexError (C05, C06): missing readings at the end of a record get the energy of the last valid reading (C05); with month starts and the like the energy
  before the first period start is dropped (C107). `irradiance_rescale` never optimizes when
  the first guess is within the threshold of 1, and a NaN factor counts as converged (C10); data that are zero for more than
  90 % of the time come back without values (C101). With calendar periods the last instantaneous value is extrapolated, the
  energy of the first interval is lost, and one empty period after the end of the data is returned (C107).
* filtering: the lower Tukey fence ignores `k` (C15); `quantile_clip_filter` is not monotone without positive values (C17);
  two-way window keeps missing points (C13/C14 statements); `logic_clip_filter`: a higher cutoff may exclude fewer and other
  readings (C79), a plateau in the first readings is missed (C80), duplicate timestamps among detected readings raise
  ValueError (noted only), every regular series of 11 to 19 readings gives the warning about variable sampling (C81);
  `xgboost_clip_filter`: data sampled below a minute raise ZeroDivisionError (C82), days after the last day with predicted
  clipping inherit its levels (C85), a failed reading of the model file makes all later calls fail, and calls overlapping with
  the first may raise (C118).
  The docstring of `pvlib_clearsky_filter` gives 0.005 and 8 as defaults of `var_diff` and `slope_dev`, the signature 0.032 and
  75 (noted only); the window of `hampel_filter` excludes its left end and includes its right end (C103).
* degradation: the line used for circular blocks divides the days by the number of rows, not of steps, so that it ends one step
  early (C104, noted only); `usage_of_points` undercounts on 28/29 February (C24); the tie correction of the Mann-Kendall variance has the
  wrong sign (C28); `degradation_ols` and
  `degradation_classical_decomposition` rename the series of the caller (noted only); circular-block refits may raise ValueError (noted only); a NaN row blocks an earlier valid partner.
  Negative confidence levels are accepted and exchange the limits (C125).
* soiling SRR: recovery levels depend on the iteration order of a set (C35); profile values may be negative for random
  cleaning; the last valid day before a long outage starts its own interval; an unknown method only raises if draws are made;
  `min_interval_length = 0` and infinite `max_relative_slope_error` are not modelled.
* soiling CODS: `reorder` restarts at the first component, not at 'SR' (C39); the ratio returned after bootstrapping is that
  of the last initial fit, not of the best (C40); one rejected or failed initial fit of sixteen makes the bootstrap raise
  KeyError or IndexError (C41); single-element alternatives raise IndexError although documented as allowed (C41); missing
  values of refits count as zero (C42); interval of the soiling ratio reversed, small-signal loss in wrong unit (C43); a run of
  candidate days reaching the end is dropped and later windows erase earlier events (C44); one event in the last six days
  keeps all false events from being removed (C140); a repeated run of the filter takes the last variances of the run before for
  standard deviations, so that the result depends on the unit of the index (C141); no lower clip, missing rates and
  ratios for some options (C45); day 366 missing, series of up to a year wiped out, shifted seasonal samples (C46); soiling
  events on rising days (C62); events around a confirmed event are not removed (C65); more than 100 pruning iterations may not
  terminate (C66); the ratio at the first event is not 1, renormalizing without events loses all values (C67); 'SR' in third
  place never works (C69); a flat index raises ZeroDivisionError (C72); estimates outside their interval (C74); the fallback for
  a small soiling signal ignores the confidence level (C125).
* availability: an outage covering the whole series is not reported (C48); distribution of losses, negative losses, outages in
  the first row (C49); production between periods lost, so that months do not add up to a year, availability above 1 (C50, C145); a failed run leaves other attributes (C51).
* analysis chains: `setdefault` and `|=` bypass validation, `update` with an iterator changes nothing (C52); the clear-sky filter
  cannot be disabled, the sensor clear-sky filter acts in clear-sky analyses (C53); a location of None gives AttributeError (C54);
  the two-year check looks at the index span only (C55); plots after a failed analysis mix results (C57);
  with aggregation periods that neither divide a day nor are whole days (say 7 hours) the performance is regridded from another
  midnight after the aggregated filter, and values are lost (C114); after a gap in an irregular record the clear-sky irradiance is
  averaged over the whole gap, records sampled below a minute raise ValueError (C124).
* clear-sky temperature: look-up misses the map within half a pixel of the eastern and southern edge and is off by one in the
  eastern half of a pixel (C58).
* plotting: the default number of bins is zero for fewer than 40 values, which raises ValueError; colours go by position (C87);
  the edges of the band come from independent draws and may cross, weekly data give an empty figure (C88); the error bar of an
  outage is mirrored if both error quantiles have the same sign (C89); a signal called "mask" is overwritten (C91).
* version: `pep440-pre` hides dirtiness and raises ValueError for some tags (C61); if `git show` or `git rev-list` fails although
  `git describe` worked, `import rdtools` raises AttributeError instead of falling back (C115).
* least squares: "relative to the year 0 system capacity" (`degradation_ols`) is relative to the first row of the table. An empty first
  row or unsorted rows change the rate (`C150_first_row_refuted`).
* year on year: a row without a value is taken as the partner of a year before even if a reading is at hand within the 8 days, so
  that dropping missing rows first changes the rate (`C151_rate_refuted`).

## Testing the theorems

`seeded/LOG.jsonl` has one line per seeded bug: the definition edited in a scratch copy, the edit, the English claim it breaks,
the theorems (or lemmas they rest on) that no longer prove, and the theorems that were added or tightened when the bug had
gone unnoticed.
