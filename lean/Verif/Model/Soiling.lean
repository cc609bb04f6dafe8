import Verif.Model.Stats
import Verif.Model.Frame
import Verif.Model.Flt
import Verif.Model.Calendar

/-! # rdtools/soiling.py, part 1: the stochastic rate and recovery (SRR) analysis -/

namespace Verif

/-! ## Library primitives -/

/-- consecutive timestamps one day apart; used at rdtools/soiling.py:60-80 -/
def dayStepped : List Int → Bool
  | a :: b :: l => decide (b = a + dayNs) && dayStepped (b :: l)
  | _ => true

/-- `pd.infer_freq(index) == 'D'`; with fewer than three timestamps `infer_freq` itself raises
ValueError, which callers cannot tell apart from their own ValueError.
Used at rdtools/soiling.py:60-80. -/
def isDaily (idx : List Int) : Bool := decide (3 ≤ idx.length) && dayStepped idx

/-- `ffill(limit=lim)`: the last value seen and how many more NaNs it may fill;
used at rdtools/soiling.py:160-167 -/
def ffillLimitFrom (lim : Nat) : Cell → Nat → List Cell → List Cell
  | _, _, [] => []
  | _, _, some a :: l => some a :: ffillLimitFrom lim (some a) lim l
  | p, k + 1, none :: l => p :: ffillLimitFrom lim p k l
  | p, 0, none :: l => none :: ffillLimitFrom lim p 0 l

/-- `ffill(limit=lim)`; used at rdtools/soiling.py:160-167, 171-178 -/
def ffillLimit (lim : Nat) (x : List Cell) : List Cell := ffillLimitFrom lim none 0 x

/-- `bfill(limit=lim)`; used at rdtools/soiling.py:160-166 -/
def bfillLimit (lim : Nat) (x : List Cell) : List Cell := (ffillLimit lim x.reverse).reverse

/-- the cell at a position, NaN outside; used at rdtools/soiling.py:160-166, 160-167 -/
def cellAt (x : List Cell) (i : Nat) : Cell := (x[i]?).join

/-- `x.rolling(w, center=True).median()` (`min_periods = w`): the median of the `w` cells from
`i - w/2` on, NaN if the window leaves the data or holds a NaN.
Used at rdtools/soiling.py:171-178, 2494-2497. -/
def rollMedianC (w : Nat) (x : List Cell) : List Cell :=
  (List.range x.length).map fun i : Nat =>
    let win := (List.range w).map fun k : Nat => cellAt x (i - w / 2 + k)
    if w / 2 ≤ i ∧ i + (w - 1) / 2 < x.length ∧ win.all Option.isSome then median (valids win)
    else none

/-- `Series.diff()`: the first entry is NaN; used at rdtools/soiling.py:171-178, 1891 -/
def cellDiff (x : List Cell) : List Cell :=
  (List.range x.length).map fun i : Nat =>
    if i = 0 then none else cellOp (fun a b => a - b) (cellAt x i) (cellAt x (i - 1))

/-- `np.round`: to the nearest integer, ties to even;
used at rdtools/clearsky_temperature.py:79, 80 -/
def roundHE (q : ℚ) : Int :=
  let f := ⌊q⌋
  if q - f < 1 / 2 then f
  else if 1 / 2 < q - f then f + 1
  else if f % 2 = 0 then f else f + 1

/-- `Series.cumsum()` of booleans; used at rdtools/soiling.py:206-209 -/
def cumsumFrom : Nat → List Bool → List Nat
  | _, [] => []
  | k, b :: l => (if b then k + 1 else k) :: cumsumFrom (if b then k + 1 else k) l

/-! ## Daily preparation -/

/-- `clean_criterion`; used at rdtools/soiling.py:187-202 -/
inductive CleanCriterion where
  | shift | precipAndShift | precipOrShift | precip
  | other                     -- any other string
  deriving DecidableEq, Repr

/-- one day of `df` after the joins (rdtools/soiling.py:128-140) -/
structure SrrDay where
  t : Int
  pi : Cell
  insol : Cell
  precip : Cell
  deriving DecidableEq, Repr

/-- one day of `daily_df` (rdtools/soiling.py:206-213) -/
structure SrrRow where
  t : Int
  day : Nat
  pi : ℚ
  insol : ℚ
  piNorm : ℚ
  delta : ℚ
  event : Bool
  run : Nat
  deriving DecidableEq, Repr

/-- arguments of `_calc_daily_df`; used at rdtools/soiling.py:179-182, 184 -/
structure DailyOpts where
  dayScale : Nat := 13
  cleanThreshold : Option ℚ := none        -- `none` is 'infer'
  recenter : Bool := true
  criterion : CleanCriterion := .shift
  precipThreshold : ℚ := 1 / 100
  outlierFactor : ℚ := 3 / 2
  deriving Repr

/-- `SRRAnalysis.__init__` (rdtools/soiling.py:60-80) -/
def srrInit (pm insol : Series) (precip : Option Series) : Except PyErr Unit :=
  if isDaily pm.index = false then .error .valueError                    -- 69-71
  else if isDaily insol.index = false then .error .valueError            -- 73-75
  else match precip with                                                 -- 77-80
    | none => .ok ()
    | some p => if isDaily p.index = false then .error .valueError else .ok ()

/-- the joined frame (rdtools/soiling.py:128-140): insolation and precipitation are looked up by day;
without precipitation the column is 0 -/
def srrJoin (pm insol : Series) (precip : Option Series) : List SrrDay :=
  pm.map fun r => ⟨r.1, r.2, lookupK insol r.1,
    match precip with
    | none => some 0
    | some p => lookupK p r.1⟩

/-- `df[start:end]` from the first to the last day with a performance value (rdtools/soiling.py:142-145) -/
def trimMissing (df : List SrrDay) : List SrrDay :=
  ((df.dropWhile fun d => d.pi.isNone).reverse.dropWhile fun d => d.pi.isNone).reverse

/-- the renormalization factor (rdtools/soiling.py:150-155): the median of the first 365 days. The index is
daily, so the label range start .. start + 364 d is the first 365 rows. -/
def srrRenorm (recenter : Bool) (pi : List Cell) : Cell :=
  if recenter then median (valids (pi.take 365)) else some 1

/-- `pi / renorm` (rdtools/soiling.py:157). A zero factor (infinities in Python) is modelled as missing. -/
def srrNorm (renorm : Cell) (pi : List Cell) : List Cell :=
  pi.map fun x => cellOp (fun a b => a / b) x (if renorm = some 0 then none else renorm)

/-- `out_start` (rdtools/soiling.py:160-166): a present value followed by more than `lim` missing days -/
def outStart (lim : Nat) (x : List Cell) : List Bool :=
  (List.range x.length).map fun i : Nat =>
    (cellAt x i).isSome && (cellAt (bfillLimit lim x) (i + 1)).isNone && decide (i + 1 ≠ x.length)

/-- `out_end` (rdtools/soiling.py:160-167) -/
def outEnd (lim : Nat) (x : List Cell) : List Bool :=
  (List.range x.length).map fun i : Nat =>
    (cellAt x i).isSome && (cellAt (ffillLimit lim x) (i - 1)).isNone && decide (i ≠ 0)

/-- steps of the rolling median (rdtools/soiling.py:171-178) -/
def srrDelta (w : Nat) (piNorm : List Cell) : List Cell :=
  cellDiff (rollMedianC w (ffillLimit w piNorm))

/-- the threshold on the steps (rdtools/soiling.py:179-182) -/
def srrThreshold (o : DailyOpts) (delta : List Cell) : Cell :=
  match o.cleanThreshold with
  | some c => some c
  | none =>
    let d := (valids delta).map abs
    cellOp (fun q3 q1 => q3 + o.outlierFactor * (q3 - q1)) (quantile d (3 / 4)) (quantile d (1 / 4))

/-- `precip > precip_threshold` (rdtools/soiling.py:185) -/
def rainy (thr : ℚ) (d : SrrDay) : Bool := cellCmp (fun a b => decide (b < a)) d.precip (some thr)

/-- `rolling(3, center=True, min_periods=1).apply(any)` (rdtools/soiling.py:190-191) -/
def anyNear (b : List Bool) : List Bool :=
  (List.range b.length).map fun i : Nat =>
    b.getD i false || (decide (i ≠ 0) && b.getD (i - 1) false) || b.getD (i + 1) false

/-- cleaning events by criterion (rdtools/soiling.py:187-202); `det` are the detected shifts, `rain` the wet days -/
def srrCriterion (c : CleanCriterion) (det rain : List Bool) : Except PyErr (List Bool) :=
  match c with
  | .precipAndShift => .ok (List.zipWith and det (anyNear rain))
  | .precipOrShift => .ok (List.zipWith or det rain)
  | .precip => .ok rain
  | .shift => .ok det
  | .other => .error .valueError

/-- positions where the shift of the rolling median exceeds the threshold (rdtools/soiling.py:184) -/
def srrDetected (o : DailyOpts) (delta : List Cell) : List Bool :=
  delta.map fun d => cellCmp (fun a b => decide (b < a)) d (srrThreshold o delta)

/-- `df['clean_event'] | out_start | out_end` (rdtools/soiling.py:204) -/
def withOutages (w : Nat) (x : List Cell) (ev : List Bool) : List Bool :=
  List.zipWith or (List.zipWith or ev (outStart w x)) (outEnd w x)

/-- assemble `daily_df` (rdtools/soiling.py:206-209): missing values become 0, `run` numbers the intervals -/
def srrRows (df : List SrrDay) (piNorm delta : List Cell) (ev : List Bool) : List SrrRow :=
  let runs := cumsumFrom 0 ev
  (List.range df.length).map fun i : Nat =>
    let d := df.getD i ⟨0, none, none, none⟩
    { t := d.t, day := i, pi := d.pi.getD 0, insol := d.insol.getD 0
      piNorm := (cellAt piNorm i).getD 0, delta := (cellAt delta i).getD 0
      event := ev.getD i false, run := runs.getD i 0 }

/-- `SRRAnalysis._calc_daily_df` (rdtools/soiling.py:82-213): `(renorm_factor, daily_df)`. A day scale of 0
is rejected by pandas' `bfill(limit=0)`. -/
def calcDailyDf (o : DailyOpts) (pm insol : Series) (precip : Option Series) :
    Except PyErr (Cell × List SrrRow) :=
  let df := trimMissing (srrJoin pm insol precip)
  if df = [] then .error .indexError                                      -- 143
  else if o.dayScale = 0 then .error .valueError                          -- 160
  else
    let renorm := srrRenorm o.recenter (df.map SrrDay.pi)
    let x := srrNorm renorm (df.map SrrDay.pi)
    let delta := srrDelta o.dayScale x
    (srrCriterion o.criterion (srrDetected o delta) (df.map (rainy o.precipThreshold))).map fun ev =>
      (renorm, srrRows df x delta (withOutages o.dayScale x ev))

/-! ## Interval table -/

/-- result of `scipy.stats.theilslopes`; used at rdtools/soiling.py:247-283 -/
structure TheilFit where
  slope : ℚ
  intercept : ℚ
  low : ℚ
  high : ℚ
  deriving DecidableEq, Repr

/-- all slopes between two points with different abscissae (`scipy.stats.theilslopes`);
used at rdtools/soiling.py:247-283 -/
def pairSlopes (pts : List (ℚ × ℚ)) : List ℚ :=
  pts.flatMap fun p => pts.filterMap fun q =>
    if q.1 < p.1 then some ((p.2 - q.2) / (p.1 - q.1)) else none

/-- `scipy.stats.theilslopes(y, x)`: median of the pairwise slopes; the bounds are order statistics
of the slopes at distance `zs/2` from the middle, where `zs = 1.96·σ ≥ 0` is computed by scipy from
the sample size and ties (a parameter here). Fewer than two distinct abscissae (NaN in scipy) is not
modelled: the value 0 stands for it. Used at rdtools/soiling.py:247-283, 2065. -/
def theil (zs : List (ℚ × ℚ) → ℚ) (pts : List (ℚ × ℚ)) : TheilFit :=
  let s := sortQ (pairSlopes pts)
  let nt : Int := s.length
  if s = [] then ⟨0, 0, 0, 0⟩
  else
    let slope := (median (pairSlopes pts)).getD 0
    let inter := (median (pts.map Prod.snd)).getD 0 - slope * (median (pts.map Prod.fst)).getD 0
    let ru := min (roundHE ((nt + zs pts) / 2)) (nt - 1)
    let rl := max (roundHE ((nt - zs pts) / 2) - 1) 0
    ⟨slope, inter, s.getD rl.toNat 0, s.getD ru.toNat 0⟩

/-- one row of `result_df` (rdtools/soiling.py:260-283, 302-314) -/
structure Interval where
  start : Int
  stop : Int
  length : Int
  run : Nat
  slope : ℚ
  low : ℚ
  high : ℚ
  maxNegStep : ℚ
  infStart : ℚ
  infEnd : ℚ
  valid : Bool
  next : Cell := none
  recovery : Cell := none
  deriving DecidableEq, Repr

/-- arguments of `_calc_result_df`; used at rdtools/soiling.py:292-300, 302-305 -/
structure ResultOpts where
  trim : Bool := false
  maxRelSlopeError : ℚ := 500
  maxNegativeStep : ℚ := 1 / 20
  minIntervalLength : Nat := 7
  deriving Repr

/-- the rows used for the fit (rdtools/soiling.py:254-259): those with positive performance, or all if there are none -/
def fitRows (g : List SrrRow) : List SrrRow :=
  let f := g.filter fun r => decide (0 < r.piNorm)
  if f = [] then g else f

/-- the points of the fit; used at rdtools/soiling.py:247-283 -/
def fitPoints (g : List SrrRow) : List (ℚ × ℚ) := (fitRows g).map fun r => ((r.day : ℚ), r.piNorm)

/-- one pass of the loop at rdtools/soiling.py:247-283 for the rows `g` of one run -/
def mkInterval (zs : List (ℚ × ℚ) → ℚ) (minLen : Nat) (a z : SrrRow) (g : List SrrRow) : Interval :=
  let f := fitRows g
  let m := (mean (f.map SrrRow.piNorm)).getD 0
  let base : Interval :=
    { start := a.t, stop := z.t, length := (z.day : Int) - a.day, run := a.run
      slope := 0, low := 0, high := 0, maxNegStep := ((f.map SrrRow.delta).min?).getD 0
      infStart := m, infEnd := m, valid := false }
  if minLen < f.length ∧ 0 < (f.map SrrRow.piNorm).sum then
    let fit := theil zs (fitPoints g)
    { base with slope := fit.slope, low := fit.low, high := min 0 fit.high
                infStart := fit.slope * a.day + fit.intercept
                infEnd := fit.slope * z.day + fit.intercept, valid := true }
  else base

/-- the rows of run `r` (rdtools/soiling.py:248), summarized; `none` if there are none -/
def intervalOf (zs : List (ℚ × ℚ) → ℚ) (minLen : Nat) (rows : List SrrRow) (r : Nat) :
    Option Interval :=
  let g := rows.filter fun d => decide (d.run = r)
  match g with
  | [] => none
  | a :: l => some (mkInterval zs minLen a ((a :: l).getLast (by simp)) (a :: l))

/-- `sorted(list(set(daily_df['run'])))`, without the first and last when trimming (rdtools/soiling.py:241-245) -/
def runList (trim : Bool) (rows : List SrrRow) : List Nat :=
  let s := (rows.map SrrRow.run).dedup.insertionSort (· ≤ ·)
  if trim then (s.drop 1).dropLast else s

/-- the criteria for exclusion (rdtools/soiling.py:292-300) -/
def excluded (o : ResultOpts) (i : Interval) : Bool :=
  decide (0 < i.slope) ||
  Flt.le (.fin (o.maxRelSlopeError / 100)) (Flt.ofDiv (i.high - i.low) |i.slope|) ||
  decide (i.maxNegStep ≤ -1 * o.maxNegativeStep)

/-- the assignments at rdtools/soiling.py:302-305 -/
def exclude (o : ResultOpts) (i : Interval) : Interval :=
  if excluded o i then { i with slope := 0, low := 0, high := 0, valid := false } else i

/-- the start of the next valid interval (rdtools/soiling.py:308-310) -/
def nextValidStart (l : List Interval) : Cell :=
  ((l.filter Interval.valid).head?).map Interval.infStart

/-- `next_inferred_start_loss` and `inferred_recovery` (rdtools/soiling.py:308-314) -/
def withRecovery : List Interval → List Interval
  | [] => []
  | i :: l =>
    let nx : Cell := if i.valid then (nextValidStart l).map (clipQ 0 1) else none
    { i with next := nx, recovery := nx.map fun n => clipQ 0 1 (n - i.infEnd) } :: withRecovery l

/-- the table of intervals, before the check for valid ones; used at rdtools/soiling.py:215-348 -/
def intervalTable (zs : List (ℚ × ℚ) → ℚ) (o : ResultOpts) (rows : List SrrRow) : List Interval :=
  withRecovery
    (((runList o.trim rows).filterMap (intervalOf zs o.minIntervalLength rows)).map (exclude o))

/-- the interval of a day (the left merge on `run`, rdtools/soiling.py:320-323) -/
def intervalOfDay (tab : List Interval) (d : SrrRow) : Option Interval :=
  tab.find? fun i => decide (i.run = d.run)

/-- `analyzed_daily_df`: the days between the first start and the last end, with their interval;
used at rdtools/soiling.py:215-348 -/
def analyzedDays (tab : List Interval) (rows : List SrrRow) : List (SrrRow × Option Interval) :=
  match tab with
  | [] => []
  | i :: l =>
    (rows.filter fun d => decide (i.start ≤ d.t ∧ d.t ≤ ((i :: l).getLast (by simp)).stop)).map
      fun d => (d, intervalOfDay tab d)

/-- `SRRAnalysis._calc_result_df` (rdtools/soiling.py:215-348) -/
def calcResultDf (zs : List (ℚ × ℚ) → ℚ) (o : ResultOpts) (rows : List SrrRow) :
    Except PyErr (List Interval × List (SrrRow × Option Interval)) :=
  let tab := intervalTable zs o rows
  if tab = [] then .error .noValidIntervalError                          -- 287
  else if tab.filter Interval.valid = [] then .error .noValidIntervalError   -- 316
  else .ok (tab, analyzedDays tab rows)

/-- days since the start of the interval (rdtools/soiling.py:327) -/
def daysSince (i : Interval) (d : SrrRow) : Int := (d.t - i.start) / dayNs

/-- `loss_perfect_clean` (rdtools/soiling.py:331-337) -/
def lossPerfectClean (x : SrrRow × Option Interval) : ℚ :=
  match x.2 with
  | none => 1
  | some i => 1 + daysSince i x.1 * i.slope

/-! ## Monte Carlo -/

/-- `method`; used at rdtools/soiling.py:429-435, 415-442 -/
inductive SrrMethod where
  | halfNorm | randomClean | perfectClean
  | other                     -- any other string
  deriving DecidableEq, Repr

/-- the random numbers of one realization. `slope k` and `level k` are the uniform variates in [0,1)
of the k-th interval and the k-th level drawn; `recovery k` is the variate for the k-th valid
interval: a standard normal for 'half_norm_clean', uniform for 'random_clean'.
Used at rdtools/soiling.py:414-486, 389-506. -/
structure SrrDraw where
  slope : Nat → ℚ
  recovery : Nat → ℚ
  level : Nat → ℚ

/-- `np.random.uniform(low, high)` for the variate `u`;
used at rdtools/soiling.py:394-396, 429-435 -/
def uniform (low high u : ℚ) : ℚ := low + u * (high - low)

/-- slopes drawn for all intervals (rdtools/soiling.py:394-396) -/
def drawSlopes (u : Nat → ℚ) (tab : List Interval) : List ℚ :=
  tab.zipIdx.map fun x => uniform x.1.low x.1.high (u x.2)

/-- the start of the next interval (rdtools/soiling.py:429-435) -/
def nextStart (m : SrrMethod) (v e : ℚ) (i : Interval) : ℚ :=
  match m with
  | .halfNorm => 1 - |v * ((1 - clipQ 0 1 (e + i.recovery.getD 1)) / 3)|
  | _ => uniform e 1 v

/-- start and end loss of the valid intervals (rdtools/soiling.py:415-442); invalid ones are NaN. -/
def simulate (m : SrrMethod) (v : Nat → ℚ) : ℚ → Nat → List (Interval × ℚ) → List (Cell × Cell)
  | _, _, [] => []
  | s, k, (i, sl) :: l =>
    if i.valid then
      let e := s + sl * i.length
      (some s, some e) :: simulate m v (nextStart m (v k) e i) (k + 1) l
    else (none, none) :: simulate m v s k l

/-- `group_list` (rdtools/soiling.py:405-412): the number of valid intervals up to and including this one -/
def groupsFrom : Nat → List Interval → List Nat
  | _, [] => []
  | g, i :: l => (if i.valid then g + 1 else g) :: groupsFrom (if i.valid then g + 1 else g) l

/-- an invalid interval with its group and the limits of its level (rdtools/soiling.py:446-458) -/
structure InvalidRow where
  group : Nat
  prevEnd : ℚ
  nextStart : ℚ
  deriving DecidableEq, Repr

/-- the invalid intervals; used at rdtools/soiling.py:414-486 -/
def invalidRows (tab : List Interval) (se : List (Cell × Cell)) : List InvalidRow :=
  (((tab.zip (groupsFrom 0 tab)).zip
    ((ffill (se.map Prod.snd)).zip (bfill (se.map Prod.fst)))).filter
      fun x => !x.1.1.valid).map fun x => ⟨x.1.2, x.2.1.getD 1, x.2.2.getD 1⟩

/-- `replace_levels` (rdtools/soiling.py:459-472). `ord` is the order in which Python iterates over the set of groups. -/
def replaceLevels (ord : List Nat → List Nat) (u : Nat → ℚ) (inv : List InvalidRow) : List ℚ :=
  ((ord (inv.map InvalidRow.group).dedup).zipIdx.map fun x =>
    let rows := inv.filter fun r => decide (r.group = x.1)
    match rows with
    | [] => []
    | r :: _ => List.replicate rows.length (uniform r.prevEnd r.nextStart (u x.2))).flatten

/-- `results_rand.update(invalid_update)` (rdtools/soiling.py:473-476): the k-th invalid row takes the k-th level -/
def fillInvalid : List Cell → List ℚ → List Cell
  | [], _ => []
  | some a :: l, xs => some a :: fillInvalid l xs
  | none :: l, x :: xs => some x :: fillInvalid l xs
  | none :: l, [] => none :: fillInvalid l []

/-- the start losses of one realization (rdtools/soiling.py:414-486) -/
def startLosses (ord : List Nat → List Nat) (m : SrrMethod) (dr : SrrDraw) (tab : List Interval) :
    Except PyErr (List Cell) :=
  match m with
  | .other => .error .valueError                                          -- 486
  | .perfectClean => .ok (tab.map fun _ => some 1)                        -- 478-483
  | _ =>
    let se := simulate m dr.recovery 1 0 (tab.zip (drawSlopes dr.slope tab))
    .ok (fillInvalid (se.map Prod.fst) (replaceLevels ord dr.level (invalidRows tab se)))

/-- loss of one day (rdtools/soiling.py:488-495): start loss plus elapsed days times the drawn slope -/
def dayLoss (tab : List Interval) (starts : List Cell) (slopes : List ℚ) (d : SrrRow) : Cell :=
  match ((tab.zip (starts.zip slopes)).find? fun x => decide (x.1.run = d.run)) with
  | none => none
  | some (i, s, sl) => s.map fun s => s + daysSince i d * sl

/-- `soil_insol.sum() / insol[notnull].sum()` (rdtools/soiling.py:497-502). A zero total (NaN or infinity) is missing. -/
def weightedRatio (l : List (Cell × ℚ)) : Cell :=
  let p := l.filterMap fun x => x.1.map fun v => (v, x.2)
  if (p.map Prod.snd).sum = 0 then none
  else some ((p.map fun x => x.1 * x.2).sum / (p.map Prod.snd).sum)

/-- one realization (`_calc_monte`, rdtools/soiling.py:389-506): the profile and the soiling ratio -/
def realization (ord : List Nat → List Nat) (m : SrrMethod) (tab : List Interval)
    (days : List (SrrRow × Option Interval)) (dr : SrrDraw) :
    Except PyErr (List (Int × Cell) × Cell) :=
  (startLosses ord m dr tab).map fun starts =>
    let prof := days.map fun x => (x.1, dayLoss tab starts (drawSlopes dr.slope tab) x.1)
    (prof.map fun x => (x.1.t, x.2), weightedRatio (prof.map fun x => (x.2, x.1.insol)))

/-- `SRRAnalysis._calc_monte` (rdtools/soiling.py:350-509) for the given draws, one per repetition -/
def calcMonte (ord : List Nat → List Nat) (m : SrrMethod) (tab : List Interval)
    (days : List (SrrRow × Option Interval)) (draws : List SrrDraw) :
    Except PyErr (List (List (Int × Cell) × Cell)) :=
  draws.mapM (realization ord m tab days)

/-- what `run` returns, apart from the confidence interval of the profiles;
used at rdtools/soiling.py:650-680, 683-841 -/
structure SrrOut where
  ratio : ℚ
  low : ℚ
  high : ℚ
  exceedance : ℚ
  renorm : Cell
  profiles : List (List (Int × Cell))
  table : List Interval
  perfect : List (Int × ℚ)
  deriving DecidableEq, Repr

/-- the percentiles and outputs at the end of `run` (rdtools/soiling.py:650-680). Ratios that are NaN (zero
total insolation) make `np.percentile` NaN in Python; here they are an error value of their own. -/
def srrSummary (exceed conf : ℚ) (renorm : Cell) (tab : List Interval)
    (days : List (SrrRow × Option Interval)) (mc : List (List (Int × Cell) × Cell)) :
    Except PyErr SrrOut :=
  if (mc.all fun x => x.2.isSome) = false then .error .runtimeError
  else
    let losses := valids (mc.map Prod.snd)
    (percentileE losses 50).bind fun p50 =>
    (percentileE losses (50 - conf / 2)).bind fun lo =>
    (percentileE losses (50 + conf / 2)).bind fun hi =>
    (percentileE losses (100 - exceed)).bind fun e =>
    .ok { ratio := p50, low := lo, high := hi, exceedance := e, renorm := renorm
          profiles := mc.map Prod.fst, table := tab
          perfect := (days.filter fun x => (x.2.map Interval.valid).getD false).map
            fun x => (x.1.t, lossPerfectClean x) }

/-- `soiling_srr` (rdtools/soiling.py:683-841): `SRRAnalysis(...)` then `run` (511-680) -/
def soilingSrr (ord : List Nat → List Nat) (zs : List (ℚ × ℚ) → ℚ) (o : DailyOpts) (ro : ResultOpts)
    (m : SrrMethod) (exceed conf : ℚ) (draws : List SrrDraw) (pm insol : Series)
    (precip : Option Series) : Except PyErr SrrOut :=
  (srrInit pm insol precip).bind fun _ =>
  (calcDailyDf o pm insol precip).bind fun d =>
  (calcResultDf zs ro d.2).bind fun r =>
  (calcMonte ord m r.1 r.2 draws).bind fun mc =>
  srrSummary exceed conf d.1 r.1 r.2 mc

/-! ## Annual and monthly summaries -/

/-- the timestamps at which every profile has a value (`pd.concat(axis=1).dropna()`, rdtools/soiling.py:901-902) -/
def commonDays (profiles : List (List (Int × Cell))) : List Int :=
  ((profiles.flatMap fun p => p.map Prod.fst).dedup).filter fun t =>
    profiles.all fun p => (lookupK p t).isSome

/-- calendar year of a timestamp; used at rdtools/soiling.py:911-922, 856-934 -/
def yearOf (t : Int) : Int := (civil (t / dayNs)).year

/-- calendar month of a timestamp; used at rdtools/soiling.py:844-853 -/
def monthOf (t : Int) : Int := (civil (t / dayNs)).month

/-- insolation-weighted soiling ratio of one realization in one year (rdtools/soiling.py:911-922): both sums skip days
without insolation; zero total insolation gives NaN -/
def annualRatio (insol : Series) (days : List Int) (y : Int) (p : List (Int × Cell)) : Cell :=
  let d := days.filter fun t => decide (yearOf t = y)
  weightedRatio ((d.filter fun t => (lookupK insol t).isSome).map fun t =>
    (lookupK p t, (lookupK insol t).getD 0))

/-- one row of the annual table: year, median, low, high; used at rdtools/soiling.py:856-934 -/
structure AnnualRow where
  year : Int
  median : Cell
  low : Cell
  high : Cell
  deriving DecidableEq, Repr

/-- `annual_soiling_ratios` (rdtools/soiling.py:856-934) -/
def annualSoilingRatios (profiles : List (List (Int × Cell))) (insol : Series) (conf : ℚ) :
    Except PyErr (List AnnualRow) :=
  if profiles = [] then .error .valueError                                 -- pd.concat([])
  else
    let days := commonDays profiles
    let years := (days.map yearOf).dedup.insertionSort (· ≤ ·)
    years.mapM fun y =>
      let r := valids (profiles.map (annualRatio insol days y))
      (quantileE r (1 / 2)).bind fun m =>
      (quantileE r (1 / 2 - conf / 2 / 100)).bind fun lo =>
      (quantileE r (1 / 2 + conf / 2 / 100)).bind fun hi =>
      .ok ⟨y, m, lo, hi⟩

/-- days of `pd.date_range(start, end)`; used at rdtools/soiling.py:844-853 -/
def daysBetween (start stop : Int) : List Int :=
  (List.range ((stop - start) / dayNs + 1).toNat).map fun k : Nat => start + (k : Int) * dayNs

/-- `_count_month_days(start, end)[month]` (rdtools/soiling.py:844-853) -/
def countMonthDays (start stop : Int) (month : Int) : Nat :=
  ((daysBetween start stop).map monthOf).count month

/-- one row of `soiling_interval_summary` as read by `monthly_soiling_rates`;
used at rdtools/soiling.py:1008-1016, 1024-1032 -/
structure Summary where
  start : Int
  stop : Int
  rate : ℚ
  low : ℚ
  high : ℚ
  length : Int
  valid : Bool
  deriving DecidableEq, Repr

/-- the intervals of interest (rdtools/soiling.py:1008-1016) -/
def monthlyIntervals (minLen : Int) (maxErr : ℚ) (tab : List Summary) : List Summary :=
  tab.filter fun i =>
    decide (minLen ≤ i.length) && i.valid &&
    Flt.le (Flt.abs (match Flt.ofDiv (i.high - i.low) i.rate with
      | .fin q => .fin (100 * q)
      | x => x)) (.fin maxErr)

/-- `samples_for_month_…` (rdtools/soiling.py:1024-1032): the share of the repetitions, rounded up -/
def monthSamples (reps : Nat) (ivs : List Summary) (month : Int) : List Nat :=
  let d := ivs.map fun i => countMonthDays i.start i.stop month
  let tot := d.sum
  d.map fun k : Nat => if 0 < tot then (⌈(k : ℚ) / tot * reps⌉).toNat else 0

/-- draws of one month (rdtools/soiling.py:1042-1049): interval `i` contributes `samples` uniform variates -/
def monthRates (u : Nat → Nat → ℚ) (ivs : List Summary) (samples : List Nat) : List ℚ :=
  ((ivs.zip samples).zipIdx.map fun x =>
    (List.range x.1.2).map fun j : Nat => uniform x.1.1.low x.1.1.high (u x.2 j)).flatten

/-- one row of the monthly table; used at rdtools/soiling.py:937-1069 -/
structure MonthRow where
  month : Int
  median : Cell
  low : Cell
  high : Cell
  count : Nat
  deriving DecidableEq, Repr

/-- `monthly_soiling_rates` (rdtools/soiling.py:937-1069); `u month interval k` are the uniform variates -/
def monthlySoilingRates (u : Int → Nat → Nat → ℚ) (minLen : Int) (maxErr : ℚ) (reps : Nat)
    (conf : ℚ) (tab : List Summary) : Except PyErr (List MonthRow) :=
  let ivs := monthlyIntervals minLen maxErr tab
  ((List.range 12).map fun k : Nat => (k : Int) + 1).mapM fun month =>
    let samples := monthSamples reps ivs month
    let rates := monthRates (u month) ivs samples
    let count := (samples.filter fun n => decide (0 < n)).length
    if rates = [] then .ok ⟨month, none, none, none, count⟩
    else
      (quantileE rates (1 / 2)).bind fun m =>
      (quantileE rates (1 / 2 - conf / 2 / 100)).bind fun lo =>
      (quantileE rates (1 / 2 + conf / 2 / 100)).bind fun hi =>
      .ok ⟨month, m, lo, hi, count⟩

end Verif
