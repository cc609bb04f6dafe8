import Verif.Model.Normalization
import Verif.Model.Aggregation
import Verif.Model.Filtering

/-! # rdtools/availability.py

Series share one index and are lists of cells in row order; `power_subsystem` is a list of rows.
Quotients by zero, infinite in numpy, are modelled as missing; the theorems state the hypotheses
(non-negative thresholds, positive sizes) under which no such quotient occurs. -/

namespace Verif.Avail

/-- quotient of two cells; NaN on a zero divisor (numpy: an infinity or NaN);
used at rdtools/availability.py:256, 269 -/
def cellDiv (a b : Cell) : Cell :=
  a.bind fun x => b.bind fun y => if y = 0 then none else some (x / y)

/-- `power_subsystem.fillna(0)` on one row (rdtools/availability.py:242) -/
def fillRow (row : List Cell) : List ℚ := row.map (·.getD 0)

/-- `power_subsystem.quantile(0.99) / 1000` (rdtools/availability.py:246-250), one threshold per column -/
def defaultThresholds (ncols : Nat) (rows : List (List Cell)) : List Cell :=
  (List.range ncols).map fun j : Nat =>
    (quantile (rows.map fun r => (fillRow r).getD j 0) (99 / 100)).map (· / 1000)

/-- `power_subsystem > low_threshold` on one row (rdtools/availability.py:252) -/
def onlineRow (th : List Cell) (p : List ℚ) : List Bool :=
  List.zipWith (fun t x => cellCmp (fun a b => decide (a < b)) t (some x)) th p

/-- `power_subsystem[looks_online]` (rdtools/availability.py:253): offline cells become NaN -/
def reportingRow (th : List Cell) (p : List ℚ) : List Cell :=
  List.zipWith (fun b x => if b then some x else none) (onlineRow th p) p

/-- `reporting.divide(reporting.mean(axis=1), axis=0)` on one row (rdtools/availability.py:256) -/
def normalizedRow (rep : List Cell) : List Cell :=
  rep.map fun x => cellDiv x (mean (valids rep))

/-- `normalized.median()` (rdtools/availability.py:257), one size per column -/
def estimateSizes (ncols : Nat) (th : List Cell) (rows : List (List Cell)) : List Cell :=
  (List.range ncols).map fun j : Nat =>
    median (valids (rows.map fun r =>
      ((normalizedRow (reportingRow th (fillRow r))).getD j none)))

/-- `relative_sizes / relative_sizes.sum()` (rdtools/availability.py:269) -/
def fractions (sizes : List Cell) : List Cell :=
  sizes.map fun s => cellDiv s (some (valids sizes).sum)

/-- `virtual_full_power` of one row (rdtools/availability.py:262-265) -/
def virtualFull (sizes rep : List Cell) : Cell :=
  (mean (valids (List.zipWith cellDiv rep sizes))).map (· * (rep.length : ℚ))

/-- smallest element, NaN of an empty list; used at rdtools/availability.py:270-277 -/
def minCell (l : List Cell) : Cell :=
  match valids l with
  | [] => none
  | a :: l => some (l.foldl min a)

/-- `smallest_delta` of one row (rdtools/availability.py:270-277): the smallest fraction of an offline
subsystem, 1 if there is none -/
def smallestDelta (th : List Cell) (sizes : List Cell) (p : List ℚ) : ℚ :=
  (minCell (List.zipWith (fun off f => if off then f else none)
    (List.zipWith (fun t x => cellCmp (fun a b => decide (b ≤ a)) t (some x)) th p)
    (fractions sizes))).getD 1

/-- `is_downtime` of one row (rdtools/availability.py:267, 279-280); `ps` is the clipped system power -/
def isDowntime (th sizes : List Cell) (p : List ℚ) (ps : Cell) : Bool :=
  let rep := reportingRow th p
  let delta := cellOp (fun a b => a - b) (some 1) (cellDiv ps (virtualFull sizes rep))
  cellCmp (fun a b => decide (b < a)) delta (some (3 / 4 * smallestDelta th sizes p)) &&
    !(onlineRow th p).all id

/-- `lowest_possible` of one row (rdtools/availability.py:283) -/
def lowestPossible (th sizes : List Cell) (p : List ℚ) : ℚ :=
  (valids (List.zipWith (fun b f => f.map fun x => if b then x else 0) (onlineRow th p)
    (fractions sizes))).sum

/-- `p_loss` of one row before the limit (rdtools/availability.py:283-287) -/
def rawLoss (th sizes : List Cell) (p : List ℚ) (ps : Cell) : Cell :=
  if isDowntime th sizes p ps then
    let f := (cellDiv ps (virtualFull sizes (reportingRow th p))).map
      (clipQ (lowestPossible th sizes p) 1)
    cellOp (· * ·) (f.bind fun x => cellDiv (some (1 - x)) (some x)) ps
  else some 0

/-- loss of one row (rdtools/availability.py:240-294): `limit` is `power_system_limit` (`none`: not given
or NaN) -/
def lossRow (th sizes : List Cell) (limit : Cell) (ps0 : Cell) (row : List Cell) : ℚ :=
  let p := fillRow row
  let ps := ps0.map (max 0)                                               -- 243
  let loss := rawLoss th sizes p ps
  let loss :=
    if cellCmp (fun a b => decide (b < a)) (cellOp (· + ·) loss ps) limit then     -- 289-292
      (cellOp (fun a b => a - b) limit ps).map (max 0)
    else loss
  loss.getD 0                                                             -- 294

/-- the four input series after the index check; used at rdtools/availability.py:246-250, 254-260 -/
structure Input where
  index : List Int
  /-- `index.freq` in ns, if set -/
  freq : Option Int
  system : List Cell
  ncols : Nat
  subs : List (List Cell)
  cum : List Cell
  expected : List Cell
  deriving DecidableEq, Repr

/-- `__init__` (rdtools/availability.py:190-194): the indexes of the other three inputs must equal that of
`power_system` -/
def initCheck (iSystem iSub iCum iExp : List Int) : Except PyErr Unit :=
  if iSub = iSystem ∧ iCum = iSystem ∧ iExp = iSystem then .ok () else .error .valueError

/-- arguments of `run`. `limits` is `power_system_limit` spread over the rows; `bin` the rollup
period as the map from a timestamp to the label of its period, `none` an alias pandas refuses.
Used at rdtools/availability.py:246-250, 254-260. -/
structure Args where
  thresholds : Option (List Cell)
  sizes : Option (List Cell)
  limits : List Cell
  qLow : ℚ
  qHigh : ℚ
  bin : Option (Int → Int)

/-- attributes set by `_calc_loss_subsystem`; used at rdtools/availability.py:201-294 -/
structure Subsystem where
  mask : List (List Bool)
  loss : List ℚ
  deriving DecidableEq, Repr

/-- thresholds in effect (rdtools/availability.py:246-250) -/
def thresholdsOf (a : Args) (i : Input) : List Cell :=
  a.thresholds.getD (defaultThresholds i.ncols i.subs)

/-- sizes in effect (rdtools/availability.py:254-260) -/
def sizesOf (a : Args) (i : Input) : List Cell :=
  a.sizes.getD (estimateSizes i.ncols (thresholdsOf a i) i.subs)

/-- `_calc_loss_subsystem` (rdtools/availability.py:201-294) -/
def lossSubsystem (a : Args) (i : Input) : Subsystem :=
  let th := thresholdsOf a i
  let sizes := sizesOf a i
  { mask := i.subs.map fun r => onlineRow th (fillRow r)
    loss := (List.range i.index.length).map fun k : Nat =>
      lossRow th sizes (a.limits.getD k none) (i.system.getD k none) (i.subs.getD k []) }

/-- `energy_from_power(power)` with default arguments, realigned to `index` by label (the
assignment of a Series to a frame column); used at rdtools/availability.py:296-385 -/
def energyOn (i : Input) (v : List Cell) : Except PyErr (List Cell) :=
  (energyFromPower (i.index.zip v) none none .rightLabeled i.freq).map fun e =>
    i.index.map fun t => lookupK e t

/-- `subset` of `_calc_error_distributions` (rdtools/availability.py:318-322) -/
def normalMask (i : Input) (loss : List ℚ) : List Bool :=
  List.zipWith (fun l (x : Cell × Cell) =>
    decide (l = 0) && cellCmp (fun a b => decide (a < b)) (some 0) x.1 &&
      cellCmp (fun a b => decide (a < b)) (some 0) x.2) loss (i.system.zip i.expected)

/-- rows of a column selected by a mask;
used at rdtools/availability.py:296-385, rdtools/analysis_chains.py:903-926 -/
def select {α : Type} (m : List Bool) (l : List α) : List α :=
  (m.zip l).filterMap fun x => if x.1 then some x.2 else none

/-- all contiguous windows of `w` rows (`rolling(window=w, center=True)`);
used at rdtools/availability.py:345-362 -/
def windows {α : Type} (w : Nat) (l : List α) : List (List α) :=
  (List.range (l.length + 1 - w)).map fun k : Nat => (l.drop k).take w

/-- `.sum()` of a full window: NaN if any member is NaN; used at rdtools/availability.py:345-362 -/
def strictSum (l : List Cell) : Cell := l.foldr (cellOp (· + ·)) (some 0)

/-- error of one window length (rdtools/availability.py:345-362): actual / expected − 1 of every window
whose two sums exist -/
def windowErrors (w : Nat) (rows : List (Cell × Cell)) : List ℚ :=
  valids ((windows w rows).map fun x =>
    (cellDiv (strictSum (x.map Prod.fst)) (strictSum (x.map Prod.snd))).map (· - 1))

/-- attributes set by `_calc_error_distributions`; `lower`, `upper` are the tables behind
`interp_lower`, `interp_upper`; used at rdtools/availability.py:296-385, 436-456, 465-493 -/
structure ErrorDist where
  powerR : List Cell
  energyR : List Cell
  lower : List (ℚ × ℚ)
  upper : List (ℚ × ℚ)
  deriving DecidableEq, Repr

/-- `window_lengths` (rdtools/availability.py:342): 2, 4, … below the number of rows -/
def windowLengths (n : Nat) : List Nat := (List.range (Nat.log2 n - 1)).map fun k : Nat => 2 ^ (k + 1)

/-- the quantile of each window length (rdtools/availability.py:365-367). A window length without any error
value, for which pandas has NaN, is left out of the table. -/
def errorTable (rows : List (Cell × Cell)) (q : ℚ) (ws : List Nat) : Except PyErr (List (ℚ × ℚ)) :=
  (ws.mapM fun w => (quantileE (windowErrors w rows) q).map fun v => v.map fun x => ((w : ℚ), x)).map
    fun l => l.filterMap id

/-- `_calc_error_distributions` (rdtools/availability.py:296-385) -/
def errorDistributions (a : Args) (i : Input) (loss : List ℚ) : Except PyErr ErrorDist :=
  let m := normalMask i loss
  let scaling := cellDiv (some (valids (select m i.expected)).sum)
    (some (valids (select m i.system)).sum)                               -- 327-330
  let powerR := i.expected.map fun x => cellDiv x scaling                 -- 331
  (energyOn i powerR).bind fun energyR =>                                 -- 333
  (energyOn i i.system).bind fun meter =>                                 -- 335
  let rows := select m (meter.zip energyR)                                -- 337
  if rows.length = 0 then .error .overflowError                           -- 342 `int(-inf)`
  else
    let ws := windowLengths rows.length
    if ws = [] then .error .valueError                                    -- 361 concat([])
    else
      (errorTable rows a.qLow ws).bind fun lower =>
      (errorTable rows a.qHigh ws).bind fun upper =>
      .ok ⟨powerR, energyR, lower, upper⟩

/-- `looks_offline[power_expected > 0].reindex(all_times)` (rdtools/availability.py:411-414) -/
def maskedOffline (i : Input) (mask : List (List Bool)) : List (Option Bool) :=
  List.zipWith (fun m e => if cellCmp (fun a b => decide (a < b)) (some 0) e then some (!m.any id)
    else none) mask i.expected

/-- `full_outage` (rdtools/availability.py:415-420) -/
def fullOutage (masked : List (Option Bool)) : List Bool :=
  List.zipWith (fun a b => a.getD false || b.getD false) (ffill masked) (bfill masked)

/-- positions where `diff == 1` (rdtools/availability.py:422-423): online before, outage here -/
def risesAt : Bool → Nat → List Bool → List Nat
  | _, _, [] => []
  | p, n, b :: l => if !p && b then n :: risesAt b (n + 1) l else risesAt b (n + 1) l

/-- positions where `diff.shift(-1) == -1` (rdtools/availability.py:424): outage here, online next -/
def fallsAt : Nat → List Bool → List Nat
  | _, [] => []
  | _, [_] => []
  | n, a :: b :: l => if a && !b then n :: fallsAt (n + 1) (b :: l) else fallsAt (n + 1) (b :: l)

/-- non-zero steps in order (rdtools/availability.py:425): `true` for +1, `false` for −1 -/
def steps : List Bool → List Bool
  | a :: b :: l => if a = b then steps (b :: l) else b :: steps (b :: l)
  | _ => []

/-- start and end positions of the outages (rdtools/availability.py:422-433) -/
def outageBounds (b : List Bool) : List (Nat × Nat) :=
  let starts := match b with
    | [] => []
    | x :: l => risesAt x 1 l
  let ends := fallsAt 0 b
  let s := steps b
  let starts := if s.head? = some false then 0 :: starts else starts
  let ends := if s.getLast? = some true then ends ++ [b.length - 1] else ends
  starts.zip ends

/-- the values of the column 'type'; used at rdtools/availability.py:465-493 -/
inductive OutageType where
  | real | comms | unknown
  deriving DecidableEq, Repr

/-- one row of `outage_info`; `first`, `last` are the positions of `start` and `end`;
used at rdtools/availability.py:434-495 -/
structure Outage where
  first : Nat
  last : Nat
  daylight : Nat
  errorLower : ℚ
  errorUpper : ℚ
  expected : ℚ
  energyStart : Cell
  energyEnd : Cell
  actual : Cell
  ciLower : ℚ
  ciUpper : ℚ
  type : OutageType
  loss : Cell
  deriving DecidableEq, Repr

/-- rows `start … end` of a column; used at rdtools/availability.py:436-456, 465-493, 502-516 -/
def slice {α : Type} (l : List α) (s e : Nat) : List α := (l.drop s).take (e - s + 1)

/-- `interp(series)(n)`; an empty table makes `series.values[0]` raise IndexError;
used at rdtools/availability.py:436-456, 465-493 -/
def interpE (tab : List (ℚ × ℚ)) (n : Nat) : Except PyErr ℚ :=
  match interp1d tab n with
  | none => .error .indexError
  | some v => .ok v

/-- classification and loss of an outage (rdtools/availability.py:465-493) -/
def classify (expected errorLower : ℚ) (energyStart energyEnd : Cell) : Cell × OutageType × Cell :=
  let diff := cellOp (fun a b => a - b) energyEnd energyStart
  let actual := if cellCmp (fun a b => decide (a < b)) diff (some (-(5 / 100) * expected)) then none
    else diff
  match actual with
  | none => (none, .unknown, none)
  | some x =>
    if x < (1 + errorLower) * expected then (some x, .real, some (expected - x))
    else (some x, .comms, some 0)

/-- one record of `outage_info` (rdtools/availability.py:436-456, 465-493) -/
def outageRecord (i : Input) (d : ErrorDist) (s e : Nat) : Except PyErr Outage :=
  let daylight := ((slice d.powerR s e).filter fun x =>
    cellCmp (fun a b => decide (a < b)) (some 0) x).length
  (interpE d.lower daylight).bind fun lo =>
  (interpE d.upper daylight).bind fun up =>
  let expected := (valids (slice d.energyR s e)).sum
  -- 442: position s − 1, which Python takes from the end for s = 0
  let es := i.cum.getD (if s = 0 then i.cum.length - 1 else s - 1) none
  let ee := i.cum.getD e none
  let c := classify expected lo es ee
  .ok ⟨s, e, daylight, lo, up, expected, es, ee, c.1, (1 + lo) * expected, (1 + up) * expected,
    c.2.1, c.2.2⟩

/-- `outage_info` (rdtools/availability.py:434-495) -/
def outageInfo (i : Input) (mask : List (List Bool)) (d : ErrorDist) : Except PyErr (List Outage) :=
  (outageBounds (fullOutage (maskedOffline i mask))).mapM fun x => outageRecord i d x.1 x.2

/-- `cumsum()` skipping NaN; used at rdtools/availability.py:502-516 -/
def cumsumK : ℚ → List (Int × Cell) → List (Int × Cell)
  | _, [] => []
  | a, (t, none) :: l => (t, none) :: cumsumK a l
  | a, (t, some x) :: l => (t, some (a + x)) :: cumsumK (a + x) l

/-- attributes set by the last part of `_calc_loss_system`;
used at rdtools/availability.py:502-516, 499-519 -/
structure SystemLoss where
  loss : List Cell
  corrected : List Cell
  deriving DecidableEq, Repr

/-- one iteration of the fill loop (rdtools/availability.py:502-516) -/
def fillOutage (i : Input) (acc : SystemLoss) (o : Outage) : Except PyErr SystemLoss :=
  let sub := slice (i.index.zip i.expected) o.first o.last                -- 505
  (energyFromPower sub none none .rightLabeled i.freq).map fun se =>      -- 506
  let tot := some (valids (se.map Prod.snd)).sum
  let cums := cumsumK 0 se
  { loss := acc.loss.zipIdx.map fun x =>                                  -- 507-508
      if o.first ≤ x.2 ∧ x.2 ≤ o.last then
        cellOp (· + ·) x.1
          (cellDiv (cellOp (· * ·) (i.expected.getD x.2 none) o.loss) tot)
      else x.1
    corrected := acc.corrected.zipIdx.map fun x =>                        -- 513-516
      if o.first ≤ x.2 ∧ x.2 ≤ o.last then
        cellOp (· + ·) o.energyStart
          (cellOp (· * ·) (lookupK cums (i.index.getD x.2 0)) (cellDiv o.actual tot))
      else x.1 }

/-- `loss_system` and `energy_cumulative_corrected` (rdtools/availability.py:499-519) -/
def systemLoss (i : Input) (outages : List Outage) : Except PyErr SystemLoss :=
  outages.foldlM (fillOutage i) ⟨i.index.map fun _ => some 0, i.cum⟩

/-- whether `_combine_losses` warns of simultaneous losses (rdtools/availability.py:540-546) -/
def overlapWarning (sub : List ℚ) (sys : List Cell) : Bool :=
  (sub.zip sys).any fun x => cellCmp (fun a b => decide (b < a)) x.2 (some 0) && decide (0 < x.1)

/-- `loss_total` (rdtools/availability.py:548) -/
def lossTotal (sub : List ℚ) (sys : List Cell) : List Cell :=
  List.zipWith (fun a b => cellOp (· + ·) b (some a)) sub sys

/-- one row of `results`; used at rdtools/availability.py:550-564 -/
structure Row where
  label : Int
  lost : Cell
  actual : Cell
  availability : Flt
  deriving DecidableEq, Repr

/-- first / last non-missing value of the rows of period `p`;
used at rdtools/availability.py:550-564 -/
def firstIn (bin : Int → Int) (p : Int) (rows : List (Int × Cell)) : Cell :=
  (valids ((rows.filter fun r => decide (bin r.1 = p)).map Prod.snd)).head?
/-- last non-missing value of the rows of period `p`; used at rdtools/availability.py:550-564 -/
def lastIn (bin : Int → Int) (p : Int) (rows : List (Int × Cell)) : Cell :=
  (valids ((rows.filter fun r => decide (bin r.1 = p)).map Prod.snd)).getLast?

/-- `1 - lost / (lost + actual)` (rdtools/availability.py:562-563) -/
def availabilityOf (lost actual : Cell) : Flt :=
  match lost, actual with
  | some l, some a => Flt.sub (.fin 1) (Flt.ofDiv l (l + a))
  | _, _ => .nan

/-- the rollup of `_combine_losses` (rdtools/availability.py:550-564). Simplification: only periods that
contain a timestamp of either series are listed, and the lost production of a period that contains no label of
the energy series is missing (pandas gives 0 when the period lies between two that do). -/
def rollup (bin : Int → Int) (cum energy : List (Int × Cell)) : List Row :=
  (((cum.map Prod.fst ++ energy.map Prod.fst).map bin).dedup.insertionSort (· ≤ ·)).map fun p =>
    let mine := energy.filter fun r => decide (bin r.1 = p)
    let lost : Cell := if mine = [] then none else some (valids (mine.map Prod.snd)).sum
    let actual := cellOp (fun a b => a - b) (lastIn bin p cum) (firstIn bin p cum)
    ⟨p, lost, actual, availabilityOf lost actual⟩

/-- the computation of `results` from `loss_total` (rdtools/availability.py:550-564) -/
def combine (a : Args) (i : Input) (total corrected : List Cell) : Except PyErr (List Row) :=
  match a.bin with
  | none => .error .valueError
  | some bin =>
    (energyFromPower (i.index.zip total) none none .rightLabeled i.freq).map fun e =>
      rollup bin (i.index.zip corrected) e

/-- an `AvailabilityAnalysis` object: its inputs and the attributes set so far;
used at rdtools/availability.py:566-618, 620-638 -/
structure Obj where
  input : Input
  sub : Option Subsystem := none
  dist : Option ErrorDist := none
  outages : Option (List Outage) := none
  sys : Option SystemLoss := none
  total : Option (List Cell) := none
  results : Option (List Row) := none

/-- `run` (rdtools/availability.py:566-618): each stage assigns its attributes as it finishes; an exception
leaves those assigned so far -/
def run (a : Args) (o : Obj) : Obj × Except PyErr Unit :=
  let s := lossSubsystem a o.input
  let o := { o with sub := some s }
  match errorDistributions a o.input s.loss with
  | .error e => (o, .error e)
  | .ok d =>
    let o := { o with dist := some d }
    match outageInfo o.input s.mask d with
    | .error e => (o, .error e)
    | .ok outs =>
      let o := { o with outages := some outs }
      match systemLoss o.input outs with
      | .error e => (o, .error e)
      | .ok sl =>
        let total := lossTotal s.loss sl.loss
        let o := { o with sys := some sl, total := some total }
        match combine a o.input total sl.corrected with
        | .error e => (o, .error e)
        | .ok rows => ({ o with results := some rows }, .ok ())

/-- `plot` (rdtools/availability.py:620-638): the three computed attributes handed to the figure -/
def plot (o : Obj) : Except PyErr (List Cell × Option ErrorDist × Option (List Outage)) :=
  match o.total with
  | none => .error .typeError
  | some t => .ok (t, o.dist, o.outages)

end Verif.Avail
