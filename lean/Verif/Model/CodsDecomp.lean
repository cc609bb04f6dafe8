import Verif.Model.CodsKalman

/-!
# CODS: iterative signal decomposition (rdtools/soiling.py:1171-1533)

The performance index is a list of cells over consecutive days, with the number of its first day. Numerical routines of other
packages (STL and lowess, year-on-year degradation without confidence interval, Dickey-Fuller test, square root) are
parameters. A quotient by zero (infinite or NaN in numpy) is modelled missing (`cellDiv`).
-/

namespace Verif.Cods

open Verif

/-- the components; used at rdtools/soiling.py:1183-1189, 1364 -/
inductive Comp where
  | SR | SC | Rd
  deriving DecidableEq, Repr

/-- routines of other packages: `stl` gives the smoothed seasonal component and the trend of a signal (rdtools/soiling.py:1398-1410:
interpolation, logarithm, STL, lowess), `yoy` the degradation rate of a signal in %/year, `adf` test statistic and p-value,
`sqrt` the square root -/
structure DecompEnv where
  stl : List Cell → Except PyErr (List Cell × List Cell)
  yoy : List Cell → Except PyErr ℚ
  adf : List Cell → Except PyErr (ℚ × ℚ)
  sqrt : ℚ → ℚ

/-- arguments of `iterative_signal_decomposition` (rdtools/soiling.py:1183-1189); `stl` is `degradation_method == 'STL'` -/
structure DecompOpts where
  order : List Comp := [.SR, .SC, .Rd]
  stl : Bool := false
  maxIterations : Nat := 18
  cleaning : ℚ := 1/2
  criterion : ℚ := 1/200
  pruningIterations : Nat := 1
  pruning : ℚ := 6/10
  significance : ℚ := 3/4
  processNoise : ℚ := 1/10000
  renorm : Option ℚ := none
  fwd : Bool := true
  clip : Bool := true
  deriving DecidableEq, Repr

/-- quotient of two series; used at rdtools/soiling.py:1363-1394, 1395-1420 -/
def cellsDiv (a b : List Cell) : List Cell := List.zipWith cellDiv a b

/-- product of two series; used at rdtools/soiling.py:1436-1442, 1479-1533 -/
def cellsMul (a b : List Cell) : List Cell := List.zipWith (cellOp fun x y => x * y) a b

/-- `_RMSE(y_true, y_pred)` (rdtools/soiling.py:2615-2619); days without prediction are masked, `mean` skips NaN -/
def rmse (sqrt : ℚ → ℚ) (y p : List Cell) : Cell :=
  (mean (valids (List.zipWith (cellOp fun a b => (b - a) ^ 2) y p))).map sqrt

/-- the variables of the loop; lists of which only the last entry is used are represented by that entry. `log` (not in the
code, but printed with `verbose=True`) records the component of each iteration and whether perfect cleaning was assumed.
Used at rdtools/soiling.py:1365-1375, 1363-1394. -/
structure DecompState where
  ic : Nat
  order : List Comp
  cleaning : ℚ
  pruning : ℚ
  perfect : Bool
  changePoint : Nat
  trend : List Cell
  seasonal : List Cell
  ratio : List Cell
  df : Option KalmanOut
  deg : ℚ
  residuals : List Cell
  shift : Cell
  metrics : List Cell
  pce : List Bool
  log : List (Comp × Bool)

/-- `pce[ce] = True`; used at rdtools/soiling.py:1365-1375 -/
def orEvents (a b : List Bool) : List Bool := List.zipWith (fun x y => x || y) a b

/-- the cleaning events handed to the Kalman filter and the two adjusted sensitivities (rdtools/soiling.py:1365-1375). `ic` has
already been increased. `soiling_dfs[-1]` of an empty list raises. -/
def prepareEvents (o : DecompOpts) (st : DecompState) : Except PyErr (List Bool × ℚ × ℚ) :=
  if 2 < st.ic then
    match st.df with
    | none => .error .indexError
    | some k =>
      (collapse (rollingMedianCe o.fwd 9 (st.cleaning * (12 / 10)) st.residuals).1
        (cellDiff (rollingMedianCe o.fwd 9 (st.cleaning * (12 / 10)) st.residuals).2) 5).map fun ce =>
          (orEvents k.events ce, st.cleaning * (12 / 10), st.pruning / (11 / 10))
  else .ok (st.pce, st.cleaning, st.pruning)

/-- options of the Kalman filter (rdtools/soiling.py:1383-1392); `ffill` is not passed on -/
def kalmanOpts (o : DecompOpts) (pruning : ℚ) (perfect : Bool) : KalmanOpts :=
  { processNoise := o.processNoise, pruningIterations := o.pruningIterations, pruning := pruning, renorm := o.renorm,
    perfect := perfect, clip := o.clip, fwd := true }

/-- soiling component (rdtools/soiling.py:1363-1394) -/
def fitSR (fuel : Nat) (o : DecompOpts) (pi : List Cell) (st : DecompState) : Except PyErr DecompState := do
  let p ← prepareEvents o st
  let k ← kalmanSR (kalmanOpts o p.2.2 st.perfect) fuel
    ((cellsDiv (cellsDiv pi st.trend) st.seasonal).map fun c => cellDiv c st.shift) (.series p.1)
  .ok { st with pce := p.1, cleaning := p.2.1, pruning := p.2.2, ratio := k.ratio, df := some k }

/-- the days of a series that starts at day number `day0`;
used at rdtools/soiling.py:1395-1420, 1535-1937 -/
def daysFrom (day0 : Int) (n : Nat) : List Int := (List.range n).map fun i : Nat => day0 + (i : Int)

/-- `deg_trend / deg_trend.iloc[0]` (rdtools/soiling.py:1418) -/
def firstNormalized (t : List Cell) : List Cell := t.map fun c => cellDiv c (cellAt t 0)

/-- seasonal component (rdtools/soiling.py:1395-1420) -/
def fitSC (e : DecompEnv) (o : DecompOpts) (day0 : Int) (pi : List Cell) (st : DecompState) : Except PyErr DecompState := do
  let s ← e.stl (cellsDiv pi st.ratio)
  let sc := (forcePeriodicity ((daysFrom day0 s.1.length).zip s.1) (daysFrom day0 pi.length)).map Prod.snd
  if o.stl then do
    let d ← e.yoy (firstNormalized s.2)
    .ok { st with seasonal := sc, trend := firstNormalized s.2, deg := d }
  else .ok { st with seasonal := sc }

/-- the linear trend of a degradation rate in %/year (rdtools/soiling.py:1432-1433) -/
def linearTrend (n : Nat) (d : ℚ) : List Cell := (List.range n).map fun i : Nat => some (1 + (i : ℚ) * d / 100 / 365)

/-- degradation component (rdtools/soiling.py:1422-1434) -/
def fitRd (e : DecompEnv) (pi : List Cell) (st : DecompState) : Except PyErr DecompState := do
  let d ← e.yoy (cellsDiv (cellsDiv pi st.seasonal) st.ratio)
  .ok { st with trend := linearTrend pi.length d, deg := d }

/-- the component of the iteration `ic` (rdtools/soiling.py:1364: `order[(ic-1) % n_steps]`) -/
def compAt (order : List Comp) (ic : Nat) : Option Comp := order[(ic - 1) % order.length]?

/-- the fit of one iteration (rdtools/soiling.py:1360-1434) -/
def fitComp (e : DecompEnv) (fuel : Nat) (o : DecompOpts) (day0 : Int) (pi : List Cell) (st : DecompState) :
    Except PyErr DecompState :=
  match compAt st.order st.ic with
  | none => .error .indexError
  | some .SR => (fitSR fuel o pi st).map fun s => { s with log := st.log ++ [(.SR, st.perfect)] }
  | some .SC => (fitSC e o day0 pi st).map fun s => { s with log := st.log ++ [(.SC, st.perfect)] }
  | some .Rd => (fitRd e pi st).map fun s => { s with log := st.log ++ [(.Rd, st.perfect)] }

/-- residuals, their mean, the shifted model and its error (rdtools/soiling.py:1436-1442) -/
def combine (e : DecompEnv) (pi : List Cell) (st : DecompState) : DecompState :=
  { st with
    residuals := cellsDiv pi (cellsMul (cellsMul st.trend st.seasonal) st.ratio),
    shift := cellMean (cellsDiv pi (cellsMul (cellsMul st.trend st.seasonal) st.ratio)),
    metrics := st.metrics ++ [rmse e.sqrt pi ((cellsMul (cellsMul st.trend st.seasonal) st.ratio).map fun c =>
      cellOp (fun x y => x * y) c (cellMean (cellsDiv pi (cellsMul (cellsMul st.trend st.seasonal) st.ratio))))] }

/-- `relative_improvement < convergence_criterion` (rdtools/soiling.py:1453-1455) for the errors one round before and now: comparisons
with NaN are false, and a quotient by zero is minus infinity, NaN or infinity -/
def littleImprovement (crit : ℚ) : Cell → Cell → Bool
  | some p, some c => if p = 0 then decide (0 < c) else decide ((p - c) / p < crit)
  | _, _ => false

/-- `littleImprovement` for the recorded errors; used at rdtools/soiling.py:1452-1477 -/
def converged (crit : ℚ) (st : DecompState) : Bool :=
  littleImprovement crit (cellAt st.metrics (st.metrics.length - st.order.length - 1)) (cellAt st.metrics (st.metrics.length - 1))

/-- the new order (rdtools/soiling.py:1462-1463) -/
def reorder (order : List Comp) (ic : Nat) : List Comp :=
  (List.range order.length).filterMap fun i =>
    order[(i + order.length - 1 - (ic - 1) % order.length) % order.length]?

/-- the decision after an iteration (rdtools/soiling.py:1452-1477): the state, and whether to stop (`ic = max_iterations`) -/
def decideNext (o : DecompOpts) (st : DecompState) : DecompState × Bool :=
  if st.order.length ≤ st.ic then
    if st.perfect && (decide (o.maxIterations ≤ 2 * st.ic) || converged o.criterion st) then
      ({ st with perfect := false, order := reorder st.order st.ic, changePoint := st.ic }, false)
    else if !st.perfect && (decide (o.maxIterations ≤ st.ic) ||
        (decide (st.changePoint + st.order.length ≤ st.ic) && converged o.criterion st)) then (st, true)
    else (st, false)
  else (st, false)

/-- the `while` loop (rdtools/soiling.py:1359-1477); the first argument is `max_iterations - ic` -/
def decompLoop (e : DecompEnv) (fuel : Nat) (o : DecompOpts) (day0 : Int) (pi : List Cell) :
    Nat → DecompState → Except PyErr DecompState
  | 0, st => .ok st
  | rem + 1, st => do
    let s ← fitComp e fuel o day0 pi { st with ic := st.ic + 1 }
    if (decideNext o (combine e pi s)).2 then .ok (decideNext o (combine e pi s)).1
    else decompLoop e fuel o day0 pi rem (decideNext o (combine e pi s)).1

/-- the order in use (rdtools/soiling.py:1330-1331) -/
def effectiveOrder (o : DecompOpts) : List Comp := if o.stl then o.order.filter (· ≠ .Rd) else o.order

/-- the variables before the loop (rdtools/soiling.py:1336-1353) -/
def initState (e : DecompEnv) (o : DecompOpts) (pi : List Cell) (pce : List Bool) : DecompState :=
  { ic := 0, order := effectiveOrder o, cleaning := o.cleaning, pruning := o.pruning, perfect := true, changePoint := 0,
    trend := pi.map fun _ => some 1, seasonal := pi.map fun _ => some 1, ratio := pi.map fun _ => some 1, df := none, deg := 0,
    residuals := pi, shift := some 1, metrics := [rmse e.sqrt pi (pi.map fun _ => some 1)], pce := pce, log := [] }

/-- the results: the columns of `df_out` and the entries of `results_dict`; the columns of a refit of the bootstrap are given on the
days of the original index, and `first` is the number of those days before its own first day (see `Model/CodsFull.lean`).
Used at rdtools/soiling.py:1479-1533, 1183-1533. -/
structure Decomp where
  ratio : List Cell
  rates : List Cell
  events : List Bool
  seasonal : List Cell
  trend : List Cell
  total : List Cell
  residuals : List Cell
  degradation : ℚ
  soilingLoss : Cell
  shift : Cell
  rmse : Cell
  small : Bool
  adf : ℚ × ℚ
  log : List (Comp × Bool)
  first : Nat := 0

/-- `float(np.diff(x.quantile([.1, .9])))` (rdtools/soiling.py:1513-1514) -/
def amplitude (x : List Cell) : Cell := cellOp (fun a b => b - a) (cellQuantile x (1 / 10)) (cellQuantile x (9 / 10))

/-- `soiling_signal_strength < soiling_significance` (rdtools/soiling.py:1515-1516): division of Python floats raises for zero -/
def smallSignal (sig : ℚ) (sr res : Cell) : Except PyErr Bool :=
  if res = some 0 then .error .zeroDivisionError
  else .ok (cellCmp (fun a b => decide (a < b)) (cellDiv sr res) (some sig))

/-- results for the last components (rdtools/soiling.py:1479-1533) -/
def finishDecomp (e : DecompEnv) (o : DecompOpts) (pi : List Cell) (st : DecompState) : Except PyErr Decomp :=
  match st.df with
  | none => .error .indexError
  | some k => do
    let total := cellsMul (cellsMul k.ratio st.seasonal) st.trend
    let residuals := cellsDiv pi total
    let shift := cellMean residuals
    let shifted := total.map fun c => cellOp (fun x y => x * y) c shift
    let adf ← e.adf residuals
    let small ← smallSignal o.significance (amplitude k.ratio) (amplitude residuals)
    .ok { ratio := k.ratio, rates := k.rates, events := k.events, seasonal := st.seasonal, trend := st.trend,
          total := shifted, residuals := residuals, degradation := st.deg,
          soilingLoss := (cellMean (k.ratio.map fun c => c.map fun v => 1 - v)).map (· * 100),
          shift := shift, rmse := rmse e.sqrt pi shifted, small := small, adf := adf, log := st.log }

/-- `iterative_signal_decomposition` (rdtools/soiling.py:1183-1533) of the stored index; `fuel` bounds the passes of each Kalman
filter (see `pruneLoop`) -/
def decompose (e : DecompEnv) (fuel : Nat) (o : DecompOpts) (day0 : Int) (pi : List Cell) : Except PyErr Decomp :=
  if .SR ∉ effectiveOrder o then .error .valueError
  else do
    let pce ← collapse (rollingMedianCe o.fwd 9 o.cleaning pi).1 (cellDiff (rollingMedianCe o.fwd 9 o.cleaning pi).2) 5
    let st ← decompLoop e fuel o day0 pi o.maxIterations (initState e o pi pce)
    finishDecomp e o pi st

/-! ## The constructor -/

/-- number of leading missing days; used at rdtools/soiling.py:1171-1181 -/
def leadingMissing : List Cell → Nat
  | none :: l => leadingMissing l + 1
  | _ => 0

/-- `CODSAnalysis.__init__` (rdtools/soiling.py:1171-1181): first day and values of the stored series. `daily`: the index has the
frequency `'D'`. If every value is missing, `idxmin` gives the first day and nothing is removed. `iloc[0]` of an empty series
raises. -/
def codsInit (daily : Bool) (day0 : Int) (pm : List Cell) : Except PyErr (Int × List Cell) :=
  if pm = [] then .error .indexError
  else if !daily then .error .valueError
  else if leadingMissing pm = pm.length then .ok (day0, pm)
  else .ok (day0 + (leadingMissing pm : Int), pm.drop (leadingMissing pm))

end Verif.Cods
