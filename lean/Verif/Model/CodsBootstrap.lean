import Verif.Model.CodsDecomp
import Verif.Model.Bootstrap

/-!
# CODS: bootstrapping (rdtools/soiling.py:1535-1937 and 2284-2429)

The initial fits and the refits are parameters (`fit0`, `refit`); they are calls of `iterative_signal_decomposition`
(`Verif.Model.CodsDecomp.decompose`) with the parameters of the combination or with random ones.
-/

namespace Verif.Cods

open Verif

/-- combination of parameters: order, detection tuner, pruning tuner, forward fill;
used at rdtools/soiling.py:1684-1686, 1699-1725 -/
abbrev Combo := List Comp × ℚ × ℚ × Bool

/-- the alternatives (rdtools/soiling.py:1540-1544) -/
structure Alternatives where
  orders : List (List Comp) := [[.SR, .SC, .Rd], [.SC, .SR, .Rd]]
  cleaning : List ℚ := [1 / 4, 3 / 4]
  pruning : List ℚ := [2 / 3, 3 / 2]
  fill : List Bool := [true, false]

/-- `itertools.product([0, 1], repeat=4)` (rdtools/soiling.py:1683) -/
def indexList : List (Nat × Nat × Nat × Nat) :=
  [0, 1].flatMap fun a => [0, 1].flatMap fun b => [0, 1].flatMap fun c => [0, 1].map fun d => (a, b, c, d)

/-- `l[i]`; used at rdtools/soiling.py:1684-1686, 1788-1789 -/
def getE {α : Type} (l : List α) (i : Nat) : Except PyErr α :=
  match l[i]? with
  | none => .error .indexError
  | some a => .ok a

/-- one combination (rdtools/soiling.py:1684-1686) -/
def combo (a : Alternatives) (ix : Nat × Nat × Nat × Nat) : Except PyErr Combo := do
  let o ← getE a.orders ix.1
  let c ← getE a.cleaning ix.2.1
  let p ← getE a.pruning ix.2.2.1
  let f ← getE a.fill ix.2.2.2
  .ok (o, c, p, f)

/-- `combination_of_parameters` (rdtools/soiling.py:1684-1686) -/
def combos (a : Alternatives) : Except PyErr (List Combo) := indexList.mapM (combo a)

/-- `nr_models`; used at rdtools/soiling.py:1691-1692, 1788-1789 -/
def nrModels : Nat := 16

/-- the number of realizations (rdtools/soiling.py:1691-1692) -/
def roundReps (reps : Nat) : Nat := if reps % nrModels = 0 then reps else reps + (nrModels - reps % nrModels)

/-- what is used of the environment: the fit of a combination, the refit of realization `b` (with its random parameters), the
block starts of the bootstrap samples of model `c`, the random multipliers and shifts of the seasonal samples, the
year-on-year rate with its interval, the stationarity test and the square root;
used at rdtools/soiling.py:1699-1725, 1697-1725 -/
structure BootEnv where
  fit0 : Combo → Except PyErr Decomp
  refit : Nat → List Cell → Except PyErr Decomp
  starts : Nat → List (List Nat)
  draw : Nat → Nat → ℚ × Int
  yoyCI : List Cell → Except PyErr (ℚ × ℚ × ℚ)
  adf : List Cell → Except PyErr (ℚ × ℚ)
  sqrt : ℚ → ℚ

/-- results of stage 1: `list_of_df_out` together with `results`, and `bootstrap_samples_list`;
used at rdtools/soiling.py:1699-1725, 1697-1725 -/
structure Stage1 where
  fits : List Decomp
  samples : List (List (List Cell))

/-- one initial fit (rdtools/soiling.py:1699-1725): a `ValueError` is printed and the combination skipped -/
def stage1Step (e : BootEnv) (pi : List Cell) (perModel : Nat) (s : Stage1) (c : Nat × Combo) : Except PyErr Stage1 :=
  match e.fit0 c.2 with
  | .error .valueError => .ok s
  | .error err => .error err
  | .ok d =>
    if d.adf.2 < 5 / 100 then
      match bootstrapSamples .multiplicative pi d.total 90 ((e.starts c.1).take perModel) with
      | .error .valueError => .ok { s with fits := s.fits ++ [d] }
      | .error err => .error err
      | .ok l => .ok { fits := s.fits ++ [d], samples := s.samples ++ [l] }
    else .ok { s with fits := s.fits ++ [d] }

/-- stage 1 (rdtools/soiling.py:1697-1725) -/
def stage1 (e : BootEnv) (pi : List Cell) (perModel : Nat) (cs : List Combo) : Except PyErr Stage1 :=
  (cs.zipIdx.map fun p => (p.2, p.1)).foldlM (stage1Step e pi perModel) ⟨[], []⟩

/-- `(df.soiling_ratio == 1).mean()` (rdtools/soiling.py:1730-1731, 1844) over the days of the fit; zero for an empty table -/
def oneFraction (d : Decomp) : ℚ := (d.ratio.count (some 1) : ℚ) / (d.ratio.length - d.first : Nat)

/-- `1 / RMSE / (1 + SR_is_one_fraction)` (rdtools/soiling.py:1735, 1857) -/
def rawWeight (p : ℚ × ℚ) : ℚ := 1 / p.1 / (1 + p.2)

/-- `weights /= np.sum(weights)` (rdtools/soiling.py:1736, 1858) -/
def normalizeW (l : List ℚ) : List ℚ := l.map fun w => w / l.sum

/-- the errors, if all of them are positive numbers; used at rdtools/soiling.py:1857-1930 -/
def positiveRmse : List Decomp → Option (List ℚ)
  | [] => some []
  | d :: l =>
    match d.rmse, positiveRmse l with
    | some r, some rs => if 0 < r then some (r :: rs) else none
    | _, _ => none

/-- weights of fits. Not modelled: an error that is zero (infinite weights) or NaN, which ends in `exception`.
Used at rdtools/soiling.py:1857-1930, 1535-1937. -/
def weightsOf (fits : List Decomp) : Except PyErr (List ℚ) :=
  match positiveRmse fits with
  | none => .error .exception
  | some rs => .ok (normalizeW ((rs.zip (fits.map oneFraction)).map rawWeight))

/-- `adfs` of a fit is zero (rdtools/soiling.py:1728, 1753): not rejected, or a statistic of zero -/
def adfZero (d : Decomp) : Bool := if d.adf.2 < 5 / 100 then decide (d.adf.1 = 0) else true

/-- the result table; used at rdtools/soiling.py:1857-1930, 1766-1777 -/
structure BootTable where
  ratio : List Cell
  rates : List Cell
  seasonal : List Cell
  trend : List Cell
  total : List Cell
  residuals : List Cell
  srLow : List Cell := []
  srHigh : List Cell := []
  ratesLow : List Cell := []
  ratesHigh : List Cell := []
  btRatio : List ℚ := []
  btRates : List ℚ := []
  cleaningProb : List ℚ := []
  seasonalLow : List Cell := []
  seasonalHigh : List Cell := []
  modelLow : List Cell := []
  modelHigh : List Cell := []

/-- the attributes set by `run_bootstrap`; used at rdtools/soiling.py:1857-1930, 1766-1777 -/
structure BootOut where
  table : BootTable
  degradation : ℚ × Cell × Cell
  soilingLoss : ℚ × Cell × Cell
  shift : Cell
  small : Bool
  weights : List ℚ
  rmse : Cell

/-- results of stage 2: accepted refits and the seasonal samples left;
used at rdtools/soiling.py:1808-1850, 1807-1850 -/
structure Stage2 where
  kdfs : List Decomp
  seasonal : List (List Cell)

/-- one realization (rdtools/soiling.py:1808-1850). `all_bootstrap_samples[b]` of a missing column raises `KeyError`, which is not
caught; likewise `seasonal_samples[b]`. -/
def stage2Step (e : BootEnv) (samples seasonal : List (List Cell)) (s : Stage2) (b : Nat) : Except PyErr Stage2 :=
  match samples[b]?, seasonal[b]? with
  | some x, some y =>
    match e.refit b (cellsDiv x y) with
    | .error .valueError => .ok s
    | .error err => .error err
    | .ok d => if d.adf.2 < 5 / 100 then .ok ⟨s.kdfs ++ [d], s.seasonal ++ [y]⟩ else .ok s
  | _, _ => .error .keyError

/-- stage 2 (rdtools/soiling.py:1807-1850): the seasonal samples of rejected realizations are dropped -/
def stage2 (e : BootEnv) (samples seasonal : List (List Cell)) (reps : Nat) : Except PyErr Stage2 :=
  (List.range reps).foldlM (stage2Step e samples seasonal) ⟨[], []⟩

/-- the cells of a day in several columns; used at rdtools/soiling.py:1857-1930 -/
def rowAt (cols : List (List Cell)) (i : Nat) : List Cell := cols.map fun c => cellAt c i

/-- `(frame * weights).sum(1)` at a day: missing values count as zero;
used at rdtools/soiling.py:1857-1930 -/
def weightedRow (w : List ℚ) (row : List Cell) : ℚ := (List.zipWith (fun c a => (c.getD 0) * a) row w).sum

/-- `frame.quantile(q, 1)`; used at rdtools/soiling.py:1857-1930 -/
def rowQuantile (n : Nat) (cols : List (List Cell)) (q : ℚ) : List Cell :=
  (List.range n).map fun i => cellQuantile (rowAt cols i) q

/-- `np.dot`; used at rdtools/soiling.py:1857-1930 -/
def dotQ (a w : List ℚ) : ℚ := (List.zipWith (fun x y => x * y) a w).sum

/-- `clip(lower=0, upper=1)`; used at rdtools/soiling.py:1857-1930 -/
def clip01 (x : List Cell) : List Cell := x.map fun c => c.map (clipQ 0 1)

/-- rates, zero where the clipped ratio does not change (rdtools/soiling.py:1891) -/
def zeroRates (ratio rates : List Cell) : List Cell :=
  (List.range rates.length).map fun i => if cellAt (cellDiff ratio) i = some 0 then some 0 else cellAt rates i

/-- the edges of the intervals (rdtools/soiling.py:1874-1875) -/
def lowEdge (conf : ℚ) : ℚ := (50 - conf / 2) / 100
/-- see `lowEdge`; used at rdtools/soiling.py:1857-1930 -/
def highEdge (conf : ℚ) : ℚ := (50 + conf / 2) / 100

/-- `np.quantile` of the values of the accepted refits; used at rdtools/soiling.py:1857-1930 -/
def lossQuantile (kdfs : List Decomp) (q : ℚ) : Cell := npQuantile (kdfs.map fun d => d.soilingLoss) q

/-- boolean as number; used at rdtools/soiling.py:1857-1930 -/
def bCell (b : Bool) : Cell := some (if b then 1 else 0)

/-- stage 3 (rdtools/soiling.py:1857-1930): `df` is the table of the last successful initial fit (the variable `df_out` of stage 1).
Simplification: the columns of the refits are given on the days of the index, with missing values where a refit starts later. A
missing soiling loss of a refit makes the averages NaN, which is modelled as `exception`. -/
def stage3 (e : BootEnv) (pi : List Cell) (conf : ℚ) (df : Decomp) (s : Stage2) : Except PyErr BootOut :=
  if s.kdfs = [] then .error .valueError
  else if lowEdge conf < 0 ∨ 1 < lowEdge conf ∨ highEdge conf < 0 ∨ 1 < highEdge conf then .error .valueError
  else do
    let w ← weightsOf s.kdfs
    let n := pi.length
    let ratio := clip01 df.ratio
    let degs := s.kdfs.map fun d => d.degradation
    let deg := dotQ degs w
    let trend := linearTrend n deg
    let seasonal := (List.range n).map fun i => some (weightedRow w (rowAt s.seasonal i))
    let total := cellsMul (cellsMul trend seasonal) ratio
    let residuals := cellsDiv pi total
    let shift := cellMean residuals
    let shifted := total.map fun c => cellOp (fun x y => x * y) c shift
    if (s.kdfs.map fun d => d.soilingLoss).all Option.isSome then do
      let _ ← e.adf residuals
      .ok {
        table := {
          ratio := ratio, rates := zeroRates ratio df.rates, seasonal := seasonal, trend := trend, total := shifted,
          residuals := residuals,
          srLow := rowQuantile n (s.kdfs.map fun d => d.ratio) (lowEdge conf),
          srHigh := rowQuantile n (s.kdfs.map fun d => d.ratio) (highEdge conf),
          ratesLow := rowQuantile n (s.kdfs.map fun d => d.rates) (lowEdge conf),
          ratesHigh := rowQuantile n (s.kdfs.map fun d => d.rates) (highEdge conf),
          btRatio := (List.range n).map fun i => weightedRow w (rowAt (s.kdfs.map fun d => d.ratio) i),
          btRates := (List.range n).map fun i => weightedRow w (rowAt (s.kdfs.map fun d => d.rates) i),
          cleaningProb := (List.range n).map fun i => weightedRow w (s.kdfs.map fun d => bCell (getB d.events i)),
          seasonalLow := rowQuantile n s.seasonal (lowEdge conf),
          seasonalHigh := rowQuantile n s.seasonal (highEdge conf),
          modelLow := rowQuantile n (s.kdfs.map fun d => d.total) (lowEdge conf),
          modelHigh := rowQuantile n (s.kdfs.map fun d => d.total) (highEdge conf) },
        degradation := (deg, quantile degs (lowEdge conf), quantile degs (highEdge conf)),
        soilingLoss := (dotQ (valids (s.kdfs.map fun d => d.soilingLoss)) w, lossQuantile s.kdfs (lowEdge conf),
          lossQuantile s.kdfs (highEdge conf)),
        shift := shift, small := false, weights := w, rmse := rmse e.sqrt pi shifted }
    else .error .exception

/-- the table of an initial fit; used at rdtools/soiling.py:1766-1777 -/
def tableOf (d : Decomp) : BootTable :=
  { ratio := d.ratio, rates := d.rates, seasonal := d.seasonal, trend := d.trend, total := d.total, residuals := d.residuals }

/-- result without bootstrapping (rdtools/soiling.py:1766-1777). A mean of no values is modelled as `exception`. -/
def smallResult (e : BootEnv) (pi : List Cell) (best : Decomp) (w : List ℚ) : Except PyErr BootOut := do
  let y ← e.yoyCI pi
  match cellMean (best.ratio.map fun c => c.map fun v => 1 - v) with
  | none => .error .exception
  | some m => .ok { table := tableOf best, degradation := (y.1, some y.2.1, some y.2.2), soilingLoss := (0, some 0, some m),
                    shift := best.shift, small := true, weights := w, rmse := none }

/-- `[list_of_df_out[m].seasonal_component for m in range(nr_models) if weights[m] > 0]` (rdtools/soiling.py:1788-1789) -/
def positiveSeasonal (fits : List Decomp) (w : List ℚ) : Except PyErr (List (List Cell)) :=
  (List.range nrModels).foldlM (fun acc m => do
    let wm ← getE w m
    if 0 < wm then do
      let d ← getE fits m
      .ok (acc ++ [d.seasonal])
    else .ok acc) []

/-- `np.argmax(weights)`: `ValueError` for an empty array; used at rdtools/soiling.py:1535-1937 -/
def argmaxE (w : List ℚ) : Except PyErr Nat := if w = [] then .error .valueError else .ok (argmaxQ w)

/-- `run_bootstrap` (rdtools/soiling.py:1535-1937) on the stored series -/
def runBootstrap (e : BootEnv) (alts : Alternatives) (reps : Nat) (conf : ℚ) (day0 : Int) (pi : List Cell) :
    Except PyErr BootOut := do
  let cs ← combos alts
  let s1 ← stage1 e pi (roundReps reps / nrModels) cs
  let w ← weightsOf s1.fits
  if nrModels / 2 < (s1.fits.map adfZero).count true then .error .runtimeError
  else do
    let m ← argmaxE w
    let best ← getE s1.fits m
    if nrModels / 2 < (s1.fits.map fun d => d.small).count true then smallResult e pi best w
    else if s1.samples = [] then .error .valueError
    else do
      let scs ← positiveSeasonal s1.fits w
      let ss := (seasonalSamples (scs.map fun c => (daysFrom day0 c.length).zip c) (roundReps reps / nrModels) e.draw).map
        fun l => l.map Prod.snd
      let s2 ← stage2 e s1.samples.flatten ss (roundReps reps)
      match s1.fits.getLast? with
      | none => .error .exception
      | some df => stage3 e pi conf df s2

/-- return value of `soiling_cods`; used at rdtools/soiling.py:2425-2429, 2284-2429 -/
structure CodsResult where
  sr : ℚ
  srCI : Cell × Cell
  rd : ℚ
  rdCI : Cell × Cell

/-- the last lines of `soiling_cods` (rdtools/soiling.py:2425-2429) -/
def codsResult (o : BootOut) : CodsResult :=
  { sr := 1 - o.soilingLoss.1 / 100,
    srCI := (o.soilingLoss.2.1.map fun v => 1 - v / 100, o.soilingLoss.2.2.map fun v => 1 - v / 100),
    rd := o.degradation.1, rdCI := o.degradation.2 }

/-- `soiling_cods` (rdtools/soiling.py:2284-2429). The environment may depend on the stored series. -/
def soilingCods (e : List Cell → BootEnv) (alts : Alternatives) (reps : Nat) (conf : ℚ) (daily : Bool) (day0 : Int)
    (pm : List Cell) : Except PyErr CodsResult := do
  let s ← codsInit daily day0 pm
  let o ← runBootstrap (e s.2) alts reps conf s.1 s.2
  .ok (codsResult o)

end Verif.Cods
