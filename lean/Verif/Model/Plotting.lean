import Verif.Model.Degradation
import Verif.Model.Soiling
import Verif.Model.Availability

/-!
# rdtools/plotting.py

A figure is the data handed to the drawing library: points, lines, bars, histogram values and colours
that stand for data. Labels, axis limits, transparency and other styling are not modelled. What matplotlib,
plotly and numpy refuse (no bins, colours of the wrong number or missing) is an exception.
-/

namespace Verif.Plots

open Verif

/-- `y / factor` for a column (rdtools/plotting.py:110, 180, 241). A zero factor (infinities in Python) is
modelled as missing. -/
def renormalized (y : Series) (factor : Cell) : Series :=
  y.map fun r => (r.1, cellOp (fun a b => a / b) r.2 (if factor = some 0 then none else factor))

/-! ## Degradation summary -/

/-- colours of `{0: 'red', 1: 'green', 2: plot_color}` (rdtools/plotting.py:112) -/
inductive Color where
  | red | green | plot
  deriving DecidableEq, Repr

/-- the dictionary of rdtools/plotting.py:112; NaN for other numbers -/
def colorOf : Nat → Option Color
  | 0 => some .red
  | 1 => some .green
  | 2 => some .plot
  | _ => none

/-- number of bins (rdtools/plotting.py:74-77) -/
def summaryBins (bins : Option Int) (n : Nat) : Int := min (bins.getD ((n / 40 : Nat) : Int)) n

/-- the points of the scatter plot with their colours; used at rdtools/plotting.py:10-130 -/
structure SummaryFig where
  /-- numbers and bins of the histogram -/
  hist : List ℚ
  bins : Nat
  /-- the vertical line in the histogram -/
  rate : ℚ
  /-- `n` of the label, in the detailed version -/
  count : Option Nat
  points : List ((Int × Cell) × Color)
  /-- the two ends of the degradation line -/
  line : (Int × ℚ) × (Int × ℚ)
  deriving DecidableEq, Repr

/-- right end of the degradation line (rdtools/plotting.py:83-89); a year is 365.25 days -/
def lineEnd (rd : ℚ) (start stop : Int) : ℚ :=
  1 + rd * ((((stop - start) / dayNs : Int) : ℚ) / (36525 / 100)) / 100

/-- colours of the points (rdtools/plotting.py:111-117); a missing colour or a wrong number of colours makes
`scatter` raise ValueError. The colours go by position, not by timestamp. -/
def pointColors (detailed : Bool) (usage : List (Int × Nat)) (n : Nat) : Except PyErr (List Color) :=
  if detailed then
    match usage.mapM fun u => colorOf u.2 with
    | none => .error .valueError
    | some c => if c.length = n then .ok c else .error .valueError
  else .ok (List.replicate n .plot)

/-- `degradation_summary_plots` (rdtools/plotting.py:10-130). `hist` refuses fewer than one bin (92). -/
def summaryPlot (rd : ℚ) (info : YoYResult) (y : Series) (bins : Option Int) (detailed : Bool) :
    Except PyErr SummaryFig :=
  match y with
  | [] => .error .indexError                                              -- 83
  | a :: _ =>
    if summaryBins bins info.values.length < 1 then .error .valueError     -- 92
    else
      (pointColors detailed info.usage y.length).map fun c =>
      { hist := info.values.map Prod.snd
        bins := (summaryBins bins info.values.length).toNat
        rate := rd
        count := if detailed then some info.values.length else none        -- 102-104
        points := (renormalized y info.renorm).zip c
        line := ((a.1, 1), ((y.getLastD a).1, lineEnd rd a.1 (y.getLastD a).1)) }

/-! ## Degradation over time -/

/-- the rows of the time-based window `(t - days, t]` (rdtools/plotting.py:487). Simplification: pandas' window at a row ends with
that row, so with duplicate timestamps it leaves out later rows of the same timestamp, which are included here. -/
def window (days : Nat) (s : Series) (t : Int) : List Cell :=
  (s.filter fun r => decide (t - (days : Int) * dayNs < r.1 ∧ r.1 ≤ t)).map Prod.snd

/-- `roller.median()` at one row (rdtools/plotting.py:487, 499): NaN with fewer than `days // 2` numbers -/
def rollMedianT (days : Nat) (s : Series) (t : Int) : Cell :=
  let w := valids (window days s t)
  if w.length < days / 2 then none else median w

/-- `_bootstrap` (rdtools/plotting.py:469-474): `pick r k` is the index of the `k`-th draw of repetition `r`.
A repetition that draws only NaN makes the percentile NaN. -/
def bootPercentile (pick : Nat → Nat → Nat) (x : List Cell) (p : ℚ) : Cell :=
  let mb := (List.range 100).map fun r : Nat =>
    median (valids ((List.range x.length).map fun k : Nat => x.getD (pick r k) none))
  if mb.all Option.isSome then quantile (valids mb) (p / 100) else none

/-- one edge of the confidence band at one row (rdtools/plotting.py:491-492) -/
def edge (pick : Nat → Nat → Nat) (days : Nat) (s : Series) (p : ℚ) (t : Int) : Cell :=
  let w := window days s t
  if (valids w).length < days / 2 then none else bootPercentile pick w p

/-- what `degradation_timeseries_plot` draws; used at rdtools/plotting.py:434-504 -/
structure TimeFig where
  /-- lower and upper edge of the band -/
  band : Option (List (Int × Cell × Cell))
  trend : List (Int × Cell)
  /-- the horizontal line -/
  overall : Cell
  deriving DecidableEq, Repr

/-- `degradation_timeseries_plot` (rdtools/plotting.py:434-504). `values` is `yoy_info['YoY_values']`, `none` if
the key is missing. The draws of the two edges are independent: `pickLo i`, `pickHi i` are those of row `i`. A
window of at least one day is assumed; pandas also accepts a decreasing index, which is not modelled; the
`fig` argument is not modelled. -/
def timeseriesPlot (pickLo pickHi : Nat → Nat → Nat → Nat) (values : Option Series) (days : Nat) (includeCi : Bool) :
    Except PyErr TimeFig :=
  match values with
  | none => .error .keyError                                               -- 476-480
  | some s =>
    if ¬ (s.map Prod.fst).Pairwise (· ≤ ·) then .error .valueError          -- 487
    else .ok
      { band := if includeCi then
          some (s.zipIdx.map fun x => (x.1.1, edge (pickLo x.2) days s (25 / 10) x.1.1,
            edge (pickHi x.2) days s (975 / 10) x.1.1))
          else none
        trend := s.map fun r => (r.1, rollMedianT days s r.1)
        overall := median (valids (s.map Prod.snd)) }

/-! ## Soiling -/

/-- a list slice `[:k]` (rdtools/plotting.py:185-188) -/
def takeSlice {α : Type} (l : List α) : Option Int → List α
  | none => l
  | some k => if k < 0 then l.take (l.length - k.natAbs) else l.take k.toNat

/-- `soiling_monte_carlo_plot` (rdtools/plotting.py:133-195): the points and the profiles drawn -/
def monteCarloPlot (info : SrrOut) (y : Series) (profiles : Option Int) :
    Series × List (List (Int × Cell)) :=
  (renormalized y info.renorm, takeSlice info.profiles profiles)

/-- `soiling_interval_plot` (rdtools/plotting.py:198-249): the points and the perfect-cleaning profile -/
def intervalPlot (info : SrrOut) (y : Series) : Series × List (Int × ℚ) :=
  (renormalized y info.renorm, info.perfect)

/-- the numbers of `soiling_rate_histogram` (rdtools/plotting.py:252-286) -/
def rateHistogram (info : SrrOut) : List ℚ :=
  (info.table.filter Interval.valid).map fun i => 100 * i.slope

/-! ## Filter tuning -/

/-- a series with its name and the name of its index; names are strings or None;
used at rdtools/plotting.py:289-337 -/
structure Named where
  name : Option String
  indexName : Option String
  data : Series
  deriving DecidableEq, Repr

/-- a value of the table handed to plotly: a number or, if the mask was written over it, a verdict;
used at rdtools/plotting.py:289-337 -/
inductive Value where
  | num (x : Cell)
  | flag (b : Option Bool)
  deriving DecidableEq, Repr

/-- `df['mask'] = mask` (rdtools/plotting.py:326): by position for equal indexes, else by label; a mask with
duplicate labels then raises ValueError -/
def alignMask (index : List Int) (mask : List (Int × Option Bool)) : Except PyErr (List (Option Bool)) :=
  if mask.map Prod.fst = index then .ok (mask.map Prod.snd)
  else if (mask.map Prod.fst).Nodup then .ok (index.map fun t => lookupK mask t)
  else .error .valueError

/-- `tune_filter_plot` (rdtools/plotting.py:289-337): the table of time, value and colour. A column called "mask"
is overwritten (326); `reset_index` raises ValueError if the name of the index is already a column (327). -/
def tuneFilterPlot (s : Named) (mask : List (Int × Option Bool)) :
    Except PyErr (List (Int × Value × Option Bool)) :=
  let column := s.name.getD "signal"                                       -- 314-317
  let index := s.indexName.getD "datetime"                                 -- 318-321
  (alignMask (s.data.map Prod.fst) mask).bind fun m =>                     -- 324-326
  if index = column ∨ index = "mask" then .error .valueError               -- 327
  else .ok ((s.data.zip m).map fun x =>
    (x.1.1, if column = "mask" then .flag x.2 else .num x.1.2, x.2))        -- 328-332

/-! ## Availability -/

/-- `cumsum()` of a column, skipping NaN; used at rdtools/plotting.py:414-428 -/
def cumsumC : ℚ → List Cell → List Cell
  | _, [] => []
  | a, none :: l => none :: cumsumC a l
  | a, some x :: l => some (a + x) :: cumsumC (a + x) l

/-- one outage in the cumulative energy plot; used at rdtools/plotting.py:414-428 -/
structure OutageMark where
  /-- the expected production -/
  curve : List (Int × Cell)
  /-- the error bar: its position, centre, and lengths downwards and upwards -/
  time : Int
  centre : Cell
  down : ℚ
  up : ℚ
  /-- whether it appears in the legend -/
  legend : Bool
  deriving DecidableEq, Repr

/-- one pass of the loop (rdtools/plotting.py:414-428) -/
def outageMark (index : List Int) (energy : List Cell) (k : Nat) (o : Avail.Outage) : Except PyErr OutageMark :=
  let curve := (Avail.slice (index.zip energy) o.first o.last).map Prod.fst |>.zip
    ((cumsumC 0 (Avail.slice energy o.first o.last)).map fun c => cellOp (fun a b => a + b) c o.energyStart)
  match curve.getLast? with
  | none => .error .indexError                                             -- 426
  | some z => .ok
    { curve := curve, time := index.getD o.last 0, centre := z.2
      down := |o.expected - o.ciLower|, up := |o.expected - o.ciUpper|      -- 421
      legend := decide (k = 0) }                                           -- 417

/-- what `availability_summary_plots` draws;
used at rdtools/plotting.py:340-431, rdtools/availability.py:620-638 -/
structure AvailFig where
  system : List (Int × Cell)
  subs : List (Int × List Cell)
  lost : List (Int × Cell)
  cumulative : List (Int × Cell)
  outages : List OutageMark
  deriving DecidableEq, Repr

/-- `availability_summary_plots` (rdtools/plotting.py:340-431) -/
def availabilityPlot (i : Avail.Input) (total energy : List Cell) (outages : List Avail.Outage) :
    Except PyErr AvailFig :=
  (outages.zipIdx.mapM fun x => outageMark i.index energy x.2 x.1).map fun m =>
    { system := i.index.zip i.system, subs := i.index.zip i.subs, lost := i.index.zip total
      cumulative := i.index.zip i.cum, outages := m }

/-- `AvailabilityAnalysis.plot` (rdtools/availability.py:620-638) on an object; attributes missing after the
check raise AttributeError -/
def objPlot (o : Avail.Obj) : Except PyErr AvailFig :=
  match o.total with
  | none => .error .typeError
  | some t =>
    match o.dist, o.outages with
    | some d, some outs => availabilityPlot o.input t d.energyR outs
    | _, _ => .error .attributeError

/-! ## Energy against irradiance -/

/-- `pd.merge(left_index=True, right_index=True)` and the scatter plot of `plot_pv_vs_irradiance`
(rdtools/analysis_chains.py:1229-1237): the pairs drawn, with their timestamps -/
def irradianceScatter (poa energy : Series) : List (Int × Cell × Cell) :=
  poa.flatMap fun p => (energy.filter fun e => decide (e.1 = p.1)).map fun e => (p.1, p.2, e.2)

end Verif.Plots
