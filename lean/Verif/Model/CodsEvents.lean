import Verif.Model.Soiling

/-!
# CODS: event detection and seasonal component (rdtools/soiling.py:2432-2625)

Series are lists of cells over consecutive days; positions are the numeric index the code sets up.
-/

namespace Verif.Cods

open Verif

/-! ## Collapsing of cleaning events -/

/-- entry of a boolean series, false outside; used at rdtools/soiling.py:1857-1930 -/
def getB (l : List Bool) (i : Nat) : Bool := l.getD i false

/-- the first position with the property among `k` positions from `lo`;
used at rdtools/soiling.py:2463-2484 -/
def firstFrom (p : Nat → Bool) : Nat → Nat → Option Nat
  | _, 0 => none
  | lo, k + 1 => if p lo then some lo else firstFrom p (lo + 1) k

/-- `idxmax` of a boolean series over positions `lo ≤ i < hi`: the first true one, else the first one;
used at rdtools/soiling.py:2463-2484, 2432-2487 -/
def idxmaxB (l : List Bool) (lo hi : Nat) : Nat := (firstFrom (getB l) lo (hi - lo)).getD lo

/-- `idxmin` of a boolean series over `lo ≤ i < hi`: the first false one, else the first one;
used at rdtools/soiling.py:2463-2484 -/
def idxminB (l : List Bool) (lo hi : Nat) : Nat := (firstFrom (fun i => !getB l i) lo (hi - lo)).getD lo

/-- the better one of the best so far and the value at a position: a later value must be larger;
used at rdtools/soiling.py:2463-2484 -/
def better (best : Option (Nat × ℚ)) (i : Nat) : Cell → Option (Nat × ℚ)
  | none => best
  | some v =>
    match best with
    | none => some (i, v)
    | some (j, w) => if w < v then some (i, v) else some (j, w)

/-- `idxmax` over `k` positions from `lo`, NaN skipped: the first position of the largest value;
used at rdtools/soiling.py:2463-2484 -/
def argmaxFrom (m : List Cell) : Nat → Nat → Option (Nat × ℚ) → Option (Nat × ℚ)
  | _, 0, best => best
  | lo, k + 1, best => argmaxFrom m (lo + 1) k (better best lo (cellAt m lo))

/-- `metric.loc[lo:hi].idxmax()`, both ends included; used at rdtools/soiling.py:2463-2484 -/
def argmaxCell (m : List Cell) (lo hi : Nat) : Option Nat := (argmaxFrom m lo (hi + 1 - lo) none).map Prod.fst

/-- `s.loc[a:b] = v`, both ends included; used at rdtools/soiling.py:2463-2484, 2432-2487 -/
def setRange (l : List Bool) (a b : Nat) (v : Bool) : List Bool :=
  l.mapIdx fun i x => if a ≤ i ∧ i ≤ b then v else x

/-- the loop (rdtools/soiling.py:2463-2484). `start = 0` stops it. The bound on the number of passes is not in the code;
running out of it is reported as `RuntimeError`. -/
def collapseLoop (metric : List Cell) (f hi : Nat) : Nat → List Bool → List Bool → Nat → Except PyErr (List Bool)
  | 0, _, _, _ => .error .runtimeError
  | fuel + 1, dummy, out, start =>
    if start = 0 then .ok out
    else if start < idxminB dummy start hi then
      match argmaxCell metric (start - f) (idxminB dummy start hi - 1 + f) with
      | none => .error .valueError
      | some j =>
        collapseLoop metric f hi fuel
          (setRange dummy (start - f) (idxminB dummy start hi - 1 + f) false)
          (setRange (setRange out (start - f) (idxminB dummy start hi - 1 + f) false) j j true)
          (if idxmaxB (setRange dummy (start - f) (idxminB dummy start hi - 1 + f) false) f hi = f then 0
           else idxmaxB (setRange dummy (start - f) (idxminB dummy start hi - 1 + f) false) f hi)
    else .ok out

/-- `_collapse_cleaning_events` (rdtools/soiling.py:2432-2487). The days before `f` and from `n - f` on are not considered;
`idxmax` of an empty series raises. A window without any metric value makes `idxmax` return NaN, which ends in a
`ValueError`. Simplification: that error is raised at once. -/
def collapse (cand : List Bool) (metric : List Cell) (f : Nat) : Except PyErr (List Bool) :=
  if metric.length ≠ cand.length then .error .valueError
  else if f = 0 ∨ cand.length ≤ 2 * f then .error .valueError
  else
    collapseLoop metric f (cand.length - f) (cand.length + 1)
      (setRange (setRange cand 0 (f - 1) false) (cand.length - f) cand.length false)
      (List.replicate cand.length false)
      (idxmaxB (setRange (setRange cand 0 (f - 1) false) (cand.length - f) cand.length false) f (cand.length - f))

/-! ## Detection -/

/-- rolling median of the filled series (rdtools/soiling.py:2494-2497) -/
def filledMedian (forward : Bool) (w : Nat) (y : List Cell) : List Cell :=
  rollMedianC w (if forward then ffill y else bfill y)

/-- `abs()` of a series; used at rdtools/soiling.py:2490-2502, 2505-2517 -/
def cellAbs (x : List Cell) : List Cell := x.map fun c => c.map fun v => |v|

/-- `Series.quantile`; used at rdtools/soiling.py:2490-2502, 2505-2517 -/
def cellQuantile (x : List Cell) (q : ℚ) : Cell := quantile (valids x) q

/-- `_rolling_median_ce_detection` (rdtools/soiling.py:2490-2502) -/
def rollingMedianCe (forward : Bool) (w : Nat) (tuner : ℚ) (y : List Cell) : List Bool × List Cell :=
  ((cellDiff (filledMedian forward w y)).map fun d =>
    cellCmp (fun a b => decide (b < a)) d
      (cellOp (fun q3 q1 => q3 + tuner * (q3 - q1)) (cellQuantile (cellAbs (cellDiff (filledMedian forward w y))) (3 / 4))
        (cellQuantile (cellAbs (cellDiff (filledMedian forward w y))) (1 / 4))),
   filledMedian forward w y)

/-- `_soiling_event_detection` (rdtools/soiling.py:2505-2517) -/
def soilingEvents (forward : Bool) (tuner : ℚ) (y : List Cell) : List Bool :=
  (cellDiff (filledMedian forward 9 y)).map fun d =>
    cellCmp (fun a b => decide (a < b)) d
      (cellOp (fun q3 q1 => q1 - tuner * (q3 - q1)) (cellQuantile (cellAbs (cellDiff (filledMedian forward 9 y))) (99 / 100))
        (cellQuantile (cellAbs (cellDiff (filledMedian forward 9 y))) (1 / 100)))

/-- `np.quantile`: NaN if a value is NaN; used at rdtools/soiling.py:2589-2612 -/
def npQuantile (x : List Cell) (q : ℚ) : Cell := if x.all Option.isSome then quantile (valids x) q else none

/-- the `where` argument; used at rdtools/soiling.py:2589-2612 -/
inductive Side where
  | upper | lower
  deriving DecidableEq, Repr

/-- `_find_numeric_outliers` (rdtools/soiling.py:2589-2612) for one side. For an empty argument the code fails with an unbound
variable, here `exception`. -/
def numericOutliers (x : List Cell) (mult : ℚ) (side : Side) : Except PyErr (List Bool) :=
  if x = [] then .error .exception
  else
    match side with
    | .upper => .ok (x.map fun c => cellCmp (fun a b => decide (b < a)) c
        (cellOp (fun q3 q1 => q3 + mult * (q3 - q1)) (npQuantile x (3 / 4)) (npQuantile x (1 / 4))))
    | .lower => .ok (x.map fun c => cellCmp (fun a b => decide (a < b)) c
        (cellOp (fun q3 q1 => q1 - mult * (q3 - q1)) (npQuantile x (3 / 4)) (npQuantile x (1 / 4))))

/-! ## Seasonal component -/

/-- `index.dayofyear` of a day number; used at rdtools/soiling.py:2574-2581, 2554-2586 -/
def dayOfYear (n : Int) : Int := n - dayNumber ⟨(civil n).year, 1, 1⟩ + 1

/-- year of a day number; used at rdtools/soiling.py:2574-2581 -/
def yearOfDay (n : Int) : Int := (civil n).year

/-- `remove_length` (rdtools/soiling.py:2567); `int` truncates towards zero -/
def removeLength (n : Nat) : Int := min 180 (Int.tdiv ((n : Int) - 365) 2)

/-- `signal.iloc[:r] = nan; signal.iloc[-r:] = nan` (rdtools/soiling.py:2569-2570): is position `i` of `n` kept? -/
def keptEdge (n : Nat) (r : Int) (i : Nat) : Bool :=
  (if 0 ≤ r then decide (r ≤ i) else decide ((n : Int) + r ≤ i)) &&
  (if 0 < r then decide ((i : Int) < n - r) else decide ((i : Int) < -r))

/-- the signal without its edges, with the day of year (rdtools/soiling.py:2567-2579) -/
def trimmed (signal : List (Int × Cell)) : List (Int × Cell) :=
  signal.mapIdx fun i p => (p.1, if keptEdge signal.length (removeLength signal.length) i then p.2 else none)

/-- `year_matrix.median(1)` at the day of year `d` (rdtools/soiling.py:2574-2581); the 366th day is cut off -/
def medianSignal (signal : List (Int × Cell)) (d : Int) : Cell :=
  if 1 ≤ d ∧ d ≤ 365 then
    median (valids (((trimmed signal).filter fun p => dayOfYear p.1 = d).map Prod.snd))
  else none

/-- `_force_periodicity` (rdtools/soiling.py:2554-2586) for arrays and series. Simplification: the dates are distinct (a repeated
date makes `reindex` raise). -/
def forcePeriodicity (signal : List (Int × Cell)) (out : List Int) : List (Int × Cell) :=
  out.map fun t => (t, medianSignal signal (dayOfYear t))

/-- `signal.mean()`; used at rdtools/soiling.py:2539-2550, 1857-1930 -/
def cellMean (x : List Cell) : Cell := mean (valids x)

/-- `year_matrix.median(1)` without trimming, at any day of year (rdtools/soiling.py:2532-2537) -/
def medianByDay (signal : List (Int × Cell)) (d : Int) : Cell :=
  median (valids ((signal.filter fun p => dayOfYear p.1 = d).map Prod.snd))

/-- one sample of `_make_seasonal_samples` (rdtools/soiling.py:2539-2550) for a multiplier and a shift -/
def seasonalSample (signal : List (Int × Cell)) (multiplier : ℚ) (shift : Int) : List (Int × Cell) :=
  signal.map fun p => (p.1,
    cellOp (fun v m => multiplier * (v - m) + 1) (medianByDay signal ((dayOfYear p.1 - shift) % 365 + 1))
      (cellMean (signal.map Prod.snd)))

/-- `_make_seasonal_samples` (rdtools/soiling.py:2520-2551): sample `i * sample_nr + j` is made from component `i`;
`draw i j` are the random multiplier and shift -/
def seasonalSamples (scs : List (List (Int × Cell))) (sampleNr : Nat) (draw : Nat → Nat → ℚ × Int) :
    List (List (Int × Cell)) :=
  (scs.zipIdx).flatMap fun p => (List.range sampleNr).map fun j =>
    seasonalSample p.1 (draw p.2 j).1 (draw p.2 j).2

end Verif.Cods
