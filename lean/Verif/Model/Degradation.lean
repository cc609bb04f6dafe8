import Verif.Model.Frame
import Verif.Model.Flt
import Verif.Model.Utilities
import Verif.Model.Bootstrap
import Verif.Model.Calendar

/-! # rdtools/degradation.py -/

namespace Verif

/-! ## Year on year -/

/-- `sort_index()` (rdtools/degradation.py:232) -/
def sortIndex (s : Series) : Series := s.insertionSort fun a b => a.1 ≤ b.1

/-- The index step in ns (rdtools/degradation.py:242-245). `inferred` is the fixed-length frequency
pandas infers, if any (calendar frequencies, i.e. months and weeks tied to a weekday, are not modelled). -/
def yoyStep (inferred : Option Int) (index : List Int) : Cell :=
  match inferred with
  | some f => some (f : ℚ)
  | none => median (valids ((gaps index).map Prod.snd))

/-- The two-year test (rdtools/degradation.py:247) on a sorted index -/
def underTwoYears (inferred : Option Int) (index : List Int) : Bool :=
  match index with
  | [] => false
  | a :: l => cellCmp (fun x y => decide (x < y)) (some (((a :: l).getLastD a : Int) : ℚ))
      ((yoyStep inferred index).map fun st => ((addYears 2 a : Int) : ℚ) - st)

/-- The recentering factor (rdtools/degradation.py:262-267): robust median of the first 364 days -/
def yoyRenorm (recenter : Bool) (s : Series) : Cell :=
  if recenter then
    match s with
    | [] => none
    | (start, _) :: _ =>
      robustMedian ((s.filter fun r => decide (start ≤ r.1 ∧ r.1 ≤ start + 364 * dayNs)).map Prod.snd)
  else some 1

/-- Division by the recentering factor (rdtools/degradation.py:270). A zero factor (possible only
with non-positive data) gives infinities in Python; it is modelled as missing. -/
def renormalize (s : Series) (renorm : Cell) : Series :=
  s.map fun r => (r.1, cellOp (fun x y => x / y) r.2 (if renorm = some 0 then none else renorm))

/-- The row matched to time `t` by `merge_asof` (rdtools/degradation.py:272-281): the last row, in the
order of `dt + 1 year`, whose `dt + 1 year` is not after `t`, if it is at most 8 days before `t`.
Rows with equal `dt + 1 year` (28 and 29 February) are taken in their original order. -/
def asofYear (s : Series) (t : Int) : Option (Int × Cell) :=
  match ((s.insertionSort fun a b => addYears 1 a.1 ≤ addYears 1 b.1).filter
      fun r => decide (addYears 1 r.1 ≤ t)).getLast? with
  | some r => if t - addYears 1 r.1 ≤ 8 * dayNs then some r else none
  | none => none

/-- one row of the merged table: timestamp, timestamp a year ago, year-on-year value;
used at rdtools/degradation.py:272-285, 289-291 -/
structure YoYRow where
  dt : Int
  right : Option Int
  yoy : Cell
  deriving DecidableEq, Repr

/-- The merged table (rdtools/degradation.py:272-285) -/
def yoyTable (s : Series) : List YoYRow :=
  s.map fun r =>
    match asofYear s r.1 with
    | none => ⟨r.1, none, none⟩
    | some (u, e) => ⟨r.1, some u,
        cellOp (fun a b => 100 * (a - b) / (((r.1 : ℚ) - u) / (365 * dayNs))) r.2 e⟩

/-- `usage_of_points` (rdtools/degradation.py:289-291) on a duplicate-free index: used as the later
point, plus used as the earlier point by the first row that refers to it. -/
def usageOfPoints (tbl : List YoYRow) : List (Int × Nat) :=
  tbl.map fun r =>
    (r.dt, (if r.yoy.isSome then 1 else 0) +
      ((tbl.find? fun x => decide (x.right = some r.dt)).elim 0
        fun x => if x.yoy.isSome then 1 else 0))

/-- `uncertainty_method`; used at rdtools/degradation.py:180-356 -/
inductive Uncertainty where
  | simple | circularBlock
  | none                      -- None or any other value
  deriving DecidableEq, Repr

/-- the rate and the tables computed before the uncertainty; used at rdtools/degradation.py:231-296, 180-356 -/
structure YoYCore where
  sorted : Series             -- recentred data in time order
  renorm : Cell
  table : List YoYRow
  rates : List ℚ              -- non-missing year-on-year values
  rd : ℚ
  deriving Repr

/-- `degradation_year_on_year` up to and including line 296 (rdtools/degradation.py:231-296).
`inferFreq` is pandas' frequency inference on an index; `block` is the block length when
circular block bootstrapping is requested. -/
def yoyCore (inferFreq : List Int → Option Int) (recenter : Bool) (block : Option ℚ) (s : Series) :
    Except PyErr YoYCore :=
  let s := sortIndex s                                                  -- 232
  let index := s.map Prod.fst
  if index = [] then .error .indexError else                            -- 247
  if underTwoYears (inferFreq index) index then .error .valueError else -- 247-248
  if block.isSome ∧ inferFreq index = none then .error .valueError else -- 253-255
  if (s.length : ℚ) / 3 < block.getD 0 ∧ block.isSome then .error .valueError else   -- 257-259
  let renorm := yoyRenorm recenter s                                    -- 262-267
  let e := renormalize s renorm                                         -- 269-270
  let tbl := yoyTable e
  let rates := valids (tbl.map YoYRow.yoy)                              -- 287
  match median rates with
  | none => .error .valueError                                          -- 293-294
  | some rd => .ok ⟨e, renorm, tbl, rates, rd⟩                          -- 296

/-- what `degradation_year_on_year` returns; used at rdtools/degradation.py:180-356, rdtools/plotting.py:10-130 -/
structure YoYResult where
  rd : ℚ
  ci : Option (ℚ × ℚ)
  exceedance : Option ℚ
  values : List (Int × ℚ)
  renorm : Cell
  usage : List (Int × Nat)
  deriving Repr

/-- The trend used by the circular block bootstrap (rdtools/degradation.py:324-332) -/
def yoyTrend (rd : ℚ) (s : Series) : List Cell :=
  let n := s.length
  let days : Int := ((s.map Prod.fst).getLastD 0 - (s.map Prod.fst).headD 0) / dayNs
  (List.range n).map fun k : Nat => some (1 + rd / 100 / 365 * k * ((days : ℚ) / n))

/-- `degradation_year_on_year` (rdtools/degradation.py:180-356). The random choices are parameters:
`choose` draws the simple bootstrap samples from the year-on-year values, `draws` the block starts of
the circular block bootstrap. -/
def yoy (inferFreq : List Int → Option Int) (recenter : Bool) (exceed conf : ℚ)
    (method : Uncertainty) (block : Nat) (choose : List ℚ → List (List ℚ))
    (draws : List (List Nat)) (s : Series) : Except PyErr YoYResult :=
  (yoyCore inferFreq recenter (if method = .circularBlock then some (block : ℚ) else none) s).bind
    fun c =>
  let values := c.table.filterMap fun r => r.yoy.map fun v => (r.dt, v)
  let usage := usageOfPoints c.table
  match method with
  | .simple =>                                                          -- 298-318
    let mb := (choose c.rates).filterMap median
    (confidenceInterval mb exceed conf).bind fun ci =>
    .ok ⟨c.rd, some ci.1, some ci.2, values, c.renorm, usage⟩
  | .circularBlock =>                                                   -- 320-353
    (bootstrapSamples .multiplicative (c.sorted.map Prod.snd) (yoyTrend c.rd c.sorted) block
      draws).bind fun samples =>
    (samples.mapM fun v =>
      (yoyCore inferFreq false none ((c.sorted.map Prod.fst).zip v)).map YoYCore.rd).bind fun rates =>
    (confidenceInterval rates exceed conf).bind fun ci =>
    .ok ⟨c.rd, some ci.1, some ci.2, values, c.renorm, usage⟩
  | .none => .ok ⟨c.rd, none, none, values, c.renorm, usage⟩            -- 355-356

/-! ## Ordinary least squares -/

/-- years since the first timestamp (rdtools/degradation.py:40-43) -/
def olsRows (s : Series) : List (ℚ × ℚ) :=
  match s with
  | [] => []
  | (t0, _) :: _ => s.filterMap fun r => r.2.map fun y => ((((r.1 : ℚ) - t0) / dayNs) / 365, y)

/-- Least-squares line through points: (intercept, slope). Without two distinct abscissae
statsmodels returns the minimum-norm solution, which is not modelled (`none`).
Used at rdtools/degradation.py:11-79, 82-177. -/
def olsFit (pts : List (ℚ × ℚ)) : Option (ℚ × ℚ) :=
  let n : ℚ := pts.length
  let sx := (pts.map fun p => p.1).sum
  let sy := (pts.map fun p => p.2).sum
  let sxx := (pts.map fun p => p.1 * p.1).sum
  let sxy := (pts.map fun p => p.1 * p.2).sum
  let det := n * sxx - sx * sx
  if det = 0 then none else
  some ((sxx * sy - sx * sxy) / det, (n * sxy - sx * sy) / det)

/-- `degradation_ols` (rdtools/degradation.py:11-79): the rate in %/year with slope and intercept.
An empty series raises IndexError (line 41). The standard errors are modelled in
Model/DegradationStats.lean. -/
def degradationOls (s : Series) : Except PyErr (Option (Flt × ℚ × ℚ)) :=
  if s = [] then .error .indexError else
  .ok ((olsFit (olsRows s)).map fun bm =>
    (Flt.ofDiv (100 * bm.2) bm.1, bm.1, bm.2))                          -- 56-59

/-- `_degradation_CI` (rdtools/degradation.py:428-451): `samples` are the drawn (intercept, slope)
pairs, intercepts non-zero. -/
def degradationCI (samples : List (ℚ × ℚ)) (conf : ℚ) : Except PyErr (ℚ × ℚ) :=
  let dist := samples.map fun p => p.2 / p.1
  (percentileE dist (50 - conf / 2)).bind fun lo =>
  (percentileE dist (50 + conf / 2)).bind fun hi =>
  .ok (lo * 100, hi * 100)

/-! ## Classical decomposition -/

/-- `rolling('365d', center=True).mean()` restricted to rows with a full year around them
(rdtools/degradation.py:130-137); the window is `(t - 182.5 d, t + 182.5 d]`. -/
def centeredYearMean (s : Series) : List Cell :=
  match s with
  | [] => []
  | (t0, _) :: _ =>
    let tn := (s.map Prod.fst).getLastD t0
    s.map fun r =>
      if decide ((r.1 - t0 : ℚ) / dayNs / 365 ≥ 1 / 2) &&
          decide ((r.1 - t0 : ℚ) / dayNs / 365 ≤ (tn - t0 : ℚ) / dayNs / 365 - 1 / 2) then
        mean (valids ((s.filter fun u =>
          decide ((r.1 : ℚ) - 365 * dayNs / 2 < u.1 ∧ (u.1 : ℚ) ≤ r.1 + 365 * dayNs / 2)).map
            Prod.snd))
      else none

/-- `degradation_classical_decomposition` (rdtools/degradation.py:82-177): rate, intercept, slope and
the moving average. `freqDefined`: the index carries a frequency. Dropping a row clears it. -/
def degradationClassical (freqDefined : Bool) (s : Series) :
    Except PyErr (Option (Flt × ℚ × ℚ) × List Cell) :=
  if (s.any fun r => r.2.isNone) || !freqDefined then .error .valueError else   -- 119-123
  if s = [] then .error .indexError else                                -- 126
  let ma := centeredYearMean s                                          -- 132-137
  let fit := olsFit (olsRows ((s.map Prod.fst).zip ma))                 -- 143-149
  .ok (fit.map fun bm => (Flt.ofDiv (100 * bm.2) bm.1, bm.1, bm.2), ma)

/-! ## Mann-Kendall test -/

/-- `np.sign`; used at rdtools/degradation.py:389 -/
def signQ (x : ℚ) : Int := if 0 < x then 1 else if x < 0 then -1 else 0

/-- `np.sum(np.triu(np.sign(-np.subtract.outer(x, x)), 1))` (rdtools/degradation.py:389): the sum over
`i < j` of `sign(x[j] - x[i])` -/
def mkS : List ℚ → Int
  | [] => 0
  | x :: l => (l.map fun y => signQ (y - x)).sum + mkS l

/-- `np.unique(x)` (rdtools/degradation.py:392) up to order -/
def uniqueQ (l : List ℚ) : List ℚ := l.dedup

/-- The variance (rdtools/degradation.py:396-405); the tie term is added. -/
def mkVar (x : List ℚ) : ℚ :=
  let n : ℚ := x.length
  if x.length = (uniqueQ x).length then n * (n - 1) * (2 * n + 5) / 18
  else
    let tp := (uniqueQ x).map fun u => ((x.count u : Nat) : ℚ)
    (n * (n - 1) * (2 * n + 5) + (tp.map fun t => t * (t - 1) * (2 * t + 5)).sum) / 18

/-- the reported trend; used at rdtools/degradation.py:359-425 -/
inductive Trend where
  | increasing | decreasing | noTrend
  deriving DecidableEq, Repr

/-- `_mk_test` (rdtools/degradation.py:359-425) with `crit = norm.ppf(1 - alpha/2) ≥ 0`. The square
root is avoided: `|z| > crit` is `(|s|-1)² > crit²·var` for `s ≠ 0`; the p-value is not modelled. -/
def mkTrend (crit : ℚ) (x : List ℚ) : Trend :=
  let s := mkS x
  let h := decide (s ≠ 0) && decide (crit ^ 2 * mkVar x < ((|s| : Int) - 1 : ℚ) ^ 2)
  -- the sign of z is the sign of s unless |s| = 1, where z = 0
  if decide (s < -1) && h then .decreasing
  else if decide (s > 1) && h then .increasing
  else .noTrend

end Verif
