import Verif.Model.AggregationAlign
import Verif.Model.Calendar

/-! # rdtools/aggregation.py, for calendar periods -/

namespace Verif

/-- pandas frequencies of calendar periods accepted as `frequency` (rdtools/aggregation.py:14-17): month starts ('MS'), month
ends ('M' or 'ME'), year starts ('AS' or 'YS'), year ends ('A' or 'YE'), weeks ending on Sunday ('W') -/
inductive CalFreq where
  | monthStart | monthEnd | yearStart | yearEnd | week
  deriving DecidableEq, Repr

/-- number of the period of a timestamp (ns): month, year or week (from Monday to Sunday; day 0 is a Thursday). pandas closes
the periods of 'ME', 'YE' and 'W' on the right and moves their edges to the end of the day, so that they hold whole days too.
Used at rdtools/aggregation.py:25-26. -/
def periodNo (c : CalFreq) (t : Int) : Int :=
  match c with
  | .monthStart | .monthEnd => monthNo (t / dayNs)
  | .yearStart | .yearEnd => (civil (t / dayNs)).year
  | .week => (t / dayNs + 3) / 7

/-- first day of a period; used at rdtools/aggregation.py:25-26 -/
def periodFirstDay (c : CalFreq) (k : Int) : Int :=
  match c with
  | .monthStart | .monthEnd => dayNumber ⟨k / 12, k % 12 + 1, 1⟩
  | .yearStart | .yearEnd => dayNumber ⟨k, 1, 1⟩
  | .week => 7 * k - 3

/-- label of a period: midnight of its first day ('MS', 'YS') or of its last day ('ME', 'YE', 'W');
used at rdtools/aggregation.py:25-26 -/
def periodLabel (c : CalFreq) (k : Int) : Int :=
  match c with
  | .monthStart | .yearStart => periodFirstDay c k * dayNs
  | .monthEnd | .yearEnd | .week => (periodFirstDay c (k + 1) - 1) * dayNs

/-- `resample(frequency, origin='start_day').sum()` (rdtools/aggregation.py:25-26) for a calendar frequency, for which pandas
ignores the origin: one row for every period from the first to the last sample -/
def resampleSumCal (x : Series) (c : CalFreq) : Series :=
  match x with
  | [] => []
  | r :: rest =>
    let b0 := periodNo c (minT r.1 (rest.map Prod.fst))
    let n := (periodNo c (maxT r.1 (rest.map Prod.fst)) - b0 + 1).toNat
    (intRange b0 n).map fun b =>
      (periodLabel c b, some (skipnaSum (((r :: rest).filter fun x => decide (periodNo c x.1 = b)).map Prod.snd)))

/-- `aggregation_insol` (rdtools/aggregation.py:4-28) for a calendar frequency -/
def aggregationInsolCal (energy insol : Series) (c : CalFreq) : List (Int × Flt) :=
  let num := resampleSumCal (alignedProduct energy insol) c
  let den := resampleSumCal insol c
  (sortedUnion (num.map Prod.fst ++ den.map Prod.fst)).map fun L =>
    (L, quotientCell (lookupK num L) (lookupK den L))

end Verif
