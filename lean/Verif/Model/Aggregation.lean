import Verif.Model.Flt

/-! # rdtools/aggregation.py -/

namespace Verif

/-- One row of the two aligned input series of `aggregation_insol`
(rdtools/aggregation.py:4-13: "insolation associated with each energy_normalized point").
Simplification: both series have the same DatetimeIndex (timestamps in ns, UTC). -/
structure InsolRow where
  t : Int
  insol : Cell
  energy : Cell
  deriving DecidableEq, Repr

/-- pandas `resample(frequency, origin='start_day')` (rdtools/aggregation.py:25-26): the bins
are anchored at midnight of the first day. -/
def startDay (t : Int) : Int := (t / dayNs) * dayNs

/-- Number of the bin `[origin + b*freq, origin + (b+1)*freq)` (closed and labelled left) that
contains `t`; `frequency` is a fixed-length pandas Tick of `freq` ns.
Used at rdtools/aggregation.py:25-26. -/
def binOf (origin freq t : Int) : Int := (t - origin) / freq

/-- `a, a+1, ..., a+n-1`; used at rdtools/aggregation.py:25-26 -/
def intRange (a : Int) : Nat → List Int
  | 0 => []
  | n + 1 => a :: intRange (a + 1) n

/-- `Series.sum()` skipping NaN; the sum of an empty bin is 0.
Used at rdtools/aggregation.py:25-26. -/
def skipnaSum (l : List Cell) : ℚ := (valids l).sum

/-- smallest / largest timestamp of a non-empty index; used at rdtools/aggregation.py:25-26 -/
def minT (t : Int) (l : List Int) : Int := l.foldl min t
/-- largest timestamp of a non-empty index; used at rdtools/aggregation.py:25-26 -/
def maxT (t : Int) (l : List Int) : Int := l.foldl max t

/-- `aggregation_insol` (rdtools/aggregation.py:4-28):
`(insolation * energy_normalized).resample(f).sum() / insolation.resample(f).sum()`.
Output: one (left label, value) pair for every bin from the first to the last sample. -/
def aggregationInsol (rows : List InsolRow) (freq : Int) : List (Int × Flt) :=
  match rows with
  | [] => []
  | r :: rest =>
    let first := minT r.t (rest.map (·.t))
    let last := maxT r.t (rest.map (·.t))
    let origin := startDay first
    let b0 := binOf origin freq first
    let n := (binOf origin freq last - b0 + 1).toNat
    (intRange b0 n).map fun b =>
      let members := (r :: rest).filter (fun x => decide (binOf origin freq x.t = b))
      let num := skipnaSum (members.map fun x => cellOp (· * ·) x.insol x.energy)
      let den := skipnaSum (members.map (·.insol))
      (origin + b * freq, Flt.ofDiv num den)

end Verif
