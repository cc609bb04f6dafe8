import Verif.Model.ChainsDaily

/-! # rdtools/aggregation.py, for energy and insolation on different times -/

namespace Verif

/-- quotient of two cells of aligned series: NaN where either is absent; used at rdtools/aggregation.py:25-26 -/
def quotientCell : Cell → Cell → Flt
  | some a, some b => Flt.ofDiv a b
  | _, _ => .nan

/-- `insolation * energy_normalized` (rdtools/aggregation.py:25): pandas aligns the two series on the union of their
times, with NaN where either has no row. Simplification: no time occurs twice in a series. -/
def alignedProduct (energy insol : Series) : Series :=
  (sortedUnion (insol.map Prod.fst ++ energy.map Prod.fst)).map fun t =>
    (t, cellOp (· * ·) (lookupK insol t) (lookupK energy t))

/-- `aggregation_insol` (rdtools/aggregation.py:4-28) for two series that need not have the same times: numerator and
denominator are resampled on their own, each counting periods from midnight of its own first row, and their quotient is aligned
on the labels of either. -/
def aggregationInsolOn (energy insol : Series) (freq : Int) : List (Int × Flt) :=
  let num := Chains.resampleSum (alignedProduct energy insol) freq
  let den := Chains.resampleSum insol freq
  (sortedUnion (num.map Prod.fst ++ den.map Prod.fst)).map fun L =>
    (L, quotientCell (lookupK num L) (lookupK den L))

end Verif
