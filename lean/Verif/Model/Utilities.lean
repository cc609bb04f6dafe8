import Verif.Model.Stats

/-! # rdtools/utilities.py -/

namespace Verif

/-- `x.astype(float).fillna(0).quantile(q) / 1000`
(rdtools/utilities.py:24, 50, 76); NaN on an empty series. -/
def robustSmall (x : List Cell) (q : ℚ) : Option ℚ :=
  (quantile (x.map (fun c => c.getD 0)) q).map (· / 1000)

/-- `x[x > small]` as numbers (rdtools/utilities.py:25, 51, 77): comparisons with NaN are
False, so NaN never survives and nothing survives a NaN threshold. -/
def robustKeep (x : List Cell) (q : ℚ) : List ℚ :=
  valids (x.filter (fun c => cellCmp (fun a b => decide (a > b)) c (robustSmall x q)))

/-- `robust_quantile` (rdtools/utilities.py:4-27) -/
def robustQuantile (x : List Cell) (q : ℚ) : Option ℚ := quantile (robustKeep x q) q

/-- `robust_median` (rdtools/utilities.py:30-53) -/
def robustMedian (x : List Cell) (q : ℚ := 99/100) : Option ℚ := median (robustKeep x q)

/-- `robust_mean` (rdtools/utilities.py:56-79) -/
def robustMean (x : List Cell) (q : ℚ := 99/100) : Option ℚ := mean (robustKeep x q)

end Verif
