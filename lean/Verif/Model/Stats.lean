import Verif.Model.Basic

/-!
# Order statistics as computed by numpy / pandas

These are the library primitives `Series.quantile`, `np.percentile`, `Series.median`,
`Series.mean`, `Series.sum` with their default (`linear`, `skipna`) semantics.
-/

namespace Verif

/-- `values.sort()`; used at rdtools/availability.py:246-250, rdtools/bootstrap.py:74-118 -/
def sortQ (l : List ℚ) : List ℚ := l.insertionSort (· ≤ ·)

/-- Linear interpolation between neighbours of a sorted sample, as in
`np.quantile(..., method='linear')`: the virtual index is `q*(n-1)`.
Used at rdtools/availability.py:246-250, rdtools/bootstrap.py:74-118. -/
def quantileSorted (l : List ℚ) (q : ℚ) : ℚ :=
  let h : ℚ := q * ((l.length : ℚ) - 1)
  let k : Nat := ⌊h⌋.toNat
  let lo := l.getD k 0
  let hi := l.getD (min (k + 1) (l.length - 1)) 0
  lo + (h - k) * (hi - lo)

/-- `pandas.Series.quantile(q)` of a NaN-free sample, `q ∈ [0,1]`; NaN when empty.
(A level outside `[0,1]` is an error in pandas and numpy; see `quantileE`.);
used at rdtools/availability.py:246-250, rdtools/soiling.py:1857-1930 -/
def quantile (l : List ℚ) (q : ℚ) : Option ℚ :=
  match l with
  | [] => none
  | _ => some (quantileSorted (sortQ l) q)

/-- As `quantile`, with the range check that both pandas and numpy perform on the level.
Used at rdtools/availability.py:365-367, rdtools/soiling.py:856-934. -/
def quantileE (l : List ℚ) (q : ℚ) : Except PyErr (Option ℚ) :=
  if q < 0 ∨ 1 < q then .error .valueError else .ok (quantile l q)

/-- `np.percentile` on an array: NaN-free, empty arrays raise IndexError, levels outside
`[0,100]` raise ValueError. Used at rdtools/bootstrap.py:74-118, rdtools/degradation.py:428-451. -/
def percentileE (l : List ℚ) (p : ℚ) : Except PyErr ℚ :=
  if p < 0 ∨ 100 < p then .error .valueError
  else match l with
    | [] => .error .indexError
    | _ => .ok (quantileSorted (sortQ l) (p / 100))

/-- `Series.median()` : the 0.5 quantile (mean of the two middle values for even lengths).
Used at rdtools/availability.py:257, rdtools/clearsky_temperature.py:128-146. -/
def median (l : List ℚ) : Option ℚ := quantile l (1/2)

/-- `Series.mean()` of a NaN-free sample, NaN when empty.
Used at rdtools/availability.py:256, 262-265. -/
def mean (l : List ℚ) : Option ℚ :=
  match l with
  | [] => none
  | _ => some (l.sum / l.length)

end Verif
