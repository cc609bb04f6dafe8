import Mathlib.Data.Rat.Floor
import Mathlib.Data.List.Sort
import Mathlib.Algebra.Order.Field.Basic
import Mathlib.Algebra.Order.Field.Rat
import Mathlib.Algebra.BigOperators.Group.List.Basic

/-!
# Shared vocabulary of the model

Python exceptions are values (`PyErr`), floats are exact rationals, NaN is `none`.
-/

namespace Verif

/-- The Python exception classes raised by the modelled code; the message of the original
exception is dropped except where a property speaks about it.
Used at rdtools/normalization.py:10, rdtools/soiling.py:35. -/
inductive PyErr where
  | valueError
  | typeError
  | keyError
  | indexError
  | runtimeError
  | convergenceError      -- rdtools/normalization.py:10 `ConvergenceError`
  | noValidIntervalError  -- rdtools/soiling.py:35 `NoValidIntervalError`
  | exception             -- bare `Exception`
  | attributeError
  | zeroDivisionError
  | overflowError
  deriving DecidableEq, Repr

/-- nanoseconds per day; used at rdtools/aggregation.py:25-26, rdtools/analysis_chains.py:741-756 -/
def dayNs : Int := 86400000000000

/-- A float cell of a pandas object; `none` is NaN. Infinities are not representable here
(see `Flt` where they matter). Used at rdtools/aggregation.py:4-13, rdtools/availability.py:242. -/
abbrev Cell := Option ℚ

/-- A pandas Series with an integer-nanosecond DatetimeIndex, in row order.
Used at rdtools/analysis_chains.py:549-554, 502-642. -/
abbrev Series := List (Int × Cell)

/-- The index of a series. Used at rdtools/availability.py:201-294, 502-516. -/
abbrev Series.index (s : Series) : List Int := s.map Prod.fst

/-- The values of a series. Used at rdtools/filtering.py:624-635, 527-702. -/
abbrev Series.values (s : Series) : List Cell := s.map Prod.snd

/-- Non-missing values in order (`dropna().values`). Used at rdtools/availability.py:256, 257. -/
def valids (l : List Cell) : List ℚ := l.filterMap id

/-- pandas arithmetic on one cell: NaN if either side is NaN.
Used at rdtools/aggregation.py:4-28, rdtools/availability.py:267, 279-280. -/
def cellOp (f : ℚ → ℚ → ℚ) : Cell → Cell → Cell
  | some a, some b => some (f a b)
  | _, _ => none

/-- pandas comparison of one cell: comparisons with NaN are False.
Used at rdtools/availability.py:252, 270-277. -/
def cellCmp (r : ℚ → ℚ → Bool) : Cell → Cell → Bool
  | some a, some b => r a b
  | _, _ => false

/-- pandas `bfill` on values: a NaN takes the next non-NaN value, trailing NaNs stay.
Used at rdtools/availability.py:415-420, rdtools/soiling.py:2494-2497. -/
def bfill {α : Type} : List (Option α) → List (Option α)
  | [] => []
  | some a :: l => some a :: bfill l
  | none :: l => (bfill l).head?.join :: bfill l

/-- pandas `ffill` on values with the last value seen so far as state.
Used at rdtools/availability.py:415-420. -/
def ffillFrom {α : Type} : Option α → List (Option α) → List (Option α)
  | _, [] => []
  | _, some a :: l => some a :: ffillFrom (some a) l
  | p, none :: l => p :: ffillFrom p l

/-- pandas `ffill`: leading NaNs stay.
Used at rdtools/availability.py:415-420, rdtools/soiling.py:2494-2497. -/
def ffill {α : Type} (l : List (Option α)) : List (Option α) := ffillFrom none l

/-- pandas `Series.clip(lower, upper)` on a number: pandas first raises to `lower`,
then lowers to `upper`. Used at rdtools/availability.py:283-287, rdtools/soiling.py:308-314. -/
def clipQ (lo hi x : ℚ) : ℚ := min hi (max lo x)

end Verif
