import Verif.Model.Basic
import Mathlib.Data.Int.Init
import Mathlib.Tactic.Linarith

/-! # The proleptic Gregorian calendar on integer day numbers

Used for `pd.DateOffset(years=k)` and for month and year arithmetic. Day 0 is 1970-01-01. Time zones
are not modelled: timestamps are naive nanoseconds. -/

namespace Verif

/-- A calendar date. Used at rdtools/degradation.py:247. -/
structure Date where
  year : Int
  month : Int
  day : Int
  deriving DecidableEq, Repr

/-- The date of a day number (era/day-of-era algorithm; March-based years internally).
Used at rdtools/degradation.py:247, rdtools/soiling.py:2574-2581. -/
def civil (n : Int) : Date :=
  let z := n + 719468
  let era := z / 146097
  let doe := z % 146097
  let yoe := (doe - doe / 1460 + doe / 36524 - doe / 146096) / 365
  let doy := doe - (365 * yoe + yoe / 4 - yoe / 100)
  let mp := (5 * doy + 2) / 153
  let d := doy - (153 * mp + 2) / 5 + 1
  let m := if mp < 10 then mp + 3 else mp - 9
  ⟨yoe + era * 400 + (if m ≤ 2 then 1 else 0), m, d⟩

/-- The day number of a date. Used at rdtools/degradation.py:247, rdtools/soiling.py:2574-2581. -/
def dayNumber (x : Date) : Int :=
  let y := if x.month ≤ 2 then x.year - 1 else x.year
  let era := y / 400
  let yoe := y % 400
  let mp := if x.month > 2 then x.month - 3 else x.month + 9
  let doy := (153 * mp + 2) / 5 + x.day - 1
  let doe := yoe * 365 + yoe / 4 - yoe / 100 + doy
  era * 146097 + doe - 719468

/-- leap years; used at rdtools/degradation.py:247 -/
def isLeap (y : Int) : Bool := decide (y % 4 = 0 ∧ (y % 100 ≠ 0 ∨ y % 400 = 0))

/-- `+ pd.DateOffset(years=k)` on a date: the same month and day `k` years later, 29 February
becoming 28 February in a common year. Used at rdtools/degradation.py:247. -/
def addYearsDate (k : Int) (x : Date) : Date :=
  ⟨x.year + k, x.month,
    if x.month = 2 ∧ x.day = 29 ∧ isLeap (x.year + k) = false then 28 else x.day⟩

/-- `+ pd.DateOffset(years=k)` on a timestamp in ns: the time of day is kept.
Used at rdtools/degradation.py:247, 272-281. -/
def addYears (k : Int) (t : Int) : Int :=
  dayNumber (addYearsDate k (civil (t / dayNs))) * dayNs + t % dayNs

/-- number of the month of a day: months since January of year 0; used at rdtools/aggregation.py:25-26,
rdtools/normalization.py:481-483 -/
def monthNo (n : Int) : Int := 12 * (civil n).year + (civil n).month - 1

end Verif
