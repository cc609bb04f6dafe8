import Verif.Model.Basic
import Mathlib.Algebra.Order.Floor.Ring
import Mathlib.Data.Rat.Floor

/-! # The progress bar of the CODS bootstrap (rdtools/soiling.py:2628-2638) -/

namespace Verif.Cods

/-- Python's `round`: to the nearest integer, ties to even; used at rdtools/soiling.py:2631 -/
def pyRound (x : ℚ) : Int :=
  if x - ⌊x⌋ < 1/2 then ⌊x⌋ else if 1/2 < x - ⌊x⌋ then ⌊x⌋ + 1 else if ⌊x⌋ % 2 = 0 then ⌊x⌋ else ⌊x⌋ + 1

/-- what `_progressBarWithETA` prints, before the numbers are formatted (rdtools/soiling.py:2635-2637) -/
structure Progress where
  bar : List Char
  percent : ℚ
  used : ℚ
  left : ℚ
  deriving DecidableEq

/-- `_progressBarWithETA` (rdtools/soiling.py:2628-2638). Repeating a string a negative number of times gives the empty string;
dividing by zero raises. Simplification: the printed text is represented by its parts. -/
def progressBar (value endvalue : Int) (time : ℚ) (barLength : Int := 20) : Except PyErr Progress :=
  if endvalue = 0 then .error .zeroDivisionError else
  let percent : ℚ := (value : ℚ) / endvalue * 100                                             -- 2630
  let arrow := List.replicate (pyRound (percent / 100 * barLength) - 1).toNat '-' ++ ['>']    -- 2631
  let spaces := List.replicate (barLength - arrow.length).toNat ' '                           -- 2632
  let used := time / 60                                                                       -- 2633
  if percent = 0 then .error .zeroDivisionError else
  .ok { bar := arrow ++ spaces, percent, used, left := used / percent * (100 - percent) }     -- 2634

end Verif.Cods
