import Verif.Model.Basic

/-!
# Floats with infinities

`Flt` is used where division by zero or infinite bounds are observable. Signed zeros are
identified and no rounding is performed.
-/

namespace Verif

/-- a float without rounding and without signed zeros; used at rdtools/aggregation.py:4-28, rdtools/availability.py:562-563 -/
inductive Flt where
  | nan
  | ninf
  | fin (q : ℚ)
  | pinf
  deriving DecidableEq, Repr

namespace Flt

/-- IEEE division of two finite numbers (signed zero identified with `+0`).
Used at rdtools/aggregation.py:4-28, rdtools/availability.py:562-563. -/
def ofDiv (a b : ℚ) : Flt :=
  if b = 0 then
    if a = 0 then nan else if 0 < a then pinf else ninf
  else fin (a / b)

/-- `x < y`; every comparison with NaN is False. Used at rdtools/filtering.py:678-695, 514-521. -/
def lt : Flt → Flt → Bool
  | nan, _ => false
  | _, nan => false
  | fin a, fin b => decide (a < b)
  | ninf, ninf => false
  | ninf, _ => true
  | _, ninf => false
  | pinf, _ => false
  | fin _, pinf => true

/-- `x <= y`; every comparison with NaN is False. Used at rdtools/filtering.py:678-695, 143-164. -/
def le : Flt → Flt → Bool
  | nan, _ => false
  | _, nan => false
  | fin a, fin b => decide (a ≤ b)
  | ninf, _ => true
  | _, ninf => false
  | _, pinf => true
  | pinf, fin _ => false

/-- IEEE subtraction. Used at rdtools/normalization.py:277, rdtools/availability.py:562-563. -/
def sub : Flt → Flt → Flt
  | nan, _ => nan
  | _, nan => nan
  | fin a, fin b => fin (a - b)
  | pinf, pinf => nan
  | ninf, ninf => nan
  | pinf, _ => pinf
  | ninf, _ => ninf
  | fin _, pinf => ninf
  | fin _, ninf => pinf

/-- IEEE absolute value. Used at rdtools/normalization.py:277, rdtools/filtering.py:517-519. -/
def abs : Flt → Flt
  | nan => nan
  | fin a => fin |a|
  | _ => pinf

/-- IEEE division (signed zero identified with `+0`). Used at rdtools/filtering.py:143-164. -/
def div : Flt → Flt → Flt
  | nan, _ => nan
  | _, nan => nan
  | fin a, fin b => ofDiv a b
  | fin _, _ => fin 0
  | pinf, fin b => if b < 0 then ninf else pinf
  | ninf, fin b => if b < 0 then pinf else ninf
  | _, _ => nan

/-- embed a cell: NaN stays NaN; used at rdtools/normalization.py:54-71 -/
def ofCell : Cell → Flt
  | none => nan
  | some q => fin q

end Flt

end Verif
