import Verif.Model.Basic
import Verif.Model.Flt
import Verif.Model.Stats
import Mathlib.Order.WithBot

/-! # Specifications for the filters, independent of the filter code -/

namespace Verif.Spec

/-- A float that is a number, as an element of the rationals with both infinities. -/
def number : Flt → Option (WithBot (WithTop ℚ))
  | .nan => none
  | .ninf => some ⊥
  | .fin q => some ((q : WithTop ℚ) : WithBot (WithTop ℚ))
  | .pinf => some ((⊤ : WithTop ℚ) : WithBot (WithTop ℚ))

/-- `x` and `y` are both numbers and `x < y`. -/
def Below (x y : Flt) : Prop := ∃ a b, number x = some a ∧ number y = some b ∧ a < b

/-- `x` and `y` are both numbers and `x ≤ y`. -/
def AtMost (x y : Flt) : Prop := ∃ a b, number x = some a ∧ number y = some b ∧ a ≤ b

/-- The values present at times between `a` and `b`, both included. -/
def present (s : Series) (a b : Int) : List ℚ :=
  s.filterMap fun r => if a ≤ r.1 ∧ r.1 ≤ b then r.2 else none

/-- The middle of a sample: as many values on one side as on the other (mean of two middle values
for an even number), given through any sorted arrangement. -/
def IsMedian (l : List ℚ) (m : ℚ) : Prop :=
  ∃ l' : List ℚ, l'.Perm l ∧ l'.Pairwise (· ≤ ·) ∧ l' ≠ [] ∧
    m = (l'.getD ((l'.length - 1) / 2) 0 + l'.getD (l'.length / 2) 0) / 2

/-- At least five present points in the window, and `x` is at least `d` away from their median. -/
def FarFromMedian (window : List ℚ) (x d : ℚ) : Prop :=
  5 ≤ window.length ∧ ∃ m, IsMedian window m ∧ d ≤ |x - m|

end Verif.Spec
