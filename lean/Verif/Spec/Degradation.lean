import Verif.Model.Calendar
import Verif.Spec.Filtering

/-! # Specifications for the degradation estimators -/

namespace Verif.Spec

/-- `u` is the sample time to be compared with `t`: its first anniversary is not after `t`, at most
8 days before `t`, and no sample has a later anniversary not after `t` (29 February wins over
28 February when both have the same anniversary). -/
structure LatestAnniversary (times : List Int) (t u : Int) : Prop where
  mem : u ∈ times
  notAfter : addYears 1 u ≤ t
  within : t ≤ addYears 1 u + 8 * dayNs
  latest : ∀ w ∈ times, addYears 1 w ≤ t →
    addYears 1 w < addYears 1 u ∨ (addYears 1 w = addYears 1 u ∧ w ≤ u)

/-- differences of neighbours -/
def steps (ts : List Int) : List ℚ := List.zipWith (fun a b : Int => (b : ℚ) - (a : ℚ)) ts ts.tail

/-- The sampling step: the inferred frequency if there is one, else the median step. -/
def IndexStep (inferred : Option Int) (ts : List Int) (st : ℚ) : Prop :=
  (∃ f, inferred = some f ∧ st = f) ∨ (inferred = none ∧ IsMedian (steps ts) st)

/-- The last sample is more than one step short of two calendar years after the first. -/
def TooShort (inferred : Option Int) (ts : List Int) : Prop :=
  ∃ a b st, a ∈ ts ∧ b ∈ ts ∧ (∀ x ∈ ts, a ≤ x ∧ x ≤ b) ∧ IndexStep inferred ts st ∧
    (b : ℚ) < (addYears 2 a : Int) - st

/-- Some sample and its comparison partner are both present. -/
def HasPair (s : Series) : Prop :=
  ∃ t u e f, (t, some e) ∈ s ∧ (u, some f) ∈ s ∧ LatestAnniversary (s.map Prod.fst) t u

/-- Sum of squared residuals of the line `b + m·x`. -/
def sqResiduals (pts : List (ℚ × ℚ)) (b m : ℚ) : ℚ := (pts.map fun p => (p.2 - (b + m * p.1)) ^ 2).sum

end Verif.Spec
