import Verif.Model.Aggregation

/-! Independent vocabulary for the aggregation properties. -/

namespace Verif.Spec

/-- The samples whose timestamp lies in the period `[L, L+freq)`. -/
def inPeriod (rows : List InsolRow) (L freq : Int) : List InsolRow :=
  rows.filter (fun r => decide (L ≤ r.t ∧ r.t < L + freq))

/-- (weight, value) pairs of the complete samples -/
def pairs (rows : List InsolRow) : List (ℚ × ℚ) :=
  rows.filterMap fun r => match r.insol, r.energy with
    | some w, some e => some (w, e)
    | _, _ => none

def totalWeight (p : List (ℚ × ℚ)) : ℚ := (p.map Prod.fst).sum
def weightedSum (p : List (ℚ × ℚ)) : ℚ := (p.map fun x => x.1 * x.2).sum

end Verif.Spec
