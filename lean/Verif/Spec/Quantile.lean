import Mathlib.Algebra.Order.Field.Rat
import Mathlib.Data.List.Sort

/-! # Quantiles by linear interpolation -/

namespace Verif.Spec

/-- `v` is the `q`-quantile of the sample: arrange the values in increasing order and number them from 0;
the quantile is the value at the fractional position `q·(n-1)`, on the straight line between its two
neighbours. -/
def IsQuantile (l : List ℚ) (q v : ℚ) : Prop :=
  ∃ l' : List ℚ, l'.Perm l ∧ l'.Pairwise (· ≤ ·) ∧ ∃ k : Nat, ∃ θ : ℚ, k < l'.length ∧ 0 ≤ θ ∧ θ < 1 ∧
    q * ((l'.length : ℚ) - 1) = k + θ ∧ v = (1 - θ) * l'.getD k 0 + θ * l'.getD (k + 1) 0

end Verif.Spec
