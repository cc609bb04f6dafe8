import Verif.Model.Soiling

/-! # Specification vocabulary for the soiling analyses -/

namespace Verif.Spec

/-- The value at position `i` is present and more than `lim` missing days follow it directly (and it
is not the last day). -/
def OutageAfter (lim : Nat) (x : List Cell) (i : Nat) : Prop :=
  i + 1 < x.length ∧ (∃ v, cellAt x i = some v) ∧ ∀ k, i < k → k ≤ i + 1 + lim → cellAt x k = none

/-- The value at position `i` is present and more than `lim` missing days directly precede it. -/
def OutageBefore (lim : Nat) (x : List Cell) (i : Nat) : Prop :=
  0 < i ∧ i < x.length ∧ (∃ v, cellAt x i = some v) ∧ ∀ k, k < i → i ≤ k + 1 + lim → cellAt x k = none

/-- Rain on the day or a neighbouring day. -/
def RainNear (rain : List Bool) (i : Nat) : Prop :=
  ∃ k, rain[k]? = some true ∧ (k = i ∨ k + 1 = i ∨ k = i + 1)

/-- A cleaning event by the documented meaning of each criterion. -/
def CleanedBy (c : CleanCriterion) (shift rain : List Bool) (i : Nat) : Prop :=
  match c with
  | .shift => shift[i]? = some true
  | .precip => rain[i]? = some true
  | .precipOrShift => shift[i]? = some true ∨ rain[i]? = some true
  | .precipAndShift => shift[i]? = some true ∧ RainNear rain i
  | .other => False

end Verif.Spec

namespace Verif.Spec

/-- the days of interval `r` with positive normalized performance -/
def positiveDays (rows : List SrrRow) (r : Nat) : List SrrRow :=
  rows.filter fun d => decide (d.run = r) && decide (0 < d.piNorm)

/-- The documented validity conditions of a soiling interval: longer than the minimum length
(counting days with positive performance), not improving, slope confidence interval narrow relative
to the slope, no large negative step. -/
def ValidInterval (fit : TheilFit) (o : ResultOpts) (rows : List SrrRow) (r : Nat) : Prop :=
  o.minIntervalLength < (positiveDays rows r).length ∧ fit.slope ≤ 0 ∧
  (fit.slope < 0 → 100 * (min 0 fit.high - fit.low) < o.maxRelSlopeError * (-fit.slope)) ∧
  (fit.slope = 0 → min 0 fit.high ≤ fit.low) ∧
  ∀ d ∈ positiveDays rows r, -o.maxNegativeStep < d.delta

/-- The intervals looked at: all, or all but the first and the last when trimming. -/
def Considered (trim : Bool) (rows : List SrrRow) (r : Nat) : Prop :=
  (∃ d ∈ rows, d.run = r) ∧
    (trim = true → (∃ d ∈ rows, d.run < r) ∧ ∃ d ∈ rows, r < d.run)

end Verif.Spec
