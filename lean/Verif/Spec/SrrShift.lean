import Verif.Spec.Soiling
import Verif.Spec.Filtering
import Verif.Spec.Quantile

/-! # Specification of the detection of cleaning events -/

namespace Verif.Spec

/-- the latest value up to day `i`, at most `lim` days old -/
def FilledAt (lim : Nat) (x : List Cell) (i : Nat) (v : ℚ) : Prop :=
  i < x.length ∧ ∃ j, j ≤ i ∧ i ≤ j + lim ∧ cellAt x j = some v ∧ ∀ k, j < k → k ≤ i → cellAt x k = none

/-- the median of the (filled) values of the `w` days around day `i`: `w / 2` days before it and
`(w - 1) / 2` after it, all of which must be analysed and have a (filled) value -/
def MedianAround (w : Nat) (x : List Cell) (i : Nat) (m : ℚ) : Prop :=
  w / 2 ≤ i ∧ i + (w - 1) / 2 < x.length ∧
    ∃ win : List ℚ, win.length = w ∧ (∀ k (h : k < win.length), FilledAt w x (i - w / 2 + k) win[k]) ∧
      IsMedian win m

/-- the step of the rolling median from the day before to day `i` -/
def ShiftAt (w : Nat) (x : List Cell) (i : Nat) (d : ℚ) : Prop :=
  0 < i ∧ ∃ a b, MedianAround w x i a ∧ MedianAround w x (i - 1) b ∧ d = a - b

/-- the sizes of all steps, in any order -/
def StepSizes (w : Nat) (x : List Cell) (l : List ℚ) : Prop :=
  ∃ ds : List (Nat × ℚ), (ds.map Prod.fst).Nodup ∧ (∀ i d, (i, d) ∈ ds ↔ ShiftAt w x i d) ∧
    l = ds.map fun y => |y.2|

/-- the threshold: the one given, or the upper Tukey fence of the sizes of the steps -/
def CleanThreshold (o : DailyOpts) (x : List Cell) (θ : ℚ) : Prop :=
  match o.cleanThreshold with
  | some c => θ = c
  | none => ∃ l q1 q3, StepSizes o.dayScale x l ∧ IsQuantile l (1 / 4) q1 ∧ IsQuantile l (3 / 4) q3 ∧
      θ = q3 + o.outlierFactor * (q3 - q1)

/-- the rolling median steps up by more than the threshold -/
def ShiftDetected (o : DailyOpts) (x : List Cell) (i : Nat) : Prop :=
  ∃ d θ, ShiftAt o.dayScale x i d ∧ CleanThreshold o x θ ∧ θ < d

/-- a cleaning event by the chosen criterion, given where the median shifts and where it rains -/
def CleanDay (c : CleanCriterion) (shift wet : Nat → Prop) (i : Nat) : Prop :=
  match c with
  | .shift => shift i
  | .precip => wet i
  | .precipOrShift => shift i ∨ wet i
  | .precipAndShift => shift i ∧ (wet i ∨ (0 < i ∧ wet (i - 1)) ∨ wet (i + 1))
  | .other => False

end Verif.Spec
