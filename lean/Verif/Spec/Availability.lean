import Verif.Model.Availability

/-! Specification vocabulary of the availability analysis, in terms of inputs and reported rows. -/

namespace Verif.Spec
open Verif.Avail

/-- row `k` has positive expected power -/
def Daylight (expected : List Cell) (k : Nat) : Prop := ∃ x : ℚ, expected[k]? = some (some x) ∧ 0 < x

/-- no subsystem reports in row `k` -/
def AllOff (mask : List (List Bool)) (k : Nat) : Prop := ∃ row, mask[k]? = some row ∧ ∀ b ∈ row, b = false

/-- row `k` belongs to a system outage: the last daylight row up to it, or the first daylight row from it
on, has all subsystems off -/
def InOutage (expected : List Cell) (mask : List (List Bool)) (k : Nat) : Prop :=
  (∃ j ≤ k, Daylight expected j ∧ AllOff mask j ∧ ∀ m, j < m → m ≤ k → ¬ Daylight expected m) ∨
  ∃ j, k ≤ j ∧ Daylight expected j ∧ AllOff mask j ∧ ∀ m, k ≤ m → m < j → ¬ Daylight expected m

/-- rows `s … e` are a maximal run of rows satisfying `P` among rows `0 … n-1` -/
def MaxRun (P : Nat → Prop) (n s e : Nat) : Prop :=
  s ≤ e ∧ e < n ∧ (∀ k, s ≤ k → k ≤ e → P k) ∧ (∀ j, s = j + 1 → ¬ P j) ∧ (e + 1 < n → ¬ P (e + 1))

end Verif.Spec
