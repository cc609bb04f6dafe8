import Verif.Model.Availability
import Verif.Spec.Normalization
import Mathlib.Algebra.BigOperators.Group.Finset.Basic
import Mathlib.Algebra.Order.BigOperators.Group.Finset

/-! # A plant and the records it leaves

Specification used by property C121; it does not mention the computation of the analysis. -/

namespace Verif.Spec
open Avail

/-- A plant of `m` inverters. `weather k` is the share of its rated power an inverter can deliver in row
`k` (zero at night); `produces k j` and `reports k j` tell whether inverter `j` is in operation and
whether its record arrives. -/
structure Plant where
  m : Nat
  rated : Nat → ℚ
  weather : Nat → ℚ
  produces : Nat → Nat → Bool
  reports : Nat → Nat → Bool

namespace Plant
/-- power of inverter `j` in row `k` -/
def power (p : Plant) (k j : Nat) : ℚ := if p.produces k j then p.rated j * p.weather k else 0
/-- power of the plant in row `k` -/
def delivered (p : Plant) (k : Nat) : ℚ := ∑ j ∈ Finset.range p.m, p.power k j
/-- power of the plant in row `k` if every inverter were in operation -/
def full (p : Plant) (k : Nat) : ℚ := ∑ j ∈ Finset.range p.m, p.rated j * p.weather k
/-- by daylight, the production of inverter `j` is recorded in row `k` -/
def seen (p : Plant) (k j : Nat) : Bool := decide (0 < p.weather k) && p.produces k j && p.reports k j
/-- by daylight, the production of every inverter is recorded -/
def allSeen (p : Plant) (k : Nat) : Bool := (List.range p.m).all (p.seen k)
/-- by daylight, the production of some inverter is recorded -/
def Lit (p : Plant) (k : Nat) : Prop := ∃ j < p.m, p.seen k j = true
/-- by daylight, every inverter is in operation and the production of some is recorded -/
def sound (p : Plant) (k : Nat) : Bool := (List.range p.m).any (p.seen k) && (List.range p.m).all (p.produces k)
/-- power the plant lacks in row `k` -/
def lost (p : Plant) (k : Nat) : ℚ := p.full k - p.delivered k
/-- row `k` is by daylight and nothing is recorded of the inverters -/
def Dark (p : Plant) (k : Nat) : Prop := 0 < p.weather k ∧ ¬ p.Lit k
/-- energy lost in rows `s … e` -/
def lostEnergy (p : Plant) (f : Int) (s e : Nat) : ℚ := ∑ k ∈ Finset.range (e - s + 1), p.lost (s + k) * f / nsPerHour
/-- energy lost in the rows after the first that belong to period `q` -/
def lostIn (p : Plant) (t0 f : Int) (bin : Int → Int) (n : Nat) (q : Int) : ℚ :=
  ∑ k ∈ Finset.range n, if 0 < k ∧ bin (t0 + (k : Int) * f) = q then p.lost k * f / nsPerHour else 0
/-- reading of the energy counter that starts at `e0`; rows are `f` ns apart -/
def counter (p : Plant) (e0 : ℚ) (f : Int) (k : Nat) : ℚ :=
  e0 + ∑ r ∈ Finset.range k, p.delivered (r + 1) * f / nsPerHour

/-- the records of the plant over `n` rows: rows `f` ns apart, the expected power proportional to the weather
with an unknown factor `c`, an exact energy counter; the power meter is right while anything is recorded
of the inverters by daylight, otherwise it reads nothing or nothing positive -/
structure Recorded (p : Plant) (n : Nat) (t0 f : Int) (c e0 : ℚ) (i : Input) : Prop where
  index : i.index = (List.range n).map fun k : Nat => t0 + (k : Int) * f
  ncols : i.ncols = p.m
  subs : i.subs = (List.range n).map fun k : Nat => (List.range p.m).map fun j : Nat =>
    if p.reports k j then some (p.power k j) else none
  expected : i.expected = (List.range n).map fun k : Nat => some (c * p.weather k)
  cum : i.cum = (List.range n).map fun k : Nat => some (p.counter e0 f k)
  systemLength : i.system.length = n
  meter : ∀ k < n, p.Lit k → i.system[k]? = some (some (p.delivered k))
  noMeter : ∀ k < n, ¬ p.Lit k → ∀ x : ℚ, i.system[k]? = some (some x) → x ≤ 0

/-- the plant can be observed: by daylight the weather varies by less than a factor of 1000, and for each
inverter, in more than half of the rows in which its production is recorded, that of all the others
is recorded too -/
structure Observable (p : Plant) (n : Nat) : Prop where
  pos : 0 < p.m
  rated : ∀ j < p.m, 0 < p.rated j
  weather : ∀ k < n, 0 ≤ p.weather k
  range : ∀ k < n, ∀ k' < n, 0 < p.weather k → p.weather k' < 1000 * p.weather k
  majority : ∀ j < p.m, ((List.range n).filter fun k => p.seen k j).length <
    2 * ((List.range n).filter fun k => p.allSeen k).length

/-- there is enough sound operation to compare the expectation with: four rows, and three in succession -/
structure Comparable (p : Plant) (n : Nat) : Prop where
  four : 4 ≤ ((List.range n).filter fun k => p.sound k).length
  three : ∃ k, k + 2 < n ∧ p.sound k = true ∧ p.sound (k + 1) = true ∧ p.sound (k + 2) = true
end Plant

end Verif.Spec
