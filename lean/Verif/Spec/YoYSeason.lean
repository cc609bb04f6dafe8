import Verif.Spec.Degradation

/-! # Specifications for year-on-year analysis of seasonal data -/

namespace Verif.Spec

/-- the same time of the same day of the year, 29 February counting as 28 February -/
def SameDayOfYear (t u : Int) : Prop :=
  t % dayNs = u % dayNs ∧ (civil (t / dayNs)).month = (civil (u / dayNs)).month ∧
    ((civil (t / dayNs)).day = (civil (u / dayNs)).day ∨
      ((civil (t / dayNs)).month = 2 ∧ 28 ≤ (civil (t / dayNs)).day ∧ 28 ≤ (civil (u / dayNs)).day))

/-- a quantity that repeats every year -/
def RepeatsYearly (g : Int → ℚ) : Prop := ∀ t u, SameDayOfYear t u → g t = g u

/-- one sample per day, none left out -/
def CompleteDaily (times : List Int) : Prop :=
  ∃ (t0 : Int) (n : Nat), ∀ t, t ∈ times ↔ ∃ k : Nat, k < n ∧ t = t0 + (k : Int) * dayNs

/-- years of 365 days after `t0` -/
def yearsAfter (t0 t : Int) : ℚ := ((t : ℚ) - t0) / (365 * dayNs)

/-- the data plus a function of time; missing values stay missing -/
def plus (s : List (Int × Option ℚ)) (g : Int → ℚ) : List (Int × Option ℚ) :=
  s.map fun r => (r.1, r.2.map fun e => e + g r.1)

end Verif.Spec
