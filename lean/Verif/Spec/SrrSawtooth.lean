import Verif.Spec.SrrShift

/-! # Specification of a system that soils between cleanings -/

namespace Verif.Spec

/-- over `n` days the value never rises and falls by at most `m` a day, except on the days in `D` -/
def SoilsBetween (u : Nat → ℚ) (D : List Nat) (n : Nat) (m : ℚ) : Prop :=
  ∀ i, i + 1 < n → i + 1 ∉ D → u (i + 1) ≤ u i ∧ u i ≤ u (i + 1) + m

/-- the first day, the days in `D` and the end of the record are at least `L` days apart -/
def Spaced (D : List Nat) (n L : Nat) : Prop := (0 :: (D ++ [n])).Pairwise fun a b => a + L ≤ b

/-- `h` days after each day of `D` the value is more than `J` above that `h` days before the eve of it -/
def Restores (u : Nat → ℚ) (D : List Nat) (h : Nat) (J : ℚ) : Prop :=
  ∀ d ∈ D, u (d - 1 - h) + J < u (d + h)

/-- `s` is the last day of `D` up to day `i`, or the first day of the record if there is none -/
def CleanedLast (D : List Nat) (s i : Nat) : Prop :=
  s ≤ i ∧ (s = 0 ∨ s ∈ D) ∧ ∀ e ∈ D, s < e → i < e

/-- between the days in `D` the value falls by the same amount every day -/
def SoilsLinearly (u : Nat → ℚ) (D : List Nat) (n : Nat) (m : ℚ) : Prop :=
  ∃ rate : Nat → ℚ, (∀ i, 0 ≤ rate i ∧ rate i ≤ m) ∧
    ∀ s i, i < n → CleanedLast D s i → u i = u s - rate s * ((i : ℚ) - s)

/-- what the performance is divided by: the median of the first 365 days, or 1 without recentering -/
def FirstYear (recenter : Bool) (v : Nat → ℚ) (n : Nat) (f : ℚ) : Prop :=
  if recenter then IsMedian ((List.range (min 365 n)).map v) f else f = 1

/-- a performance series with the value `v i` on the `i`-th of its `n` days -/
def HasValues (pm : Series) (v : Nat → ℚ) (n : Nat) : Prop :=
  pm.map Prod.snd = (List.range n).map fun i => some (v i)

/-- what the threshold must be for the detection to be exact: below the rise at every cleaning -/
def ThresholdFits (o : DailyOpts) (v : Nat → ℚ) (D : List Nat) (h : Nat) (m f : ℚ) : Prop :=
  (∃ c, o.cleanThreshold = some c ∧ 0 ≤ c ∧ Restores v D h (c * f)) ∨
    (o.cleanThreshold = none ∧ 2 ≤ h ∧ 0 ≤ o.outlierFactor ∧ Restores v D h ((1 + o.outlierFactor) * m))

end Verif.Spec
