import Verif.Model.ClipXgb
import Verif.Spec.Filtering

/-! Specification of the range of the model inputs of the XGBoost clipping filter. -/

namespace Verif.Clip.Spec

/-- the documented meaning of the inputs bounds them -/
structure WellFormed (m : String) (x : Features) : Prop where
  scaled : 0 ≤ x.scaled ∧ x.scaled ≤ x.dayMax ∧ x.dayMax ≤ 1
  average : 0 ≤ x.average ∧ x.average ≤ 1
  slopes : (-1 ≤ x.derivBack ∧ x.derivBack ≤ 1) ∧ (-1 ≤ x.derivFwd ∧ x.derivFwd ≤ 1) ∧
    (-1 ≤ x.derivBackAvg ∧ x.derivBackAvg ≤ 1) ∧ (-1 ≤ x.derivFwdAvg ∧ x.derivFwdAvg ≤ 1)
  percent : 0 ≤ x.pctDayMax ∧ x.pctDayMax < 1
  range : 0 ≤ x.derivMax ∧ x.derivMax ≤ 200
  variance : 0 ≤ x.derivVar ∧ x.derivVar ≤ 2
  order : -1 ≤ x.derivMin ∧ x.derivMin ≤ x.derivMean ∧ x.derivMean ≤ x.derivMaxRoll ∧
    x.derivMin ≤ x.derivMedian ∧ x.derivMedian ≤ x.derivMaxRoll ∧ x.derivMaxRoll ≤ 1
  own : x.derivMin ≤ x.derivBack ∧ x.derivBack ≤ x.derivMaxRoll
  frequency : 5 ≤ x.frequency
  mounting : x.mounting = if m = "single_axis_tracking" then 1 else 0

/-- `y` is reading `k` of `g` on the scale on which the least reading is 0 and the greatest 1 -/
def ScaledAt (g : Series) (k : Nat) (y : ℚ) : Prop :=
  ∃ t x lo hi, g[k]? = some (t, some x) ∧ IsLeast {z | ∃ u, (u, some z) ∈ g} lo ∧
    IsGreatest {z | ∃ u, (u, some z) ∈ g} hi ∧ lo < hi ∧ y = (x - lo) / (hi - lo)

/-- number of rows in a window: about half an hour for steps below ten minutes, three steps below an
hour, two steps from an hour on -/
def windowRows (minutes : Int) : Nat :=
  if 60 ≤ minutes then 2 else if 10 ≤ minutes then 3 else 5

/-- slope into row `k` of the scaled readings `y` -/
def slope (y : Nat → ℚ) (k : Nat) : ℚ := y k - y (k - 1)

/-- The published inputs for row `i` (at time `t`) of the frame `g` with scaled readings `y`. Windows
of `w` rows are centred on the row, except that of the range, which starts at the row. -/
structure Describes (g : Series) (minutes : Int) (m : String) (y : Nat → ℚ) (i : Nat) (t : Int)
    (x : Features) : Prop where
  scaled : x.scaled = y i
  back : x.derivBack = y i - y (i - 1)
  fwd : x.derivFwd = y (i + 1) - y i
  average : x.average = ((List.range (windowRows minutes)).map
    fun j => y (i - windowRows minutes / 2 + j)).sum / windowRows minutes
  backAvg : x.derivBackAvg = (y (i - windowRows minutes / 2 + windowRows minutes - 1) -
    y (i - windowRows minutes / 2 - 1)) / windowRows minutes
  fwdAvg : x.derivFwdAvg = (y (i - windowRows minutes / 2 + windowRows minutes) -
    y (i - windowRows minutes / 2)) / windowRows minutes
  range : ∃ mx mn, IsGreatest {z | ∃ j < windowRows minutes, z = y (i + j)} mx ∧
    IsLeast {z | ∃ j < windowRows minutes, z = y (i + j)} mn ∧ 0 < mx ∧
    x.derivMax = 100 * (mx - mn) / ((mx + mn) / 2)
  dayMax : IsGreatest {z | ∃ k u v, g[k]? = some (u, v) ∧ u / 86400000000000 = t / 86400000000000 ∧
    ScaledAt g k z} x.dayMax
  percent : x.pctDayMax * (x.dayMax + 1/100000) = y i
  mean : x.derivMean = (y (i - windowRows minutes / 2 + windowRows minutes - 1) -
    y (i - windowRows minutes / 2 - 1)) / windowRows minutes
  variance : ((windowRows minutes : ℚ) - 1) * x.derivVar = ((List.range (windowRows minutes)).map
    fun j => (slope y (i - windowRows minutes / 2 + j) - x.derivMean) ^ 2).sum
  median : Verif.Spec.IsMedian ((List.range (windowRows minutes)).map
    fun j => slope y (i - windowRows minutes / 2 + j)) x.derivMedian
  least : IsLeast {z | ∃ j < windowRows minutes, z = slope y (i - windowRows minutes / 2 + j)}
    x.derivMin
  greatest : IsGreatest {z | ∃ j < windowRows minutes, z = slope y (i - windowRows minutes / 2 + j)}
    x.derivMaxRoll
  frequency : x.frequency = max minutes 5
  mounting : x.mounting = if m = "single_axis_tracking" then 1 else 0

/-- the steps between consecutive times -/
def stepsBetween (ts : List Int) : List Int := (ts.zip ts.tail).map fun p => p.2 - p.1

/-- the most frequent step between consecutive times, the smallest if several are equally frequent -/
def CommonestStep (ts : List Int) (f : Int) : Prop :=
  f ∈ stepsBetween ts ∧ ∀ g ∈ stepsBetween ts, (stepsBetween ts).count g ≤ (stepsBetween ts).count f ∧
    ((stepsBetween ts).count g = (stepsBetween ts).count f → f ≤ g)

end Verif.Clip.Spec
