import Verif.Model.Basic
import Verif.Spec.Filtering

/-! Vocabulary of the clipping-filter properties, independent of the model's helpers. -/

namespace Verif.Clip.Spec

open Verif

/-- a complete regular series: reading `i` at `t0 + i * f` -/
def regular (t0 f : Int) (vals : List ℚ) : Series :=
  (List.range vals.length).map fun i : Nat => (t0 + (i : Int) * f, vals[i]?)

/-- two timestamps on the same day -/
def SameDay (t u : Int) : Prop := t / 86400000000000 = u / 86400000000000

/-- `w` is a flat run: the range between its greatest and least reading, relative to their
midpoint and in percent, is below `cutoff` -/
def Flat (cutoff : ℚ) (w : List ℚ) : Prop :=
  ∃ mx ∈ w, ∃ mn ∈ w, (∀ x ∈ w, mn ≤ x ∧ x ≤ mx) ∧ mx + mn ≠ 0 ∧
    (mx - mn) / ((mx + mn) / 2) * 100 < cutoff

/-- reading `i` of `regular t0 f vals` is at least a tenth of every reading of its day -/
def NotLow (t0 f : Int) (vals : List ℚ) (i : Nat) : Prop :=
  ∃ x, vals[i]? = some x ∧ ∀ (j : Nat) (y : ℚ), vals[j]? = some y →
    SameDay (t0 + (i : Int) * f) (t0 + (j : Int) * f) → 1/10 * y ≤ x

/-- reading `i` lies in a run of `k` consecutive readings (starting at `j`) that is flat and in
which no reading is low for its day -/
def InPlateau (t0 f : Int) (vals : List ℚ) (cutoff : ℚ) (k i : Nat) : Prop :=
  ∃ j, j ≤ i ∧ i < j + k ∧ j + k ≤ vals.length ∧ Flat cutoff ((vals.drop j).take k) ∧
    ∀ n, j ≤ n → n < j + k → NotLow t0 f vals n

/-- the readings of the day `d` (days since the epoch) -/
def dayReadings (s : Series) (d : Int) : List ℚ :=
  (s.filter fun r => decide (r.1 / 86400000000000 = d)).filterMap Prod.snd

/-- the readings of a day are not negative on average and their standard deviation is at least a
tenth of their mean -/
def Varied (l : List ℚ) : Prop :=
  0 ≤ l.sum ∧ (l.sum / l.length / 10) ^ 2 * ((l.length : ℚ) - 1) ≤
    (l.map fun x => (x - l.sum / l.length) ^ 2).sum

/-- the steps between neighbouring timestamps -/
def stepList (ts : List Int) : List Int := List.zipWith (fun a b => b - a) ts ts.tail

/-- steps below ten minutes prevail: one of them is more frequent than every longer step -/
def FineSampling (ts : List Int) : Prop :=
  ∃ f ∈ stepList ts, f < 600000000000 ∧
    ∀ g ∈ stepList ts, 600000000000 ≤ g → (stepList ts).count g < (stepList ts).count f

/-- the readings of the quarter of an hour `q` (quarters since the epoch) -/
def quarterReadings (s : Series) (q : Int) : List ℚ :=
  (s.filter fun r => decide (r.1 / 900000000000 = q)).filterMap Prod.snd

/-- `m` is the median of the quarter `q` and at least a tenth of the median of every quarter of
that day -/
def QuarterHigh (s : Series) (q : Int) (m : ℚ) : Prop :=
  Verif.Spec.IsMedian (quarterReadings s q) m ∧
    ∀ (p : Int) (y : ℚ), Verif.Spec.IsMedian (quarterReadings s p) y → p / 96 = q / 96 → 1/10 * y ≤ m

/-- the quarter `q` lies in a run of `k` consecutive quarters (starting at `a`) whose medians are
flat and none of them low for its day -/
def InQuarterPlateau (s : Series) (cutoff : ℚ) (k : Nat) (q : Int) : Prop :=
  ∃ (a : Int) (w : List ℚ), w.length = k ∧ a ≤ q ∧ q < a + k ∧ Flat cutoff w ∧
    ∀ (n : Nat) (x : ℚ), w[n]? = some x → QuarterHigh s (a + n) x

/-- the reading at `t` counts as plateau reading of a finely sampled series that starts at `t0`:
its quarter lies in a plateau and at least `k - 1` quarters precede it -/
def FinePlateau (s : Series) (t0 : Int) (cutoff : ℚ) (k : Nat) (t : Int) : Prop :=
  (k : Int) ≤ t / 900000000000 - t0 / 900000000000 + 1 ∧
    InQuarterPlateau s cutoff k (t / 900000000000)

open Classical in
/-- the readings of the day `d`, those that are no plateau readings replaced by NaN -/
noncomputable def plateauCells (s : Series) (t0 : Int) (cutoff : ℚ) (k : Nat) (d : Int) :
    List Cell :=
  (s.filter fun r => decide (r.1 / 86400000000000 = d)).map fun r =>
    if FinePlateau s t0 cutoff k r.1 then r.2 else none

/-- `x` belongs to the levels `lo`, `hi` of its day: between them if they are within 2.5 % of each
other, else within 0.25 % of one of them -/
def AtLevel (lo hi x : ℚ) : Prop :=
  0 < hi ∧ ((hi - lo ≤ 25/1000 * hi ∧ lo ≤ x ∧ x ≤ hi) ∨
    (25/1000 * hi < hi - lo ∧ (|x - hi| ≤ 25/10000 * hi ∨ |x - lo| ≤ 25/10000 * lo)))

/-- the reading `x` at `t` belongs to the levels of its day -/
def AtDayLevel (level : Int → ℚ → ℚ → Prop) (t : Int) (x : ℚ) : Prop :=
  ∃ lo hi, level (t / 86400000000000) lo hi ∧ AtLevel lo hi x

open Classical in
/-- the readings that belong to the levels of their day -/
noncomputable def levelReadings (level : Int → ℚ → ℚ → Prop) (s : Series) : List ℚ :=
  s.filterMap fun r => r.2.bind fun x => if AtDayLevel level r.1 x then some x else none

/-- the overall rule with threshold `q`: `q` is a high quantile (`q99`) of all readings, that of the
readings at daily levels deviates from it by less than 0.5 % of their midpoint, and these readings
are more than 4 % of all -/
def OverallRule (q99 : List Cell → ℚ → Prop) (level : Int → ℚ → ℚ → Prop) (s : Series) (q : ℚ) :
    Prop :=
  ∃ p, q99 (s.map Prod.snd) q ∧ q99 ((levelReadings level s).map some) p ∧
    |q - p| < 5/1000 * ((q + p) / 2) ∧
    (4 : ℚ) * s.length < 100 * (levelReadings level s).length

/-- the least and the greatest plateau reading of the day `d` of a regular series, not counting the
first `k - 1` readings of the series -/
def PlateauExtremes (t0 f : Int) (vals : List ℚ) (c : ℚ) (k : Nat) (d : Int) (lo hi : ℚ) : Prop :=
  let P : Set ℚ := {y | ∃ j : Nat, vals[j]? = some y ∧ k ≤ j + 1 ∧ InPlateau t0 f vals c k j ∧
    (t0 + (j : Int) * f) / 86400000000000 = d}
  IsLeast P lo ∧ IsGreatest P hi

end Verif.Clip.Spec
