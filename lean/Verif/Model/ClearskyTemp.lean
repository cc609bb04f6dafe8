import Verif.Model.Soiling
import Mathlib.Analysis.SpecialFunctions.Trigonometric.Basic

/-!
# Clear-sky ambient temperature (rdtools/clearsky_temperature.py)

The map is a function of column, row and month, with NaN as `none`. Look-up and smoothing use exact numbers; the daily cycle
uses the real cosine. The inference of the frequency and time zones are not modelled.
-/

namespace Verif.Clearsky

open Verif

/-- a temperature map: `lons` columns, `lats` rows, twelve months;
used at rdtools/clearsky_temperature.py:128-146, 89-95 -/
structure TempMap where
  lons : Nat
  lats : Nat
  value : Nat → Nat → Nat → Cell

/-- `lon_temp` (rdtools/clearsky_temperature.py:76-78) -/
def lonTemp (longitude : ℚ) : ℚ := if longitude - 180 < 0 then longitude - 180 + 360 else longitude - 180

/-- `lon_index` (rdtools/clearsky_temperature.py:79) -/
def lonIndex (lons : Nat) (longitude : ℚ) : Int := roundHE (lons * lonTemp longitude / 360)

/-- `lat_index` (rdtools/clearsky_temperature.py:80) -/
def latIndex (lats : Nat) (latitude : ℚ) : Int := roundHE (lats * (90 - latitude) / 180)

/-- `arange(i - radius, i + radius + 1)` restricted to `0 <= x < n` (rdtools/clearsky_temperature.py:130-134) -/
def span (i : Int) (radius : Nat) (n : Nat) : List Nat :=
  (List.range (2 * radius + 1)).filterMap fun k : Nat =>
    if 0 ≤ i - radius + k ∧ i - radius + k < n then some (i - radius + k).toNat else none

/-- `_get_pixel_value` (rdtools/clearsky_temperature.py:128-146) -/
def getPixelValue (m : TempMap) (i j : Int) (k radius : Nat) : Cell :=
  median (valids ((span i radius m.lons).flatMap fun x => (span j radius m.lats).map fun y => m.value x y k))

/-- the value of a location for month `k + 1` (rdtools/clearsky_temperature.py:89-95, `radius = 0`) -/
def pixelAt (m : TempMap) (latitude longitude : ℚ) (k : Nat) : Cell :=
  getPixelValue m (lonIndex m.lons longitude) (latIndex m.lats latitude) k 0

section Smoothing
variable {K : Type} [Field K] [LinearOrder K]

/-- the monthly values put on the days (rdtools/clearsky_temperature.py:97-99); months are 1..12 -/
def daily (monthly : Nat → Option K) (months : List Nat) : List (Option K) :=
  months.map fun m => if 1 ≤ m ∧ m ≤ 12 then monthly (m - 1) else none

/-- the present values of a window with their weights; `first` is the (possibly negative) index of its first day;
used at rdtools/clearsky_temperature.py:101-102 -/
def windowValues (x : List (Option K)) (weight : Nat → K) (first : Int) (size : Nat) : List (K × K) :=
  (List.range size).filterMap fun k : Nat =>
    if 0 ≤ first + k then ((x.getD (first + k).toNat none).map fun v => (weight k, v)) else none

/-- weighted mean of the present values, missing if there is none (`min_periods=1`);
used at rdtools/clearsky_temperature.py:101-102 -/
def weightedMean (l : List (K × K)) : Option K :=
  if l = [] then none else some ((l.map fun p => p.1 * p.2).sum / (l.map fun p => p.1).sum)

/-- `df.rolling(window=window_size, win_type='gaussian', min_periods=1, center=True).mean(std=gauss_std)`
(rdtools/clearsky_temperature.py:101-102) with the Gaussian weights as a parameter -/
def smooth (weight : Nat → K) (size : Nat) (x : List (Option K)) : List (Option K) :=
  (List.range x.length).map fun i : Nat =>
    weightedMean (windowValues x weight ((i : Int) - ((size / 2 : Nat) : Int)) size)

/-- last present value at or before index `i`, with its index;
used at rdtools/clearsky_temperature.py:104 -/
def lastValid (x : List (Option K)) : Nat → Option (Nat × K)
  | 0 => (x.getD 0 none).map fun v => (0, v)
  | i + 1 =>
    match x.getD (i + 1) none with
    | some v => some (i + 1, v)
    | none => lastValid x i

/-- first present value after index `i`; used at rdtools/clearsky_temperature.py:104 -/
def nextValid (x : List (Option K)) (i : Nat) : Option (Nat × K) :=
  ((List.range x.length).filterMap fun j : Nat =>
    if i < j then (x.getD j none).map fun v => (j, v) else none).head?

/-- `resample(freq).interpolate('linear')` (rdtools/clearsky_temperature.py:104) at the fraction `θ` of the day after day `i`:
linear between present neighbours, the last one carried on, missing before the first -/
def interpolate (x : List (Option K)) (i : Nat) (θ : K) : Option K :=
  match lastValid x i with
  | none => none
  | some (a, u) =>
    match nextValid x i with
    | none => some u
    | some (b, v) => some (u + (v - u) * (((i : K) + θ - (a : K)) / ((b : K) - (a : K))))

end Smoothing

/-- `_get_temperature` (rdtools/clearsky_temperature.py:149-156) -/
noncomputable def getTemperature (hourOfDay nightTemp dayTemp solarNoonOffset : ℝ) : ℝ :=
  (dayTemp - nightTemp) * 0.5 * Real.cos ((hourOfDay + (8 + solarNoonOffset)) / 24 * 2 * Real.pi) * 0.7 +
    (dayTemp + nightTemp) / 2

/-- the temperature at the fraction `θ` of day `i` (rdtools/clearsky_temperature.py:97-121); NaN if one of the inputs is -/
noncomputable def clearskyTamb (dayMonthly nightMonthly : Nat → Option ℝ) (months : List Nat) (weight : Nat → ℝ)
    (size i : Nat) (θ hourOfDay utcOffset longitude : ℝ) : Option ℝ :=
  match interpolate (smooth weight size (daily dayMonthly months)) i θ,
    interpolate (smooth weight size (daily nightMonthly months)) i θ with
  | some d, some n => some (getTemperature hourOfDay n d (longitude / 180 * 12 - utcOffset))
  | _, _ => none

end Verif.Clearsky
