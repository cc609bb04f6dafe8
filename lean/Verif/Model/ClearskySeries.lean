import Verif.Model.ClearskyTemp

/-!
# get_clearsky_tamb from the times to the series (rdtools/clearsky_temperature.py:14-125)

`Verif.Model.ClearskyTemp` has the parts. Times are local nanoseconds in a zone with a fixed offset from UTC, so that a day
always has 24 hours; summer time is not modelled. The resampling frequency is taken to divide a day: for others pandas keeps
only those daily values that fall on its grid.
-/

namespace Verif.Clearsky

open Verif

/-- what is returned and which warnings are given; used at rdtools/clearsky_temperature.py:14-125 -/
structure Tamb where
  values : List (Option ℝ)
  inferWarning : Bool
  nanWarning : Bool

/-- the frequency in ns (rdtools/clearsky_temperature.py:53-62): the attribute of the index, else the inferred one, else the one
inferred from the first ten timestamps, with a warning; `infer` is `pd.infer_freq`, which raises for short indexes. Without a
frequency line 104 raises -/
def pickFreq (freqAttr : Option Int) (infer : List Int → Except PyErr (Option Int)) (times : List Int) :
    Except PyErr (Int × Bool) :=
  match freqAttr with
  | some f => .ok (f, false)
  | none => (infer times).bind fun
    | some f => .ok (f, false)
    | none => (infer (times.take 10)).bind fun
      | some f => .ok (f, true)
      | none => .error .typeError

/-- `dt_daily` as day numbers (rdtools/clearsky_temperature.py:51, 64-65): from `size` days before the first time to `size` days
after the last -/
def dailyDays (size : Nat) (first last : Int) : List Int :=
  (List.range (last / dayNs - first / dayNs + 2 * size + 1).toNat).map fun k : Nat => first / dayNs - size + k

/-- `df['month'] = df.index.month` (rdtools/clearsky_temperature.py:83) -/
def monthsOf (days : List Int) : List Nat := days.map fun d => (civil d).month.toNat

/-- the multiple of `f` nearest to `t`, the later one if two are equally near (`reindex(times, method='nearest')`,
rdtools/clearsky_temperature.py:107) -/
def nearestGrid (f t : Int) : Int := (2 * t + f) / (2 * f) * f

/-- position on the resampled grid, in ns after the first midnight, of the row used for the time `t`, within the grid
(rdtools/clearsky_temperature.py:104-107) -/
def gridPos (f : Int) (days : List Int) (t : Int) : Int :=
  max 0 (min (nearestGrid f (t - days.headD 0 * dayNs)) (((days.length : Int) - 1) * dayNs))

/-- the monthly values of the pixel (rdtools/clearsky_temperature.py:73-95); both maps use the size of the day map -/
noncomputable def pixelMonths (sizeOf m : TempMap) (latitude longitude : ℚ) (k : Nat) : Option ℝ :=
  (getPixelValue m (lonIndex sizeOf.lons longitude) (latIndex sizeOf.lats latitude) k 0).map fun q : ℚ => (q : ℝ)

/-- `df.index.hour + df.index.minute / 60.0` (rdtools/clearsky_temperature.py:116): seconds are dropped -/
noncomputable def hourOfDay (t : Int) : ℝ :=
  ((t % dayNs / 3600000000000 : Int) : ℝ) + ((t % 3600000000000 / 60000000000 : Int) : ℝ) / 60

/-- one row of the result (rdtools/clearsky_temperature.py:101-121) -/
noncomputable def tambAt (day night : TempMap) (latitude longitude : ℚ) (utcOffset : ℝ) (weight : Nat → ℝ) (size : Nat)
    (f : Int) (days : List Int) (t : Int) : Option ℝ :=
  clearskyTamb (pixelMonths day day latitude longitude) (pixelMonths day night latitude longitude) (monthsOf days) weight size
    (gridPos f days t / dayNs).toNat (((gridPos f days t % dayNs : Int) : ℝ) / (dayNs : ℝ)) (hourOfDay t) utcOffset
    (longitude : ℝ)

/-- `get_clearsky_tamb` (rdtools/clearsky_temperature.py:14-125). `utcOffset = none` is an index without a time zone, whose
`utcoffset()` is None (line 109); an empty index fails at line 64 -/
noncomputable def getClearskyTamb (day night : TempMap) (freqAttr : Option Int)
    (infer : List Int → Except PyErr (Option Int)) (utcOffset : Option ℝ) (weight : Nat → ℝ) (size : Nat)
    (times : List Int) (latitude longitude : ℚ) : Except PyErr Tamb :=
  (pickFreq freqAttr infer times).bind fun fw =>
  match times with
  | [] => .error .indexError
  | t0 :: l =>
    match utcOffset with
    | none => .error .attributeError
    | some off =>
      let values := (t0 :: l).map fun t =>
        tambAt day night latitude longitude off weight size fw.1 (dailyDays size t0 ((t0 :: l).getLastD t0)) t
      .ok ⟨values, fw.2, values.any fun v => v.isNone⟩

end Verif.Clearsky
