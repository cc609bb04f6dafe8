import Verif.Model.Utilities
import Verif.Model.Flt

/-! # rdtools/filtering.py: point-wise and rolling-window filters -/

namespace Verif

/-! ## Range filters -/

/-- `normalized_filter` (rdtools/filtering.py:28-57) on one value; a bound of `None` is `none`. -/
def normalizedFilter (lo hi : Option Flt) (x : Flt) : Bool :=
  let lo' := lo.getD .ninf                                              -- 50-51
  let hi' := hi.getD .pinf                                              -- 52-53
  Flt.lt lo' x && Flt.lt x hi'                                          -- 55-57

/-- `poa_filter` (rdtools/filtering.py:60-79) on one value -/
def poaFilter (lo hi : Flt) (x : Flt) : Bool := Flt.lt lo x && Flt.lt x hi

/-- `tcell_filter` (rdtools/filtering.py:82-103) on one value -/
def tcellFilter (lo hi : Flt) (x : Flt) : Bool := Flt.lt lo x && Flt.lt x hi

/-- `csi_filter` (rdtools/filtering.py:143-164) on one pair of values; both series are taken on the
same index. -/
def csiFilter (thr : ℚ) (measured clearsky : Flt) : Bool :=
  let csi := Flt.div measured clearsky                                  -- 163
  Flt.le (.fin (1 - thr)) csi && Flt.le csi (.fin (1 + thr))            -- 164

/-- `hour_angle_filter` (rdtools/filtering.py:1077-1109) on one value, given the hour angle pvlib
computed for the timestamp. -/
def hourAngleFilter (lo hi : Flt) (angle : Flt) : Bool := Flt.le lo angle && Flt.le angle hi

/-! ## Dispatch -/

/-- a keyword argument (name and value; values are opaque);
used at rdtools/filtering.py:295-332, 106-140 -/
abbrev Kwargs (V : Type) := List (String × V)

/-- Calling a function that accepts the keyword arguments `params`: any other name is a TypeError
raised by Python itself. Used at rdtools/filtering.py:295-332, 106-140. -/
def callKw {V R : Type} (params : List String) (f : Kwargs V → Except PyErr R) (kw : Kwargs V) :
    Except PyErr R :=
  if kw.all fun k => decide (k.1 ∈ params) then f kw else .error .typeError

/-- `clip_filter` (rdtools/filtering.py:295-332). The three filters are parameters; their keyword
arguments are those of the signatures at 335, 527-529 and 783. -/
def clipFilter {V R : Type} (quantile xgboost logic : Kwargs V → Except PyErr R) (model : String)
    (kw : Kwargs V) : Except PyErr R :=
  if model = "quantile" then callKw ["quantile"] quantile kw            -- 324-325
  else if model = "xgboost" then callKw ["mounting_type"] xgboost kw    -- 326-327
  else if model = "logic" then                                          -- 328-329
    callKw ["mounting_type", "rolling_range_max_cutoff", "roll_periods"] logic kw
  else .error .valueError                                               -- 330-331

/-- `clearsky_filter` (rdtools/filtering.py:106-140). `pvlib` passes on every other keyword
(rdtools/filtering.py:178), so only csi restricts them. -/
def clearskyFilter {V R : Type} (csi pvlib : Kwargs V → Except PyErr R) (model : String)
    (kw : Kwargs V) : Except PyErr R :=
  if model = "csi" then callKw ["threshold"] csi kw                     -- 134-135
  else if model = "pvlib" then pvlib kw                                 -- 136-137
  else .error .valueError                                               -- 138-139

/-! ## Quantile filters -/

/-- `quantile_clip_filter` (rdtools/filtering.py:335-355); a level outside `[0,1]` raises in
`Series.quantile`. -/
def quantileClipFilter (x : List Cell) (q : ℚ := 98/100) : Except PyErr (List Bool) :=
  if q < 0 ∨ 1 < q then .error .valueError else
  let v := robustQuantile x q                                           -- 354
  .ok (x.map fun c => cellCmp (fun a b => decide (a < b)) c (v.map (· * (99/100))))   -- 355

/-- `insolation_filter` (rdtools/filtering.py:972-993) -/
def insolationFilter (x : List Cell) (q : ℚ := 1/10) : Except PyErr (List Bool) :=
  if q < 0 ∨ 1 < q then .error .valueError else
  let limit := quantile (valids x) q                                    -- 991
  .ok (x.map fun c => cellCmp (fun a b => decide (a ≥ b)) c limit)      -- 992

/-! ## Rolling windows -/

/-- `series.rolling(...).median()` for a time window: `win t u` says whether the row at `u` is in
the window of the row at `t`; fewer than `minP` non-missing values give NaN.
Used at rdtools/filtering.py:928-969, 996-1023. -/
def rollMedian (win : Int → Int → Bool) (minP : Nat) (s : Series) : List Cell :=
  s.map fun r =>
    let v := valids ((s.filter fun u => win r.1 u.1).map Prod.snd)
    if v.length < minP then none else median v

/-- `rolling(P, closed='both')`: the window `[t-P, t]`;
used at rdtools/filtering.py:928-969, 1036-1074 -/
def backWin (P : Int) (t u : Int) : Bool := decide (t - P ≤ u ∧ u ≤ t)

/-- the same on the reversed series (rdtools/filtering.py:953-955): `[t, t+P]` -/
def fwdWin (P : Int) (t u : Int) : Bool := decide (t ≤ u ∧ u ≤ t + P)

/-- `rolling(k, center=True)` for a time offset `k`: `(t-k/2, t+k/2]`;
used at rdtools/filtering.py:996-1023 -/
def centerWin (k : ℚ) (t u : Int) : Bool := decide ((t : ℚ) - k / 2 < u ∧ (u : ℚ) ≤ t + k / 2)

/-- `two_way_window_filter` (rdtools/filtering.py:928-969) for a sorted, duplicate-free index and a
timedelta window. Division by a zero 99th percentile gives infinities or NaN, which pandas' rolling
functions treat as missing, so every rolling median is NaN: modelled by missing values. -/
def twoWayWindowFilter (s : Series) (P : Int) (thr : ℚ := 3/100) : List Bool :=
  let q := quantile (valids (s.map Prod.snd)) (99/100)                  -- 951
  let n : Series := s.map fun r =>
    (r.1, cellOp (fun x y => x / y) r.2 (if q = some 0 then none else q))
  let back := rollMedian (backWin P) 5 n                                -- 952
  let fwd := rollMedian (fwdWin P) 5 n                                  -- 953-955
  let dif (m : List Cell) : List ℚ :=                                   -- 957-963
    (List.zipWith (cellOp fun x y => |x - y|) (n.map Prod.snd) m).map fun c => c.getD 0
  (List.zipWith min (dif back) (dif fwd)).map fun d => decide (d < thr) -- 965-967

/-- `hampel_filter` (rdtools/filtering.py:996-1023) for a sorted index and a time offset window -/
def hampelFilter (s : Series) (k : ℚ) (t0 : ℚ := 3) : List Bool :=
  let med := rollMedian (centerWin k) 1 s                               -- 1019
  let dif := List.zipWith (cellOp fun x y => |x - y|) med (s.map Prod.snd)   -- 1020
  let mad := rollMedian (centerWin k) 1 ((s.map Prod.fst).zip dif)      -- 1021
  let thr := mad.map fun c => c.map fun m => t0 * (14826/10000) * m     -- 1018, 1022
  List.zipWith (cellCmp fun a b => decide (a ≤ b)) dif thr              -- 1023

/-- `_tukey_fence` (rdtools/filtering.py:1026-1033): (lower, upper), NaN without data. The lower
fence uses 1.5 whatever `k` is. -/
def tukeyFence (l : List Cell) (k : ℚ) : Cell × Cell :=
  let p25 := quantile (valids l) (1/4)
  let p75 := quantile (valids l) (3/4)
  (cellOp (fun a b => a - 3/2 * (b - a)) p25 p75, cellOp (fun a b => k * (b - a) + b) p25 p75)

/-- `directional_tukey_filter` (rdtools/filtering.py:1036-1074) for a sorted, duplicate-free index
and a timedelta window -/
def directionalTukeyFilter (s : Series) (P : Int) (k : ℚ := 3/2) : List Bool :=
  let back := List.zipWith (cellOp fun x y => x - y) (s.map Prod.snd) (rollMedian (backWin P) 5 s)
  let fwd := List.zipWith (cellOp fun x y => x - y) (s.map Prod.snd) (rollMedian (fwdWin P) 5 s)
  let fb := tukeyFence back k                                           -- 1068
  let ff := tukeyFence fwd k                                            -- 1069
  let inside (f : Cell × Cell) (x : Cell) : Bool :=
    cellCmp (fun a b => decide (a > b)) x f.1 && cellCmp (fun a b => decide (a < b)) x f.2
  List.zipWith (fun f b => inside ff f || inside fb b) fwd back         -- 1071-1073

/-! ## Clear-sky look-up -/

/-- `scipy.interpolate.interp1d(xs, ys, fill_value=(ys[0], ys[-1]), bounds_error=False)(x)` on a
table of knots (rdtools/filtering.py:245-268): linear between neighbouring knots, the first and last
value outside. -/
def interp1d : List (ℚ × ℚ) → ℚ → Option ℚ
  | [], _ => none
  | [(_, y)], _ => some y
  | (x0, y0) :: (x1, y1) :: l, x =>
    if x ≤ x0 then some y0
    else if x ≤ x1 then some (y0 + (x - x0) * (y1 - y0) / (x1 - x0))
    else interp1d ((x1, y1) :: l) x

/-- the four published tables (rdtools/filtering.py:239-243) over 1, 5, 15 and 30 minutes -/
def windowsTable : List (ℚ × ℚ) := [(1, 50), (5, 60), (15, 90), (30, 120)]
/-- entries of the table of limits, by sampling interval; used at rdtools/filtering.py:238-274 -/
def maxDiffTable : List (ℚ × ℚ) := [(1, 60), (5, 65), (15, 75), (30, 90)]
/-- entries of the table of limits, by sampling interval; used at rdtools/filtering.py:238-274 -/
def varDiffTable : List (ℚ × ℚ) := [(1, 5/1000), (5, 1/100), (15, 32/1000), (30, 7/100)]
/-- entries of the table of limits, by sampling interval; used at rdtools/filtering.py:238-274 -/
def slopeDevTable : List (ℚ × ℚ) := [(1, 50), (5, 60), (15, 75), (30, 96)]

/-- the thresholds handed to `detect_clearsky`; used at rdtools/filtering.py:238-274 -/
structure ClearskyParams where
  window : ℚ
  maxDiff : ℚ
  varDiff : ℚ
  slopeDev : ℚ
  deriving DecidableEq, Repr

/-- The parameter look-up of `pvlib_clearsky_filter` (rdtools/filtering.py:238-274): `freqNs` is
`index.freq.nanos`, `none` without a defined frequency. -/
def clearskyLookup (lookup : Bool) (freqNs : Option ℚ) (p : ClearskyParams) : ClearskyParams :=
  match lookup, freqNs with
  | true, some ns =>
    let m := ns / 10 ^ 9 / 60                                           -- 270
    ⟨(interp1d windowsTable m).getD 0, (interp1d maxDiffTable m).getD 0,
      (interp1d varDiffTable m).getD 0, (interp1d slopeDevTable m).getD 0⟩
  | _, _ => p

/-! ## Input validation of the time-series clipping filters -/

/-- What the validation looks at: whether the object has an index at all, whether that is a
DatetimeIndex, and its timestamps (no NaT). Used at rdtools/filtering.py:358-421. -/
inductive ClipInput where
  | noIndex                       -- e.g. a numpy array: `power_ac.index` does not exist
  | otherIndex                    -- an index (or a `list.index` method) that is no DatetimeIndex
  | datetime (times : List Int)
  deriving DecidableEq, Repr

/-- `_format_clipping_time_series` (rdtools/filtering.py:358-421): the errors, in order. The tz
warning (385-395) and the renaming (414-421) are omitted. -/
def formatClipping (input : ClipInput) (mounting : String) : Except PyErr (List Int) :=
  match input with
  | .noIndex => .error .attributeError
  | .otherIndex => .error .typeError                                    -- 383-384
  | .datetime ts =>
    if mounting ≠ "single_axis_tracking" ∧ mounting ≠ "fixed" then .error .valueError   -- 398-402
    else if ts.insertionSort (· ≤ ·) ≠ ts then .error .indexError       -- 405-409
    else if ts.length ≤ 10 then .error .exception                       -- 412-413
    else .ok ts

end Verif
