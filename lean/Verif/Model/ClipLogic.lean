import Verif.Model.Filtering
import Verif.Model.Normalization

/-! # The logic-based clipping filter (rdtools/filtering.py:424-702)

Timestamps are naive, so a day is a block of `dayNs` nanoseconds; a time-zone-aware index with
offset changes is not modelled. Numbers are exact; a quotient by zero is an infinity or NaN
(`Flt`). -/

namespace Verif.Clip

open Verif

/-- nanoseconds per minute; used at rdtools/filtering.py:612, 592-612 -/
def minuteNs : Int := 60000000000
/-- nanoseconds per second; used at rdtools/filtering.py:424-453 -/
def secondNs : Int := 1000000000

/-- label of the day a timestamp falls into: the bin of `resample("D")`;
used at rdtools/filtering.py:599-601, 624-627 -/
def dayOf (t : Int) : Int := t / dayNs

/-- `index.to_series().diff()` without the leading NaT;
used at rdtools/filtering.py:424-453, 527-702 -/
def stepsOf : List Int → List Int
  | a :: b :: l => (b - a) :: stepsOf (b :: l)
  | _ => []

/-- `_check_data_sampling_frequency` (rdtools/filtering.py:424-453): whether the warning is
emitted. The steps are truncated to seconds and counted; the counts are divided by the number of
readings (not of steps). -/
def samplingWarning (ts : List Int) : Bool :=
  let g := (stepsOf ts).map (· / secondNs)                               -- 443
  g.all fun x => decide (((g.count x : Nat) : ℚ) / ((ts.length : Nat) : ℚ) < 95/100)   -- 444-446

/-- `.mode()[0]` (rdtools/filtering.py:584-586, 820-822): the smallest of the most frequent
values -/
def modeMin (l : List Int) : Option Int :=
  (l.filter fun x => l.all fun y => decide (l.count y ≤ l.count x)).min?

/-- the cells of `s` on the day `d` (`resample("D")`, `pd.Grouper(freq="D")`);
used at rdtools/filtering.py:599-601, 624-627 -/
def onDay (s : Series) (d : Int) : List Cell :=
  (s.filter fun r => decide (dayOf r.1 = d)).map Prod.snd

/-- `drop_duplicates(subset=index, keep="first")` (rdtools/filtering.py:592-596) -/
def dropDupFirst : Series → Series
  | [] => []
  | r :: l => r :: (dropDupFirst l).filter fun x => decide (x.1 ≠ r.1)

/-- `std / mean < 0.1` for the readings of one day (rdtools/filtering.py:599-601). The standard
deviation (ddof 1) is NaN below two readings and is compared through its square; a zero mean gives
an infinity or NaN, a negative mean a quotient `≤ 0`. -/
def frozen (cells : List Cell) : Bool :=
  let l := valids cells
  match mean l with
  | none => false
  | some m =>
    decide (2 ≤ l.length) && (decide (m < 0) ||
      (decide (0 < m) &&
        decide ((l.map fun x => (x - m) ^ 2).sum / ((l.length : ℚ) - 1) < (m / 10) ^ 2)))

/-- days with mostly frozen data become null (rdtools/filtering.py:599-601) -/
def cleanFrozen (s : Series) : Series :=
  s.map fun r => (r.1, if frozen (onDay s (dayOf r.1)) then none else r.2)

/-- `resample("15min").median()` (rdtools/filtering.py:612); midnight-anchored bins -/
def resample15 (s : Series) : Series :=
  let q := 15 * minuteNs
  let a := (s.index.headD 0) / q
  let b := (s.index.getLastD 0) / q
  (List.range (b - a + 1).toNat).map fun k : Nat =>
    ((a + (k : Int)) * q,
      median (valids ((s.filter fun r => decide (r.1 / q = a + (k : Int))).map Prod.snd)))

/-- the lower 10% of every day becomes NaN (rdtools/filtering.py:624-627) -/
def dropLow (s : Series) : Series :=
  s.map fun r =>
    (r.1, if cellCmp (fun a b => decide (a < b)) r.2
        (((valids (onDay s (dayOf r.1))).max?).map (1/10 * ·)) then none else r.2)

/-- relative range in percent, `(max - min) / ((max + min) / 2) * 100`
(rdtools/filtering.py:482). A zero denominator gives an infinity or NaN, which is below no cutoff,
and is modelled as NaN. -/
def rangePct (l : List ℚ) : Cell :=
  match l.max?, l.min? with
  | some mx, some mn =>
    if mx + mn = 0 then none else some ((mx - mn) / ((mx + mn) / 2) * 100)
  | _, _ => none

/-- `_calculate_max_rolling_range` (rdtools/filtering.py:456-483): row `i` looks at the `k` rows
from `i` on; a window that is incomplete or has a NaN gives NaN. -/
def rollingRange (k : Nat) (l : List Cell) : List Cell :=
  (List.range l.length).map fun i =>
    let w := valids ((l.drop i).take k)
    if w.length = k then rangePct w else none

/-- `rolling(k).sum() >= 1` of a boolean column (rdtools/filtering.py:635): the `k` rows up to and
including `i`; NaN, hence False, for the first `k - 1` rows. -/
def spreadBack (k : Nat) (m : List Bool) : List Bool :=
  (List.range m.length).map fun i =>
    decide (k ≤ i + 1) && (((m.drop (i + 1 - k)).take k).any id)

/-- `s.reindex(idx, method='ffill')` at one label: the entry at the last label `≤ t`;
used at rdtools/filtering.py:584-641, 665, 871-879 -/
def lastLabelLe {α : Type} (K : List (Int × α)) (t : Int) : Option α :=
  (K.filter fun r => decide (r.1 ≤ t)).getLast?.map Prod.snd

/-- the series the detection runs on (rdtools/filtering.py:592-612): duplicates and frozen days
removed, then interpolated to the sampling interval `f` if that is at least ten minutes, else
15-minute medians. The interval is used exactly, not through its decimal string (line 597). -/
def detectionGrid (s : Series) (f : Int) : Except PyErr Series :=
  let p := cleanFrozen (dropDupFirst s)                                  -- 592-602
  if 10 * minuteNs ≤ f then                                              -- 609-610
    interpolateSeries p (dateRange (p.index.headD 0) (p.index.getLastD 0) f) none
  else .ok (resample15 p)                                                -- 611-612

/-- default window length (rdtools/filtering.py:613-622) -/
def rollDefault (mounting : String) (f : Int) : Nat :=
  let f' := if 10 * minuteNs ≤ f then f else 15 * minuteNs               -- 613
  if mounting = "single_axis_tracking" ∧ f' < 30 * minuteNs then 5 else 3

/-- detection on the grid (rdtools/filtering.py:624-635) -/
def gridFlags (k : Nat) (cutoff : ℚ) (grid : Series) : List (Int × Bool) :=
  let v := dropLow grid                                                  -- 624-627
  let m := (rollingRange k v.values).map
    fun c => cellCmp (fun a b => decide (a < b)) c (some cutoff)         -- 629-632
  v.index.zip (spreadBack k m)                                           -- 635

/-- a boolean mask that must not contain missing entries: `power_ac_copy[clipping]`
(rdtools/filtering.py:643, 666) raises ValueError on one -/
def strictMask (l : List (Option Bool)) : Except PyErr (List Bool) :=
  if l.all Option.isSome then .ok (l.map fun o => o.getD false) else .error .valueError

/-- readings where a plateau is detected (rdtools/filtering.py:584-641, 665) -/
def detect (s : Series) (mounting : String) (cutoff : ℚ) (roll : Option Nat) (f : Int) :
    Except PyErr (List Bool) :=
  (detectionGrid s f).bind fun grid =>
  let flags := gridFlags (roll.getD (rollDefault mounting f)) cutoff grid
  strictMask (s.index.map (lastLabelLe flags))                           -- 641, 665

/-- `clip_pwr.reindex(index, fill_value=nan)` (rdtools/filtering.py:643-644, 666-667): the detected
readings, NaN elsewhere. Duplicate labels among them make the reindexing raise ValueError, unless
every reading is detected (the indexes are then identical). -/
def clipPower (s : Series) (det : List Bool) : Except PyErr Series :=
  let kept := (s.zip det).filter fun x => x.2
  if ¬ (det.all id = true) ∧ ¬ (kept.map fun x => x.1.1).Nodup then .error .valueError
  else .ok ((s.zip det).map fun x => (x.1.1, if x.2 then x.1.2 else none))

/-- daily clipping levels `(min, max)` (rdtools/filtering.py:648-661 for sampling below ten
minutes, 668-675 otherwise) -/
def dayLevels (f : Int) (clip : Series) (d : Int) : Cell × Cell :=
  let l := onDay clip d
  if 10 * minuteNs ≤ f then ((valids l).min?, (valids l).max?)
  else (robustQuantile l (75/1000), robustQuantile l (99/100))

/-- the daily band (rdtools/filtering.py:678-695) for one reading -/
def inBand (lo hi v : Cell) : Bool :=
  match lo, hi, v with
  | some lo, some hi, some v =>
    let diff := Flt.ofDiv (hi - lo) hi                                   -- 678
    (decide (lo ≤ v) && decide (v ≤ hi) && Flt.le diff (.fin (25/1000)))         -- 680-684
    || (decide (v ≤ hi * (10025/10000)) && decide (hi * (9975/10000) ≤ v)
        && Flt.lt (.fin (25/1000)) diff)                                         -- 685-689
    || (decide (v ≤ lo * (10025/10000)) && decide (lo * (9975/10000) ≤ v)
        && Flt.lt (.fin (25/1000)) diff)                                         -- 690-694
  | _, _, _ => false

/-- the readings of `clip` levels applied to all readings (rdtools/filtering.py:678-696) -/
def bandMask (f : Int) (s clip : Series) : List Bool :=
  s.map fun r => inBand (dayLevels f clip (dayOf r.1)).1 (dayLevels f clip (dayOf r.1)).2 r.2

/-- condition of `_apply_overall_clipping_threshold` (rdtools/filtering.py:514-521) -/
def overallApplies (cleaned clipped : List Cell) : Bool :=
  match robustQuantile cleaned (99/100), robustQuantile clipped (99/100) with   -- 514-515
  | some a, some b =>
    Flt.lt (Flt.abs (Flt.ofDiv (a - b) ((a + b) / 2))) (.fin (5/1000))   -- 517-519, 521
      && decide ((clipped.length : ℚ) / (cleaned.length : ℚ) * 100 > 4)  -- 520-521
  | _, _ => false

/-- `_apply_overall_clipping_threshold` (rdtools/filtering.py:486-524) -/
def applyOverall (cleaned : List Cell) (mask : List Bool) (clipped : List Cell) : List Bool :=
  if overallApplies cleaned clipped then
    (mask.zip cleaned).map fun x =>
      x.1 || cellCmp (fun a b => decide (a ≥ b)) x.2 (robustQuantile cleaned (99/100))
  else mask

/-- `power_cleaned` (rdtools/filtering.py:603-604) -/
def powerCleaned (s : Series) : List Cell :=
  s.index.map (lookupK (cleanFrozen (dropDupFirst s)))

/-- `logic_clip_filter` (rdtools/filtering.py:527-702): True means "not clipping".
* `roll = none` is the default window; a given window is a natural number (pandas rejects negative
  ones).
* The warning of line 582 (`samplingWarning`) has no effect on the result. -/
def logicClipFilter (s : Series) (mounting : String := "fixed") (cutoff : ℚ := 2/10)
    (roll : Option Nat := none) : Except PyErr (List Bool) :=
  (formatClipping (.datetime s.index) mounting).bind fun _ =>            -- 579
  match modeMin (stepsOf s.index) with                                   -- 584-586
  | none => .error .keyError        -- unreachable: more than ten readings
  | some f =>
    (detect s mounting cutoff roll f).bind fun det =>
    (clipPower s det).bind fun clip =>
    let band := bandMask f s clip                                        -- 678-696
    let clipped := ((s.values.zip band).filter fun x => x.2).map Prod.fst      -- 698
    .ok ((applyOverall (powerCleaned s) band clipped).map (!·))          -- 699-702

end Verif.Clip
