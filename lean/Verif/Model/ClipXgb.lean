import Verif.Model.ClipLogic

/-!
# The XGBoost clipping filter (rdtools/filtering.py:705-925)

The trained model is a parameter: any function from the rows of features to one prediction per row.
Columns are functions from the row number to a cell; rows outside the frame read as NaN.
-/

namespace Verif.Clip

open Verif

/-- a column as a function of the row number;
used at rdtools/filtering.py:732-734, 755-779, 736-742 -/
abbrev Col := Nat → Cell

/-- column of a list of cells; used at rdtools/filtering.py:705-780 -/
def colOf (l : List Cell) : Col := fun i => (l[i]?).join

/-- min-max normalization (rdtools/filtering.py:724-725); a constant series gives 0/0, i.e. NaN -/
def minMax (l : List Cell) : List Cell :=
  match (valids l).max?, (valids l).min? with
  | some mx, some mn =>
    if mx = mn then l.map fun _ => none else l.map fun v => v.map fun x => (x - mn) / (mx - mn)
  | _, _ => l.map fun _ => none

/-- window length from the sampling interval in minutes (rdtools/filtering.py:726-731) -/
def rollWindow (minutes : Int) : Nat :=
  if minutes < 10 then 5 else if minutes < 60 then 3 else 2

/-- `rolling(window=w, center=True)` with an aggregate `g`: the `w` rows ending `(w - 1) / 2` rows
after row `i`; NaN if the window is incomplete or contains NaN (`min_periods` is the window length).
Used in rdtools/filtering.py:732-734, 755-779. -/
def rollC (w : Nat) (g : List ℚ → Cell) (c : Col) : Col := fun i =>
  if w ≤ i + 1 + (w - 1) / 2 then
    ((List.range w).mapM fun j => c (i + 1 + (w - 1) / 2 - w + j)).bind g
  else none

/-- `diff()` (rdtools/filtering.py:736-742) -/
def diffC (c : Col) : Col := fun i => if i = 0 then none else cellOp (· - ·) (c i) (c (i - 1))

/-- `shift(-1)` (rdtools/filtering.py:737, 740-742) -/
def shiftC (c : Col) : Col := fun i => c (i + 1)

/-- sample variance (ddof 1) of a window; stands for the standard deviation;
used at rdtools/filtering.py:705-780 -/
def variance (l : List ℚ) : Cell :=
  match mean l with
  | some m =>
    if l.length ≤ 1 then none
    else some ((l.map fun x => (x - m) ^ 2).sum / ((l.length : ℚ) - 1))
  | none => none

/-- daily maximum of the scaled values (rdtools/filtering.py:748-749) -/
def dailyMax (s : Series) (t : Int) : Cell := (valids (onDay s (dayOf t))).max?

/-- `percent_daily_max` (rdtools/filtering.py:752) -/
def pctDailyMax (v mx : Cell) : Cell := cellOp (fun a b => a / (b + 1/100000)) v mx

/-- the model inputs in the order of rdtools/filtering.py:849-868 -/
structure Features where
  derivBack : ℚ
  derivFwd : ℚ
  derivBackAvg : ℚ
  derivFwdAvg : ℚ
  frequency : Int
  mounting : Int
  scaled : ℚ
  average : ℚ
  dayMax : ℚ
  pctDayMax : ℚ
  derivMax : ℚ
  /-- the square of `deriv_backward_rolling_stdev` -/
  derivVar : ℚ
  derivMean : ℚ
  derivMedian : ℚ
  derivMin : ℚ
  derivMaxRoll : ℚ
  deriving DecidableEq, Repr

/-- `_calculate_xgboost_model_features` (rdtools/filtering.py:705-780) for row `i` (labelled `t`) of a
frame whose scaled values are `s`, with the columns of 830-847; `none` if the row has a NaN and is
dropped (868). The standard deviation is represented by its square. -/
def featureRow (s : Series) (minutes freq : Int) (mounting : String) (i : Nat) (t : Int) :
    Option Features :=
  let w := rollWindow minutes
  let v := colOf s.values
  let avg := rollC w mean v                                              -- 732-734
  let back := diffC v                                                    -- 736
  (back i).bind fun derivBack =>
  (diffC (shiftC v) i).bind fun derivFwd =>                              -- 737
  (diffC avg i).bind fun derivBackAvg =>                                 -- 739
  (diffC (shiftC avg) i).bind fun derivFwdAvg =>                         -- 740-742
  (v i).bind fun scaled =>
  (avg i).bind fun average =>
  (dailyMax s t).bind fun dayMax =>                                      -- 748-749
  (pctDailyMax (some scaled) (some dayMax)).bind fun pctDayMax =>        -- 752
  (colOf (rollingRange w s.values) i).bind fun derivMax =>               -- 744-746
  (rollC w variance back i).bind fun derivVar =>                         -- 755-759
  (rollC w mean back i).bind fun derivMean =>                            -- 760-764
  (rollC w median back i).bind fun derivMedian =>                        -- 765-769
  (rollC w List.min? back i).bind fun derivMin =>                        -- 775-779
  (rollC w List.max? back i).bind fun derivMaxRoll =>                    -- 770-774
  some {
    derivBack, derivFwd, derivBackAvg, derivFwdAvg, frequency := freq,
    mounting := if mounting = "single_axis_tracking" then 1 else 0,      -- 842-847
    scaled, average, dayMax, pctDayMax, derivMax, derivVar, derivMean, derivMedian, derivMin,
    derivMaxRoll }

/-- `resample("5min").mean()` (rdtools/filtering.py:835); midnight-anchored bins -/
def resample5 (s : Series) : Series :=
  let q := 5 * minuteNs
  let a := (s.index.headD 0) / q
  let b := (s.index.getLastD 0) / q
  (List.range (b - a + 1).toNat).map fun k : Nat =>
    ((a + (k : Int)) * q,
      mean (valids ((s.filter fun r => decide (r.1 / q = a + (k : Int))).map Prod.snd)))

/-- the frame handed to the feature calculation (rdtools/filtering.py:823-835). The frequency string
"0min" of an interval below a minute makes `date_range` divide by zero. -/
def xgbGrid (s : Series) (minutes : Int) : Except PyErr Series :=
  if minutes = 0 then .error .zeroDivisionError else
  (interpolateSeries s (dateRange (s.index.headD 0) (s.index.getLastD 0) (minutes * minuteNs))
    none).map fun g => if minutes < 5 then resample5 g else g

/-- a series with its values replaced; used at rdtools/filtering.py:830-868, 783-925 -/
def withValues (s : Series) (l : List Cell) : Series := s.index.zip l

/-- the rows of features of a frame, without those that contain NaN
(rdtools/filtering.py:830-868) -/
def featureTable (g : Series) (minutes : Int) (mounting : String) : List (Int × Features) :=
  let s := withValues g (minMax g.values)                                -- 724-725
  (List.range s.length).filterMap fun i =>
    (s[i]?).bind fun r =>
      (featureRow s minutes (if minutes < 5 then 5 else minutes) mounting i r.1).map
        fun x => (r.1, x)

/-- the predictions at the labels of the given index (rdtools/filtering.py:871-879); `predict` must
give one prediction per row, else setting the index raises ValueError (875) -/
def predictions (predict : List Features → List Bool) (table : List (Int × Features))
    (index : List Int) : Except PyErr (List Bool) :=
  let p := predict (table.map Prod.snd)
  if p.length ≠ table.length then .error .valueError
  else .ok (index.map fun t => (lastLabelLe ((table.map Prod.fst).zip p) t).getD false)

/-- readings predicted to clip (rdtools/filtering.py:823-879) -/
def xgbPredict (predict : List Features → List Bool) (s : Series) (minutes : Int) (mounting : String) :
    Except PyErr (List Bool) :=
  (xgbGrid s minutes).bind fun g => predictions predict (featureTable g minutes mounting) s.index

/-- scaled values of the readings predicted to clip (rdtools/filtering.py:886-887) -/
def clippedRows (s : Series) (pred : List Bool) : Series :=
  ((s.zip pred).filter fun x => x.2).map Prod.fst

/-- the day whose levels are used for the day `d` (rdtools/filtering.py:890-897): the daily levels
exist from the first to the last day with a predicted reading and are forward-filled by label -/
def levelDay (clip : Series) (d : Int) : Option Int :=
  match clip.head?, clip.getLast? with
  | some a, some b => if dayOf a.1 ≤ d then some (min d (dayOf b.1)) else none
  | _, _ => none

/-- `(daily_clipping_min, daily_clipping_max)` at day `d` (rdtools/filtering.py:890-897) -/
def xgbLevels (clip : Series) (d : Int) : Cell × Cell :=
  match levelDay clip d with
  | some e => ((valids (onDay clip e)).min?, (valids (onDay clip e)).max?)
  | none => (none, none)

/-- the final verdict on a scaled reading (rdtools/filtering.py:898-923), True means clipping -/
def xgbClipped (minutes : Int) (lo hi v dmax : Cell) : Bool :=
  match lo, hi, v, pctDailyMax v dmax with
  | some lo, some hi, some v, some p =>
    let cut := if minutes < 5 then max lo (hi * (96/100)) else lo        -- 899-906, 916
    decide (cut ≤ v) && decide ((if minutes < 5 then 9/10 else 95/100) ≤ p)
      && decide (v ≤ hi * (10025/10000)) && decide (1/10 ≤ v)
  | _, _, _, _ => false

/-- `xgboost_clip_filter` (rdtools/filtering.py:783-925): True means "not clipping". Loading the model
(813) is in `Verif.Model.ClipLoad`; the warning of line 818 is `samplingWarning`. -/
def xgbClipFilter (predict : List Features → List Bool) (s : Series) (mounting : String := "fixed") :
    Except PyErr (List Bool) :=
  (formatClipping (.datetime s.index) mounting).bind fun _ =>            -- 815
  match modeMin (stepsOf s.index) with                                   -- 820-822
  | none => .error .keyError        -- unreachable: more than ten readings
  | some f =>
    let minutes := f / minuteNs
    (xgbPredict predict s minutes mounting).bind fun pred =>
    let sc := withValues s (minMax s.values)                             -- 883-884
    let clip := clippedRows sc pred
    .ok (sc.map fun r =>
      !xgbClipped minutes (xgbLevels clip (dayOf r.1)).1 (xgbLevels clip (dayOf r.1)).2 r.2
        (dailyMax sc r.1))

end Verif.Clip
