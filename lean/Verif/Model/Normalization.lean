import Verif.Model.Frame
import Verif.Model.Flt

/-! # rdtools/normalization.py -/

namespace Verif

/-- The gap limit in ns (rdtools/normalization.py:585-588): the given `max_timedelta`, or twice the
median gap between the valid timestamps `valid` (NaN when there is no gap). -/
def gapLimit (valid : List Int) (maxTd : Option ℚ) : Cell :=
  match maxTd with
  | none => (median (valids ((gaps valid).map Prod.snd))).map (2 * ·)
  | some m => some m

/-- `_interpolate_series` (rdtools/normalization.py:533-621).
* `maxTd = some m`: `max_timedelta.total_seconds()*1e9` (line 588); `none`: twice the median gap
  (line 586).
* Lines 590-595 (warning) have no effect on the result and are omitted.
* Lines 616-619 (tz conversion, restoring the name) are identity on integer timestamps; the target
  index is assumed duplicate-free.
* A duplicated valid timestamp makes `df.reindex` (line 601) raise ValueError. -/
def interpolateSeries (ts : Series) (target : List Int) (maxTd : Option ℚ) :
    Except PyErr (List (Int × Cell)) :=
  let df := dropna ts                                                  -- 575
  let valid := df.map Prod.fst                                         -- 578-583
  let gapsize := gaps valid                                            -- 580
  let maxNs := gapLimit valid maxTd                                    -- 585-588
  if ¬ valid.Nodup then .error .valueError else
  let union := sortedUnion (valid ++ target)                           -- 598-602
  let gap1 := bfillK (reindexK gapsize union)                          -- 601, 605
  let gap2 := gap1.map fun r => if r.1 ∈ valid then (r.1, some 0) else r   -- 606
  let dfValid := (gap2.filter fun r => cellCmp (fun a b => decide (a ≤ b)) r.2 maxNs).map fun r =>
    (r.1, lookupK (toSeries df) r.1)                                   -- 609
  let interp := interpFrom none dfValid                                -- 610-611
  .ok (target.map fun t => (t, lookupK interp t))                      -- 613-619

/-- `_t_step_nanoseconds` (rdtools/normalization.py:341-349) -/
def tStepNs (index : List Int) : List (Int × Cell) := gaps index

/-- Labels of `resample(freq, closed='right', label='right', origin='start')`
(rdtools/normalization.py:481-483, 526-528) for a sorted index from `t0` to `tn`:
`t0, t0+f, ..., t0 + ceil((tn-t0)/f)*f`. -/
def rightLabels (t0 tn f : Int) : List Int :=
  (List.range ((tn - t0 + f - 1) / f + 1).toNat).map fun k : Nat => t0 + (k : Int) * f

/-- `power_type`; used at rdtools/normalization.py:453-530, 352-450 -/
inductive PowerType where
  | instantaneous
  | rightLabeled
  | other            -- any other string
  deriving DecidableEq, Repr

/-- nanoseconds per hour: `10**9 * 3600` (rdtools/normalization.py:507) -/
def hourNs : ℚ := 3600000000000

/-- Rectangular sum terms (rdtools/normalization.py:519): value at the right end times the width of
the preceding interval in hours, labelled by the right end. -/
def rectTerms : Int → List (Int × Cell) → List (Int × Cell)
  | _, [] => []
  | p, (t, v) :: l => (t, v.map fun x => x * (((t : ℚ) - p) / hourNs)) :: rectTerms t l

/-- Trapezoidal sum terms (rdtools/normalization.py:513). -/
def trapTerms : Int × Cell → List (Int × Cell) → List (Int × Cell)
  | _, [] => []
  | (p, vp), (t, v) :: l =>
    (t, cellOp (fun x y => (x + y) / 2 * (((t : ℚ) - p) / hourNs)) v vp) :: trapTerms (t, v) l

/-- `.sum(min_count=1)`: NaN if there is no non-NaN term.
Used at rdtools/normalization.py:453-530. -/
def sumMinCount1 (l : List Cell) : Cell :=
  match valids l with
  | [] => none
  | v => some v.sum

/-- `_aggregate` (rdtools/normalization.py:453-530) for a sorted, duplicate-free index and a
fixed-length frequency of `f` ns. An empty series makes line 501 raise IndexError. -/
def aggregate (ts : Series) (f : Int) (maxNs : ℚ) (ty : PowerType) :
    Except PyErr (List (Int × Cell)) :=
  match ts.map Prod.fst with
  | [] => .error .indexError
  | t0 :: trest =>
    let tn := (t0 :: trest).getLastD t0
    let labels := rightLabels t0 tn f                                   -- 481-483
    let union := sortedUnion ((t0 :: trest) ++ labels)                  -- 485
    let d := dropna ts                                                  -- 486
    let tDiffs := reindexBfill (gaps (d.map Prod.fst)) union            -- 491-496
    match d with
    | [] => .error .indexError                                          -- 501
    | (d0, _) :: _ =>
      let masked (r : Int × Cell) : Bool :=                             -- 500-503
        cellCmp (fun a b => decide (a > b)) r.2 (some maxNs) ||
          (decide (d0 ≠ union.headD d0) && decide (r.1 ≤ d0))
      let gapMask := tDiffs.map masked
      let vals0 := reindexK (toSeries d) union                          -- 505
      let fill (filled : List (Int × Cell)) : List (Int × Cell) :=
        (filled.zip gapMask).map fun x => if x.2 then (x.1.1, none) else x.1   -- 511, 517
      let bin (terms : List (Int × Cell)) : List (Int × Cell) :=        -- 526-530
        (labels.map fun L =>
          (L, sumMinCount1 ((terms.filter fun r => decide (L - f < r.1 ∧ r.1 ≤ L)).map
            Prod.snd))).tail
      match ty with
      | .instantaneous =>                                               -- 508-513
        let v := fill (interpFrom none vals0)
        match v with
        | [] => .error .indexError
        | r :: l => .ok (bin ((r.1, none) :: trapTerms r l))
      | .rightLabeled =>                                                -- 514-519
        let v := fill (bfillK vals0)
        match v with
        | [] => .error .indexError
        | r :: l => .ok (bin ((r.1, none) :: rectTerms r.1 l))
      | .other => .error .valueError                                    -- 520-522

/-- `date_range(min, max, freq=f)` (rdtools/normalization.py:665-667) for a fixed frequency -/
def dateRange (a b f : Int) : List Int :=
  (List.range ((b - a) / f + 1).toNat).map fun k : Nat => a + (k : Int) * f

/-- `energy_from_power` (rdtools/normalization.py:352-450) for a DatetimeIndex (line 385 checks the
type), sorted and duplicate-free, and fixed frequencies in ns. `indexFreq` is `power.index.freq`.
Lines 423-432 (non-fixed frequencies such as months) are not modelled, nor is the `freq` attribute
of the result (438-442). -/
def energyFromPower (power : Series) (targetFreq : Option Int) (maxTd : Option ℚ)
    (ty : PowerType) (indexFreq : Option Int) : Except PyErr (List (Int × Cell)) :=
  if power.length ≤ 1 then                                               -- 389
    if ty = .instantaneous then .error .valueError else                  -- 392-394
    match targetFreq, indexFreq with                                     -- 395-399
    | none, none => .error .valueError
    | some f, _ => .ok (power.map fun r => (r.1, r.2.map fun x => x * f / hourNs))   -- 401-406
    | none, some f => .ok (power.map fun r => (r.1, r.2.map fun x => x * f / hourNs))
  else
    let tSteps := tStepNs (power.map Prod.fst)                           -- 408
    match median (valids (tSteps.map Prod.snd)) with                     -- 409
    | none => .error .valueError   -- unreachable: two or more rows give a step
    | some medianStep =>
      let f : Int := targetFreq.getD ⌊medianStep⌋                        -- 411-412 `int(...)`
      let maxNs : ℚ := maxTd.getD medianStep                             -- 414-417
      let t0 := (power.map Prod.fst).headD 0
      let tn := (power.map Prod.fst).getLastD 0
      let power' : Except PyErr Series :=                                -- 434-435
        if (f : ℚ) ≤ medianStep then interpolateSeries power (dateRange t0 tn f) (some maxNs)
        else .ok power
      power'.bind fun p =>
      (aggregate p f maxNs ty).bind fun energy =>                        -- 436
      .ok (energy.map fun r =>                                           -- 445-446
        if cellCmp (fun a b => decide (a > b)) (firstLabelGe tSteps r.1) (some maxNs)
        then (r.1, none) else r)

/-- `interpolate` (rdtools/normalization.py:624-688) on a frame given as named columns over a
common index; `tzS`, `tzT`: whether the source / target index is tz-aware. -/
def interpolateFrame (index : List Int) (cols : List (String × List Cell)) (tzS tzT : Bool)
    (target : List Int) (maxTd : Option ℚ) : Except PyErr (List (String × List (Int × Cell))) :=
  if xor (!tzS) (!tzT) then .error .valueError                           -- 669-672
  else cols.mapM fun c =>                                                -- 677-684
    (interpolateSeries (index.zip c.2) target maxTd).map fun s => (c.1, s)

/-- `interpolate` on a Series (rdtools/normalization.py:669-676) -/
def interpolate (ts : Series) (tzS tzT : Bool) (target : List Int) (maxTd : Option ℚ) :
    Except PyErr (List (Int × Cell)) :=
  if xor (!tzS) (!tzT) then .error .valueError
  else interpolateSeries ts target maxTd

/-- `pvwatts_dc_power` (rdtools/normalization.py:74-119) on one timestamp; `none` cells are NaN.
`tcell = none` / `gamma = none` stand for arguments left out. `poa_global_ref ≠ 0` is assumed
(numpy would give an infinity otherwise). -/
def pvwattsDcPower (poa : Cell) (rated : ℚ) (tcell : Option Cell) (poaRef tRef : ℚ)
    (gamma : Option ℚ) : Cell :=
  let power := poa.map fun g => rated * g / poaRef                       -- 111
  match tcell, gamma with                                                -- 113-117
  | some tc, some g => cellOp (· * ·) power (tc.map fun x => 1 + g * (x - tRef))
  | _, _ => power

/-- The iterative branch of `irradiance_rescale` (rdtools/normalization.py:272-283) after the
initial guess. `opt` is one `_single_rescale` call (Nelder–Mead); `n` counts the iterations still
allowed (`max_iterations - iteration`); the last component counts optimizations. -/
def rescaleLoop (opt : Flt → Flt) (thr : ℚ) : Nat → Flt → Flt → Nat → Except PyErr (Flt × Flt × Nat)
  | n, prev, factor, calls =>
    if Flt.lt (.fin thr) (Flt.abs (Flt.sub factor prev)) then            -- 277
      match n with
      | 0 => .error .convergenceError                                    -- 279-281
      | n + 1 => rescaleLoop opt thr n factor (opt factor) (calls + 1)   -- 282-283
    else .ok (factor, prev, calls)

/-- `method`; used at rdtools/normalization.py:216-305 -/
inductive RescaleMethod where
  | iterative | singleOpt | other
  deriving DecidableEq, Repr

/-- Result of a rescale: the factor applied to the simulated irradiance, and the number of
optimizer runs. Used at rdtools/normalization.py:216-305. -/
structure Rescaled where
  factor : Flt
  optimizations : Nat
  deriving DecidableEq, Repr

/-- `irradiance_rescale` (rdtools/normalization.py:216-305). `guess` is the ratio of 90th
percentiles (270-271, 296-297); the returned series is `factor * irrad_sim` (285, 301). -/
def irradianceRescale (method : RescaleMethod) (guess : Flt) (opt : Flt → Flt) (maxIter : Int)
    (thr : ℚ) : Except PyErr Rescaled :=
  match method with
  | .iterative => (rescaleLoop opt thr maxIter.toNat (.fin 1) guess 0).map fun r => ⟨r.1, r.2.2⟩
  | .singleOpt => .ok ⟨opt guess, 1⟩
  | .other => .error .valueError

end Verif
