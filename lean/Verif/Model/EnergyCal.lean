import Verif.Model.Normalization
import Verif.Model.Aggregation
import Verif.Model.Calendar

/-! # `energy_from_power` for calendar frequencies (months, quarters, years) -/

namespace Verif

/-- the points of a calendar frequency: midnight of the first day of every `k`-th month, counted from January of year 0 ('MS':
`k = 1`, 'QS': `k = 3`, 'YS': `k = 12`); used at rdtools/normalization.py:425-427, 481-483, 526-528 -/
def calPoint (k q : Int) : Int := dayNumber ⟨k * q / 12, k * q % 12 + 1, 1⟩ * dayNs

/-- number of the last point on or before the day of a timestamp; used at rdtools/normalization.py:481-483, 526-528 -/
def calNo (k t : Int) : Int := monthNo (t / dayNs) / k

/-- number of the last point before the day of a timestamp; used at rdtools/normalization.py:481-483, 526-528 -/
def calBefore (k t : Int) : Int :=
  if calPoint k (calNo k t) = startDay t then calNo k t - 1 else calNo k t

/-- the edges that pandas lays over an index from `first` to `last` (`closed="right"`): the points from the last one before the day of
`first` to the first one after the day of `last`; used at rdtools/normalization.py:481-483, 526-528 -/
def calGrid (k first last : Int) : List Int :=
  (intRange (calBefore k first) (calNo k last + 2 - calBefore k first).toNat).map (calPoint k)

/-- `_aggregate` (rdtools/normalization.py:453-530) with the edges of its two calls of `resample`: `grid` over the index of
`ts` (481-483) and `edges` over the union of it with the labels (526-528); bin `k` is `(edges k, edges (k+1)]`, labelled
by its right edge -/
def aggregateEdges (ts : Series) (grid : List Int) (edges : List Int → List Int) (maxNs : ℚ) (ty : PowerType) :
    Except PyErr (List (Int × Cell)) :=
  let labels := grid.tail                                               -- 481-483
  let union := sortedUnion (ts.map Prod.fst ++ labels)                  -- 485
  let d := dropna ts                                                    -- 486
  let tDiffs := reindexBfill (gaps (d.map Prod.fst)) union              -- 491-496
  match d with
  | [] => .error .indexError                                            -- 501
  | (d0, _) :: _ =>
    let masked (r : Int × Cell) : Bool :=                               -- 500-503
      cellCmp (fun a b => decide (a > b)) r.2 (some maxNs) ||
        (decide (d0 ≠ union.headD d0) && decide (r.1 ≤ d0))
    let gapMask := tDiffs.map masked
    let vals0 := reindexK (toSeries d) union                            -- 505
    let fill (filled : List (Int × Cell)) : List (Int × Cell) :=
      (filled.zip gapMask).map fun x => if x.2 then (x.1.1, none) else x.1   -- 511, 517
    let bin (terms : List (Int × Cell)) : List (Int × Cell) :=          -- 526-530
      (((edges union).zip (edges union).tail).map fun e : Int × Int =>
        (e.2, sumMinCount1 ((terms.filter fun r => decide (e.1 < r.1 ∧ r.1 ≤ e.2)).map Prod.snd))).tail
    match ty with
    | .instantaneous =>                                                 -- 508-513
      let v := fill (interpFrom none vals0)
      match v with
      | [] => .error .indexError
      | r :: l => .ok (bin ((r.1, none) :: trapTerms r l))
    | .rightLabeled =>                                                  -- 514-519
      let v := fill (bfillK vals0)
      match v with
      | [] => .error .indexError
      | r :: l => .ok (bin ((r.1, none) :: rectTerms r.1 l))
    | .other => .error .valueError                                      -- 520-522

/-- `_aggregate` (rdtools/normalization.py:453-530) for a non-fixed frequency whose points are at month starts (every `k`-th month)
and a sorted, duplicate-free index. Frequencies at period ends ('ME'), whose labels differ from the edges, are not modelled. -/
def aggregateCal (ts : Series) (k : Int) (maxNs : ℚ) (ty : PowerType) : Except PyErr (List (Int × Cell)) :=
  match ts with
  | [] => .error .indexError                                            -- 501
  | r :: rest =>
    aggregateEdges ts (calGrid k r.1 (rest.getLastD r).1)
      (fun union => calGrid k (union.headD 0) (union.getLastD 0)) maxNs ty

/-- `energy_from_power` (rdtools/normalization.py:352-450) with a non-fixed target frequency: every
`k`-th month, see `calPoint`. `inner`: `pd.date_range(first, last, freq)` of lines 425-427 and of `interpolate` (665-667). With at
most one row the length of the frequency is undefined and line 401-402 raises ValueError. -/
def energyFromPowerCal (power : Series) (k : Int) (inner : List Int) (maxTd : Option ℚ) (ty : PowerType) :
    Except PyErr (List (Int × Cell)) :=
  if power.length ≤ 1 then .error .valueError                            -- 389-402
  else
    let tSteps := tStepNs (power.map Prod.fst)                           -- 408
    match median (valids (tSteps.map Prod.snd)) with                     -- 409
    | none => .error .valueError   -- unreachable: two or more rows give a step
    | some medianStep =>
      let maxNs : ℚ := maxTd.getD medianStep                             -- 414-417
      let size := median (valids ((tStepNs inner).map Prod.snd))         -- 425-430
      let power' : Except PyErr Series :=                                -- 434-435
        if cellCmp (fun a b => decide (a ≤ b)) size (some medianStep) then interpolateSeries power inner (some maxNs)
        else .ok power
      power'.bind fun p =>
      (aggregateCal p k maxNs ty).bind fun energy =>                  -- 436
      .ok (energy.map fun r =>                                           -- 445-446
        if cellCmp (fun a b => decide (a > b)) (firstLabelGe tSteps r.1) (some maxNs)
        then (r.1, none) else r)

end Verif
