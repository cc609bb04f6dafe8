import Verif.Model.Rescale

/-!
# The modelled clear-sky irradiance (rdtools/analysis_chains.py:307-379)

`sim t` stands for the plane-of-array irradiance that pvlib computes for the time `t` (sun position, clear-sky model and
transposition, lines 341-360); tilt, azimuth and albedo are numbers. Given as series they would be aligned with the simulated
times, which is not modelled.
-/

namespace Verif

/-- one minute in ns; used at rdtools/analysis_chains.py:327-329 -/
def simStep : Int := 60 * 1000000000

/-- `pd.date_range(first, last, freq="1min")` (rdtools/analysis_chains.py:327-329) -/
def minuteTimes (first last : Int) : List Int :=
  (List.range ((last - first) / simStep + 1).toNat).map fun k : Nat => first + k * simStep

/-- `interval_id.reindex(times, method="backfill")` (rdtools/analysis_chains.py:363-366): the position of the first timestamp not
before `t` -/
def backfillId (index : List Int) (t : Int) : Option Nat := index.findIdx? fun u => decide (t ≤ u)

/-- `clearsky_poa.groupby(interval_id).mean()` (rdtools/analysis_chains.py:367): one value per id that occurs, in ascending
order, missing values skipped -/
def groupMeans (index times : List Int) (sim : Int → Cell) : List Cell :=
  ((List.range index.length).filter fun k => times.any fun t => decide (backfillId index t = some k)).map fun k =>
    mean (valids ((times.filter fun t => decide (backfillId index t = some k)).map sim))

/-- the simulation on default times (rdtools/analysis_chains.py:325-330, 362-369). An empty index has no first time
(ValueError); backfilling needs an index without duplicates in ascending order (a descending one is not modelled); the averages
have to be as many as the timestamps. -/
def averagedClearsky (sim : Int → Cell) (index : List Int) : Except PyErr (List Cell) :=
  match index with
  | [] => .error .valueError
  | t0 :: _ =>
    if ¬ index.Pairwise (· < ·) then .error .valueError else
    let g := groupMeans index (minuteTimes t0 (index.getLastD t0)) sim
    if g.length ≠ index.length then .error .valueError else
    .ok (none :: g.tail)                                                -- 369

/-- `_calc_clearsky_poa` after the checks of the attributes (rdtools/analysis_chains.py:307-379). `times = none` is the default. -/
def clearskyPoaSeries (minimize : (ℚ → Cell) → Flt → Flt) (sim : Int → Cell) (times : Option (List Int)) (rescale : Bool)
    (poa : Series) : Except PyErr (List (Int × Flt)) :=
  let simulated : Except PyErr Series :=
    match times with
    | some ts => .ok (ts.map fun t => (t, sim t))
    | none => (averagedClearsky sim (poa.map Prod.fst)).map fun v => (poa.map Prod.fst).zip v
  simulated.bind fun cs =>
  if rescale then
    if cs.map Prod.fst ≠ poa.map Prod.fst then .error .valueError       -- 372-375
    else
      (irradianceRescaleSeries minimize .iterative (List.zipWith (fun p c => (p.2, c.2)) poa cs) 100
        (1 / 1000000)).map fun out => (cs.map Prod.fst).zip out         -- 377-379
  else .ok (cs.map fun r => (r.1, Flt.ofCell r.2))

end Verif
