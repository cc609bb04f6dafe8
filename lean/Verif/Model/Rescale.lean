import Verif.Model.Normalization
import Verif.Model.Stats

/-!
# irradiance_rescale on the data (rdtools/normalization.py:216-305)

`Verif.Model.Normalization` models the control flow for an arbitrary optimizer. Here the first guess, the clear-sky filter and
the objective are computed from the two series; only `scipy.optimize.minimize` stays a parameter. Measured and modelled
irradiance share one index: a row is a pair (measured, modelled). The square root of the objective is left out, which moves no
minimum.
-/

namespace Verif

/-- a pair of measured and modelled irradiance; used at rdtools/normalization.py:249-301 -/
abbrev IrrRow := Cell × Cell

/-- first guess: the ratio of the 90th percentiles (rdtools/normalization.py:270-271, 296-297) -/
def rescaleGuess (rows : List IrrRow) : Except PyErr Flt :=
  (percentileE (valids (rows.map Prod.fst)) 90).bind fun a =>
  (percentileE (valids (rows.map Prod.snd)) 90).bind fun b =>
  .ok (Flt.ofDiv a b)

/-- `csi >= 0.8` and `csi <= 1.2` for `csi = irrad / (fact * irrad_sim)` (rdtools/normalization.py:262-263, 290-291) -/
def csiNear (fact : ℚ) (r : IrrRow) : Bool :=
  let csi := Flt.div (Flt.ofCell r.1) (Flt.ofCell (r.2.map (fact * ·)))
  Flt.le (.fin (8 / 10)) csi && Flt.le csi (.fin (12 / 10))

/-- the filter of the iterative method (rdtools/normalization.py:263); an infinite or NaN factor gives an index of 0 or NaN and
selects nothing -/
def clearFilter (fact : Flt) (r : IrrRow) : Bool :=
  match fact with
  | .fin g => csiNear g r && cellCmp (fun a b => decide (a > b)) r.1 (some 200)
  | _ => false

/-- `(difference**2.0).mean()` over the selected rows (rdtools/normalization.py:255-257, 292-293); NaN without a row -/
def meanSquare (fact : ℚ) (rows : List IrrRow) : Cell :=
  mean (valids (rows.map fun r => (cellOp (fun a b => a - b) (r.2.map (fact * ·)) r.1).map fun d => d ^ 2))

/-- `_single_rescale` (rdtools/normalization.py:260-267): the filter is fixed from the guess, then the factor optimized.
`minimize` takes the objective and the start -/
def singleRescale (minimize : (ℚ → Cell) → Flt → Flt) (rows : List IrrRow) (guess : Flt) : Flt :=
  minimize (fun x => meanSquare x (rows.filter (clearFilter guess))) guess

/-- the optimization of `method='single_opt'` (rdtools/normalization.py:288-299): the filter moves with the factor -/
def singleOpt (minimize : (ℚ → Cell) → Flt → Flt) (rows : List IrrRow) (guess : Flt) : Flt :=
  minimize (fun x => meanSquare x (rows.filter (csiNear x))) guess

/-- `factor * irrad_sim` on one row (rdtools/normalization.py:285, 301); an infinite factor times zero is NaN -/
def timesCell (f : Flt) (c : Cell) : Flt :=
  match f, c with
  | .nan, _ => .nan
  | _, none => .nan
  | .fin q, some x => .fin (q * x)
  | .pinf, some x => if x = 0 then .nan else if 0 < x then .pinf else .ninf
  | .ninf, some x => if x = 0 then .nan else if 0 < x then .ninf else .pinf

/-- `irradiance_rescale` (rdtools/normalization.py:216-305) from the series to the returned series -/
def irradianceRescaleSeries (minimize : (ℚ → Cell) → Flt → Flt) (method : RescaleMethod) (rows : List IrrRow)
    (maxIter : Int) (thr : ℚ) : Except PyErr (List Flt) :=
  match method with
  | .iterative =>
    (rescaleGuess rows).bind fun guess =>
    (irradianceRescale .iterative guess (singleRescale minimize rows) maxIter thr).map fun r =>
      rows.map fun row => timesCell r.factor row.2
  | .singleOpt =>
    (rescaleGuess rows).bind fun guess =>
    (irradianceRescale .singleOpt guess (singleOpt minimize rows) maxIter thr).map fun r =>
      rows.map fun row => timesCell r.factor row.2
  | .other => .error .valueError

end Verif
