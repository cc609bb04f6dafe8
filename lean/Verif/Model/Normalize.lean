import Verif.Model.Normalization
import Verif.Model.Flt

/-! # rdtools/normalization.py: normalization with expected power -/

namespace Verif

/-- mean of `_delta_index` in ns (rdtools/normalization.py:178-211), i.e. the mean index step, NaN
without steps. The unit (hours in the code) does not matter for the comparison at line 57. An index
that carries a `freq` attribute gives the same value when it has two rows or more; for a one-row
index with `freq` the code gives that frequency instead of NaN (not modelled). -/
def meanDelta (index : List Int) : Cell := mean (valids ((gaps index).map Prod.snd))

/-- `a / b` of two Series: aligned on the sorted union of the two indexes, a label missing on one
side gives NaN. Used at rdtools/normalization.py:54-71. -/
def alignDiv (a b : List (Int × Cell)) : List (Int × Flt) :=
  (sortedUnion (a.map Prod.fst ++ b.map Prod.fst)).map fun t =>
    (t, Flt.div (Flt.ofCell (lookupK a t)) (Flt.ofCell (lookupK b t)))

/-- `pv_input`; used at rdtools/normalization.py:15-71 -/
inductive PvInput where
  | power | energy | other
  deriving DecidableEq, Repr

/-- label lookup in a column of floats, NaN if absent; used at rdtools/normalization.py:54-71 -/
def lookupF (K : List (Int × Flt)) (t : Int) : Flt :=
  match K with
  | [] => .nan
  | (u, x) :: l => if u = t then x else lookupF l t

/-- The second half of `normalize_with_expected_power` (rdtools/normalization.py:54-71), once the
energy is known. -/
def normalizeEnergy (energy pv expected poa : Series) (f : Int) :
    Except PyErr (List (Int × Flt) × List (Int × Cell)) :=
  let coarser := cellCmp (fun a b => decide (a > b)) (meanDelta (expected.map Prod.fst))
    (meanDelta (energy.map Prod.fst))                                        -- 54-58
  let interp (s : Series) : Except PyErr Series :=                           -- 59-60
    if coarser then interpolateSeries s (pv.map Prod.fst) none else .ok s
  (interp expected).bind fun expected' =>
  (interp poa).bind fun poa' =>
  (energyFromPower expected' (some f) none .rightLabeled none).bind fun eExp =>   -- 62
  (energyFromPower poa' (some f) none .rightLabeled none).bind fun insol =>       -- 63
  let normalized := alignDiv energy eExp                                     -- 65
  let union := sortedUnion (normalized.map Prod.fst ++ insol.map Prod.fst)   -- 67
  .ok (union.map fun t => (t, lookupF normalized t),                         -- 68
    reindexK insol union)                                                    -- 69

/-- `normalize_with_expected_power` (rdtools/normalization.py:15-71). `freq` is the result of
`_check_series_frequency` (308-335): `none` when no frequency can be inferred. -/
def normalizeWithExpectedPower (pv expected poa : Series) (freq : Option Int) (input : PvInput) :
    Except PyErr (List (Int × Flt) × List (Int × Cell)) :=
  match freq with
  | none => .error .valueError                                               -- 44, 330
  | some f =>
    match input with                                                         -- 46-52
    | .power => (energyFromPower pv (some f) none .rightLabeled none).bind fun energy =>
        normalizeEnergy energy pv expected poa f
    | .energy => normalizeEnergy pv pv expected poa f
    | .other => .error .valueError

/-- `pvwatts_dc_power` on series that share one index: timestamp, irradiance, cell temperature
(rdtools/normalization.py:111-119). -/
def pvwattsSeries (rows : List (Int × Cell × Cell)) (rated poaRef tRef : ℚ) (useT : Bool)
    (gamma : Option ℚ) : Series :=
  rows.map fun r =>
    (r.1, pvwattsDcPower r.2.1 rated (if useT then some r.2.2 else none) poaRef tRef gamma)

/-- `normalize_with_pvwatts` (rdtools/normalization.py:122-175) -/
def normalizeWithPvwatts (energy : Series) (rows : List (Int × Cell × Cell))
    (rated poaRef tRef : ℚ) (useT : Bool) (gamma : Option ℚ) (freq : Option Int) :
    Except PyErr (List (Int × Flt) × List (Int × Cell)) :=
  normalizeWithExpectedPower energy (pvwattsSeries rows rated poaRef tRef useT gamma)
    (rows.map fun r => (r.1, r.2.1)) freq .energy

end Verif
