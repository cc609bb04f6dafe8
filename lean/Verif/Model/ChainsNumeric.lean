import Verif.Model.Chains
import Verif.Model.Normalize
import Verif.Model.Utilities
import Verif.Model.Filtering
import Verif.Model.ClipXgb

/-!
# `TrendAnalysis` with its own numerical functions (rdtools/analysis_chains.py)

The parts of the environment of `Model/Chains` that see the measured power and energy: the constructor, the
two normalizations and the clipping filter, put together from the models of rdtools/normalization.py,
rdtools/utilities.py and rdtools/filtering.py. Everything that only sees normalized data, irradiance,
temperatures or aggregates remains a parameter.
-/

namespace Verif.Chains

/-- a finite float, otherwise NaN; used at rdtools/analysis_chains.py:496, 556-560 -/
def finiteCell : Flt → Cell
  | .fin q => some q
  | _ => none

/-- `energy_normalized[np.isfinite(energy_normalized)]` as a list of values (rdtools/analysis_chains.py:496) -/
def finiteValues (n : List (Int × Flt)) : List Cell :=
  n.filterMap fun r => (finiteCell r.2).map some

/-- division by the robust 95 % quantile if no nameplate power was given
(rdtools/analysis_chains.py:493-498) -/
def renormalize (rated : Option ℚ) (n : List (Int × Flt)) : List (Int × Flt) :=
  match rated with
  | some _ => n
  | none =>
    let q := robustQuantile (finiteValues n) (95/100)                          -- 496
    n.map fun r => (r.1, Flt.div r.2 (Flt.ofCell q))                           -- 498

/-- The normalized energy as a column of the chain. Simplification: an infinite value is stored as NaN; both are
rejected by `normalized_filter` with any bounds (rdtools/analysis_chains.py:556-560). -/
def finiteCells (n : List (Int × Flt)) : Series :=
  n.map fun r => (r.1, finiteCell r.2)

/-- irradiance and cell temperature as rows. Both were put on the index of the measurements by the constructor or
computed on it, so one index is enough (rdtools/analysis_chains.py:119-128, 479-486). -/
def weatherRows (poa tcell : Series) : List (Int × Cell × Cell) :=
  poa.map fun r => (r.1, r.2, lookupK tcell r.1)

/-- `_pvwatts_norm` (rdtools/analysis_chains.py:449-500). `freq` is the frequency pandas infers for an index
(rdtools/normalization.py:326-334). -/
def pvwattsNorm (rated gamma : Option ℚ) (freq : List Int → Option Int) (energy poa tcell : Series) :
    Except PyErr (Series × Series) :=
  (normalizeWithPvwatts energy (weatherRows poa tcell) (rated.getD 1) 1000 25 true gamma
    (freq (energy.map Prod.fst))).map fun r => (finiteCells (renormalize rated r.1), r.2)

/-- `normalize_with_expected_power(self.pv_energy, self.power_expected, poa, pv_input="energy")`
(rdtools/analysis_chains.py:899-902, 953-959) -/
def expectedNorm (freq : List Int → Option Int) (energy expected poa : Series) :
    Except PyErr (Series × Series) :=
  (normalizeWithExpectedPower energy expected poa (freq (energy.map Prod.fst)) .energy).map fun r =>
    (finiteCells r.1, r.2)

/-- the parsed keyword arguments of `clip_filter` (rdtools/filtering.py:295-332); `rejected` stands for arguments that
make the call itself fail -/
inductive ClipArgs where
  | quantile (q : ℚ)
  | logic (mounting : String) (cutoff : ℚ) (roll : Option Nat)
  | xgboost (mounting : String)
  | rejected (e : PyErr)

/-- the verdicts of `clip_filter` (rdtools/filtering.py:324-331). `predict` is the trained model of the xgboost
filter. -/
def clipVerdicts (predict : List Clip.Features → List Bool) (p : Series) : ClipArgs → Except PyErr (List Bool)
  | .quantile q => quantileClipFilter (p.map Prod.snd) q
  | .logic m cut k => Clip.logicClipFilter p m cut k
  | .xgboost m => Clip.xgbClipFilter predict p m
  | .rejected e => .error e

/-- `clip_filter(self.pv_power, **kwargs)` as a boolean Series (rdtools/analysis_chains.py:580-583) -/
def clipMask (predict : List Clip.Features → List Bool) (a : ClipArgs) (p : Series) : Except PyErr BMask :=
  (clipVerdicts predict p a).map fun v => (p.map Prod.fst).zip v

/-- what the numerical environment depends on: nameplate power, temperature coefficient, pandas' frequency
inference, the trained clipping model, the meaning of the keyword arguments of the clipping filter;
used at rdtools/analysis_chains.py:449-500, 573-583 -/
structure Numeric where
  rated : Option ℚ
  gamma : Option ℚ
  freq : List Int → Option Int
  predict : List Clip.Features → List Bool
  clipArgs : String → ClipArgs

variable {Loc ρ σ : Type}

/-- the environment with the functions that see the measured power and energy filled in, the others taken from `rest`;
used at rdtools/analysis_chains.py:449-500, 573-583, 899-902 -/
def numericEnv (n : Numeric) (rest : Env Loc ρ σ) : Env Loc ρ σ :=
  { rest with
    clipF := fun kw p => clipMask n.predict (n.clipArgs kw) p
    pvwattsNorm := pvwattsNorm n.rated n.gamma n.freq
    expectedNorm := expectedNorm n.freq }

/-- the arguments of the constructor that matter here (rdtools/analysis_chains.py:99-114); `isPower` is
`pv_input == "power"`, otherwise it is "energy"; `indexFreq` is `pv.index.freq` -/
structure Args where
  pv : Series
  isPower : Bool
  poa : Option Series
  tcell : Option Series
  tamb : Option Series
  expected : Option Series
  aggDaily : Bool
  interpFreq : Option Int
  maxTd : Option ℚ
  indexFreq : Option Int

/-- `interpolate(pv, interp_freq, max_timedelta)` if a frequency was given (rdtools/analysis_chains.py:116-117,
rdtools/normalization.py:664-667); an empty index has no first and last timestamp -/
def regularize (a : Args) : Except PyErr Series :=
  match a.interpFreq with
  | none => .ok a.pv
  | some f =>
    if a.pv = [] then .error .valueError else
    interpolateSeries a.pv (dateRange ((a.pv.map Prod.fst).headD 0) ((a.pv.map Prod.fst).getLastD 0) f) a.maxTd

/-- an optional argument, interpolated onto the index of the measurements (rdtools/analysis_chains.py:119-132) -/
def ontoIndex (idx : List Int) (maxTd : Option ℚ) (x : Option Series) : Except PyErr (Option Series) :=
  match x with
  | none => .ok none
  | some x => (interpolateSeries x idx maxTd).map some

/-- `__init__` (rdtools/analysis_chains.py:99-202). Not modelled: a wind speed given as Series, mixed time zones. -/
def construct (a : Args) : Except PyErr (TA Loc ρ σ) :=
  (regularize a).bind fun pv =>                                                          -- 116-117
  (ontoIndex (pv.map Prod.fst) a.maxTd a.poa).bind fun poa =>                            -- 119-120
  (ontoIndex (pv.map Prod.fst) a.maxTd a.tcell).bind fun tcell =>                        -- 121-124
  (ontoIndex (pv.map Prod.fst) a.maxTd a.tamb).bind fun tamb =>                          -- 125-128
  (ontoIndex (pv.map Prod.fst) a.maxTd a.expected).bind fun expected =>                  -- 129-132
  (if a.isPower then energyFromPower pv none a.maxTd .rightLabeled                       -- 136-143
      (a.interpFreq.orElse fun _ => a.indexFreq)
    else .ok pv).bind fun energy =>
  .ok (init (if a.isPower then some pv else none) energy poa tcell tamb expected a.aggDaily)

end Verif.Chains
