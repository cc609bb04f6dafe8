import Verif.Model.ChainsNumeric
import Verif.Model.Aggregation
import Verif.Model.Degradation

/-!
# `TrendAnalysis` from the measurements to the degradation rate (rdtools/analysis_chains.py)

The remaining numerical functions of a degradation analysis: the filters of normalized energy, irradiance, cell
temperature and aggregates, the aggregation and the year-on-year rate, from the models of rdtools/filtering.py,
rdtools/aggregation.py and rdtools/degradation.py. What is left as a parameter is the clear-sky physics of pvlib, the
clear-sky filters, the hour angle and the soiling analysis.
-/

namespace Verif.Chains

/-- the two selected Series as rows: both carry the index of the normalization, so one index is enough
(rdtools/normalization.py:67-69, rdtools/analysis_chains.py:904-906) -/
def insolRows (energy insol : Series) : List InsolRow :=
  energy.map fun r => ⟨r.1, lookupK insol r.1, r.2⟩

/-- `insolation.resample(freq, origin="start_day").sum()` (rdtools/analysis_chains.py:779-781); a period without
samples sums to 0 -/
def resampleSum (x : Series) (freq : Int) : Series :=
  match x with
  | [] => []
  | r :: rest =>
    let first := minT r.1 (rest.map Prod.fst)
    let last := maxT r.1 (rest.map Prod.fst)
    let origin := startDay first
    let b0 := binOf origin freq first
    let n := (binOf origin freq last - b0 + 1).toNat
    (intRange b0 n).map fun b =>
      (origin + b * freq, some (skipnaSum (((r :: rest).filter fun x => decide (binOf origin freq x.1 = b)).map
        Prod.snd)))

/-- `_aggregate` (rdtools/analysis_chains.py:758-783). Simplification: an infinite aggregate (possible only if
the insolation of a period adds up to 0 with values of both signs) is stored as NaN. -/
def aggregateNorm (freq : Int) (energy insol : Series) : Series × Series :=
  (finiteCells (aggregationInsol (insolRows energy insol) freq), resampleSum insol freq)

/-- all steps of an index equal `freq`; used at rdtools/analysis_chains.py:919-926 -/
def regularIndex (freq : Int) : List Int → Bool
  | [] => true
  | [_] => true
  | a :: b :: l => decide (b - a = freq) && regularIndex freq (b :: l)

/-- `resample(freq, origin="start_day").asfreq()` (rdtools/analysis_chains.py:919-926): the rows from the first to the last
period, the value if there is a row at exactly the start of the period, otherwise NaN. The periods are counted from midnight of the
first row. If pandas recognizes the frequency of the index (`known`: at least three rows, not whole weeks) as `freq` already,
it keeps the values in their order and only replaces the index. -/
def asfreqGrid (known : List Int → Bool) (freq : Int) (x : Series) : Series :=
  match x with
  | [] => []
  | r :: rest =>
    let first := minT r.1 (rest.map Prod.fst)
    let last := maxT r.1 (rest.map Prod.fst)
    let origin := startDay first
    let b0 := binOf origin freq first
    let n := (binOf origin freq last - b0 + 1).toNat
    let labels := (intRange b0 n).map fun b => origin + b * freq
    if known ((r :: rest).map Prod.fst) && regularIndex freq ((r :: rest).map Prod.fst)
        && decide ((r :: rest).length = n) then
      labels.zip ((r :: rest).map Prod.snd)
    else labels.map fun t => (t, lookupK (r :: rest) t)

/-- verdicts as a boolean Series on the index of `x`; used at rdtools/analysis_chains.py:556-583, 676-698 -/
def onRows (x : Series) (v : List Bool) : BMask := (x.map Prod.fst).zip v

/-- a filter that looks at one value at a time; used at rdtools/analysis_chains.py:556-572 -/
def pointwise (f : Flt → Bool) (x : Series) : BMask := x.map fun r => (r.1, f (Flt.ofCell r.2))

/-- the parsed keyword arguments of `degradation_year_on_year`, with pandas' frequency inference and the
random choices; used at rdtools/analysis_chains.py:785-818 -/
structure YoYArgs where
  inferFreq : List Int → Option Int
  recenter : Bool
  exceed : ℚ
  conf : ℚ
  method : Uncertainty
  block : Nat
  choose : List ℚ → List (List ℚ)
  draws : List (List Nat)

/-- the meaning of the keyword arguments of the filters and of the degradation analysis, and the aggregation
frequency; `known` tells which indexes pandas recognizes as having that frequency;
used at rdtools/analysis_chains.py:556-583, 676-698, 758-818, 919-926 -/
structure Keywords where
  normalized : String → Option Flt × Option Flt
  poa : String → Flt × Flt
  tcell : String → Flt × Flt
  twoWay : String → Int × ℚ
  insolation : String → ℚ
  hampel : String → ℚ × ℚ
  tukey : String → Int × ℚ
  yoy : String → YoYArgs
  aggFreq : Int
  known : List Int → Bool

variable {Loc ρ σ : Type}

/-- the environment of a degradation analysis; used at rdtools/analysis_chains.py:449-500, 556-583, 676-698, 758-818 -/
def degradationEnv (n : Numeric) (k : Keywords) (rest : Env Loc YoYResult σ) : Env Loc YoYResult σ :=
  { numericEnv n rest with
    normalizedF := fun kw x => .ok (pointwise (normalizedFilter (k.normalized kw).1 (k.normalized kw).2) x)   -- 556-560
    poaF := fun kw x => .ok (pointwise (poaFilter (k.poa kw).1 (k.poa kw).2) x)                               -- 561-565
    tcellF := fun kw x => .ok (pointwise (tcellFilter (k.tcell kw).1 (k.tcell kw).2) x)                       -- 566-572
    twoWayF := fun kw x => .ok (onRows x (twoWayWindowFilter x (k.twoWay kw).1 (k.twoWay kw).2))              -- 676-680
    insolationF := fun kw x => (insolationFilter (x.map Prod.snd) (k.insolation kw)).map (onRows x)           -- 682-686
    hampelF := fun kw x => .ok (onRows x (hampelFilter x (k.hampel kw).1 (k.hampel kw).2))                    -- 688-692
    tukeyF := fun kw x => .ok (onRows x (directionalTukeyFilter x (k.tukey kw).1 (k.tukey kw).2))             -- 694-698
    aggregate := fun e i => .ok (aggregateNorm k.aggFreq e i)                                                 -- 776-783
    asfreq := asfreqGrid k.known k.aggFreq                                                                       -- 919-926
    yoy := fun kw x =>                                                                                        -- 808-810
      Verif.yoy (k.yoy kw).inferFreq (k.yoy kw).recenter (k.yoy kw).exceed (k.yoy kw).conf (k.yoy kw).method
        (k.yoy kw).block (k.yoy kw).choose (k.yoy kw).draws x }

end Verif.Chains
