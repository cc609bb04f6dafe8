import Verif.Model.ChainsDaily
import Verif.Model.Soiling

/-!
# `TrendAnalysis` from the measurements to the soiling ratio (rdtools/analysis_chains.py:820-863)

The soiling analysis of a `TrendAnalysis`, from the model of rdtools/soiling.py. What is left as a parameter is the clear-sky
physics of pvlib, the clear-sky filters and the hour angle.
-/

namespace Verif.Chains

/-- the parsed keyword arguments of `soiling_srr`, with the random numbers and the order of the intervals in a realization;
used at rdtools/analysis_chains.py:855-857 -/
structure SrrArgs where
  ord : List Nat → List Nat
  zs : List (ℚ × ℚ) → ℚ
  daily : DailyOpts
  result : ResultOpts
  method : SrrMethod
  exceed : ℚ
  conf : ℚ
  draws : List SrrDraw
  precip : Option Series

variable {Loc : Type}

/-- the environment of a degradation and soiling analysis (rdtools/analysis_chains.py:785-863); the entry of `results` is what
`soiling_srr` returned -/
def soilingEnv (n : Numeric) (k : Keywords) (a : String → SrrArgs) (rest : Env Loc YoYResult SrrOut) :
    Env Loc YoYResult SrrOut :=
  degradationEnv n k { rest with
    srr := fun kw x insol =>                                                                        -- 855-857
      soilingSrr (a kw).ord (a kw).zs (a kw).daily (a kw).result (a kw).method (a kw).exceed (a kw).conf (a kw).draws
        x insol (a kw).precip }

end Verif.Chains
