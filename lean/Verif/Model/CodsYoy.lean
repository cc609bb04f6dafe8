import Verif.Model.CodsDecomp
import Verif.Model.Degradation

/-!
# CODS with its own degradation rate (rdtools/soiling.py:1419-1434)

`RdToolsDeg.degradation_year_on_year(signal, uncertainty_method=None)` from the model of rdtools/degradation.py, in place of
the parameter `yoy` of `DecompEnv`.
-/

namespace Verif.Cods

open Verif

/-- a list of cells over consecutive days as a series of midnights (rdtools/soiling.py:1171-1181, 1425-1427) -/
def dailySeries (day0 : Int) (x : List Cell) : Series :=
  (List.range x.length).map fun i : Nat => ((day0 + (i : Int)) * dayNs, cellAt x i)

/-- `degradation_year_on_year(x, uncertainty_method=None)`, the other arguments left at their defaults (rdtools/soiling.py:1419-1420,
1429-1430, rdtools/degradation.py:180-184). `freq` is pandas' frequency inference. -/
def yearOnYearRate (freq : List Int → Option Int) (day0 : Int) (x : List Cell) : Except PyErr ℚ :=
  (yoy freq true 95 (341 / 5) .none 30 (fun _ => []) [] (dailySeries day0 x)).map YoYResult.rd

/-- the routines of `DecompEnv` with this rate; used at rdtools/soiling.py:1395-1434 -/
def yoyEnv (freq : List Int → Option Int) (day0 : Int) (rest : DecompEnv) : DecompEnv :=
  { rest with yoy := yearOnYearRate freq day0 }

end Verif.Cods
