import Verif.Model.Soiling

/-! # Small data sets used in the examples beside the theorems on the SRR analysis -/

namespace Verif.SrrEx

/-- daily series from midnight, 1 January 1970 -/
def daily (xs : List Cell) : Series :=
  xs.zipIdx.map fun x => ((x.2 : Int) * dayNs, x.1)

/-- two soiling intervals of four days, a clean after the fourth -/
def pm : Series := daily [some 1, some (9/10), some (8/10), some (7/10), some 1, some (9/10), some (8/10),
  some (7/10)]

def insol : Series := daily [some 1, some 1, some 2, some 1, some 1, some 2, some 1, some 1]

/-- shifts over one day, cleaning threshold 0.1, no recentering -/
def opts : DailyOpts := { dayScale := 1, cleanThreshold := some (1/10), recenter := false }

def res : ResultOpts :=
  { trim := false, maxRelSlopeError := 500, maxNegativeStep := 1/2, minIntervalLength := 1 }

/-- all random numbers zero -/
def draw0 : SrrDraw := { slope := fun _ => 0, recovery := fun _ => 0, level := fun _ => 0 }

/-- V I V V V V V V V I V: nine valid intervals of two days, an invalid day after the first and after
the eighth -/
def pmLevels : Series := daily ([some 1, some (8/10), some 1] ++
  (List.replicate 7 [some (12/10), some 1]).flatten ++ [some (12/10), some (14/10), some (12/10)])

def insolLevels : Series := daily (List.replicate 20 (some 1))

/-- a clean every `k` days, a loss of `r` on all others -/
def saw (k : Nat) (r : ℚ) (i : Nat) : ℚ := 1 - r * ((i % k : Nat) : ℚ)

/-- twenty days with a clean after the tenth, 1% a day -/
def pmSaw : Series := daily ((List.range 20).map fun i => some (saw 10 (1/100) i))

def insolSaw : Series := daily (List.replicate 20 (some 1))

end Verif.SrrEx
