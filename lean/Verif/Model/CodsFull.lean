import Verif.Model.CodsBootstrap

/-!
# CODS: the fits of the bootstrap are signal decompositions (rdtools/soiling.py:1699-1713, 1808-1834)

`Model/CodsBootstrap.lean` has the fits as parameters. Here they are calls of `decompose`; only the routines of other packages and
the random numbers remain parameters.
-/

namespace Verif.Cods

open Verif

/-- the arguments of `soiling_cods` that are handed on to the fits (rdtools/soiling.py:2284-2295, 2409-2419); the last two are the
possible `**kwargs` that both calls of `iterative_signal_decomposition` accept (not modelled: `renormalize_SR` in `**kwargs`, which
makes the refits fail with `TypeError`) -/
structure CodsArgs where
  stl : Bool := false
  processNoise : ℚ := 1 / 10000
  alts : Alternatives := {}
  criterion : ℚ := 1 / 200
  significance : ℚ := 3 / 4

/-- the random numbers of one realization (rdtools/soiling.py:1811-1818): four numbers of `[0, 1)` and two choices -/
structure RefitDraw where
  u1 : ℚ
  u2 : ℚ
  u3 : ℚ
  u4 : ℚ
  renormalize : Bool
  fill : Bool

/-- routines of other packages and random numbers of a call. The routines get the first day of the series they are used for.
Used at rdtools/soiling.py:1699-1725, 1808-1850. -/
structure CodsWorld where
  ext : Int → DecompEnv
  starts : Nat → List (List Nat)
  draw : Nat → Nat → ℚ × Int
  refitDraw : Nat → RefitDraw
  yoyCI : List Cell → Except PyErr (ℚ × ℚ × ℚ)

/-- `np.random.uniform(lo, hi)`: `lo + (hi - lo) * u` with `u` in `[0, 1)`;
used at rdtools/soiling.py:1811-1817 -/
def uniform (lo hi u : ℚ) : ℚ := lo + (hi - lo) * u

/-- arguments of an initial fit (rdtools/soiling.py:1701-1705) -/
def fitOpts (a : CodsArgs) (c : Combo) : DecompOpts :=
  { order := c.1, stl := a.stl, maxIterations := 18, cleaning := c.2.1, criterion := a.criterion, pruningIterations := 1,
    pruning := c.2.2.1, significance := a.significance, processNoise := a.processNoise, renorm := none, fwd := c.2.2.2, clip := true }

/-- arguments of a refit (rdtools/soiling.py:1804, 1811-1818, 1829-1834): the sensitivities are between the first and the last
alternative -/
def refitOpts (a : CodsArgs) (d : RefitDraw) : DecompOpts :=
  { order := [.SR, if a.stl then .SC else .Rd], stl := a.stl, maxIterations := 4,
    cleaning := uniform (a.alts.cleaning.headD 0) (a.alts.cleaning.getLastD 0) d.u1, criterion := a.criterion,
    pruningIterations := 1, pruning := uniform (a.alts.pruning.headD 0) (a.alts.pruning.getLastD 0) d.u2,
    significance := a.significance, processNoise := uniform (a.processNoise / (3 / 2)) (a.processNoise * (3 / 2)) d.u3,
    renorm := if d.renormalize then some (uniform (1 / 2) (95 / 100) d.u4) else none, fwd := d.fill, clip := true }

/-- the columns of a refit on the days of the original index, of which it lacks the first `k` (`pd.concat` and assignment to
`df_out` align by day); used at rdtools/soiling.py:1878-1929 -/
def onIndex (k : Nat) (d : Decomp) : Decomp :=
  { d with
    ratio := List.replicate k none ++ d.ratio, rates := List.replicate k none ++ d.rates,
    events := List.replicate k false ++ d.events, seasonal := List.replicate k none ++ d.seasonal,
    trend := List.replicate k none ++ d.trend, total := List.replicate k none ++ d.total,
    residuals := List.replicate k none ++ d.residuals, first := k }

/-- a refit (rdtools/soiling.py:1826-1834): a new instance for the sample, which may drop leading missing days, then the
decomposition -/
def refitSample (w : CodsWorld) (fuel : Nat) (a : CodsArgs) (day0 : Int) (b : Nat) (x : List Cell) : Except PyErr Decomp := do
  let s ← codsInit true day0 x
  let d ← decompose (w.ext s.1) fuel (refitOpts a (w.refitDraw b)) s.1 s.2
  .ok (onIndex (x.length - s.2.length) d)

/-- the bootstrap with these fits (rdtools/soiling.py:1699-1725, 1808-1850) -/
def bootEnv (w : CodsWorld) (fuel : Nat) (a : CodsArgs) (day0 : Int) (pi : List Cell) : BootEnv :=
  { fit0 := fun c => decompose (w.ext day0) fuel (fitOpts a c) day0 pi
    refit := refitSample w fuel a day0
    starts := w.starts
    draw := w.draw
    yoyCI := w.yoyCI
    adf := (w.ext day0).adf
    sqrt := (w.ext day0).sqrt }

/-- `soiling_cods` (rdtools/soiling.py:2284-2429): the attributes set by `run_bootstrap` -/
def codsAnalysis (w : CodsWorld) (fuel : Nat) (a : CodsArgs) (reps : Nat) (conf : ℚ) (daily : Bool) (day0 : Int) (pm : List Cell) :
    Except PyErr BootOut := do
  let s ← codsInit daily day0 pm
  runBootstrap (bootEnv w fuel a s.1 s.2) a.alts reps conf s.1 s.2

/-- `soiling_cods` (rdtools/soiling.py:2284-2429): the return value -/
def soilingCodsFull (w : CodsWorld) (fuel : Nat) (a : CodsArgs) (reps : Nat) (conf : ℚ) (daily : Bool) (day0 : Int)
    (pm : List Cell) : Except PyErr CodsResult :=
  (codsAnalysis w fuel a reps conf daily day0 pm).map codsResult

end Verif.Cods
