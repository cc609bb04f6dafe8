import Verif.Model.ChainsDaily
import Verif.Model.ClearskyFilter

/-!
# `TrendAnalysis` with its clear-sky and hour angle filters (rdtools/analysis_chains.py:584-608)

The remaining filters of an analysis, from the model of rdtools/filtering.py. What is left as a parameter is the detection of
clear sky and the hour angle, both from pvlib, and the clear-sky irradiance and temperature.
-/

namespace Verif.Chains

variable {Loc σ : Type}

/-- the parsed keyword arguments of `clearsky_filter` (rdtools/filtering.py:106-140); `rejected` stands for arguments that make the
call itself fail; `freq` is the frequency attribute of an index -/
inductive ClearskyArgs where
  | csi (threshold : ℚ)
  | pvlib (freq : List Int → Option ℚ) (limits : ClearskyParams) (meanDiff lowerLine upperLine : ℚ) (lookup : Bool)
      (kwargs : List (String × String))
  | rejected (e : PyErr)

/-- `csi_filter` (rdtools/filtering.py:143-164) on two Series: the quotient is on the union of the indexes, missing where one of
them has no value. Simplification: always sorted; duplicate timestamps are not modelled. -/
def csiMask (thr : ℚ) (measured clearsky : Series) : BMask :=
  (sortedUnion (measured.map Prod.fst ++ clearsky.map Prod.fst)).map fun t =>
    (t, csiFilter thr (Flt.ofCell (lookupK measured t)) (Flt.ofCell (lookupK clearsky t)))

/-- `clearsky_filter(self.poa_global, self.poa_global_clearsky, **kwargs)` (rdtools/analysis_chains.py:533-537); `detect` is pvlib's
`detect_clearsky` -/
def clearskyMask (detect : DetectCall → List Bool) (measured clearsky : Series) : ClearskyArgs → Except PyErr BMask
  | .csi thr => .ok (csiMask thr measured clearsky)
  | .pvlib freq p a b c lookup kwargs =>
    (clearskyCall measured clearsky (freq (measured.map Prod.fst)) p a b c lookup kwargs).map fun d =>
      (d.rows.map Prod.fst).zip (detect d)
  | .rejected e => .error e

/-- `hour_angle_filter(energy_normalized, latitude, longitude, **kwargs)` (rdtools/analysis_chains.py:592-598); `angle` is the
hour angle from pvlib -/
def hourAngleMask (angle : Int → Flt) (lo hi : Flt) (x : Series) : BMask :=
  x.map fun r => (r.1, hourAngleFilter lo hi (angle r.1))

/-- the meaning of the keyword arguments of the clear-sky and hour angle filters, with what comes from pvlib;
used at rdtools/analysis_chains.py:584-608 -/
structure SkyArgs (Loc : Type) where
  clearsky : String → ClearskyArgs
  detect : DetectCall → List Bool
  hourAngle : String → Flt × Flt
  angle : Loc → Int → Flt

/-- the environment of a degradation analysis with these filters; used at rdtools/analysis_chains.py:502-642 -/
def skyEnv (n : Numeric) (k : Keywords) (x : SkyArgs Loc) (rest : Env Loc YoYResult σ) : Env Loc YoYResult σ :=
  degradationEnv n k { rest with
    hourAngleF := fun kw e loc => .ok (hourAngleMask (x.angle loc) (x.hourAngle kw).1 (x.hourAngle kw).2 e)     -- 592-598
    clearskyF := fun kw m c => clearskyMask x.detect m c (x.clearsky kw) }                                      -- 533-537

end Verif.Chains
