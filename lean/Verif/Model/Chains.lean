import Verif.Model.FilterDict

/-!
# `TrendAnalysis` (rdtools/analysis_chains.py:15-1270)

Control flow of the analysis chains: which attributes are read and written in which order, which
exceptions are raised, how the filters are combined and where results are stored. The numerical
functions called on the way (normalization, filters, aggregation, temperature and irradiance models,
degradation and soiling) are parameters (`Env`): the theorems hold for every choice of them. Warnings
and printed messages are not modelled.
-/

namespace Verif.Chains

/-- a boolean Series; used at rdtools/analysis_chains.py:624-633, 615-633 -/
abbrev BMask := List (Int × Bool)

/-- the value at a timestamp, False where the timestamp is missing (`fillna(0)` after the outer join);
used at rdtools/analysis_chains.py:502-642, 903-926 -/
def verdictAt (m : BMask) (t : Int) : Bool :=
  match m with
  | [] => false
  | (u, b) :: m => if u = t then b else verdictAt m t

/-- the values of a filter parameter dictionary: a dict of keyword arguments (kept opaque), None, or a
boolean Series, possibly with missing values; used at rdtools/analysis_chains.py:615-633, 605-608 -/
inductive FVal where
  | kwargs (k : String)
  | none
  | mask (m : List (Int × Option Bool))
  deriving DecidableEq, Repr

/-- 'sensor' or 'clearsky'; used at rdtools/analysis_chains.py:549-554, 600-603 -/
inductive Case where
  | sensor
  | clearsky
  deriving DecidableEq, Repr

/-- the functions called by the chains. A `Loc` stands for everything the clear-sky models need: location,
tilt, azimuth, albedo. `cellTemp` takes True for the user's wind speed, False for 0.
Used at rdtools/analysis_chains.py:527-538, 600-603. -/
structure Env (Loc ρ σ : Type) where
  normalizedF : String → Series → Except PyErr BMask
  poaF : String → Series → Except PyErr BMask
  tcellF : String → Series → Except PyErr BMask
  clipF : String → Series → Except PyErr BMask
  hourAngleF : String → Series → Loc → Except PyErr BMask
  clearskyF : String → Series → Series → Except PyErr BMask
  twoWayF : String → Series → Except PyErr BMask
  insolationF : String → Series → Except PyErr BMask
  hampelF : String → Series → Except PyErr BMask
  tukeyF : String → Series → Except PyErr BMask
  interpolate : Series → Except PyErr Series
  clearskyPoa : Loc → Series → Except PyErr Series
  clearskyTamb : Loc → Series → Except PyErr Series
  cellTemp : Series → Series → Bool → Except PyErr Series
  pvwattsNorm : Series → Series → Series → Except PyErr (Series × Series)
  expectedNorm : Series → Series → Series → Except PyErr (Series × Series)
  aggregate : Series → Series → Except PyErr (Series × Series)
  asfreq : Series → Series
  yoy : String → Series → Except PyErr ρ
  srr : String → Series → Series → Except PyErr σ

/-- one entry of `results`: the dict with the optional keys 'yoy_degradation' and 'srr_soiling';
used at rdtools/analysis_chains.py:1262-1268, 1127-1134, 1159-1166 -/
structure Results (ρ σ : Type) where
  yoy : Option ρ
  srr : Option σ
  deriving DecidableEq, Repr

/-- the attributes written for one case: `*_filter`, `*_filter_components`, `*_aggregated_insolation`,
`*_filter_aggregated`, `*_filter_components_aggregated`, `*_aggregated_performance` and the entry of `results`;
used at rdtools/analysis_chains.py:615-633, 644-739 -/
structure Out (ρ σ : Type) where
  mask : Option BMask := none
  components : Option (List (String × BMask)) := none
  insolation : Option Series := none
  maskAgg : Option BMask := none
  componentsAgg : Option (List (String × BMask)) := none
  performance : Option Series := none
  results : Option (Results ρ σ) := none

/-- a `TrendAnalysis` object. An attribute that may not exist is an `Option`; if it may moreover be None,
an `Option (Option _)`. Used at rdtools/analysis_chains.py:615-633, 549-554. -/
structure TA (Loc ρ σ : Type) where
  pvPower : Option Series
  pvEnergy : Series
  poa : Option Series
  tcell : Option Series
  tamb : Option Series
  powerExpected : Option Series
  aggDaily : Bool
  params : FilterDict FVal
  paramsAgg : FilterDict FVal
  location : Option (Option Loc)
  tilt : Bool
  poaCs : Option (Option Series)
  tcellCs : Option (Option Series)
  tambCs : Option (Option Series)
  sensor : Out ρ σ
  clearsky : Out ρ σ

variable {Loc ρ σ α β : Type}

/-- attributes of one case; used at rdtools/analysis_chains.py:644-739, 903-926 -/
def TA.out (s : TA Loc ρ σ) : Case → Out ρ σ
  | .sensor => s.sensor
  | .clearsky => s.clearsky

/-- assignment to attributes of one case; used at rdtools/analysis_chains.py:502-642, 644-739 -/
def TA.modifyOut (s : TA Loc ρ σ) (c : Case) (f : Out ρ σ → Out ρ σ) : TA Loc ρ σ :=
  match c with
  | .sensor => { s with sensor := f s.sensor }
  | .clearsky => { s with clearsky := f s.clearsky }

/-- methods: an exception leaves the assignments made so far;
used at rdtools/analysis_chains.py:615-633, 527-538 -/
def M (Loc ρ σ α : Type) : Type := TA Loc ρ σ → Except PyErr α × TA Loc ρ σ

/-- sequencing of statements; used at rdtools/analysis_chains.py:615-633 -/
instance : Monad (M Loc ρ σ) where
  pure a := fun s => (.ok a, s)
  bind m f := fun s => match m s with
    | (.ok a, s') => f a s'
    | (.error e, s') => (.error e, s')

/-- reading `self`; used at rdtools/analysis_chains.py:615-633, 527-538 -/
def self : M Loc ρ σ (TA Loc ρ σ) := fun s => (.ok s, s)
/-- assigning attributes of `self`; used at rdtools/analysis_chains.py:615-633, 502-642 -/
def assign (f : TA Loc ρ σ → TA Loc ρ σ) : M Loc ρ σ PUnit := fun s => (.ok ⟨⟩, f s)
/-- a call that does not touch `self`; used at rdtools/analysis_chains.py:527-538, 903-926 -/
def call (e : Except PyErr α) : M Loc ρ σ α := fun s => (e, s)
/-- `raise`; used at rdtools/analysis_chains.py:615-633, 527-538 -/
def raise (e : PyErr) : M Loc ρ σ α := call (.error e)

/-- an attribute that may not exist; used at rdtools/analysis_chains.py:527-538, 549-554 -/
def attr (o : Option α) : M Loc ρ σ α :=
  match o with
  | some a => pure a
  | none => raise .attributeError

/-- `**value`; used at rdtools/analysis_chains.py:527-538 -/
def kwargsOf : FVal → M Loc ρ σ String
  | .kwargs k => pure k
  | _ => raise .typeError

/-- one `if name in self.filter_params: ...` block: the check of the inputs, the call with the
parameters as keyword arguments, the entry of `filter_components`;
used at rdtools/analysis_chains.py:502-642, 644-739 -/
def component (d : FilterDict FVal) (name : String) (input : M Loc ρ σ α)
    (f : String → α → Except PyErr BMask) : M Loc ρ σ (List (String × BMask)) :=
  match d.items.get? name with
  | none => pure []
  | some v => do
    let x ← input
    let kw ← kwargsOf v
    let m ← call (f kw x)
    pure [(name, m)]

/-- an input that must not be None; used at rdtools/analysis_chains.py:527-538, 585-591 -/
def required (o : Option α) : M Loc ρ σ α :=
  match o with
  | some a => pure a
  | none => raise .valueError

/-- index of the frame made of the component Series: the union of their indexes. Simplification: always
sorted; duplicate timestamps are not modelled.
Used at rdtools/analysis_chains.py:502-642, 644-739. -/
def unionIndex (ms : List BMask) : List Int :=
  ((ms.map fun m => m.map Prod.fst).flatten.dedup).insertionSort (· ≤ ·)

/-- value of a Series with missing values; `none` where the timestamp is missing;
used at rdtools/analysis_chains.py:624-633 -/
def maskGet (m : List (Int × Option Bool)) (t : Int) : Option (Option Bool) :=
  match m with
  | [] => none
  | (u, b) :: m => if u = t then some b else maskGet m t

/-- `ad_hoc_filter.loc[ad_hoc_filter.isnull()] = False` (rdtools/analysis_chains.py:618-622, in place) -/
def fillAdHoc (m : List (Int × Option Bool)) : List (Int × Option Bool) :=
  m.map fun r => (r.1, some (r.2.getD false))

/-- the ad hoc filter as a column of the frame with index `idx` (rdtools/analysis_chains.py:624-633): reindexed
if the index differs, missing values then count as True -/
def adHocColumn (idx : List Int) (m : List (Int × Option Bool)) : BMask :=
  if idx = m.map Prod.fst then m.map fun r => (r.1, r.2.getD false)
  else idx.map fun t => (t, ((maskGet m t).join).getD true)

/-- the special treatment of 'ad_hoc_filter' (rdtools/analysis_chains.py:615-633 and 705-728): the stored Series is
changed in place; anything that is neither None nor a Series has no `isnull` -/
def adHoc (get : TA Loc ρ σ → FilterDict FVal) (put : FilterDict FVal → TA Loc ρ σ → TA Loc ρ σ)
    (idx : List Int) : M Loc ρ σ (List (String × BMask)) := do
  let s ← self
  match (get s).items.get? "ad_hoc_filter" with
  | none => pure []
  | some .none => pure []
  | some (.kwargs _) => raise .attributeError
  | some (.mask m) => do
    assign (put { get s with items := (get s).items.set "ad_hoc_filter" (.mask (fillAdHoc m)) })
    pure [("ad_hoc_filter", adHocColumn idx (fillAdHoc m))]

/-- the frame of components on its index, without the column 'default';
used at rdtools/analysis_chains.py:502-642, 644-739 -/
def aligned (idx : List Int) (comps : List (String × BMask)) : List (String × BMask) :=
  comps.map fun c => (c.1, idx.map fun t => (t, verdictAt c.2 t))

/-- `filter_components.all(axis=1)` including the column 'default';
used at rdtools/analysis_chains.py:502-642, 644-739 -/
def allTrue (idx : List Int) (base : BMask) (comps : List (String × BMask)) : BMask :=
  idx.map fun t => (t, verdictAt base t && comps.all fun c => verdictAt c.2 t)

/-- the column 'default': True on the index of the series;
used at rdtools/analysis_chains.py:502-642, 644-739 -/
def defaultMask (x : Series) : BMask := x.map fun r => (r.1, true)

/-- `_call_clearsky_filter` (rdtools/analysis_chains.py:527-538) -/
def clearskyComponent (env : Env Loc ρ σ) (name : String) : M Loc ρ σ (List (String × BMask)) := do
  let s ← self
  let poa ← required s.poa
  let cs ← attr s.poaCs
  let poaCs ← required cs
  match s.params.items.get? name with
  | none => raise .keyError
  | some v => do
    let kw ← kwargsOf v
    let m ← call (env.clearskyF kw poa poaCs)
    pure [(name, m)]

/-- `poa` (rdtools/analysis_chains.py:549-554) -/
def casePoa (s : TA Loc ρ σ) : Case → M Loc ρ σ (Option Series)
  | .sensor => pure s.poa
  | .clearsky => attr s.poaCs

/-- `cell_temp` (rdtools/analysis_chains.py:549-554) -/
def caseTcell (s : TA Loc ρ σ) : Case → M Loc ρ σ (Option Series)
  | .sensor => pure s.tcell
  | .clearsky => attr s.tcellCs

/-- the clear-sky filter of a clear-sky analysis (rdtools/analysis_chains.py:600-603) -/
def caseClearsky (env : Env Loc ρ σ) : Case → M Loc ρ σ (List (String × BMask))
  | .sensor => pure []
  | .clearsky => clearskyComponent env "clearsky_filter"

/-- 'sensor_clearsky_filter' (rdtools/analysis_chains.py:605-608) -/
def sensorClearsky (env : Env Loc ρ σ) (d : FilterDict FVal) : M Loc ρ σ (List (String × BMask)) :=
  if d.items.has "sensor_clearsky_filter" then clearskyComponent env "sensor_clearsky_filter"
  else pure []

/-- `pvlib_location` as used by the hour angle filter (rdtools/analysis_chains.py:585-591) -/
def hourAngleLocation (s : TA Loc ρ σ) : M Loc ρ σ Loc := do
  let l ← required s.location
  attr l

/-- `_filter` (rdtools/analysis_chains.py:502-642) -/
def filter (env : Env Loc ρ σ) (energy : Series) (c : Case) : M Loc ρ σ Unit := do
  let s ← self
  let poa ← casePoa s c
  let tcell ← caseTcell s c
  let c1 ← component s.params "normalized_filter" (pure energy) env.normalizedF        -- 556-560
  let c2 ← component s.params "poa_filter" (required poa) env.poaF                     -- 561-565
  let c3 ← component s.params "tcell_filter" (required tcell) env.tcellF               -- 566-572
  let c4 ← component s.params "clip_filter" (required s.pvPower) env.clipF             -- 573-583
  let c5 ← component s.params "hour_angle_filter" (hourAngleLocation s)                -- 584-598
    (fun kw loc => env.hourAngleF kw energy loc)
  let c6 ← caseClearsky env c
  let c7 ← sensorClearsky env s.params
  let comps := c1 ++ c2 ++ c3 ++ c4 ++ c5 ++ c6 ++ c7
  let idx := unionIndex (defaultMask energy :: comps.map Prod.snd)                     -- 612
  let c8 ← adHoc TA.params (fun d s => { s with params := d }) idx                     -- 615-633
  assign fun s => s.modifyOut c fun o => { o with                                      -- 635-642
    mask := some (allTrue idx (defaultMask energy) (comps ++ c8))
    components := some (aligned idx (comps ++ c8)) }

/-- `_aggregated_filter` (rdtools/analysis_chains.py:644-739) -/
def aggregatedFilter (env : Env Loc ρ σ) (agg : Series) (c : Case) : M Loc ρ σ Unit := do
  let s ← self
  let insol ← attr (s.out c).insolation                                                -- 670-673
  let c1 ← component s.paramsAgg "two_way_window_filter" (pure agg) env.twoWayF        -- 676-680
  let c2 ← component s.paramsAgg "insolation_filter" (pure insol) env.insolationF      -- 682-686
  let c3 ← component s.paramsAgg "hampel_filter" (pure agg) env.hampelF                -- 688-692
  let c4 ← component s.paramsAgg "directional_tukey_filter" (pure agg) env.tukeyF      -- 694-698
  let comps := c1 ++ c2 ++ c3 ++ c4
  let idx := unionIndex (defaultMask agg :: comps.map Prod.snd)                        -- 701-703
  let c5 ← adHoc TA.paramsAgg (fun d s => { s with paramsAgg := d }) idx               -- 705-728
  assign fun s => s.modifyOut c fun o => { o with                                      -- 730-739
    maskAgg := some (allTrue idx (defaultMask agg) (comps ++ c5))
    componentsAgg := some (aligned idx (comps ++ c5)) }

/-- the rows a mask accepts; used at rdtools/analysis_chains.py:903-926, 966-993 -/
def select (x : Series) (m : BMask) : Series := x.filter fun r => verdictAt m r.1

/-- `series[mask]` (rdtools/analysis_chains.py:904-917, 967-983): pandas refuses a mask that lacks a timestamp of the series
(`IndexingError`) -/
def boolIndex (x : Series) (m : BMask) : Except PyErr Series :=
  if x.all fun r => m.any fun v => decide (v.1 = r.1) then .ok (select x m) else .error .exception

/-- filtering and aggregation, the common end of both preprocess methods
(rdtools/analysis_chains.py:903-926 and 966-993) -/
def finish (env : Env Loc ρ σ) (energy insol : Series) (c : Case) : M Loc ρ σ Unit := do
  filter env energy c
  let s ← self
  let mask ← attr (s.out c).mask
  let e ← call (boolIndex energy mask)                                                 -- 904-906
  let i ← call (boolIndex insol mask)
  let r ← call (env.aggregate e i)
  assign fun s => s.modifyOut c fun o => { o with insolation := some r.2 }
  aggregatedFilter env r.1 c
  let s ← self
  let maskAgg ← attr (s.out c).maskAgg
  let p ← call (boolIndex r.1 maskAgg)                                                 -- 913
  assign fun s => s.modifyOut c fun o => { o with performance := some p }
  let q ← call (boolIndex r.2 maskAgg)                                                 -- 914-916
  assign fun s => s.modifyOut c fun o => { o with
    performance := some (env.asfreq p)
    insolation := some (env.asfreq q) }

/-- `_calc_clearsky_poa` with default times (rdtools/analysis_chains.py:307-379) -/
def calcClearskyPoa (env : Env Loc ρ σ) (s : TA Loc ρ σ) : M Loc ρ σ PUnit := do
  let poa ← attr s.poa                  -- 327 `self.poa_global.index` of None
  let l ← required s.location           -- 332
  if s.tilt then do                     -- 334
    let loc ← attr l                    -- 343 a method of None
    let v ← call (env.clearskyPoa loc poa)
    assign fun s => { s with poaCs := some (some v) }
  else raise .valueError

/-- `if self.poa_global_clearsky is None: self._calc_clearsky_poa(model="isotropic")` inside the `try`
(rdtools/analysis_chains.py:876-884, 934-941). An AttributeError is raised again as AttributeError. -/
def ensureClearskyPoa (env : Env Loc ρ σ) : M Loc ρ σ PUnit := do
  let s ← self
  let cs ← attr s.poaCs
  if cs.isSome then pure ⟨⟩ else calcClearskyPoa env s

/-- the cell temperature of a sensor analysis (rdtools/analysis_chains.py:886-896) -/
def sensorTcell (env : Env Loc ρ σ) (s : TA Loc ρ σ) (poa : Series) : M Loc ρ σ Series :=
  match s.tcell, s.tamb with
  | none, none => raise .valueError
  | none, some ta => do
    let v ← call (env.cellTemp poa ta true)
    assign fun s => { s with tcell := some v }
    pure v
  | some tc, _ => pure tc

/-- the normalization of a sensor analysis (rdtools/analysis_chains.py:885-901) -/
def sensorNormalize (env : Env Loc ρ σ) (s : TA Loc ρ σ) (poa : Series) : M Loc ρ σ (Series × Series) :=
  match s.powerExpected with
  | none => do
    let tcell ← sensorTcell env s poa
    call (env.pvwattsNorm s.pvEnergy poa tcell)
  | some pe => call (env.expectedNorm s.pvEnergy pe poa)

/-- clear-sky irradiance for 'sensor_clearsky_filter' (rdtools/analysis_chains.py:876-884) -/
def sensorClearskyPoa (env : Env Loc ρ σ) (s : TA Loc ρ σ) : M Loc ρ σ PUnit :=
  if s.params.items.has "sensor_clearsky_filter" then ensureClearskyPoa env else pure ⟨⟩

/-- `_sensor_preprocess` (rdtools/analysis_chains.py:865-926) -/
def sensorPreprocess (env : Env Loc ρ σ) : M Loc ρ σ Unit := do
  let s ← self
  let poa ← required s.poa                                                    -- 871-874
  sensorClearskyPoa env s
  let r ← sensorNormalize env s poa
  finish env r.1 r.2 .sensor

/-- `_calc_clearsky_tamb` if needed (rdtools/analysis_chains.py:434-447, 943-944) -/
def clearskyTambient (env : Env Loc ρ σ) (s : TA Loc ρ σ) (poaCs : Series) : M Loc ρ σ Series := do
  let ta ← attr s.tambCs
  match ta with
  | some v => pure v
  | none => do
    let l ← required s.location                                                -- 439
    let loc ← attr l
    let v ← call (env.clearskyTamb loc poaCs)
    assign fun s => { s with tambCs := some (some v) }
    pure v

/-- the cell temperature of a clear-sky analysis (rdtools/analysis_chains.py:942-947) -/
def clearskyTcell (env : Env Loc ρ σ) (s : TA Loc ρ σ) (poaCs : Series) : M Loc ρ σ Series := do
  let tc ← attr s.tcellCs
  match tc with
  | some v => pure v
  | none => do
    let tamb ← clearskyTambient env s poaCs
    let v ← call (env.cellTemp poaCs tamb false)
    assign fun s => { s with tcellCs := some (some v) }
    pure v

/-- the normalization of a clear-sky analysis (rdtools/analysis_chains.py:949-967) -/
def clearskyNormalize (env : Env Loc ρ σ) (s : TA Loc ρ σ) (poaCs tcell : Series) :
    M Loc ρ σ (Series × Series) :=
  match s.powerExpected with
  | none => call (env.pvwattsNorm s.pvEnergy poaCs tcell)
  | some pe => call (env.expectedNorm s.pvEnergy pe poaCs)

/-- `_clearsky_preprocess` (rdtools/analysis_chains.py:928-993) -/
def clearskyPreprocess (env : Env Loc ρ σ) : M Loc ρ σ Unit := do
  ensureClearskyPoa env                                                        -- 934-941
  let s ← self
  let cs ← attr s.poaCs
  let poaCs ← attr cs
  let tcell ← clearskyTcell env s poaCs
  let r ← clearskyNormalize env s poaCs tcell
  finish env r.1 r.2 .clearsky

/-- the preprocess method of a case; used at rdtools/analysis_chains.py:995-1074 -/
def preprocess (env : Env Loc ρ σ) : Case → M Loc ρ σ Unit
  | .sensor => sensorPreprocess env
  | .clearsky => clearskyPreprocess env

/-- span of the index from the first to the last row, 0 if empty (rdtools/analysis_chains.py:751-754) -/
def spanNs (x : Series) : Int :=
  match x.map Prod.fst with
  | [] => 0
  | t :: l => (t :: l).getLast (by simp) - t

/-- `_filter_check` (rdtools/analysis_chains.py:741-756) -/
def filterCheck (x : Series) : Except PyErr Unit :=
  if spanNs x < 730 * dayNs then .error .valueError else .ok ()

/-- `_yoy_degradation` (rdtools/analysis_chains.py:785-818) -/
def yoyDegradation (env : Env Loc ρ σ) (kw : String) (x : Series) : Except PyErr ρ :=
  match filterCheck x with
  | .error e => .error e
  | .ok () => env.yoy kw x

/-- `_srr_soiling` (rdtools/analysis_chains.py:820-863): the frequency of the aggregated series must be daily -/
def srrSoiling (env : Env Loc ρ σ) (daily : Bool) (kw : String) (x insol : Series) : Except PyErr σ :=
  if daily then env.srr kw x insol else .error .valueError

/-- `if name in analyses: results[name] = ...`; used at rdtools/analysis_chains.py:995-1074 -/
def requested (analyses : List String) (name : String) (e : Except PyErr α) : M Loc ρ σ (Option α) :=
  if name ∈ analyses then call (e.map some) else pure none

/-- `sensor_analysis`, `clearsky_analysis` (rdtools/analysis_chains.py:995-1074) -/
def analysis (env : Env Loc ρ σ) (c : Case) (analyses : List String) (yoyKw srrKw : String) :
    M Loc ρ σ Unit := do
  preprocess env c
  let s ← self
  let perf ← attr (s.out c).performance
  let insol ← attr (s.out c).insolation
  let y ← requested analyses "yoy_degradation" (yoyDegradation env yoyKw perf)
  let z ← requested analyses "srr_soiling" (srrSoiling env s.aggDaily srrKw perf insol)
  assign fun s => s.modifyOut c fun o => { o with results := some ⟨y, z⟩ }

/-- interpolation of an optional argument onto the index of the energy;
used at rdtools/analysis_chains.py:232-305 -/
def interpOpt (env : Env Loc ρ σ) (x : Option Series) : Except PyErr (Option Series) :=
  match x with
  | none => .ok none
  | some x => (env.interpolate x).map some

/-- `set_clearsky` (rdtools/analysis_chains.py:232-305): all interpolations come before the assignments.
Simplification: tilt and azimuth given as Series are not modelled. -/
def setClearsky (env : Env Loc ρ σ) (loc : Option Loc) (poaCs tcellCs tambCs : Option Series) :
    M Loc ρ σ Unit := do
  let p ← call (interpOpt env poaCs)
  let tc ← call (interpOpt env tcellCs)
  let ta ← call (interpOpt env tambCs)
  assign fun s => { s with location := some loc, tilt := true, poaCs := some p, tcellCs := some tc, tambCs := some ta }

/-- the setter of `filter_params` (rdtools/analysis_chains.py:208-215); `none` is a value that is not a dict -/
def setFilterParams (d : Option (List (String × FVal))) : M Loc ρ σ Unit := do
  let s ← self
  let pairs ← required d
  let new ← call (FilterDict.construct s.params.valid pairs)
  assign fun s => { s with params := new }

/-- the setter of `filter_params_aggregated` (rdtools/analysis_chains.py:221-230) -/
def setFilterParamsAggregated (d : Option (List (String × FVal))) : M Loc ρ σ Unit := do
  let s ← self
  let pairs ← required d
  let new ← call (FilterDict.construct s.paramsAgg.valid pairs)
  assign fun s => { s with paramsAgg := new }

/-- an operation on the dict `filter_params`; used at rdtools/analysis_chains.py:1273-1297 -/
def editFilterParams (op : FilterDict.Op FVal) : M Loc ρ σ Unit := fun s =>
  let r := FilterDict.step s.params op
  (r.2, { s with params := r.1 })

/-- an operation on the dict `filter_params_aggregated`;
used at rdtools/analysis_chains.py:1273-1297 -/
def editFilterParamsAggregated (op : FilterDict.Op FVal) : M Loc ρ σ Unit := fun s =>
  let r := FilterDict.step s.paramsAgg op
  (r.2, { s with paramsAgg := r.1 })

/-- `valid_filter_params` (rdtools/analysis_chains.py:159-168) -/
def validFilterParams : List String :=
  ["normalized_filter", "poa_filter", "tcell_filter", "clip_filter", "hour_angle_filter",
   "clearsky_filter", "sensor_clearsky_filter", "ad_hoc_filter"]

/-- `valid_filter_params_aggregated` (rdtools/analysis_chains.py:170-176) -/
def validFilterParamsAggregated : List String :=
  ["two_way_window_filter", "insolation_filter", "hampel_filter", "directional_tukey_filter",
   "ad_hoc_filter"]

/-- `default_filter_params` (rdtools/analysis_chains.py:179-186) -/
def defaultFilterParams : Dict FVal :=
  [("normalized_filter", .kwargs ""), ("poa_filter", .kwargs ""), ("tcell_filter", .kwargs ""),
   ("clip_filter", .kwargs ""), ("clearsky_filter", .kwargs ""), ("ad_hoc_filter", .none)]

/-- `default_filter_params_aggregated` (rdtools/analysis_chains.py:188-191) -/
def defaultFilterParamsAggregated : Dict FVal :=
  [("two_way_window_filter", .kwargs ""), ("ad_hoc_filter", .none)]

/-- the end of `__init__` (rdtools/analysis_chains.py:139-202), after the interpolation of the inputs; `pvPower`
is None for energy input -/
def init (pvPower : Option Series) (pvEnergy : Series) (poa tcell tamb powerExpected : Option Series)
    (aggDaily : Bool) : TA Loc ρ σ :=
  { pvPower, pvEnergy, poa, tcell, tamb, powerExpected, aggDaily
    params := ⟨validFilterParams,
      if powerExpected.isSome ∧ tcell = none then Dict.del defaultFilterParams "tcell_filter"
      else defaultFilterParams⟩
    paramsAgg := ⟨validFilterParamsAggregated, defaultFilterParamsAggregated⟩
    location := none, tilt := false, poaCs := none, tcellCs := none, tambCs := none
    sensor := {}, clearsky := {} }

/-! ## plots (rdtools/analysis_chains.py:1076-1270): the data handed to the plotting functions -/

/-- `results[case]`; used at rdtools/analysis_chains.py:1262-1268, 1092-1099 -/
def resultsOf (s : TA Loc ρ σ) (c : Case) : Except PyErr (Results ρ σ) :=
  match (s.out c).results with
  | some r => .ok r
  | none => .error .keyError

/-- `case` string; used at rdtools/analysis_chains.py:1262-1268, 1092-1099 -/
def caseOf (case : String) : Except PyErr Case :=
  if case = "sensor" then .ok .sensor
  else if case = "clearsky" then .ok .clearsky
  else .error .valueError

/-- `results[case]['yoy_degradation']`; used at rdtools/analysis_chains.py:1262-1268, 1092-1099 -/
def yoyOf (r : Results ρ σ) : Except PyErr ρ :=
  match r.yoy with
  | some y => .ok y
  | none => .error .keyError

/-- `results[case]['srr_soiling']`; used at rdtools/analysis_chains.py:1127-1134, 1159-1166 -/
def srrOf (r : Results ρ σ) : Except PyErr σ :=
  match r.srr with
  | some y => .ok y
  | none => .error .keyError

/-- an attribute that may not exist, outside a method;
used at rdtools/analysis_chains.py:1092-1099, 1222-1227 -/
def attrOf (o : Option α) : Except PyErr α :=
  match o with
  | some y => .ok y
  | none => .error .attributeError

/-- the data plotted by `plot_degradation_timeseries` (rdtools/analysis_chains.py:1262-1268) -/
def plotTimeseries (s : TA Loc ρ σ) (case : String) : Except PyErr ρ := do
  let c ← caseOf case
  let r ← resultsOf s c
  yoyOf r

/-- the data plotted by `plot_degradation_summary` (rdtools/analysis_chains.py:1092-1099): the stored result and the
aggregated performance -/
def plotDegradation (s : TA Loc ρ σ) (case : String) : Except PyErr (ρ × Series) := do
  let c ← caseOf case
  let r ← resultsOf s c
  let y ← yoyOf r
  let p ← attrOf (s.out c).performance
  pure (y, p)

/-- `results[case]['srr_soiling']` of the three soiling plots (rdtools/analysis_chains.py:1127-1134, 1159-1166,
1191-1196) -/
def plotSoiling (s : TA Loc ρ σ) (case : String) : Except PyErr σ := do
  let c ← caseOf case
  let r ← resultsOf s c
  srrOf r

/-- irradiance of `plot_pv_vs_irradiance` (rdtools/analysis_chains.py:1222-1227); the inner option is None -/
def irradianceOf (s : TA Loc ρ σ) : Case → Except PyErr (Option Series)
  | .sensor => .ok s.poa
  | .clearsky => attrOf s.poaCs

/-- `plot_pv_vs_irradiance` (rdtools/analysis_chains.py:1222-1227), the irradiance plotted -/
def plotIrradiance (s : TA Loc ρ σ) (case : String) : Except PyErr (Option Series) := do
  let c ← caseOf case
  irradianceOf s c

end Verif.Chains
