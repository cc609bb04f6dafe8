import Verif.Model.CodsEvents

/-!
# CODS: the Kalman filter for the soiling ratio (rdtools/soiling.py:1939-2281)

Positions are the numeric index the code sets up. All time steps are one day.
-/

namespace Verif.Cods

open Verif

/-! ## Two-dimensional vectors and matrices -/

/-- state: level and rate; used at rdtools/soiling.py:2265-2281 -/
structure V2 where
  x : ℚ
  r : ℚ
  deriving DecidableEq, Repr

/-- 2x2 matrix; used at rdtools/soiling.py:2271-2272, 2276 -/
structure M2 where
  a : ℚ
  b : ℚ
  c : ℚ
  d : ℚ
  deriving DecidableEq, Repr

namespace M2

/-- matrix product; used at rdtools/soiling.py:2278-2279 -/
def mul (m n : M2) : M2 :=
  ⟨m.a * n.a + m.b * n.c, m.a * n.b + m.b * n.d, m.c * n.a + m.d * n.c, m.c * n.b + m.d * n.d⟩

/-- sum; used at rdtools/soiling.py:2278-2279 -/
def add (m n : M2) : M2 := ⟨m.a + n.a, m.b + n.b, m.c + n.c, m.d + n.d⟩

/-- difference; used at rdtools/soiling.py:2191-2192 -/
def sub (m n : M2) : M2 := ⟨m.a - n.a, m.b - n.b, m.c - n.c, m.d - n.d⟩

/-- transpose; used at rdtools/soiling.py:2278-2279 -/
def tr (m : M2) : M2 := ⟨m.a, m.c, m.b, m.d⟩

/-- determinant; used at rdtools/soiling.py:2254-2257 -/
def det (m : M2) : ℚ := m.a * m.d - m.b * m.c

/-- `inv`: a singular matrix raises `LinAlgError`, here `exception`;
used at rdtools/soiling.py:2254-2257 -/
def inv (m : M2) : Except PyErr M2 :=
  if m.det = 0 then .error .exception
  else .ok ⟨m.d / m.det, -m.b / m.det, -m.c / m.det, m.a / m.det⟩

/-- matrix times vector; used at rdtools/soiling.py:2278-2279 -/
def app (m : M2) (v : V2) : V2 := ⟨m.a * v.x + m.b * v.r, m.c * v.x + m.d * v.r⟩

end M2

/-- sum of vectors; used at rdtools/soiling.py:2278-2279 -/
def V2.add (v w : V2) : V2 := ⟨v.x + w.x, v.r + w.r⟩
/-- difference of vectors; used at rdtools/soiling.py:2191-2192 -/
def V2.sub (v w : V2) : V2 := ⟨v.x - w.x, v.r - w.r⟩

/-- `f.F` (rdtools/soiling.py:2271-2272) with `dt = 1` -/
def kF : M2 := ⟨1, 1, 0, 1⟩

/-- `Q_discrete_white_noise(dim=2, dt=1, var=process_noise**2)` (rdtools/soiling.py:2276) -/
def kQ (pn : ℚ) : M2 := ⟨pn ^ 2 / 4, pn ^ 2 / 2, pn ^ 2 / 2, pn ^ 2⟩

/-- filter state; used at rdtools/soiling.py:2278-2279, 2184-2190 -/
structure KF where
  s : V2
  P : M2
  deriving DecidableEq, Repr

/-- `f.predict(u)` of filterpy; `f.B` has ones in its first row (rdtools/soiling.py:2278-2279), and the control input is
`(u, 0)` -/
def kPredict (pn u : ℚ) (k : KF) : KF :=
  ⟨(kF.app k.s).add ⟨u, 0⟩, ((kF.mul k.P).mul kF.tr).add (kQ pn)⟩

/-- `S`, the variance of the innovation; used at rdtools/soiling.py:2191-2192 -/
def kS (R : ℚ) (k : KF) : ℚ := k.P.a + R

/-- `f.update(z)` of filterpy with `H = [1, 0]`: gain `P H' / S`, Joseph form of the covariance;
used at rdtools/soiling.py:2191-2192 -/
def kUpdate (R z : ℚ) (k : KF) : KF :=
  ⟨k.s.add ⟨k.P.a / kS R k * (z - k.s.x), k.P.c / kS R k * (z - k.s.x)⟩,
   (((M2.mk (1 - k.P.a / kS R k) 0 (-(k.P.c / kS R k)) 1).mul k.P).mul
      (M2.mk (1 - k.P.a / kS R k) 0 (-(k.P.c / kS R k)) 1).tr).add
    ⟨k.P.a / kS R k * R * (k.P.a / kS R k), k.P.a / kS R k * R * (k.P.c / kS R k),
     k.P.c / kS R k * R * (k.P.a / kS R k), k.P.c / kS R k * R * (k.P.c / kS R k)⟩⟩

/-! ## Control input -/

/-- entry of a list of numbers, zero outside; used at rdtools/soiling.py:2199-2236, 2138-2141 -/
def qAt (l : List ℚ) (i : Nat) : ℚ := l.getD i 0

/-- `np.diff`; used at rdtools/soiling.py:2199-2236 -/
def npDiff (l : List ℚ) : List ℚ := (List.range (l.length - 1)).map fun i => qAt l (i + 1) - qAt l i

/-- `argmax`: first position of the largest entry, 0 for an empty array;
used at rdtools/soiling.py:2199-2236 -/
def argmaxQ (l : List ℚ) : Nat := (argmaxCell (l.map some) 0 (l.length - 1)).getD 0

/-- `bisect.insort` into a sorted list: after the entries that are not larger;
used at rdtools/soiling.py:2199-2236 -/
def insort (l : List Nat) (x : Nat) : List Nat := (l.filter (· ≤ x)) ++ x :: l.filter (x < ·)

/-- the day an event is moved to: `index + max_diff_index - HW + 1` (rdtools/soiling.py:2232-2235) -/
def movedDay (index m : Nat) : Nat := index + m - 4

/-- `_set_control_input` (rdtools/soiling.py:2199-2236): the control input and the list of cleaning events after the call. `win` is
the rolling median from five days before to five days after `index`. The rebinding of `cleaning_events` in
rdtools/soiling.py:2222-2223 does not reach the caller's list. `|u| > sqrt(R) / 2` is compared after squaring (`R` is a variance). -/
def setControl (s : V2) (R : ℚ) (win : List ℚ) (index : Nat) (ce : List Nat) : ℚ × List Nat :=
  if argmaxQ (npDiff win) = 4 ∨ index ∉ ce then
    if R < 4 * (qAt win 8 - (s.x + s.r)) ^ 2 then (qAt win 8 - (s.x + s.r), ce)
    else (0, ce.erase index)
  else if 0 < qAt (npDiff win) (argmaxQ (npDiff win)) ∧ movedDay index (argmaxQ (npDiff win)) ∉ ce.erase index then
    (0, insort (ce.erase index) (movedDay index (argmaxQ (npDiff win))))
  else (0, ce.erase index)

/-! ## Forward pass -/

/-- does day `i` of `n` get a control input? (rdtools/soiling.py:2184) -/
def controlled (n i : Nat) (ce se : List Nat) : Bool :=
  decide (7 < i ∧ i + 7 < n ∧ (i ∈ ce ∨ i ∈ se))

/-- prediction for day `i` (rdtools/soiling.py:2184-2190) -/
def predictDay (pn R : ℚ) (n : Nat) (rm7 : List ℚ) (se : List Nat) (i : Nat) (k : KF) (ce : List Nat) : KF × List Nat :=
  if controlled n i ce se then
    (kPredict pn (setControl k.s R ((rm7.drop (i - 5)).take 11) i ce).1 k,
      (setControl k.s R ((rm7.drop (i - 5)).take 11) i ce).2)
  else (kPredict pn 0 k, ce)

/-- update of day `i` if it has a value (rdtools/soiling.py:2191-2192) -/
def updateDay (R : ℚ) (k : KF) : Cell → KF
  | none => k
  | some z => kUpdate R z k

/-- `_forward_pass` from day `i` on (rdtools/soiling.py:2176-2197): the filter states and the list of cleaning events at the end -/
def forwardFrom (pn R : ℚ) (n : Nat) (rm7 : List ℚ) (se : List Nat) : Nat → KF → List Nat → List Cell → List KF × List Nat
  | _, _, ce, [] => ([], ce)
  | i, k, ce, z :: zs =>
    ((updateDay R (predictDay pn R n rm7 se i k ce).1 z) ::
      (forwardFrom pn R n rm7 se (i + 1) (updateDay R (predictDay pn R n rm7 se i k ce).1 z)
        (predictDay pn R n rm7 se i k ce).2 zs).1,
     (forwardFrom pn R n rm7 se (i + 1) (updateDay R (predictDay pn R n rm7 se i k ce).1 z)
        (predictDay pn R n rm7 se i k ce).2 zs).2)

/-! ## Smoother -/

/-- one step of `rts_smoother`: the state of a day given the smoothed state of the next day;
used at rdtools/soiling.py:2254-2257 -/
def rtsStep (pn : ℚ) (k next : KF) : Except PyErr KF := do
  let pp := ((kF.mul k.P).mul kF.tr).add (kQ pn)
  let ipp ← pp.inv
  let g := (k.P.mul kF.tr).mul ipp
  .ok ⟨k.s.add (g.app (next.s.sub (kF.app k.s))), k.P.add ((g.mul (next.P.sub pp)).mul g.tr)⟩

/-- `f.rts_smoother` (filterpy) on consecutive days; used at rdtools/soiling.py:2254-2257 -/
def rts (pn : ℚ) : List KF → Except PyErr (List KF)
  | [] => .ok []
  | [k] => .ok [k]
  | k :: l => do
    let sm ← rts pn l
    match sm with
    | [] => .ok [k]
    | next :: _ => do
      let k' ← rtsStep pn k next
      .ok (k' :: sm)

/-- the sorted borders (rdtools/soiling.py:2247-2251) -/
def borders (n : Nat) (ce se : List Nat) : List Nat := (ce ++ [0, n - 1] ++ se).insertionSort (· ≤ ·)

/-- smoothing between consecutive borders (rdtools/soiling.py:2254-2257): the days from one border up to the day before the next
one. The last day of the data is not smoothed. Simplification: borders are positions of the data. -/
def smoothFrom (pn : ℚ) (raw : List KF) : List Nat → Except PyErr (List KF)
  | [] => .ok []
  | [s] => .ok (raw.drop s)
  | s :: e :: l => do
    let seg ← rts pn ((raw.drop s).take (e - s))
    let rest ← smoothFrom pn raw (e :: l)
    .ok (seg ++ rest)

/-- `_smooth_results` (rdtools/soiling.py:2238-2263) -/
def smoothResults (pn : ℚ) (raw : List KF) (ce se : List Nat) : Except PyErr (List KF) :=
  smoothFrom pn raw (borders raw.length ce se)

/-! ## Estimation of the soiling ratio -/

/-- sample variance (`Series.var()`), NaN for fewer than two values;
used at rdtools/soiling.py:1939-2174 -/
def cellVar (x : List Cell) : Cell :=
  if (valids x).length < 2 then none
  else some (((valids x).map fun v => (v - (valids x).sum / (valids x).length) ^ 2).sum / ((valids x).length - 1))

/-- `zs_series.ffill().rolling(w, center=True).median().ffill().bfill()` (rdtools/soiling.py:2052-2061) -/
def rollFilled (fwd : Bool) (w : Nat) (zs : List Cell) : List Cell := bfill (ffill (filledMedian fwd w zs))

/-- `theilslopes(zs_series.bfill().iloc[:14])` (rdtools/soiling.py:2065) -/
def initialFit (zs : List Cell) : TheilFit :=
  theil (fun _ => 0) ((valids ((bfill zs).take 14)).zipIdx.map fun p => ((p.2 : ℚ), p.1))

/-- `_initialize_univariate_model` (rdtools/soiling.py:2265-2281) -/
def initKF (fit : TheilFit) (zsStd rateStd : ℚ) : KF := ⟨⟨fit.intercept, fit.slope⟩, ⟨zsStd ^ 2, 0, 0, rateStd ^ 2⟩⟩

/-- positions of the true entries; used at rdtools/soiling.py:2039-2044, 2026-2044 -/
def truePos (b : List Bool) : List Nat := (List.range b.length).filter fun i => getB b i

/-- the argument `prescient_cleaning_events`; used at rdtools/soiling.py:2026-2044, 1939-2174 -/
inductive Prescient where
  | none
  | positions (l : List Nat)
  | series (b : List Bool)
  deriving DecidableEq, Repr

/-- detection by the filter itself (rdtools/soiling.py:2039-2044) -/
def ownEvents (zs : List Cell) : Except PyErr (List Nat) :=
  (collapse (rollingMedianCe true 9 (1/2) zs).1 (cellDiff (rollingMedianCe true 9 (1/2) zs).2) 5).map truePos

/-- the cleaning events to start with (rdtools/soiling.py:2026-2044). A passed list is used as it is. -/
def startEvents (zs : List Cell) : Prescient → Except PyErr (List Nat)
  | .none => ownEvents zs
  | .positions l => .ok l
  | .series b =>
    if 4 < b.count true then
      if b.length = zs.length then .ok (truePos b) else .error .valueError
    else ownEvents zs

/-- `rolling(7).median().shift(-6)` (rdtools/soiling.py:2100): the median of a day and the six following ones -/
def weekMedian (x : List ℚ) (i : Nat) : Cell := if i + 7 ≤ x.length then median ((x.drop i).take 7) else none

/-- step 1 (rdtools/soiling.py:2099-2106) -/
def pruneEvents (cps : ℚ) (pis : List ℚ) (ce : List Nat) : Except PyErr (List Nat) :=
  if ce = [] then .ok []
  else (numericOutliers (ce.map (weekMedian pis)) cps .lower).map fun o =>
    ((ce.zip o).filter fun p => !p.2).map Prod.fst

/-- step 2 (rdtools/soiling.py:2109-2115) -/
def addEvents (maxRate : ℚ) (rates : List ℚ) (ce : List Nat) : Except PyErr (List Nat) :=
  if 1 < (rates.map fun r => decide (maxRate < r)).count true then
    (collapse (rates.map fun r => decide (maxRate < r)) (rates.map some) 4).map fun b =>
      (ce ++ truePos b).insertionSort (· ≤ ·)
  else .ok ce

/-- division of cells; the quotient by zero (infinite or NaN in numpy) is modelled missing;
used at rdtools/soiling.py:2141, 2137-2148 -/
def cellDiv : Cell → Cell → Cell
  | some a, some b => if b = 0 then none else some (a / b)
  | _, _ => none

/-- smoothed level at the events, NaN elsewhere, filled forward (rdtools/soiling.py:2138-2141) -/
def levelAtEvents (pis : List ℚ) (ce : List Nat) : List Cell :=
  ffill ((List.range pis.length).map fun i => if i ∈ ce then some (qAt pis i) else none)

/-- `1 / pi_dummy.ffill() * dfk.smooth_pi` (rdtools/soiling.py:2141) -/
def relativeToEvent (pis : List ℚ) (ce : List Nat) : List Cell :=
  (List.range pis.length).map fun i =>
    cellOp (fun q p => q * p) (cellDiv (some 1) (cellAt (levelAtEvents pis ce) i)) (some (qAt pis i))

/-- step 4 with perfect cleaning (rdtools/soiling.py:2137-2148) -/
def perfectRatio (pis : List ℚ) (ce : List Nat) : List Cell :=
  match ce with
  | [] => pis.map fun _ => some 1
  | c0 :: _ =>
    (List.range pis.length).map fun i =>
      if i ≤ c0 then
        cellOp (fun p m => p * m) (some (qAt pis i))
          (mean (valids ((List.range pis.length).map fun j =>
            cellDiv (cellAt (relativeToEvent pis ce) j) (some (qAt pis j)))))
      else cellAt (relativeToEvent pis ce) i

/-- step 5 (rdtools/soiling.py:2153-2155). Not modelled: the ValueError of pandas for a level outside [0, 1]. -/
def renormalize (renorm : Option ℚ) (ce : List Nat) (sr : List Cell) : List Cell :=
  match renorm with
  | none => sr
  | some q => sr.map fun c => cellDiv c (quantile (valids (ce.map fun i => cellAt sr i)) q)

/-- `clip(upper=1)`; used at rdtools/soiling.py:2136-2161 -/
def clipUpper (x : List Cell) : List Cell := x.map fun c => c.map fun v => min v 1

/-- `soiling_rates` after clipping (rdtools/soiling.py:2160-2161) -/
def clippedRates (sr : List Cell) (rates : List ℚ) : List Cell :=
  (List.range rates.length).map fun i =>
    if cellAt (cellDiff sr) i = some 0 then some 0 else some (qAt rates i)

/-- the columns written by the loop; used at rdtools/soiling.py:2136-2161, 2098-2115 -/
structure KalmanState where
  ce : List Nat
  smooth : List KF
  ratio : List Cell
  rates : List Cell
  zsStd : ℚ
  rateStd : ℚ
  deriving DecidableEq, Repr

/-- parameters of one call; used at rdtools/soiling.py:2084-2090, 2120-2130, 2136-2155 -/
structure KalmanOpts where
  processNoise : ℚ := 1/10000
  zsStd : ℚ := 1/20
  rateStd : ℚ := 1/200
  maxRate : ℚ := 1/2000
  pruningIterations : Nat := 1
  pruning : ℚ := 6/10
  renorm : Option ℚ := none
  perfect : Bool := false
  clip : Bool := true
  fwd : Bool := true
  deriving DecidableEq, Repr

/-- forward pass and smoother (rdtools/soiling.py:2084-2090, 2120-2130): the event list after the pass, the smoothed states, and the
two entries of the last covariance that serve as standard deviations of the next initialization -/
def filterPass (o : KalmanOpts) (zs : List Cell) (rm7 : List ℚ) (R : ℚ) (fit : TheilFit) (se : List Nat)
    (zsStd rateStd : ℚ) (ce : List Nat) : Except PyErr (List Nat × List KF × ℚ × ℚ) :=
  let fw := forwardFrom o.processNoise R zs.length rm7 se 0 (initKF fit zsStd rateStd) ce zs
  (smoothResults o.processNoise fw.1 fw.2 se).map fun sm =>
    (fw.2, sm, ((fw.1.getLast?).map fun k => k.P.a).getD 0, ((fw.1.getLast?).map fun k => k.P.d).getD 0)

/-- step 4 and 5: soiling ratio before clipping (rdtools/soiling.py:2136-2155) -/
def ratioOf (o : KalmanOpts) (sm : List KF) (ce : List Nat) : List Cell :=
  renormalize o.renorm ce
    (if o.perfect then perfectRatio (sm.map fun k => k.s.x) ce else sm.map fun k => some k.s.x)

/-- steps 4 to 6 (rdtools/soiling.py:2136-2161) -/
def finishPass (o : KalmanOpts) (st : KalmanState) : KalmanState :=
  if o.clip then
    { st with ratio := clipUpper (ratioOf o st.smooth st.ce),
              rates := clippedRates (clipUpper (ratioOf o st.smooth st.ce)) (st.smooth.map fun k => k.s.r) }
  else { st with ratio := ratioOf o st.smooth st.ce }

/-- steps 1 and 2 (rdtools/soiling.py:2098-2115) -/
def revise (o : KalmanOpts) (st : KalmanState) : Except PyErr (List Nat) := do
  let ce ← pruneEvents o.pruning (st.smooth.map fun k => k.s.x) st.ce
  addEvents o.maxRate (st.smooth.map fun k => k.s.r) ce

/-- the `while` loop (rdtools/soiling.py:2094-2161). `fuel` bounds the number of passes (not in the code); running out of it is
reported as `runtimeError`. -/
def pruneLoop (o : KalmanOpts) (zs : List Cell) (rm7 : List ℚ) (R : ℚ) (fit : TheilFit) (se : List Nat) :
    Nat → Nat → KalmanState → Except PyErr KalmanState
  | 0, counter, st => if counter < o.pruningIterations then .error .runtimeError else .ok st
  | fuel + 1, counter, st =>
    if counter < o.pruningIterations then do
      let ce ← revise o st
      if ce = st.ce then
        pruneLoop o zs rm7 R fit se fuel 100 (finishPass o st)
      else do
        let p ← filterPass o zs rm7 R fit se st.zsStd st.rateStd ce
        pruneLoop o zs rm7 R fit se fuel (counter + 1)
          (finishPass o { st with ce := p.1, smooth := p.2.1, zsStd := p.2.2.1, rateStd := p.2.2.2 })
    else .ok st

/-- `days_since_ce` (rdtools/soiling.py:2164-2168) -/
def daysSinceEvents (n : Nat) (ce : List Nat) : List Cell :=
  (List.range n).map fun i : Nat =>
    cellOp (fun a b => a - b) (some (i : ℚ))
      (cellAt (ffill ((List.range n).map fun j : Nat => if j = 0 then some 0 else if j ∈ ce then some (j : ℚ) else none)) i)

/-- the result columns; used at rdtools/soiling.py:2163-2172, 1939-2174 -/
structure KalmanOut where
  smooth : List V2
  ratio : List Cell
  rates : List Cell
  events : List Bool
  daysSince : List Cell
  deriving DecidableEq, Repr

/-- the result (rdtools/soiling.py:2163-2172) -/
def kalmanOut (n : Nat) (st : KalmanState) : KalmanOut :=
  ⟨st.smooth.map KF.s, st.ratio, st.rates, (List.range n).map fun i => decide (i ∈ st.ce), daysSinceEvents n st.ce⟩

/-- `_Kalman_filter_for_SR` (rdtools/soiling.py:1939-2174). Not modelled: a series for which the noise estimate, the initial slope
or the filled rolling median is NaN (the code then fills the table with NaN); it ends in `exception` here. -/
def kalmanSR (o : KalmanOpts) (fuel : Nat) (zs : List Cell) (pre : Prescient) : Except PyErr KalmanOut := do
  let ce ← startEvents zs pre
  let se := truePos (soilingEvents o.fwd 5 zs)
  match cellVar ((List.range zs.length).map fun i => cellOp (fun a b => a - b) (cellAt (rollFilled o.fwd 13 zs) i) (cellAt zs i)) with
  | none => .error .exception
  | some R =>
    if (rollFilled o.fwd 7 zs).all Option.isSome && ((bfill zs).take 14).all Option.isSome then do
      let p ← filterPass o zs (valids (rollFilled o.fwd 7 zs)) R (initialFit zs) se o.zsStd o.rateStd ce
      let st ← pruneLoop o zs (valids (rollFilled o.fwd 7 zs)) R (initialFit zs) se fuel 0
        ⟨p.1, p.2.1, zs.map fun _ => none, zs.map fun _ => none, p.2.2.1, p.2.2.2⟩
      .ok (kalmanOut zs.length st)
    else .error .exception

end Verif.Cods
