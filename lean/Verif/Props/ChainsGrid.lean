import Verif.Props.ChainsRecover

/-! # C114: what an analysis stores is what its filters accepted (rdtools/analysis_chains.py) -/

namespace Verif.Chains
open Verif.Spec
variable {Loc σ : Type} {n : Numeric} {k : Keywords} {rest : Env Loc YoYResult σ} {c : Case}
  {s s' : TA Loc YoYResult σ}

/-- the accepted samples of the period from `L` to `L + f` -/
def Spec.acceptedIn (N : Series) (mask : BMask) (L f : Int) : Series :=
  N.filter fun r => verdictAt mask r.1 && decide (L ≤ r.1 ∧ r.1 < L + f)

/-- their insolation -/
def Spec.insolationIn (N I : Series) (mask : BMask) (L f : Int) : ℚ :=
  ((Spec.acceptedIn N mask L f).filterMap fun r => lookupK I r.1).sum

/-- their normalized energy times insolation -/
def Spec.weightedIn (N I : Series) (mask : BMask) (L f : Int) : ℚ :=
  ((Spec.acceptedIn N mask L f).filterMap fun r => (lookupK I r.1).bind fun w => r.2.map fun e => w * e).sum

theorem lookupK_select {x : Series} {m : BMask} {t : Int} (h : verdictAt m t = true) :
    lookupK (select x m) t = lookupK x t := by
  unfold select
  induction x with
  | nil => rfl
  | cons r x ih =>
    obtain ⟨u, v⟩ := r
    by_cases hu : u = t
    · subst hu
      rw [List.filter_cons_of_pos (by simpa using h)]
      simp [lookupK]
    · by_cases hv : verdictAt m u = true
      · rw [List.filter_cons_of_pos (by simpa using hv)]
        simp only [lookupK, if_neg hu]
        exact ih
      · rw [List.filter_cons_of_neg (by simpa using hv)]
        simp only [lookupK, if_neg hu]
        exact ih

theorem inPeriod_accepted (N I : Series) (mask : BMask) (L f : Int) :
    inPeriod (insolRows (select N mask) (select I mask)) L f =
      (Spec.acceptedIn N mask L f).map fun r => (⟨r.1, lookupK I r.1, r.2⟩ : InsolRow) := by
  unfold inPeriod insolRows Spec.acceptedIn select
  rw [List.filter_map, List.filter_filter]
  have hfilt : (N.filter fun a => ((fun r : InsolRow => decide (L ≤ r.t ∧ r.t < L + f)) ∘
      fun r => (⟨r.1, lookupK (I.filter fun r => verdictAt mask r.1) r.1, r.2⟩ : InsolRow)) a && verdictAt mask a.1) =
      N.filter fun r => verdictAt mask r.1 && decide (L ≤ r.1 ∧ r.1 < L + f) := by
    refine List.filter_congr fun r _ => ?_
    simp only [Function.comp_apply]
    rw [Bool.and_comm]
  rw [hfilt]
  refine List.map_congr_left fun r hr => ?_
  have := (List.mem_filter.mp hr).2
  simp only [Bool.and_eq_true] at this
  have h1 := lookupK_select (x := I) this.1
  unfold select at h1
  rw [h1]

theorem insolation_sum (N I : Series) (mask : BMask) (L f : Int) :
    skipnaSum ((inPeriod (insolRows (select N mask) (select I mask)) L f).map (·.insol)) =
      Spec.insolationIn N I mask L f := by
  rw [inPeriod_accepted]
  unfold skipnaSum valids Spec.insolationIn
  rw [List.map_map, List.filterMap_map]
  rfl

theorem weighted_sum (N I : Series) (mask : BMask) (L f : Int) :
    skipnaSum ((inPeriod (insolRows (select N mask) (select I mask)) L f).map fun x =>
      cellOp (· * ·) x.insol x.energy) = Spec.weightedIn N I mask L f := by
  rw [inPeriod_accepted]
  unfold skipnaSum valids Spec.weightedIn
  rw [List.map_map, List.filterMap_map]
  congr 1
  refine List.filterMap_congr fun r _ => ?_
  simp only [Function.comp_apply, id]
  cases lookupK I r.1 <;> cases r.2 <;> rfl

theorem ofDiv_fin {a b e : ℚ} : Flt.ofDiv a b = .fin e ↔ b ≠ 0 ∧ e = a / b := by
  unfold Flt.ofDiv
  split_ifs with h1 <;> simp_all [eq_comm]

/-- the values of the aggregated normalized energy -/
theorem mem_aggregateNorm {N I : Series} {mask : BMask} {f : Int} (hagg : 0 < f) {r0 : Int × Cell} (hr0 : r0 ∈ N)
    (hv0 : verdictAt mask r0.1 = true) (hmin : ∀ r ∈ N, verdictAt mask r.1 = true → r0.1 ≤ r.1)
    {m : Int} (hm : dayNs ∣ m) (hm0 : m ≤ r0.1) (hm1 : r0.1 < m + dayNs) (L : Int) (e : ℚ) :
    (L, some e) ∈ (aggregateNorm f (select N mask) (select I mask)).1 ↔
      f ∣ L - m ∧ Spec.insolationIn N I mask L f ≠ 0 ∧
        e = Spec.weightedIn N I mask L f / Spec.insolationIn N I mask L f := by
  have hrow : ∀ r ∈ N, verdictAt mask r.1 = true →
      (⟨r.1, lookupK (select I mask) r.1, r.2⟩ : InsolRow) ∈ insolRows (select N mask) (select I mask) := by
    intro r hr hv
    exact List.mem_map.mpr ⟨r, List.mem_filter.mpr ⟨hr, hv⟩, rfl⟩
  have hback : ∀ x ∈ insolRows (select N mask) (select I mask), ∃ r ∈ N, verdictAt mask r.1 = true ∧ x.t = r.1 := by
    intro x hx
    obtain ⟨r, hr, rfl⟩ := List.mem_map.mp hx
    obtain ⟨hr1, hr2⟩ := List.mem_filter.mp hr
    exact ⟨r, hr1, hr2, rfl⟩
  have hper := C110_periods (L := L) hagg (hrow r0 hr0 hv0) (fun x hx => by
    obtain ⟨r, hr, hv, e⟩ := hback x hx
    rw [e]
    exact hmin r hr hv) hm hm0 hm1
  have hmem : (L, some e) ∈ (aggregateNorm f (select N mask) (select I mask)).1 ↔
      (L, Flt.fin e) ∈ aggregationInsol (insolRows (select N mask) (select I mask)) f := by
    unfold aggregateNorm finiteCells
    simp only [List.mem_map, Prod.mk.injEq]
    constructor
    · rintro ⟨⟨a, b⟩, hab, rfl, hb⟩
      rw [← fin_of_finiteCell hb]
      exact hab
    · intro hx
      exact ⟨_, hx, rfl, rfl⟩
  rw [hmem]
  constructor
  · intro hx
    have hval := mem_aggregationInsol hagg hx
    rw [insolation_sum, weighted_sum, eq_comm, ofDiv_fin] at hval
    exact ⟨(hper.mp (List.mem_map.mpr ⟨_, hx, rfl⟩)).1, hval.1, hval.2⟩
  · rintro ⟨hd, hne, he⟩
    have hacc : ∃ r ∈ N, verdictAt mask r.1 = true ∧ L ≤ r.1 ∧ r.1 < L + f := by
      by_contra hcon
      push Not at hcon
      refine hne ?_
      have : Spec.acceptedIn N mask L f = [] := by
        unfold Spec.acceptedIn
        rw [List.filter_eq_nil_iff]
        intro r hr hx
        simp only [Bool.and_eq_true, decide_eq_true_eq] at hx
        have := hcon r hr hx.1 hx.2.1
        omega
      unfold Spec.insolationIn
      rw [this]
      rfl
    obtain ⟨r, hr, hvr, hL1, hL2⟩ := hacc
    have hmin' := hmin r hr hvr
    have hL : L ∈ (aggregationInsol (insolRows (select N mask) (select I mask)) f).map Prod.fst :=
      hper.mpr ⟨hd, by show r0.1 < _; omega, _, hrow r hr hvr, hL1⟩
    obtain ⟨⟨L', v⟩, hx, rfl⟩ := List.mem_map.mp hL
    have hval := mem_aggregationInsol hagg hx
    rw [insolation_sum, weighted_sum, (ofDiv_fin (e := e)).mpr ⟨hne, he⟩] at hval
    exact hval ▸ hx

/-- **C114.** In every analysis that gets through its preprocessing the stored performance is a Series on regular times, and its
values are exactly these: for every period (counted from a midnight before the first accepted sample of that day) that holds accepted
insolation and passes the stored filter of aggregates, the mean of the accepted normalized energies weighted with insolation. -/
theorem C114_stored_partial (h : preprocess (degradationEnv n k rest) c s = (.ok (), s')) (hagg : 0 < k.aggFreq)
    (hfit : Spec.FitsDays k.aggFreq) :
    ∃ g P N I mask maskAgg perf, Spec.irradiance s' c = some g ∧ Spec.modelPower n s' c = some P ∧
      Normalized n s.pvEnergy P g s.powerExpected.isNone N I ∧
      (s'.out c).mask = some mask ∧ (s'.out c).maskAgg = some maskAgg ∧ (s'.out c).performance = some perf ∧
      (perf.map Prod.fst).Pairwise (fun a b => a < b ∧ k.aggFreq ∣ b - a) ∧
      ((∀ r ∈ N, verdictAt mask r.1 = false) → ∀ L e, (L, some e) ∉ perf) ∧
      ∀ r0 ∈ N, verdictAt mask r0.1 = true → (∀ r ∈ N, verdictAt mask r.1 = true → r0.1 ≤ r.1) →
        ∀ m, dayNs ∣ m → m ≤ r0.1 → r0.1 < m + dayNs → ∀ L e, (L, some e) ∈ perf ↔
          k.aggFreq ∣ L - m ∧ verdictAt maskAgg L = true ∧ Spec.insolationIn N I mask L k.aggFreq ≠ 0 ∧
            e = Spec.weightedIn N I mask L k.aggFreq / Spec.insolationIn N I mask L k.aggFreq := by
  obtain ⟨u, N, I, g, P, h1, -, h3, h4, h5⟩ := preprocess_normalized h
  obtain ⟨_, mask, maskAgg, perf, -, -, e1, e2, e3, -, ⟨origin, b0, len, e5⟩, e6⟩ := finish_accepted hagg hfit h1
  refine ⟨g, P, N, I, mask, maskAgg, perf, h3, h4, h5, e1, e2, e3, ?_, ?_, ?_⟩
  · rw [e5, List.pairwise_map]
    refine (intRange_lt _ _).imp ?_
    intro a b hab
    have : a * k.aggFreq < b * k.aggFreq := Int.mul_lt_mul_of_pos_right hab hagg
    exact ⟨by omega, ⟨b - a, by ring⟩⟩
  · intro hno L e hx
    have hx := ((e6 L e).mp hx).1
    have : select N mask = [] := by
      unfold select
      rw [List.filter_eq_nil_iff]
      intro r hr hv
      rw [hno r hr] at hv
      cases hv
    rw [this] at hx
    cases hx
  · intro r0 hr0 hv0 hmin m hm hm0 hm1 L e
    rw [e6, mem_aggregateNorm hagg hr0 hv0 hmin hm hm0 hm1]
    tauto

/-! ## examples -/

/-- normalized energy and insolation of an analysis with measured irradiance and PVWatts, computed -/
def exNormalized (n : Numeric) (s s' : TA Unit YoYResult Unit) : Option (Series × Series × Series × Series) :=
  s'.poa.bind fun g => (Spec.modelPower n s' .sensor).bind fun P =>
    match normalizeWithExpectedPower s.pvEnergy P g (n.freq (s.pvEnergy.map Prod.fst)) .energy with
    | .ok (N0, I) => some (g, P, finiteCells (if s.powerExpected.isNone then renormalize n.rated N0 else N0), I)
    | .error _ => none

theorem exNormalized_spec {n : Numeric} {s s' : TA Unit YoYResult Unit} {g P N I : Series}
    (h : exNormalized n s s' = some (g, P, N, I)) : Spec.irradiance s' .sensor = some g ∧
      Spec.modelPower n s' .sensor = some P ∧ Normalized n s.pvEnergy P g s.powerExpected.isNone N I := by
  unfold exNormalized at h
  cases hg : s'.poa with
  | none => rw [hg] at h; cases h
  | some g' =>
    rw [hg, Option.bind_some] at h
    cases hP : Spec.modelPower n s' .sensor with
    | none => rw [hP] at h; cases h
    | some P' =>
      rw [hP, Option.bind_some] at h
      split at h
      · rename_i N0 I' hN
        simp only [Option.some.injEq, Prod.mk.injEq] at h
        obtain ⟨rfl, rfl, rfl, rfl⟩ := h
        exact ⟨hg, rfl, N0, hN, rfl⟩
      · cases h

/-- three and a half hours -/
def exHalf : Int := 35 * (360 * 1000000000)

/-- fifteen readings, three and a half hours apart -/
def exTwoDays : Args where
  pv := (intRange 0 15).map fun i => (i * exHalf, some (if i = 14 then 6/5 else 1 - i / 1000))
  isPower := true
  poa := some ((intRange 0 15).map fun i => (i * exHalf, some (if i = 14 then 1200 else 1000)))
  tcell := some ((intRange 0 15).map fun i => (i * exHalf, some 25))
  tamb := none
  expected := none
  aggDaily := false
  interpFreq := none
  maxTd := none
  indexFreq := some exHalf

/-- the user rejects the periods from 0, 7, 14, 21 and 35 o'clock -/
def exRejected : FVal :=
  .mask [(0, some false), (2 * exHalf, some false), (4 * exHalf, some false), (6 * exHalf, some false),
    (10 * exHalf, some false)]

/-- the object before and after the preprocessing, with periods of `freq` -/
def exStored (freq : Int) : Option (TA Unit YoYResult Unit × TA Unit YoYResult Unit) :=
  (construct exTwoDays).toOption.bind fun s0 =>
    let s := { s0 with paramsAgg := { s0.paramsAgg with items := s0.paramsAgg.items.set "ad_hoc_filter" exRejected } }
    match preprocess (degradationEnv { exPlate with freq := fun _ => some exHalf } { exKeywords with aggFreq := freq }
        exNothing) .sensor s with
    | (.ok (), s') => some (s, s')
    | _ => none

theorem exStored_spec {freq : Int} {s s' : TA Unit YoYResult Unit} (h : exStored freq = some (s, s')) :
    preprocess (degradationEnv { exPlate with freq := fun _ => some exHalf } { exKeywords with aggFreq := freq }
      exNothing) .sensor s = (.ok (), s') := by
  unfold exStored at h
  cases hc : (construct exTwoDays : Except PyErr (TA Unit YoYResult Unit)).toOption with
  | none => rw [hc] at h; cases h
  | some s0 =>
    rw [hc] at h
    simp only [Option.bind_some] at h
    split at h
    · rename_i u hu
      simp only [Option.some.injEq, Prod.mk.injEq] at h
      obtain ⟨rfl, rfl⟩ := h
      exact hu
    · cases h

/-- what is computed about the two days with periods of seven hours -/
def exLost (s s' : TA Unit YoYResult Unit) : Bool :=
  match exNormalized { exPlate with freq := fun _ => some exHalf } s s', s'.sensor.mask, s'.sensor.maskAgg,
      s'.sensor.performance with
  | some (_, _, N, I), some mask, some maskAgg, some perf =>
    perf.all (fun r => decide (r.2 = none)) && verdictAt maskAgg (8 * exHalf) &&
    decide (Spec.insolationIn N I mask (8 * exHalf) (2 * exHalf) ≠ 0) &&
    N.any (fun r => decide (0 ≤ r.1 ∧ r.1 < dayNs) && verdictAt mask r.1) && N.all (fun r => decide (0 ≤ r.1))
  | _, _, _, _ => false

/-- **C114 fails for other periods.** With periods of seven hours, which neither divide a day nor are whole days, an analysis
can accept a period full of accepted samples and yet store no value at all: after the filter of aggregates the periods are
counted anew from midnight of the first period that is left (rdtools/analysis_chains.py:919-926). -/
theorem C114_stored_refuted :
    ∃ (n : Numeric) (k : Keywords) (rest : Env Unit YoYResult Unit) (s s' : TA Unit YoYResult Unit)
      (g P N I : Series) (mask maskAgg : BMask) (perf : Series) (L : Int),
      0 < k.aggFreq ∧ preprocess (degradationEnv n k rest) .sensor s = (.ok (), s') ∧
      Spec.irradiance s' .sensor = some g ∧ Spec.modelPower n s' .sensor = some P ∧
      Normalized n s.pvEnergy P g s.powerExpected.isNone N I ∧
      s'.sensor.mask = some mask ∧ s'.sensor.maskAgg = some maskAgg ∧ s'.sensor.performance = some perf ∧
      (∃ r ∈ N, verdictAt mask r.1 = true ∧ r.1 < dayNs) ∧ (∀ r ∈ N, 0 ≤ r.1) ∧
      k.aggFreq ∣ L ∧ verdictAt maskAgg L = true ∧ Spec.insolationIn N I mask L k.aggFreq ≠ 0 ∧
      ∀ t e, (t, some e) ∉ perf := by
  have hc : ((exStored (2 * exHalf)).elim false fun x => exLost x.1 x.2) = true := by decide +kernel
  cases hr : exStored (2 * exHalf) with
  | none => rw [hr] at hc; cases hc
  | some x =>
    rw [hr] at hc
    obtain ⟨s, s'⟩ := x
    simp only [Option.elim, exLost] at hc
    split at hc
    · rename_i g P N I mask maskAgg perf hN hm hma hp
      simp only [Bool.and_eq_true, List.all_eq_true, List.any_eq_true, decide_eq_true_eq] at hc
      obtain ⟨⟨⟨⟨h1, h2⟩, h3⟩, r, hr', ⟨h4, h5⟩, h6⟩, h7⟩ := hc
      obtain ⟨e1, e2, e3⟩ := exNormalized_spec hN
      refine ⟨_, _, _, s, s', g, P, N, I, mask, maskAgg, perf, 8 * exHalf, ?_, exStored_spec hr, e1, e2, e3, hm, hma,
        hp, ⟨r, hr', h6, h5⟩, h7, ?_, h2, h3, ?_⟩
      · decide
      · decide
      · intro t e he
        have := h1 _ he
        cases this
    · cases hc

/-- the hypotheses of `C114_stored_partial` are met with periods of half a day: the rejected first half day is left out, the
three others are stored -/
example : ∃ (n : Numeric) (k : Keywords) (rest : Env Unit YoYResult Unit) (s s' : TA Unit YoYResult Unit) (perf : Series),
    preprocess (degradationEnv n k rest) .sensor s = (.ok (), s') ∧ 0 < k.aggFreq ∧ Spec.FitsDays k.aggFreq ∧
    s'.sensor.performance = some perf ∧
    perf = [(1 * (dayNs / 2), some (199/200)), (2 * (dayNs / 2), some (1983/2000)), (3 * (dayNs / 2), some (247/250))] := by
  have hc : ((exStored (dayNs / 2)).elim none fun x => x.2.sensor.performance) =
    some [(1 * (dayNs / 2), some (199/200)), (2 * (dayNs / 2), some (1983/2000)), (3 * (dayNs / 2), some (247/250))] := by
      decide +kernel
  cases hr : exStored (dayNs / 2) with
  | none => rw [hr] at hc; cases hc
  | some x =>
    rw [hr] at hc
    obtain ⟨s, s'⟩ := x
    exact ⟨_, _, _, s, s', _, exStored_spec hr, by decide, Or.inl (by decide), hc, rfl⟩

end Verif.Chains
