import Verif.Model.ChainsSoiling
import Verif.Props.ChainsGrid

/-! # Lemmas about the insolation an analysis stores -/

namespace Verif.Chains
open Verif.Spec
variable {Loc σ : Type} {n : Numeric} {k : Keywords} {rest : Env Loc YoYResult σ} {c : Case}
  {s s' : TA Loc YoYResult σ}

theorem normalizeEnergy_index {energy pv P g : Series} {f : Int} {N0 : List (Int × Flt)} {I : Series}
    (h : normalizeEnergy energy pv P g f = .ok (N0, I)) :
    N0.map Prod.fst = I.map Prod.fst ∧ (N0.map Prod.fst).Pairwise (· < ·) := by
  unfold normalizeEnergy at h
  simp only at h
  generalize cellCmp _ _ _ = b at h
  generalize (if b = true then interpolateSeries P (pv.map Prod.fst) none else .ok P : Except PyErr Series) = A at h
  generalize (if b = true then interpolateSeries g (pv.map Prod.fst) none else .ok g : Except PyErr Series) = B at h
  cases A with
  | error e => cases h
  | ok P' =>
    cases B with
    | error e => cases h
    | ok g' =>
      simp only [Except.bind] at h
      cases hE : energyFromPower P' (some f) none .rightLabeled none with
      | error e => rw [hE] at h; cases h
      | ok E =>
        rw [hE] at h
        cases hI : energyFromPower g' (some f) none .rightLabeled none with
        | error e => rw [hI] at h; cases h
        | ok insol =>
          rw [hI] at h
          simp only [Except.ok.injEq, Prod.mk.injEq] at h
          obtain ⟨rfl, rfl⟩ := h
          have h1 : ∀ (K : List Int) , (reindexK insol K).map Prod.fst = K := by
            intro K
            unfold reindexK
            rw [List.map_map]
            exact List.map_id _
          rw [h1, List.map_map]
          have : (Prod.fst ∘ fun t : Int => (t, lookupF (alignDiv energy E) t)) = id := rfl
          rw [this, List.map_id]
          exact ⟨rfl, sortedUnion_sorted _⟩

/-- normalized energy and insolation have one index -/
theorem normalized_index {energy P g N I : Series} {scaled : Bool} (h : Normalized n energy P g scaled N I) :
    N.map Prod.fst = I.map Prod.fst ∧ (N.map Prod.fst).Pairwise (· < ·) := by
  obtain ⟨N0, h0, rfl⟩ := h
  have hk : (finiteCells (if scaled = true then renormalize n.rated N0 else N0)).map Prod.fst = N0.map Prod.fst := by
    unfold finiteCells renormalize
    cases scaled <;> cases n.rated <;> simp [Function.comp_def]
  rw [hk]
  unfold normalizeWithExpectedPower at h0
  cases hfr : n.freq (energy.map Prod.fst) with
  | none => rw [hfr] at h0; cases h0
  | some f =>
    rw [hfr] at h0
    exact normalizeEnergy_index h0

theorem select_keys {x y : Series} (h : x.map Prod.fst = y.map Prod.fst) (m : BMask) :
    (select x m).map Prod.fst = (select y m).map Prod.fst := by
  have : ∀ z : Series, (select z m).map Prod.fst = (z.map Prod.fst).filter fun t => verdictAt m t := by
    intro z
    unfold select
    rw [List.filter_map]
    rfl
  rw [this, this, h]

theorem asfreqGrid_keys {known : List Int → Bool} {freq : Int} {x y : Series} (h : x.map Prod.fst = y.map Prod.fst) :
    (asfreqGrid known freq x).map Prod.fst = (asfreqGrid known freq y).map Prod.fst := by
  cases x with
  | nil =>
    cases y with
    | nil => rfl
    | cons a y => cases h
  | cons r x =>
    cases y with
    | nil => cases h
    | cons q y =>
      have hl : (r :: x).length = (q :: y).length := by simpa using congrArg List.length h
      have hi : ∀ (a : Int) (m : Nat), (intRange a m).length = m := by
        intro a m
        induction m generalizing a with
        | zero => rfl
        | succ m ih => simp [intRange, ih]
      have h' := h
      rw [List.map_cons, List.map_cons, List.cons.injEq] at h'
      unfold asfreqGrid
      simp only
      rw [h, h'.1, h'.2, hl]
      split_ifs with hc
      · simp only [Bool.and_eq_true, decide_eq_true_eq] at hc
        rw [List.map_fst_zip (by rw [List.length_map, List.length_map, hi]; omega),
          List.map_fst_zip (by rw [List.length_map, List.length_map, hi]; omega)]
      · have : ∀ (w : Series) (K : List Int), (K.map fun t => (t, lookupK w t)).map Prod.fst = K := by
          intro w K
          rw [List.map_map]
          exact List.map_id _
        rw [this, this]

/-- the two aggregates have one index -/
theorem aggregateNorm_keys {freq : Int} {e i : Series} (h : e.map Prod.fst = i.map Prod.fst) :
    ((aggregateNorm freq e i).1).map Prod.fst = ((aggregateNorm freq e i).2).map Prod.fst := by
  have h1 : ((aggregateNorm freq e i).1).map Prod.fst = (aggregationInsol (insolRows e i) freq).map Prod.fst := by
    unfold aggregateNorm finiteCells
    rw [List.map_map]
    rfl
  rw [h1]
  cases e with
  | nil =>
    cases i with
    | nil => rfl
    | cons a i => cases h
  | cons r e =>
    cases i with
    | nil => cases h
    | cons q i =>
      rw [List.map_cons, List.map_cons, List.cons.injEq] at h
      unfold aggregateNorm insolRows aggregationInsol resampleSum
      simp only [List.map_cons, List.map_map]
      have : ((fun x : InsolRow => x.t) ∘ fun x : Int × Cell => (⟨x.1, lookupK (q :: i) x.1, x.2⟩ : InsolRow)) = Prod.fst := rfl
      rw [this, h.1, h.2]
      rfl

/-- a row of the resampled insolation -/
theorem mem_resampleSum {freq : Int} (hf : 0 < freq) {x : Series} {L : Int} {v : Cell} (h : (L, v) ∈ resampleSum x freq) :
    v = some (skipnaSum ((x.filter fun r => decide (L ≤ r.1 ∧ r.1 < L + freq)).map Prod.snd)) := by
  cases x with
  | nil => cases h
  | cons r x =>
    simp only [resampleSum, List.mem_map, Prod.mk.injEq] at h
    obtain ⟨b, -, rfl, rfl⟩ := h
    congr 3
    refine List.filter_congr fun y _ => ?_
    rw [decide_eq_decide]
    exact binOf_eq_iff hf

/-- the insolation of the accepted samples of a period -/
theorem insolation_selected {N I : Series} (hk : N.map Prod.fst = I.map Prod.fst) (hN : (N.map Prod.fst).Nodup) (mask : BMask)
    (L f : Int) :
    skipnaSum (((select I mask).filter fun r => decide (L ≤ r.1 ∧ r.1 < L + f)).map Prod.snd) =
      Spec.insolationIn N I mask L f := by
  have key : ∀ J : Series, (∀ r ∈ J, lookupK I r.1 = r.2) →
      skipnaSum (((select J mask).filter fun r => decide (L ≤ r.1 ∧ r.1 < L + f)).map Prod.snd) =
        (((J.map Prod.fst).filter fun t => verdictAt mask t && decide (L ≤ t ∧ t < L + f)).filterMap
          fun t => lookupK I t).sum := by
    intro J hJ
    unfold skipnaSum valids select
    rw [List.filter_filter, List.filter_map, List.filterMap_map, List.filterMap_map]
    congr 1
    have : (J.filter fun r => decide (L ≤ r.1 ∧ r.1 < L + f) && verdictAt mask r.1) =
        J.filter ((fun t => verdictAt mask t && decide (L ≤ t ∧ t < L + f)) ∘ Prod.fst) := by
      refine List.filter_congr fun r _ => ?_
      simp only [Function.comp_apply]
      rw [Bool.and_comm]
    rw [this]
    refine List.filterMap_congr fun r hr => ?_
    simp only [Function.comp_apply, id]
    rw [hJ r (List.mem_filter.mp hr).1]
  have hI : (I.map Prod.fst).Nodup := by rw [← hk]; exact hN
  rw [key I fun r hr => lookupK_of_mem hI hr]
  unfold Spec.insolationIn Spec.acceptedIn
  rw [← hk, List.filter_map, List.filterMap_map]
  rfl

/-- what filtering and aggregation store -/
theorem finish_stored {energy insol : Series}
    (h : finish (degradationEnv n k rest) energy insol c s = (.ok (), s')) :
    ∃ mask maskAgg, (s'.out c).mask = some mask ∧ (s'.out c).maskAgg = some maskAgg ∧
      (s'.out c).performance = some (asfreqGrid k.known k.aggFreq
        (select (aggregateNorm k.aggFreq (select energy mask) (select insol mask)).1 maskAgg)) ∧
      (s'.out c).insolation = some (asfreqGrid k.known k.aggFreq
        (select (aggregateNorm k.aggFreq (select energy mask) (select insol mask)).2 maskAgg)) := by
  unfold finish at h
  replace h := bind_ok.mp h
  obtain ⟨_, s1, h1, h⟩ := h
  replace h := bind_ok.mp h
  obtain ⟨_, _, h0, h⟩ := h
  cases h0
  replace h := bind_ok.mp h
  obtain ⟨mask, _, h2, h⟩ := h
  obtain ⟨em, rfl⟩ := attr_ok h2
  replace h := bind_ok.mp h
  obtain ⟨xe, _, he, h⟩ := h
  obtain ⟨ge, rfl⟩ := call_ok he
  obtain rfl := boolIndex_ok ge
  replace h := bind_ok.mp h
  obtain ⟨xi, _, hi, h⟩ := h
  obtain ⟨gi, rfl⟩ := call_ok hi
  obtain rfl := boolIndex_ok gi
  replace h := bind_ok.mp h
  obtain ⟨r, _, h3, h⟩ := h
  cases h3
  replace h := bind_ok.mp h
  obtain ⟨_, s2, h4, h⟩ := h
  replace h := bind_ok.mp h
  obtain ⟨_, s3, h5, h⟩ := h
  replace h := bind_ok.mp h
  obtain ⟨_, _, h0, h⟩ := h
  cases h0
  replace h := bind_ok.mp h
  obtain ⟨maskAgg, _, h6, h⟩ := h
  obtain ⟨ea, rfl⟩ := attr_ok h6
  replace h := bind_ok.mp h
  obtain ⟨xp, _, hp', h⟩ := h
  obtain ⟨gp, rfl⟩ := call_ok hp'
  obtain rfl := boolIndex_ok gp
  replace h := bind_ok.mp h
  obtain ⟨_, s4, h7, h⟩ := h
  replace h := bind_ok.mp h
  obtain ⟨xq, _, hq', h⟩ := h
  obtain ⟨gq, rfl⟩ := call_ok hq'
  obtain rfl := boolIndex_ok gq
  cases h7
  cases h
  refine ⟨mask, maskAgg, ?_, ?_, ?_, ?_⟩
  · have hs : (s2.out c).mask = some mask := by cases h4; rw [← em]; cases c <;> rfl
    have := aggregatedFilter_mask (env := degradationEnv n k rest) (s := s2)
      (aggregateNorm k.aggFreq (select energy mask) (select insol mask)).1 (some mask) hs
    unfold KeepsAt at this
    rw [h5] at this
    cases c <;> exact this
  · rw [← ea]; cases c <;> rfl
  · cases c <;> rfl
  · cases c <;> rfl

end Verif.Chains
