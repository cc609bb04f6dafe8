import Verif.Props.CodsPass

/-! # Property C140: which cleaning events a CODS iteration removes and adds -/

namespace Verif.Cods

open Verif Verif.Spec

/-- the median level of a day and the six days that follow -/
def Spec.WeekMedian (levels : List ℚ) (e : Nat) (m : ℚ) : Prop := e + 7 ≤ levels.length ∧ IsMedian ((levels.drop e).take 7) m

/-- an event is taken for a false one: the median level of its week is lower than the lower quartile for all events by more than
`sens` times the distance of the quartiles. This needs a week after every event. -/
def Spec.FalseEvent (sens : ℚ) (levels : List ℚ) (ce : List Nat) (e : Nat) : Prop :=
  ∃ (l : List ℚ) (q1 q3 m : ℚ), List.Forall₂ (Spec.WeekMedian levels) ce l ∧ IsQuantile l (1 / 4) q1 ∧ IsQuantile l (3 / 4) q3 ∧
    Spec.WeekMedian levels e m ∧ m < q1 - sens * (q3 - q1)

/-- is the rate of a day larger than the limit? -/
def Spec.steep (maxRate : ℚ) (rates : List ℚ) (i : Nat) : Bool := (rates[i]?.map fun r => decide (maxRate < r)).getD false

/-- a day becomes an event: among at least two days with a rate above the limit, it has the largest rate around a run of such days -/
def Spec.AddedEvent (maxRate : ℚ) (rates : List ℚ) (e : Nat) : Prop :=
  (∃ i j, i < j ∧ Spec.steep maxRate rates i = true ∧ Spec.steep maxRate rates j = true) ∧
    ∃ L, Islands (Spec.steep maxRate rates) 4 (rates.length - 4) 4 L ∧ Event (fun i => rates[i]?) 4 L e

theorem forall₂_valids {levels : List ℚ} {ce : List Nat} {l : List ℚ} :
    List.Forall₂ (Spec.WeekMedian levels) ce l ↔ ce.map (weekMedian levels) = l.map some := by
  induction ce generalizing l with
  | nil => cases l <;> simp
  | cons e ce ih =>
    cases l with
    | nil => simp
    | cons m l =>
      rw [List.forall₂_cons, ih, List.map_cons, List.map_cons, List.cons_eq_cons]
      unfold Spec.WeekMedian weekMedian
      rw [isMedian_iff]
      refine and_congr_left fun _ => ?_
      constructor
      · rintro ⟨h, hm⟩; rw [if_pos h]; exact hm
      · intro h; split_ifs at h with hc
        exact ⟨hc, h⟩

theorem weekMedian_iff {levels : List ℚ} {e : Nat} {m : ℚ} : weekMedian levels e = some m ↔ Spec.WeekMedian levels e m := by
  unfold Spec.WeekMedian weekMedian
  rw [isMedian_iff]
  constructor
  · intro h; split_ifs at h with hc
    exact ⟨hc, h⟩
  · rintro ⟨h, hm⟩; rw [if_pos h]; exact hm

theorem all_isSome {x : List Cell} : x.all Option.isSome = true ↔ ∃ l : List ℚ, x = l.map some := by
  induction x with
  | nil => exact ⟨fun _ => ⟨[], rfl⟩, fun _ => rfl⟩
  | cons c x ih =>
    rw [List.all_cons, Bool.and_eq_true, ih]
    constructor
    · rintro ⟨h, l, rfl⟩
      obtain ⟨v, rfl⟩ := Option.isSome_iff_exists.mp h
      exact ⟨v :: l, rfl⟩
    · rintro ⟨l, hl⟩
      cases l with
      | nil => cases hl
      | cons v l => cases hl; exact ⟨rfl, l, rfl⟩

theorem valids_map_some' (l : List ℚ) : valids (l.map some) = l := by
  unfold valids
  rw [List.filterMap_map]
  simp

theorem lower_iff {levels : List ℚ} {ce : List Nat} {sens : ℚ} {e : Nat} :
    cellCmp (fun a b => decide (a < b)) (weekMedian levels e)
        (cellOp (fun q3 q1 => q1 - sens * (q3 - q1)) (npQuantile (ce.map (weekMedian levels)) (3 / 4))
          (npQuantile (ce.map (weekMedian levels)) (1 / 4))) = true ↔ Spec.FalseEvent sens levels ce e := by
  unfold Spec.FalseEvent
  constructor
  · intro h
    cases hm : weekMedian levels e with
    | none => rw [hm] at h; cases h
    | some m =>
      rw [hm] at h
      unfold npQuantile at h
      by_cases ha : (ce.map (weekMedian levels)).all Option.isSome = true
      · rw [if_pos ha, if_pos ha] at h
        obtain ⟨l, hl⟩ := all_isSome.mp ha
        rw [hl, valids_map_some'] at h
        cases h3 : quantile l (3 / 4) with
        | none => rw [h3] at h; simp [cellOp, cellCmp] at h
        | some q3 =>
          cases h1 : quantile l (1 / 4) with
          | none => rw [h3, h1] at h; simp [cellOp, cellCmp] at h
          | some q1 =>
            rw [h3, h1] at h
            simp only [cellOp, cellCmp, decide_eq_true_eq] at h
            exact ⟨l, q1, q3, m, forall₂_valids.mpr hl, (isQuantile_iff (by norm_num) (by norm_num)).mpr h1,
              (isQuantile_iff (by norm_num) (by norm_num)).mpr h3, weekMedian_iff.mp hm, h⟩
      · rw [if_neg ha] at h
        simp [cellOp, cellCmp] at h
  · rintro ⟨l, q1, q3, m, hl, h1, h3, hm, h⟩
    have hl := forall₂_valids.mp hl
    rw [weekMedian_iff.mpr hm]
    unfold npQuantile
    have ha : (ce.map (weekMedian levels)).all Option.isSome = true := all_isSome.mpr ⟨l, hl⟩
    rw [if_pos ha, if_pos ha, hl, valids_map_some', (isQuantile_iff (by norm_num) (by norm_num)).mp h1,
      (isQuantile_iff (by norm_num) (by norm_num)).mp h3]
    simp only [cellOp, cellCmp, decide_eq_true_eq]
    exact h

theorem mem_zip_map {α : Type} {l : List α} {f : α → Bool} {e : α} :
    e ∈ ((l.zip (l.map f)).filter fun p => !p.2).map Prod.fst ↔ e ∈ l ∧ f e = false := by
  induction l with
  | nil => simp
  | cons x l ih =>
    simp only [List.map_cons, List.zip_cons_cons, List.filter_cons]
    cases hx : f x with
    | true =>
      simp only [Bool.not_true, Bool.false_eq_true, if_false]
      rw [ih, List.mem_cons]
      constructor
      · rintro ⟨a, b⟩; exact ⟨.inr a, b⟩
      · rintro ⟨rfl | a, b⟩
        · rw [hx] at b; cases b
        · exact ⟨a, b⟩
    | false =>
      simp only [Bool.not_false, if_true, List.map_cons]
      rw [List.mem_cons, ih, List.mem_cons]
      constructor
      · rintro (rfl | ⟨a, b⟩)
        · exact ⟨.inl rfl, hx⟩
        · exact ⟨.inr a, b⟩
      · rintro ⟨rfl | a, b⟩
        · exact .inl rfl
        · exact .inr ⟨a, b⟩

theorem pruneEvents_mem {sens : ℚ} {levels : List ℚ} {ce ce' : List Nat} (h : pruneEvents sens levels ce = .ok ce') {e : Nat} :
    e ∈ ce' ↔ e ∈ ce ∧ ¬Spec.FalseEvent sens levels ce e := by
  unfold pruneEvents at h
  split_ifs at h with h0
  · cases h; subst h0; simp
  · obtain ⟨b, hb, rfl⟩ := map_ok.mp h
    unfold numericOutliers at hb
    rw [if_neg (by simpa using h0)] at hb
    simp only at hb
    cases hb
    rw [List.map_map, mem_zip_map, ← lower_iff]
    simp only [Function.comp_apply, Bool.not_eq_true]

theorem two_of_count {l : List Bool} (h : 1 < l.count true) : ∃ i j : Nat, i < j ∧ getB l i = true ∧ getB l j = true := by
  have hlen : (truePos l).length = l.count true := by
    unfold truePos
    rw [← List.countP_eq_length_filter, List.count, show l.countP (· == true) = ((List.range l.length).map fun i => getB l i).countP (· == true) from ?_,
      List.countP_map]
    · apply List.countP_congr
      intro i _
      simp
    · congr 1
      apply List.ext_getElem
      · simp
      · intro i h1 h2; simp [getB, List.getD_eq_getElem?_getD, h1]
  have hp := (List.nodup_range (n := l.length)).filter fun i => getB l i
  have hs : ((List.range l.length).filter fun i => getB l i).Pairwise (· < ·) := List.pairwise_lt_range.filter _
  change (truePos l).Pairwise (· < ·) at hs
  rw [← hlen] at h
  refine ⟨(truePos l)[0], (truePos l)[1], List.pairwise_iff_getElem.mp hs 0 1 _ _ (by omega), ?_, ?_⟩
  · exact mem_truePos.mp (List.getElem_mem _)
  · exact mem_truePos.mp (List.getElem_mem _)

theorem count_of_two {l : List Bool} {i j : Nat} (hij : i < j) (hi : getB l i = true) (hj : getB l j = true) : 1 < l.count true := by
  have hjl := getB_lt hj
  have e : l = l.take j ++ l.drop j := (List.take_append_drop j l).symm
  have h1 : true ∈ l.take j := by
    rw [List.mem_iff_getElem?]
    refine ⟨i, ?_⟩
    rw [List.getElem?_take_of_lt hij]
    unfold getB at hi
    rw [List.getD_eq_getElem?_getD] at hi
    cases hc : l[i]? with
    | none => rw [hc] at hi; cases hi
    | some b => rw [hc] at hi; exact congrArg some hi
  have h2 : true ∈ l.drop j := by
    rw [List.mem_iff_getElem?]
    refine ⟨0, ?_⟩
    rw [List.getElem?_drop, Nat.add_zero]
    unfold getB at hj
    rw [List.getD_eq_getElem?_getD] at hj
    cases hc : l[j]? with
    | none => rw [hc] at hj; cases hj
    | some b => rw [hc] at hj; exact congrArg some hj
  have := List.count_pos_iff.mpr h1
  have := List.count_pos_iff.mpr h2
  rw [e, List.count_append]
  omega

theorem islands_unique {c : Nat → Bool} {f hi lo : Nat} {L L' : List (Nat × Nat)} (h : Spec.Islands c f hi lo L) :
    Spec.Islands c f hi lo L' → L = L' := by
  induction h generalizing L' with
  | none h =>
    intro h'
    cases h' with
    | none => rfl
    | atEnd => rfl
    | @cons _ s e _ g0 g1 g2 g3 g4 g5 g6 =>
      have := h s g0 (by omega)
      rw [g4 s le_rfl g1] at this
      cases this
  | @atEnd lo s h0 h1 h2 h3 =>
    intro h'
    cases h' with
    | none => rfl
    | atEnd => rfl
    | @cons _ s' e _ g0 g1 g2 g3 g4 g5 g6 =>
      have : s ≤ e + 1 := by
        by_contra hc
        have := h2 s' g0 (by omega)
        rw [g4 s' le_rfl g1] at this
        cases this
      rw [h3 (e + 1) this g2] at g5
      cases g5
  | @cons lo s e L k0 k1 k2 k3 k4 k5 k6 ih =>
    intro h'
    cases h' with
    | none h =>
      have := h s k0 (by omega)
      rw [k4 s le_rfl k1] at this
      cases this
    | @atEnd _ s' h0 h1 h2 h3 =>
      have : s' ≤ e + 1 := by
        by_contra hc
        have := h2 s k0 (by omega)
        rw [k4 s le_rfl k1] at this
        cases this
      rw [h3 (e + 1) this k2] at k5
      cases k5
    | @cons _ s' e' L' g0 g1 g2 g3 g4 g5 g6 =>
      have hs : s = s' := by
        rcases Nat.lt_trichotomy s s' with h | h | h
        · have := g3 s k0 h
          rw [k4 s le_rfl k1] at this
          cases this
        · exact h
        · have := k3 s' g0 h
          rw [g4 s' le_rfl g1] at this
          cases this
      subst hs
      have he : e = e' := by
        rcases Nat.lt_trichotomy e e' with h | h | h
        · have := g4 (e + 1) (by omega) (by omega)
          rw [k5] at this
          cases this
        · exact h
        · have := k4 (e' + 1) (by omega) (by omega)
          rw [g5] at this
          cases this
      subst he
      rw [ih g6]

theorem addEvents_mem {maxRate : ℚ} {rates : List ℚ} {ce ce' : List Nat} (h : addEvents maxRate rates ce = .ok ce') {e : Nat} :
    e ∈ ce' ↔ e ∈ ce ∨ Spec.AddedEvent maxRate rates e := by
  have hst : Spec.steep maxRate rates = getB (rates.map fun r => decide (maxRate < r)) := by
    funext i
    unfold Spec.steep getB
    rw [List.getD_eq_getElem?_getD, List.getElem?_map]
  have hc : cellAt (rates.map some) = fun i => rates[i]? := by
    funext i
    unfold cellAt
    rw [List.getElem?_map]
    cases rates[i]? <;> rfl
  unfold addEvents at h
  unfold Spec.AddedEvent
  rw [hst]
  split_ifs at h with h0
  · obtain ⟨b, hb, rfl⟩ := map_ok.mp h
    obtain ⟨hl, L, hL, hev⟩ := C44_exact hb
    rw [List.length_map] at hL
    rw [(List.perm_insertionSort _ _).mem_iff, List.mem_append, mem_truePos, hev, hc]
    refine or_congr_right ⟨fun h => ⟨two_of_count h0, L, hL, h⟩, ?_⟩
    rintro ⟨-, L', hL', h'⟩
    rwa [islands_unique hL hL']
  · cases h
    constructor
    · exact .inl
    · rintro (h | ⟨⟨i, j, hij, hi, hj⟩, -⟩)
      · exact h
      · exact absurd (count_of_two hij hi hj) h0

/-- **C140 (one iteration).** The events after an iteration are the events before it without the false ones, and the added ones. -/
theorem C140_revised {o : KalmanOpts} {st : KalmanState} {ce : List Nat} (h : revise o st = .ok ce) {e : Nat} :
    e ∈ ce ↔ (e ∈ st.ce ∧ ¬Spec.FalseEvent o.pruning (st.smooth.map fun k => k.s.x) st.ce e) ∨
      Spec.AddedEvent o.maxRate (st.smooth.map fun k => k.s.r) e := by
  unfold revise at h
  obtain ⟨c, hc, h⟩ := bind_ok'.mp h
  rw [addEvents_mem h, pruneEvents_mem hc]

/-- **C140 (the call).** With one iteration, the default: the series is filtered and smoothed once, and the events revised. If they
stay the same, the result is that of the first pass. -/
theorem C140_call {o : KalmanOpts} (hp : o.processNoise ≠ 0) (hr : o.rateStd ≠ 0) (h1 : o.pruningIterations = 1) {fuel : Nat}
    {zs : List Cell} {pre : Prescient} (hv : Spec.validEvents zs.length pre) {out : KalmanOut}
    (h : kalmanSR o fuel zs pre = .ok out) :
    ∃ (R : ℚ) (raw sm : List KF) (ce ce' : List Nat), Spec.Noise o.fwd zs R ∧
      Spec.Forward o zs R o.zsStd o.rateStd (fun e => e ∈ ce ∨ (soilingEvents o.fwd 5 zs)[e]? = some true) raw ∧
      Spec.Smoothed o (fun e => e ∈ ce ∨ (soilingEvents o.fwd 5 zs)[e]? = some true) raw sm ∧
      (∀ e, e ∈ ce' ↔ (e ∈ ce ∧ ¬Spec.FalseEvent o.pruning (sm.map fun k => k.s.x) ce e) ∨
        Spec.AddedEvent o.maxRate (sm.map fun k => k.s.r) e) ∧
      (ce' = ce → out.smooth = sm.map KF.s ∧ ∀ e, out.events[e]? = some true ↔ e ∈ ce) := by
  obtain ⟨ce, R, p, st, hs, hR, h3, h4, rfl, h7, h14⟩ := kalmanSR_ok h
  have hR0 := (cellVar_two hR).2
  have hlen : 2 ≤ zs.length := by
    have := (cellVar_two hR).1
    refine this.trans ((List.length_filterMap_le _ _).trans ?_)
    rw [List.length_map, List.length_range]
  have hse : ∀ e ∈ truePos (soilingEvents o.fwd 5 zs), e < zs.length := by
    intro e he
    have := getB_lt (mem_truePos.mp he)
    rwa [length_soilingEvents] at this
  have hev0 := startEvents_evOk hv hs
  have hinv := filterPass_inv hse hev0 h3
  have hg : ∀ e, (soilingEvents o.fwd 5 zs)[e]? = some true ↔ e ∈ truePos (soilingEvents o.fwd 5 zs) := by
    intro e
    rw [mem_truePos]
    unfold getB
    rw [List.getD_eq_getElem?_getD]
    cases (soilingEvents o.fwd 5 zs)[e]? <;> simp
  obtain ⟨raw, hf, hsm, -⟩ := pass_estimates hp hR0 h7 h14 hlen hr hev0 h3
    (Event := fun e => e ∈ p.1 ∨ (soilingEvents o.fwd 5 zs)[e]? = some true) (fun e => by rw [hg])
  cases fuel with
  | zero =>
    unfold pruneLoop at h4
    rw [if_pos (by omega)] at h4
    cases h4
  | succ fuel =>
    unfold pruneLoop at h4
    rw [if_pos (by omega)] at h4
    obtain ⟨ce', hrev, h4⟩ := bind_ok'.mp h4
    refine ⟨R, raw, p.2.1, p.1, ce', noise_of hR, hf, hsm, fun e => C140_revised hrev, fun he => ?_⟩
    rw [if_pos he] at h4
    have hst : ∀ {fuel : Nat} {st st' : KalmanState}, pruneLoop o zs (valids (rollFilled o.fwd 7 zs)) R (initialFit zs)
        (truePos (soilingEvents o.fwd 5 zs)) fuel 100 st = .ok st' → st' = st := by
      intro fuel st st' h
      cases fuel with
      | zero =>
        unfold pruneLoop at h
        rw [if_neg (by omega)] at h
        cases h; rfl
      | succ fuel =>
        unfold pruneLoop at h
        rw [if_neg (by omega)] at h
        cases h; rfl
    rw [hst h4]
    unfold kalmanOut
    rw [finishPass_smooth, finishPass_ce]
    refine ⟨rfl, fun e => ?_⟩
    simp only [List.getElem?_map, Option.map_eq_some_iff, decide_eq_true_eq]
    constructor
    · rintro ⟨i, hi, he⟩
      obtain ⟨_, rfl⟩ := List.getElem?_eq_some_iff.mp hi
      simpa using he
    · intro he
      exact ⟨e, by rw [List.getElem?_range (hinv.1.2 e he)], he⟩

/-- a state for the examples: the level is 1, and 1/2 from day 8 to day 14 and from day 24 on; the rate is above the limit around
day 18 -/
def exRevise (ce : List Nat) : KalmanState :=
  { ce := ce, ratio := [], rates := [], zsStd := 1, rateStd := 1,
    smooth := (List.range 30).map fun i => ⟨⟨if (8 ≤ i ∧ i ≤ 14) ∨ 24 ≤ i then 1/2 else 1,
      if i = 18 then 1/100 else if i = 19 then 1/200 else 0⟩, ⟨0, 0, 0, 0⟩⟩ }

/-- the false event of day 8 is removed and day 18 added -/
example : revise {} (exRevise [1, 8, 15, 16]) = .ok [1, 15, 16, 18] := by decide +kernel

/-- **C140 (a late event).** While there is an event in the last six days, which has no full week after it, no event is removed,
however low its level. -/
theorem C140_late_event_keeps {o : KalmanOpts} {st : KalmanState} {ce : List Nat} (h : revise o st = .ok ce) {e0 : Nat}
    (he0 : e0 ∈ st.ce) (hlate : st.smooth.length < e0 + 7) : ∀ e ∈ st.ce, e ∈ ce := by
  intro e he
  rw [C140_revised h]
  refine Or.inl ⟨he, ?_⟩
  rintro ⟨l, q1, q3, m, hF, -⟩
  have : ∀ {a : List Nat} {b : List ℚ}, List.Forall₂ (Spec.WeekMedian (st.smooth.map fun k => k.s.x)) a b → e0 ∉ a := by
    intro a b hab
    induction hab with
    | nil => simp
    | cons hx _ ih =>
      rw [List.mem_cons, not_or]
      refine ⟨fun h => ?_, ih⟩
      subst h
      have := hx.1
      rw [List.length_map] at this
      omega
  exact this hF he0

/-- **C140 (a late event, witness).** Such an event keeps an event that is false by the documented rule and is removed without it. -/
theorem C140_late_event :
    ∃ st : KalmanState, st.smooth.length = 30 ∧ 26 ∈ st.ce ∧ Spec.WeekMedian (st.smooth.map fun k => k.s.x) 8 (1/2) ∧
      (∀ e ∈ st.ce, e ≠ 8 → e ≠ 26 → Spec.WeekMedian (st.smooth.map fun k => k.s.x) e 1) ∧
      revise {} st = .ok [1, 2, 8, 15, 16, 18, 26] ∧
      revise {} { st with ce := [1, 2, 8, 15, 16] } = .ok [1, 2, 15, 16, 18] := by
  refine ⟨exRevise [1, 2, 8, 15, 16, 26], by decide +kernel, by decide +kernel, ?_, ?_, by decide +kernel, by decide +kernel⟩
  · rw [← weekMedian_iff]; decide +kernel
  · intro e he h1 h2
    rw [← weekMedian_iff]
    have : e = 1 ∨ e = 2 ∨ e = 15 ∨ e = 16 := by
      simp only [exRevise, List.mem_cons, List.not_mem_nil, or_false] at he
      omega
    rcases this with rfl | rfl | rfl | rfl <;> decide +kernel

end Verif.Cods
