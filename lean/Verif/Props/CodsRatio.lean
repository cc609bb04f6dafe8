import Verif.Lemmas.CodsInv

/-! # Property C45 (clipping of the soiling ratio) and C67 (perfect cleaning) -/

namespace Verif.Cods

open Verif

/-- with clipping the soiling ratio never exceeds 1 -/
theorem C45_clip {o : KalmanOpts} {fuel : Nat} {zs : List Cell} {pre : Prescient} {out : KalmanOut}
    (h : kalmanSR o fuel zs pre = .ok out) (hc : o.clip = true) : ∀ v, some v ∈ out.ratio → v ≤ 1 := by
  obtain ⟨st, rfl, h1 | ⟨h1, -⟩⟩ := kalmanSR_columns h
  · intro v hv
    have : some v ∈ st.ratio := hv
    rw [h1.2.1] at this
    obtain ⟨_, -, e⟩ := List.mem_map.mp this
    cases e
  · intro v hv
    have : some v ∈ st.ratio := hv
    rw [h1, if_pos hc] at this
    unfold clipUpper at this
    obtain ⟨c, -, e⟩ := List.mem_map.mp this
    cases c with
    | none => cases e
    | some u =>
      simp only [Option.map_some, Option.some.injEq] at e
      rw [← e]; exact min_le_right _ _

theorem renormalize_length (r : Option ℚ) (ce : List Nat) (sr : List Cell) : (renormalize r ce sr).length = sr.length := by
  unfold renormalize; cases r <;> simp

theorem perfectRatio_length (pis : List ℚ) (ce : List Nat) : (perfectRatio pis ce).length = pis.length := by
  unfold perfectRatio; cases ce <;> simp

theorem ratioOf_length (o : KalmanOpts) (sm : List KF) (ce : List Nat) : (ratioOf o sm ce).length = sm.length := by
  unfold ratioOf
  rw [renormalize_length]
  split_ifs
  · rw [perfectRatio_length, List.length_map]
  · rw [List.length_map]

theorem clipUpper_length (x : List Cell) : (clipUpper x).length = x.length := by simp [clipUpper]

theorem cellAt_range {n : Nat} (f : Nat → Cell) {i : Nat} (hi : i < n) : cellAt ((List.range n).map f) i = f i := by
  unfold cellAt
  rw [List.getElem?_map, List.getElem?_range hi]; rfl

theorem cellAt_lt {x : List Cell} {i : Nat} {v : ℚ} (h : cellAt x i = some v) : i < x.length := by
  by_contra hc
  rw [cellAt_ge (by omega)] at h; cases h

/-- with clipping the soiling rate is zero on every day on which the soiling ratio does not change -/
theorem C45_rates {o : KalmanOpts} {fuel : Nat} {zs : List Cell} {pre : Prescient} {out : KalmanOut}
    (h : kalmanSR o fuel zs pre = .ok out) (hc : o.clip = true) {i : Nat} {v : ℚ}
    (h1 : cellAt out.ratio i = some v) (h2 : cellAt out.ratio (i + 1) = some v) : cellAt out.rates (i + 1) = some 0 := by
  obtain ⟨st, rfl, hh | ⟨hr, hrates⟩⟩ := kalmanSR_columns h
  · have : cellAt st.ratio i = some v := h1
    have := cellAt_mem this
    rw [hh.2.1] at this
    obtain ⟨_, -, e⟩ := List.mem_map.mp this
    cases e
  · rw [if_pos hc] at hrates hr
    change cellAt st.rates (i + 1) = some 0
    have h1 : cellAt st.ratio i = some v := h1
    have h2 : cellAt st.ratio (i + 1) = some v := h2
    have hlen : i + 1 < st.smooth.length := by
      have := cellAt_lt h2
      rw [hr, clipUpper_length, ratioOf_length] at this
      exact this
    have hd : cellAt (cellDiff st.ratio) (i + 1) = some 0 := by
      have hl := cellAt_lt h2
      unfold cellDiff
      rw [cellAt_range _ hl]
      simp only [Nat.add_one_ne_zero, if_false, Nat.add_sub_cancel, h1, h2, cellOp, sub_self]
    rw [hrates]
    unfold clippedRates
    rw [cellAt_range _ (by rw [List.length_map]; exact hlen), if_pos hd]

/-- the last event up to a day, or the first day -/
theorem lastEvent (ce : List Nat) (i : Nat) : ∃ e, e ≤ i ∧ (e = 0 ∨ e ∈ ce) ∧ ∀ j, e < j → j ≤ i → j ∉ ce := by
  induction i with
  | zero => exact ⟨0, le_rfl, .inl rfl, fun j h1 h2 => by omega⟩
  | succ i ih =>
    by_cases h : i + 1 ∈ ce
    · exact ⟨i + 1, le_rfl, .inr h, fun j h1 h2 => by omega⟩
    · obtain ⟨e, h1, h2, h3⟩ := ih
      refine ⟨e, by omega, h2, fun j g1 g2 => ?_⟩
      rcases Nat.eq_or_lt_of_le g2 with rfl | g
      · exact h
      · exact h3 j g1 (by omega)

theorem daysSinceEvents_eq {n : Nat} {ce : List Nat} {i e : Nat} (hi : i < n) (h1 : e ≤ i) (h2 : e = 0 ∨ e ∈ ce)
    (h3 : ∀ j, e < j → j ≤ i → j ∉ ce) : cellAt (daysSinceEvents n ce) i = some ((i : ℚ) - e) := by
  unfold daysSinceEvents
  rw [cellAt_range _ hi]
  have hf : cellAt (ffill ((List.range n).map fun j : Nat => if j = 0 then some 0 else if j ∈ ce then some (j : ℚ) else none)) i =
      some (e : ℚ) := by
    unfold cellAt ffill
    rw [List.getElem?_eq_getElem (by rw [ffillFrom_length]; simpa using hi)]
    rw [Option.join_some]
    apply ffillFrom_getElem (j := e) h1 (by simpa using hi)
    · simp only [List.getElem_map, List.getElem_range]
      rcases h2 with rfl | h2
      · simp
      · by_cases h0 : e = 0
        · subst h0; simp
        · rw [if_neg h0, if_pos h2]
    · intro j hj g1 g2
      simp only [List.getElem_map, List.getElem_range]
      rw [if_neg (by omega), if_neg (h3 j g1 g2)]
  rw [hf]; rfl

theorem kalmanOut_events {n : Nat} {st : KalmanState} {j : Nat} (hj : j < n) :
    getB (kalmanOut n st).events j = true ↔ j ∈ st.ce := by
  unfold kalmanOut getB
  simp only
  rw [List.getD_eq_getElem?_getD, List.getElem?_map, List.getElem?_range hj]
  simp

/-- days since cleaning: the distance to the last cleaning event on or before the day, or to the first day -/
theorem C45_days {o : KalmanOpts} {fuel : Nat} {zs : List Cell} {pre : Prescient} {out : KalmanOut}
    (h : kalmanSR o fuel zs pre = .ok out) {i : Nat} (hi : i < zs.length) :
    ∃ e, e ≤ i ∧ cellAt out.daysSince i = some ((i : ℚ) - e) ∧ (e = 0 ∨ getB out.events e = true) ∧
      ∀ j, e < j → j ≤ i → getB out.events j = false := by
  obtain ⟨st, rfl, -⟩ := kalmanSR_columns h
  obtain ⟨e, h1, h2, h3⟩ := lastEvent st.ce i
  refine ⟨e, h1, daysSinceEvents_eq hi h1 h2 h3, ?_, fun j g1 g2 => ?_⟩
  · rcases h2 with h2 | h2
    · exact .inl h2
    · exact .inr ((kalmanOut_events (by omega)).mpr h2)
  · rw [← Bool.not_eq_true, kalmanOut_events (by omega)]
    exact h3 j g1 g2

/-- days since cleaning are non-negative, zero exactly at the events and on the first day -/
theorem C45_days_zero {o : KalmanOpts} {fuel : Nat} {zs : List Cell} {pre : Prescient} {out : KalmanOut}
    (h : kalmanSR o fuel zs pre = .ok out) {i : Nat} (hi : i < zs.length) :
    ∃ d, cellAt out.daysSince i = some d ∧ 0 ≤ d ∧ (d = 0 ↔ i = 0 ∨ getB out.events i = true) := by
  obtain ⟨e, h1, h2, h3, h4⟩ := C45_days h hi
  have he : (e : ℚ) ≤ i := by exact_mod_cast h1
  refine ⟨(i : ℚ) - e, h2, by linarith, ?_⟩
  constructor
  · intro hz
    have : (i : ℚ) = e := by linarith
    have : i = e := by exact_mod_cast this
    rw [this]; exact h3
  · intro hz
    have : e = i := by
      by_contra hne
      rcases hz with rfl | hz
      · omega
      · rw [h4 i (by omega) le_rfl] at hz; cases hz
    rw [this]; ring

/-- without clipping the soiling rates are never filled in -/
theorem C45_unclipped_rates_refuted {o : KalmanOpts} {fuel : Nat} {zs : List Cell} {pre : Prescient} {out : KalmanOut}
    (h : kalmanSR o fuel zs pre = .ok out) (hc : o.clip = false) : ∀ c ∈ out.rates, c = none := by
  obtain ⟨st, rfl, hh | ⟨-, hr⟩⟩ := kalmanSR_columns h
  · intro c hcm
    have : c ∈ st.rates := hcm
    rw [hh.2.2] at this
    obtain ⟨_, -, e⟩ := List.mem_map.mp this
    exact e.symm
  · intro c hcm
    have : c ∈ st.rates := hcm
    rw [hr, if_neg (by simp [hc])] at this
    obtain ⟨_, -, e⟩ := List.mem_map.mp this
    exact e.symm

/-- without pruning iterations there is no soiling ratio -/
theorem C45_no_iteration_refuted {o : KalmanOpts} {fuel : Nat} {zs : List Cell} {pre : Prescient} {out : KalmanOut}
    (h : kalmanSR o fuel zs pre = .ok out) (hc : o.pruningIterations = 0) : ∀ c ∈ out.ratio, c = none := by
  obtain ⟨ce, R, p, st, -, -, -, h4, rfl, -⟩ := kalmanSR_ok h
  have hst : st.ratio = zs.map fun _ => none := by
    cases fuel with
    | zero =>
      unfold pruneLoop at h4
      rw [hc, if_neg (by omega)] at h4
      cases h4; rfl
    | succ fuel =>
      unfold pruneLoop at h4
      rw [hc, if_neg (by omega)] at h4
      cases h4; rfl
  intro c hcm
  have : c ∈ st.ratio := hcm
  rw [hst] at this
  obtain ⟨_, -, e⟩ := List.mem_map.mp this
  exact e.symm

/-! ## Perfect cleaning -/

theorem levelAtEvents_event {pis : List ℚ} {ce : List Nat} {i : Nat} (hi : i < pis.length) (hc : i ∈ ce) :
    cellAt (levelAtEvents pis ce) i = some (qAt pis i) := by
  unfold levelAtEvents cellAt ffill
  rw [List.getElem?_eq_getElem (by rw [ffillFrom_length]; simpa using hi), Option.join_some]
  apply ffillFrom_getElem (j := i) le_rfl (by simpa using hi)
  · simp only [List.getElem_map, List.getElem_range]
    rw [if_pos hc]
  · intro j hj g1 g2; omega

theorem levelAtEvents_since {pis : List ℚ} {ce : List Nat} {i e : Nat} (hi : i < pis.length) (hei : e ≤ i) (hc : e ∈ ce)
    (hno : ∀ j, e < j → j ≤ i → j ∉ ce) : cellAt (levelAtEvents pis ce) i = some (qAt pis e) := by
  unfold levelAtEvents cellAt ffill
  rw [List.getElem?_eq_getElem (by rw [ffillFrom_length]; simpa using hi), Option.join_some]
  apply ffillFrom_getElem (j := e) hei (by simpa using hi)
  · simp only [List.getElem_map, List.getElem_range]
    rw [if_pos hc]
  · intro j hj g1 g2
    simp only [List.getElem_map, List.getElem_range]
    rw [if_neg (hno j g1 g2)]

/-- after the first event of the list the ratio is the level relative to the level at the last event -/
theorem perfectRatio_since {pis : List ℚ} {ce : List Nat} {i e c0 : Nat} (h0 : ce.head? = some c0) (hlt : c0 < i)
    (hi : i < pis.length) (hei : e ≤ i) (hc : e ∈ ce) (hno : ∀ j, e < j → j ≤ i → j ∉ ce) (hne : qAt pis e ≠ 0) :
    cellAt (perfectRatio pis ce) i = some (qAt pis i / qAt pis e) := by
  cases ce with
  | nil => cases h0
  | cons c l =>
    cases h0
    unfold perfectRatio
    simp only
    rw [cellAt_range _ hi, if_neg (by omega)]
    unfold relativeToEvent
    rw [cellAt_range _ hi, levelAtEvents_since hi hei hc hno]
    simp only [cellDiv, if_neg hne, cellOp]
    congr 1
    field_simp

theorem clipUpper_at (x : List Cell) (i : Nat) : cellAt (clipUpper x) i = (cellAt x i).map fun v => min v 1 :=
  cellAt_mapC (fun v => min v 1) x i

theorem levelAt (st : KalmanState) (n i : Nat) :
    qAt (st.smooth.map fun k => k.s.x) i = (((kalmanOut n st).smooth.map fun v => v.x)[i]?).getD 0 := by
  unfold qAt kalmanOut
  simp only
  rw [List.getD_eq_getElem?_getD, List.map_map]
  rfl

/-- the smoothed level of a day -/
def Spec.level (out : KalmanOut) (i : Nat) : Option ℚ := (out.smooth.map fun v => v.x)[i]?

/-- one level, ratio, rate, event flag and day count per day -/
theorem C45_columns {o : KalmanOpts} {fuel : Nat} {zs : List Cell} {pre : Prescient} (hp : Spec.validEvents zs.length pre)
    {out : KalmanOut} (h : kalmanSR o fuel zs pre = .ok out) :
    out.smooth.length = zs.length ∧ out.ratio.length = zs.length ∧ out.rates.length = zs.length ∧
      out.events.length = zs.length ∧ out.daysSince.length = zs.length := by
  obtain ⟨st, rfl, hst, hh⟩ := kalmanSR_inv hp h
  refine ⟨by simp [kalmanOut, hst.len], ?_, ?_, by simp [kalmanOut], by simp [kalmanOut, daysSinceEvents]⟩
  · change st.ratio.length = _
    rcases hh with hh | hh
    · rw [hh.2.1]; simp
    · rw [hh.1]; split_ifs
      · rw [clipUpper_length, ratioOf_length, hst.len]
      · rw [ratioOf_length, hst.len]
  · change st.rates.length = _
    rcases hh with hh | hh
    · rw [hh.2.2]; simp
    · rw [hh.2]; split_ifs
      · simp [clippedRates, hst.len]
      · simp

theorem head_le {ce : List Nat} (hs : ce.Pairwise (· ≤ ·)) {c : Nat} (hc : c ∈ ce) : ∃ f, ce.head? = some f ∧ f ≤ c := by
  cases ce with
  | nil => cases hc
  | cons a l =>
    refine ⟨a, rfl, ?_⟩
    rcases List.mem_cons.mp hc with rfl | hm
    · exact le_rfl
    · exact (List.pairwise_cons.mp hs).1 _ hm

/-- under the assumption of perfect cleaning, the soiling ratio after the first cleaning event is the smoothed level
relative to its value at the last event, cut at 1 -/
theorem C67_relative {o : KalmanOpts} {fuel : Nat} {zs : List Cell} {pre : Prescient} (hv : Spec.validEvents zs.length pre)
    {out : KalmanOut} (h : kalmanSR o fuel zs pre = .ok out) (hp : o.perfect = true) (hr : o.renorm = none)
    (hc : o.clip = true) (hit : 0 < o.pruningIterations)
    {c0 e i : Nat} {p q : ℚ} (h0 : getB out.events c0 = true) (hlt : c0 < i) (hi : i < zs.length) (hei : e ≤ i)
    (hev : getB out.events e = true) (hno : ∀ j, e < j → j ≤ i → getB out.events j = false)
    (hpi : Spec.level out i = some p) (hq : Spec.level out e = some q) (hne : q ≠ 0) :
    cellAt out.ratio i = some (min (p / q) 1) := by
  obtain ⟨st, rfl, hst, hh | ⟨hratio, -⟩⟩ := kalmanSR_inv hv h
  · omega
  · change cellAt st.ratio i = _
    obtain ⟨f0, hf0, hfle⟩ := head_le hst.ev.1 ((kalmanOut_events (by omega)).mp h0)
    rw [hratio, if_pos hc, clipUpper_at]
    unfold ratioOf renormalize
    rw [hr, if_pos hp]
    simp only
    have hl : i < (st.smooth.map fun k => k.s.x).length := by rw [List.length_map, hst.len]; exact hi
    have hpe : qAt (st.smooth.map fun k => k.s.x) i = p := by
      rw [levelAt st zs.length]; unfold Spec.level at hpi; rw [hpi]; rfl
    have hqe : qAt (st.smooth.map fun k => k.s.x) e = q := by
      rw [levelAt st zs.length]; unfold Spec.level at hq; rw [hq]; rfl
    rw [perfectRatio_since hf0 (by omega) hl hei ((kalmanOut_events (by omega)).mp hev)
      (fun j g1 g2 hj => by
        have := (kalmanOut_events (n := zs.length) (st := st) (by omega)).mpr hj
        rw [hno j g1 g2] at this; cases this) (by rw [hqe]; exact hne), hpe, hqe]
    rfl

/-- under the assumption of perfect cleaning the soiling ratio is exactly 1 at every cleaning event after the first -/
theorem C67_clean_partial {o : KalmanOpts} {fuel : Nat} {zs : List Cell} {pre : Prescient} (hv : Spec.validEvents zs.length pre)
    {out : KalmanOut} (h : kalmanSR o fuel zs pre = .ok out) (hp : o.perfect = true) (hr : o.renorm = none)
    (hc : o.clip = true) (hit : 0 < o.pruningIterations)
    {c0 e : Nat} (h0 : getB out.events c0 = true) (hlt : c0 < e) (hev : getB out.events e = true)
    (hq : Spec.level out e ≠ some 0) : cellAt out.ratio e = some 1 := by
  have hlen := C45_columns hv h
  have he : e < zs.length := by rw [← hlen.2.2.2.1]; exact getB_lt hev
  obtain ⟨q, hq'⟩ : ∃ q, Spec.level out e = some q := by
    unfold Spec.level
    rw [List.getElem?_eq_getElem (by rw [List.length_map, hlen.1]; exact he)]
    exact ⟨_, rfl⟩
  have hne : q ≠ 0 := by rintro rfl; exact hq hq'
  rw [C67_relative hv h hp hr hc hit h0 hlt he le_rfl hev (fun j g1 g2 => by omega) hq' hq' hne, div_self hne, min_self]

/-- without any cleaning event the assumption of perfect cleaning makes the soiling ratio 1 throughout -/
theorem C67_no_events {o : KalmanOpts} {fuel : Nat} {zs : List Cell} {pre : Prescient} (hv : Spec.validEvents zs.length pre)
    {out : KalmanOut} (h : kalmanSR o fuel zs pre = .ok out) (hp : o.perfect = true) (hr : o.renorm = none)
    (hit : 0 < o.pruningIterations) (hno : ∀ i, getB out.events i = false) : ∀ c ∈ out.ratio, c = some 1 := by
  obtain ⟨st, rfl, hst, hh | ⟨hratio, -⟩⟩ := kalmanSR_inv hv h
  · omega
  · have hce : st.ce = [] := by
      apply List.eq_nil_iff_forall_not_mem.mpr
      intro e he
      have := (kalmanOut_events (n := zs.length) (st := st) (hst.ev.2 e he)).mpr he
      rw [hno e] at this; cases this
    intro c hcm
    have hcm : c ∈ st.ratio := hcm
    have hn : ratioOf o st.smooth st.ce = st.smooth.map fun _ => some 1 := by
      unfold ratioOf renormalize
      rw [hr, hce, if_pos hp]
      simp [perfectRatio, Function.comp_def]
    rw [hratio, hn] at hcm
    split_ifs at hcm
    · unfold clipUpper at hcm
      simp only [List.map_map, List.mem_map] at hcm
      obtain ⟨x, -, e⟩ := hcm
      rw [← e]; simp
    · obtain ⟨x, -, e⟩ := List.mem_map.mp hcm
      exact e.symm

/-- a soiling ratio renormalized to its values at the cleaning events is missing altogether if there is no event -/
theorem C67_renormalize_refuted {o : KalmanOpts} {fuel : Nat} {zs : List Cell} {pre : Prescient}
    (hv : Spec.validEvents zs.length pre) {out : KalmanOut}
    (h : kalmanSR o fuel zs pre = .ok out) {q : ℚ} (hr : o.renorm = some q)
    (hno : ∀ i, getB out.events i = false) : ∀ c ∈ out.ratio, c = none := by
  obtain ⟨st, rfl, hst, hh | ⟨hratio, -⟩⟩ := kalmanSR_inv hv h
  · intro c hcm
    have : c ∈ st.ratio := hcm
    rw [hh.2.1] at this
    obtain ⟨_, -, e⟩ := List.mem_map.mp this
    exact e.symm
  · have hce : st.ce = [] := by
      apply List.eq_nil_iff_forall_not_mem.mpr
      intro e he
      have := (kalmanOut_events (n := zs.length) (st := st) (hst.ev.2 e he)).mpr he
      rw [hno e] at this; cases this
    intro c hcm
    have hcm : c ∈ st.ratio := hcm
    have hn : ∀ c ∈ ratioOf o st.smooth st.ce, c = none := by
      intro c hc
      unfold ratioOf renormalize at hc
      rw [hr, hce] at hc
      simp only at hc
      obtain ⟨x, -, e⟩ := List.mem_map.mp hc
      rw [← e]
      cases x <;> rfl
    rw [hratio] at hcm
    split_ifs at hcm
    · unfold clipUpper at hcm
      obtain ⟨x, hx, e⟩ := List.mem_map.mp hcm
      rw [← e, hn x hx]; rfl
    · exact hn c hcm

/-! ## Perfect cleaning before the first event -/

/-- the last cleaning event on or before a day -/
def Spec.lastEvent (events : List Bool) (j : Nat) : Option Nat := ((List.range (j + 1)).filter fun e => getB events e).getLast?

/-- for every day from the first cleaning event on, the reciprocal of the level at its last cleaning event -/
def Spec.reciprocals (out : KalmanOut) (n : Nat) : List ℚ :=
  (List.range n).filterMap fun j => (Spec.lastEvent out.events j).bind fun e => (Spec.level out e).map fun q => 1 / q

theorem lastEvent_none {events : List Bool} {j : Nat} (h : Spec.lastEvent events j = none) : ∀ e ≤ j, getB events e = false := by
  intro e he
  unfold Spec.lastEvent at h
  rw [List.getLast?_eq_none_iff, List.filter_eq_nil_iff] at h
  simpa using h e (List.mem_range.mpr (by omega))

theorem lastEvent_some {events : List Bool} : ∀ {j e : Nat}, Spec.lastEvent events j = some e →
    e ≤ j ∧ getB events e = true ∧ ∀ k, e < k → k ≤ j → getB events k = false := by
  intro j
  induction j with
  | zero =>
    intro e h
    unfold Spec.lastEvent at h
    have hm := List.mem_of_getLast? h
    simp only [List.mem_filter, List.mem_range] at hm
    exact ⟨by omega, hm.2, fun k h1 h2 => by omega⟩
  | succ j ih =>
    intro e h
    unfold Spec.lastEvent at h
    rw [List.range_succ, List.filter_append] at h
    by_cases hb : getB events (j + 1) = true
    · rw [List.filter_singleton, hb] at h
      simp only [cond_true, List.getLast?_append, List.getLast?_singleton, Option.some_or, Option.some.injEq] at h
      subst h
      exact ⟨le_rfl, hb, fun k h1 h2 => by omega⟩
    · have hb' : getB events (j + 1) = false := by simpa using hb
      rw [List.filter_singleton, hb'] at h
      simp only [cond_false, List.append_nil] at h
      obtain ⟨h1, h2, h3⟩ := ih h
      refine ⟨by omega, h2, fun k g1 g2 => ?_⟩
      rcases Nat.lt_or_ge j k with g | g
      · rwa [show k = j + 1 by omega]
      · exact h3 k g1 g

theorem levelAtEvents_before {pis : List ℚ} {ce : List Nat} {i : Nat} (hi : i < pis.length) (hno : ∀ j ≤ i, j ∉ ce) :
    cellAt (levelAtEvents pis ce) i = none := by
  unfold levelAtEvents cellAt ffill
  rw [List.getElem?_eq_getElem (by rw [ffillFrom_length]; simpa using hi), Option.join_some]
  apply ffillFrom_getElem_none (by simpa using hi)
  intro j hj g
  simp only [List.getElem_map, List.getElem_range]
  rw [if_neg (hno j g)]

/-- under the assumption of perfect cleaning, the soiling ratio up to the first cleaning event is the smoothed level relative to
one reference, cut at 1: the harmonic mean, over the days from that event on, of the level at the last cleaning event -/
theorem C67_before {o : KalmanOpts} {fuel : Nat} {zs : List Cell} {pre : Prescient} (hv : Spec.validEvents zs.length pre)
    {out : KalmanOut} (h : kalmanSR o fuel zs pre = .ok out) (hp : o.perfect = true) (hr : o.renorm = none)
    (hc : o.clip = true) (hit : 0 < o.pruningIterations)
    {c0 i : Nat} {p : ℚ} (h0 : getB out.events c0 = true) (hfirst : ∀ j < c0, getB out.events j = false) (hi : i ≤ c0)
    (hpi : Spec.level out i = some p) (hne : ∀ j, Spec.level out j ≠ some 0) :
    cellAt out.ratio i =
      some (min (p * ((Spec.reciprocals out zs.length).sum / (Spec.reciprocals out zs.length).length)) 1) := by
  have hlen := C45_columns hv h
  have hc0 : c0 < zs.length := by rw [← hlen.2.2.2.1]; exact getB_lt h0
  obtain ⟨st, rfl, hst, hh | ⟨hratio, -⟩⟩ := kalmanSR_inv hv h
  · omega
  · have hl : (st.smooth.map fun k => k.s.x).length = zs.length := by rw [List.length_map, hst.len]
    have hlev : ∀ j < zs.length, Spec.level (kalmanOut zs.length st) j = some (qAt (st.smooth.map fun k => k.s.x) j) := by
      intro j hj
      rw [levelAt st zs.length]
      unfold Spec.level
      rw [List.getElem?_eq_getElem (by rw [List.length_map, hlen.1]; exact hj)]
      rfl
    have hqne : ∀ j < zs.length, qAt (st.smooth.map fun k => k.s.x) j ≠ 0 := fun j hj e => hne j (by rw [hlev j hj, e])
    have hmem : ∀ j < zs.length, (getB (kalmanOut zs.length st).events j = true ↔ j ∈ st.ce) := fun j hj => kalmanOut_events hj
    obtain ⟨f0, hf0, hfle⟩ := head_le hst.ev.1 ((hmem c0 hc0).mp h0)
    have hf : f0 = c0 := by
      by_contra hcon
      have hm : f0 ∈ st.ce := by
        cases hce : st.ce with
        | nil => rw [hce] at hf0; cases hf0
        | cons a l => rw [hce] at hf0; cases hf0; exact List.mem_cons_self ..
      have := (hmem f0 (by omega)).mpr hm
      rw [hfirst f0 (by omega)] at this
      cases this
    subst hf
    change cellAt st.ratio i = _
    rw [hratio, if_pos hc, clipUpper_at]
    unfold ratioOf renormalize
    rw [hr, if_pos hp]
    simp only
    have hvals : valids ((List.range (st.smooth.map fun k => k.s.x).length).map fun j =>
        cellDiv (cellAt (relativeToEvent (st.smooth.map fun k => k.s.x) st.ce) j) (some (qAt (st.smooth.map fun k => k.s.x) j))) =
        Spec.reciprocals (kalmanOut zs.length st) zs.length := by
      unfold valids Spec.reciprocals
      rw [List.filterMap_map, hl]
      apply List.filterMap_congr
      intro j hj
      have hj := List.mem_range.mp hj
      simp only [Function.comp_apply, id]
      unfold relativeToEvent
      rw [cellAt_range _ (by rw [hl]; exact hj)]
      cases he : Spec.lastEvent (kalmanOut zs.length st).events j with
      | none =>
        rw [levelAtEvents_before (by rw [hl]; exact hj) fun k hk hm => by
          have := (hmem k (by omega)).mpr hm
          rw [lastEvent_none he k hk] at this
          cases this]
        rfl
      | some e =>
        obtain ⟨a1, a2, a3⟩ := lastEvent_some he
        rw [levelAtEvents_since (by rw [hl]; exact hj) a1 ((hmem e (by omega)).mp a2) fun k g1 g2 hm => by
          have := (hmem k (by omega)).mpr hm
          rw [a3 k g1 g2] at this
          cases this]
        simp only [Option.bind_some]
        rw [hlev e (by omega)]
        simp only [cellDiv, cellOp, if_neg (hqne e (by omega)), if_neg (hqne j hj), Option.map_some]
        congr 1
        have := hqne j hj
        have := hqne e (by omega)
        field_simp
    have hpe : qAt (st.smooth.map fun k => k.s.x) i = p := by
      have := hlev i (by omega)
      rw [hpi] at this
      exact (Option.some.inj this).symm
    have hnil : Spec.reciprocals (kalmanOut zs.length st) zs.length ≠ [] := by
      obtain ⟨e, he⟩ : ∃ e, Spec.lastEvent (kalmanOut zs.length st).events f0 = some e := by
        cases he : Spec.lastEvent (kalmanOut zs.length st).events f0 with
        | none => rw [lastEvent_none he f0 le_rfl] at h0; cases h0
        | some e => exact ⟨e, rfl⟩
      have := (lastEvent_some he).1
      intro hn
      unfold Spec.reciprocals at hn
      rw [List.filterMap_eq_nil_iff] at hn
      have := hn f0 (List.mem_range.mpr hc0)
      rw [he, Option.bind_some, hlev e (by omega)] at this
      cases this
    cases hce : st.ce with
    | nil => rw [hce] at hf0; cases hf0
    | cons a l =>
      rw [hce] at hf0 hvals
      cases hf0
      unfold perfectRatio
      simp only
      rw [cellAt_range _ (by rw [hl]; omega), if_pos hi, hvals, hpe]
      cases hrec : Spec.reciprocals (kalmanOut zs.length st) zs.length with
      | nil => exact absurd hrec hnil
      | cons b bs => rfl

/-! ## Concrete cases -/

/-- two steps -/
def exTwoSteps : List Cell :=
  ([1, 1, 1, 1/2, 1/2, 1/2, 1/2, 1/2, 1/2, 1/2, 1/2, 1/2, 3/4, 3/4, 3/4, 3/4, 3/4, 3/4, 3/4, 3/4] : List ℚ).map some

-- the detected event: clipped ratio, event flag, day counts, rate zero where nothing changes
example : (kalmanSR { perfect := true } 3 exTwoSteps .none).map
    (fun o => (truePos o.events, cellAt o.ratio 12, (cellAt o.ratio 13).all fun v => decide (v < 1))) =
      .ok ([12], some 1, true) := by decide +kernel
example : (kalmanSR { perfect := true } 3 exTwoSteps .none).map (fun o => (cellAt o.daysSince 11, cellAt o.daysSince 12, cellAt o.daysSince 19)) =
    .ok (some 11, some 0, some 7) := by decide +kernel
example : (kalmanSR { perfect := true } 3 exTwoSteps (.positions [3, 14])).map
    (fun o => (truePos o.events, cellAt o.ratio 14, cellAt o.ratio 15, cellAt o.rates 15)) =
      .ok ([3, 14], some 1, some 1, some 0) := by decide +kernel
-- up to the first event: relative to the harmonic mean of the levels at the events
example : (kalmanSR { perfect := true } 3 exTwoSteps (.positions [3, 14])).map
    (fun o => (truePos o.events, (Spec.reciprocals o 20).length, (List.range 20).all fun j => decide (Spec.level o j ≠ some 0),
      (List.range 4).all fun i => decide (cellAt o.ratio i = (Spec.level o i).map fun p =>
        min (p * ((Spec.reciprocals o 20).sum / 17)) 1))) = .ok ([3, 14], 17, true, true) := by decide +kernel
-- renormalization without events
example : (kalmanSR { renorm := some (1/2) } 3 ((List.replicate 20 (4/5 : ℚ)).map some) .none).map
    (fun o => (truePos o.events, o.ratio.all Option.isNone)) = .ok ([], true) := by decide +kernel
-- without clipping
example : (kalmanSR { clip := false } 3 ((List.replicate 20 (4/5 : ℚ)).map some) .none).map
    (fun o => (cellAt o.ratio 5, o.rates.all Option.isNone)) = .ok (some (4/5), true) := by decide +kernel
-- without pruning iterations
example : (kalmanSR { pruningIterations := 0 } 3 ((List.replicate 20 (4/5 : ℚ)).map some) .none).map
    (fun o => (o.smooth.head?, o.ratio.all Option.isNone)) = .ok (some ⟨4/5, 0⟩, true) := by decide +kernel
-- perfect cleaning without events
example : (kalmanSR { perfect := true } 3 ((List.replicate 20 (4/5 : ℚ)).map some) .none).map
    (fun o => (truePos o.events, o.ratio.all fun c => decide (c = some 1))) = .ok ([], true) := by decide +kernel

/-- the lower limit named by the documentation is not applied: a negative signal gives a negative soiling ratio -/
theorem C45_lower_clip_refuted : (kalmanSR {} 3 ((List.replicate 20 (-1 : ℚ)).map some) .none).map
    (fun o => cellAt o.ratio 10) = .ok (some (-1)) := by decide +kernel

/-- at the first cleaning event the soiling ratio need not be 1, although perfect cleaning is assumed -/
theorem C67_first_event_refuted : (kalmanSR { perfect := true } 3 exTwoSteps (.positions [3, 14])).map
    (fun o => (getB o.events 3, (cellAt o.ratio 3).all fun v => decide (v < 97 / 100))) = .ok (true, true) := by
  decide +kernel

end Verif.Cods
