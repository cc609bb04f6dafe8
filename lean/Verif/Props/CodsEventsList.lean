import Verif.Lemmas.CodsInv

/-! # Properties C65 (what happens to the cleaning events) and C68 (smoothing stays between events) -/

namespace Verif.Cods

open Verif

/-! ## One step -/

/-- `m` is the first day of the window of eleven days (five before today, today, five after) onto which the rolling median rises
most; 4 is today -/
def Spec.LargestRise (win : Nat → ℚ) (m : Nat) : Prop :=
  m ≤ 9 ∧ (∀ k, k ≤ 9 → win (k + 1) - win k ≤ win (m + 1) - win m) ∧
    ∀ k, k < m → win (k + 1) - win k < win (m + 1) - win m

theorem cellAt_npDiff {win : List ℚ} (hw : win.length = 11) {k : Nat} (hk : k ≤ 9) :
    cellAt ((npDiff win).map some) k = some (qAt win (k + 1) - qAt win k) := by
  unfold npDiff cellAt
  rw [List.getElem?_map, List.getElem?_map, List.getElem?_range (by omega)]
  rfl

theorem qAt_npDiff {win : List ℚ} (hw : win.length = 11) {k : Nat} (hk : k ≤ 9) :
    qAt (npDiff win) k = qAt win (k + 1) - qAt win k := by
  unfold npDiff
  conv_lhs => unfold qAt
  rw [List.getD_eq_getElem?_getD, List.getElem?_map, List.getElem?_range (by omega)]
  rfl

theorem argmaxQ_rise {win : List ℚ} (hw : win.length = 11) {m : Nat} (h : Spec.LargestRise (qAt win) m) :
    argmaxQ (npDiff win) = m := by
  unfold argmaxQ
  have hl : (npDiff win).length - 1 = 9 := by rw [length_npDiff, hw]
  rw [hl]
  have hm : Spec.FirstMax (cellAt ((npDiff win).map some)) 0 9 m := by
    refine ⟨by omega, h.1, _, cellAt_npDiff hw h.1, fun i w _ hi e => ?_, fun i w _ hi e => ?_⟩
    · rw [cellAt_npDiff hw hi] at e; cases e; exact h.2.1 i hi
    · rw [cellAt_npDiff hw (by have := h.1; omega)] at e; cases e; exact h.2.2 i hi
  cases ha : argmaxCell ((npDiff win).map some) 0 9 with
  | none =>
    have := argmaxCell_none (by omega) ha 0 le_rfl (by omega)
    rw [cellAt_npDiff hw (by omega)] at this; cases this
  | some j => exact firstMax_unique (argmaxCell_some (by omega) ha) hm

/-- today is a cleaning event and the day of the largest rise: it stays, with the level reset to the median of the following
week, if that differs from the prediction by more than half the noise, and is dropped otherwise -/
theorem C65_today {s : V2} {R : ℚ} {win : List ℚ} (hw : win.length = 11) {index : Nat} {ce : List Nat}
    (h : Spec.LargestRise (qAt win) 4) :
    setControl s R win index ce =
      if R < 4 * (qAt win 8 - (s.x + s.r)) ^ 2 then (qAt win 8 - (s.x + s.r), ce) else (0, ce.erase index) := by
  unfold setControl
  rw [argmaxQ_rise hw h, if_pos (.inl rfl)]

/-- today is a cleaning event, but the rise is largest on another day: the event moves there, if that is a rise and no event
yet, and is dropped otherwise; there is no control input -/
theorem C65_moved {s : V2} {R : ℚ} {win : List ℚ} (hw : win.length = 11) {index m : Nat} {ce : List Nat} (hc : index ∈ ce)
    (h : Spec.LargestRise (qAt win) m) (hm : m ≠ 4) (hi : 4 ≤ index) :
    (setControl s R win index ce).1 = 0 ∧
      (setControl s R win index ce).2.Perm
        (if 0 < qAt win (m + 1) - qAt win m ∧ index + m - 4 ∉ ce then (index + m - 4) :: ce.erase index else ce.erase index) := by
  have hne : index + m - 4 ≠ index := by omega
  have hmem : index + m - 4 ∉ ce.erase index ↔ index + m - 4 ∉ ce := by
    rw [List.mem_erase_of_ne hne]
  unfold setControl
  rw [argmaxQ_rise hw h, if_neg (by push Not; exact ⟨hm, hc⟩), qAt_npDiff hw h.1]
  unfold movedDay
  by_cases hq : 0 < qAt win (m + 1) - qAt win m ∧ index + m - 4 ∉ ce
  · rw [if_pos hq, if_pos ⟨hq.1, hmem.mpr hq.2⟩]
    exact ⟨rfl, insort_perm _ _⟩
  · rw [if_neg hq, if_neg (fun hh => hq ⟨hh.1, hmem.mp hh.2⟩)]
    exact ⟨rfl, List.Perm.refl _⟩

/-- on a soiling event that is not a cleaning event the list stays as it is -/
theorem C65_soiling (s : V2) (R : ℚ) (win : List ℚ) {index : Nat} {ce : List Nat} (hc : index ∉ ce) :
    (setControl s R win index ce).2 = ce := by
  unfold setControl
  rw [if_pos (.inr hc)]
  split_ifs
  · rfl
  · exact List.erase_of_not_mem hc

/-- an event on a day other than today is never dropped: contrary to the documentation, events in the surrounding days stay -/
theorem C65_others {s : V2} {R : ℚ} {win : List ℚ} {index j : Nat} {ce : List Nat} (hj : j ≠ index) (h : j ∈ ce) :
    j ∈ (setControl s R win index ce).2 := by
  rcases setControl_ce s R win index ce with e | e | ⟨-, -, -, -, e⟩
  · rw [e]; exact h
  · rw [e]; exact (List.mem_erase_of_ne hj).mpr h
  · rw [e]
    exact (insort_perm _ _).symm.subset (List.mem_cons_of_mem _ ((List.mem_erase_of_ne hj).mpr h))

/-- "if the cleaning event seems to be correct, removes other cleaning events in the 10 days surrounding this day" does not hold -/
theorem C65_surrounding_refuted :
    setControl ⟨1/2, 0⟩ (1/100) [1/2, 1/2, 1/2, 1/2, 1/2, 1, 1, 1, 1, 1, 1] 20 [18, 20, 21] = (1/2, [18, 20, 21]) := by
  decide +kernel

/-! ## Forward pass -/

theorem setControl_length (s : V2) (R : ℚ) (win : List ℚ) (index : Nat) (ce : List Nat) :
    (setControl s R win index ce).2.length ≤ ce.length := by
  rcases setControl_ce s R win index ce with e | e | ⟨h, -, -, -, e⟩
  · rw [e]
  · rw [e]; exact List.erase_sublist.length_le
  · rw [e, (insort_perm _ _).length_eq, List.length_cons, List.length_erase_of_mem h]
    have := List.length_pos_of_mem h
    omega

theorem setControl_nodup {s : V2} {R : ℚ} {win : List ℚ} {index : Nat} {ce : List Nat} (hn : ce.Nodup) :
    (setControl s R win index ce).2.Nodup := by
  rcases setControl_ce s R win index ce with e | e | ⟨-, -, -, h, e⟩
  · rw [e]; exact hn
  · rw [e]; exact hn.erase _
  · rw [e, (insort_perm _ _).nodup_iff, List.nodup_cons]
    exact ⟨h, hn.erase _⟩

theorem forward_events_inv {P : List Nat → Prop} {pn R : ℚ} {n : Nat} {rm7 : List ℚ} {se : List Nat}
    (hstep : ∀ s win index ce, 7 < index → index + 7 < n → P ce → P (setControl s R win index ce).2) {zs : List Cell} :
    ∀ {i : Nat} {k : KF} {ce : List Nat}, P ce → P (forwardFrom pn R n rm7 se i k ce zs).2 := by
  induction zs with
  | nil => exact fun h => h
  | cons z zs ih =>
    intro i k ce h
    apply ih
    unfold predictDay
    split_ifs with hc
    · have := of_decide_eq_true hc
      exact hstep _ _ _ _ this.1 this.2.1 h
    · exact h

/-- the forward pass never adds to the number of cleaning events -/
theorem C65_count (pn R : ℚ) (n : Nat) (rm7 : List ℚ) (se : List Nat) (zs : List Cell) (i : Nat) (k : KF) (ce : List Nat) :
    (forwardFrom pn R n rm7 se i k ce zs).2.length ≤ ce.length :=
  forward_events_inv (P := fun l => l.length ≤ ce.length)
    (fun s win index l _ _ h => (setControl_length s R win index l).trans h) le_rfl

/-- the forward pass keeps the events sorted, distinct and inside the data -/
theorem C65_sorted {pn R : ℚ} {n : Nat} {rm7 : List ℚ} {se : List Nat} {zs : List Cell} {i : Nat} {k : KF} {ce : List Nat}
    (h : ce.Pairwise (· < ·)) (hb : ∀ e ∈ ce, e < n) :
    (forwardFrom pn R n rm7 se i k ce zs).2.Pairwise (· < ·) ∧ ∀ e ∈ (forwardFrom pn R n rm7 se i k ce zs).2, e < n := by
  have h1 : EvOk n (forwardFrom pn R n rm7 se i k ce zs).2 := forward_evOk ⟨h.imp Nat.le_of_lt, hb⟩
  have h2 : (forwardFrom pn R n rm7 se i k ce zs).2.Nodup :=
    forward_events_inv (P := List.Nodup) (fun s win index l _ _ h => setControl_nodup h) (h.imp Nat.ne_of_lt)
  refine ⟨?_, h1.2⟩
  have := List.pairwise_and_iff.mpr ⟨h1.1, h2⟩
  exact this.imp fun h => Nat.lt_of_le_of_ne h.1 h.2

/-- an event in the first eight or the last seven days is never moved or dropped by the forward pass -/
theorem C65_edges {pn R : ℚ} {n : Nat} {rm7 : List ℚ} {se : List Nat} {zs : List Cell} {i : Nat} {k : KF} {ce : List Nat} {j : Nat}
    (hj : j ≤ 7 ∨ n ≤ j + 7) (h : j ∈ ce) : j ∈ (forwardFrom pn R n rm7 se i k ce zs).2 :=
  forward_events_inv (P := fun l => j ∈ l) (fun s win index l h1 h2 h => C65_others (by omega) h) h

/-! ## Events handed over -/

/-- a series of at most four true values is ignored -/
theorem C65_few_ignored (o : KalmanOpts) (fuel : Nat) (zs : List Cell) {b : List Bool} (h : b.count true ≤ 4) :
    kalmanSR o fuel zs (.series b) = kalmanSR o fuel zs .none := by
  have e : startEvents zs (.series b) = startEvents zs .none := by
    unfold startEvents
    simp only
    rw [if_neg (by omega)]
  unfold kalmanSR
  rw [e]

/-- a series with more true values has to have the length of the data -/
theorem C65_length (o : KalmanOpts) (fuel : Nat) {zs : List Cell} {b : List Bool} (h : 4 < b.count true)
    (hl : b.length ≠ zs.length) : kalmanSR o fuel zs (.series b) = .error .valueError := by
  have e : startEvents zs (.series b) = .error .valueError := by
    unfold startEvents
    simp only
    rw [if_pos h, if_neg hl]
  unfold kalmanSR
  rw [e]; rfl

/-- otherwise it means the same as the list of its true positions -/
theorem C65_series (o : KalmanOpts) (fuel : Nat) {zs : List Cell} {b : List Bool} (h : 4 < b.count true)
    (hl : b.length = zs.length) : kalmanSR o fuel zs (.series b) = kalmanSR o fuel zs (.positions (truePos b)) := by
  have e : startEvents zs (.series b) = startEvents zs (.positions (truePos b)) := by
    unfold startEvents
    simp only
    rw [if_pos h, if_pos hl]
  unfold kalmanSR
  rw [e]

-- concrete cases
example : Spec.LargestRise (qAt [1/2, 1/2, 1/2, 1/2, 1/2, 1, 1, 1, 1, 1, 1]) 4 := by
  refine ⟨by omega, fun k hk => ?_, fun k hk => ?_⟩
  · interval_cases k <;> decide +kernel
  · interval_cases k <;> decide +kernel
example : setControl ⟨1/2, 0⟩ 4 [1/2, 1/2, 1/2, 1/2, 1/2, 1, 1, 1, 1, 1, 1] 20 [18, 20, 21] = (0, [18, 21]) := by decide +kernel
example : setControl ⟨1/2, 0⟩ 4 [1/2, 1/2, 1/2, 1/2, 1/2, 1/2, 1/2, 1, 1, 1, 1] 20 [18, 20, 21] = (0, [18, 21, 22]) := by
  decide +kernel
example : (kalmanSR {} 3 ((List.replicate 20 (1 : ℚ)).map some) (.series (List.replicate 19 true))) = .error .valueError :=
  C65_length _ _ (by decide) (by decide)

/-! ## Smoothing between events -/

theorem rts_length {pn : ℚ} {l sm : List KF} (h : rts pn l = .ok sm) : sm.length = l.length := by
  induction l generalizing sm with
  | nil => cases h; rfl
  | cons k l ih =>
    cases l with
    | nil => cases h; rfl
    | cons k2 l =>
      unfold rts at h
      obtain ⟨m, hm, h⟩ := bind_ok'.mp h
      have := ih hm
      cases m with
      | nil => cases this
      | cons nx m =>
        obtain ⟨k', -, h⟩ := bind_ok'.mp h
        cases h
        simp at this ⊢; omega

/-- the smoother leaves the last day of its argument as it is -/
theorem rts_last {pn : ℚ} {l sm : List KF} (h : rts pn l = .ok sm) : sm.getLast? = l.getLast? := by
  induction l generalizing sm with
  | nil => cases h; rfl
  | cons k l ih =>
    cases l with
    | nil => cases h; rfl
    | cons k2 l =>
      unfold rts at h
      obtain ⟨m, hm, h⟩ := bind_ok'.mp h
      have := ih hm
      have hl := rts_length hm
      cases m with
      | nil => cases hl
      | cons nx m =>
        obtain ⟨k', -, h⟩ := bind_ok'.mp h
        cases h
        rw [List.getLast?_cons_cons, this, List.getLast?_cons_cons]

theorem smoothFrom_segment {pn : ℚ} {raw : List KF} {b : List Nat} (hb : b.Pairwise (· ≤ ·)) (hle : ∀ s ∈ b, s ≤ raw.length)
    {s0 : Nat} (h0 : b.head? = some s0) {sm : List KF} (h : smoothFrom pn raw b = .ok sm) {j s e : Nat}
    (hs : b[j]? = some s) (he : b[j + 1]? = some e) :
    rts pn ((raw.drop s).take (e - s)) = .ok ((sm.drop (s - s0)).take (e - s)) := by
  induction b generalizing s0 sm j with
  | nil => cases h0
  | cons a b ih =>
    cases h0
    cases b with
    | nil => simp at he
    | cons c b =>
      unfold smoothFrom at h
      obtain ⟨seg, h1, h⟩ := bind_ok'.mp h
      obtain ⟨rest, h2, h⟩ := bind_ok'.mp h
      cases h
      have hac : a ≤ c := (List.pairwise_cons.mp hb).1 c List.mem_cons_self
      have hc : c ≤ raw.length := hle c (by simp)
      have hseg := rts_length h1
      rw [List.length_take, List.length_drop] at hseg
      have hsl : seg.length = c - a := by omega
      cases j with
      | zero =>
        simp only [List.getElem?_cons_zero, Option.some.injEq] at hs
        simp only [List.getElem?_cons_succ, List.getElem?_cons_zero, Option.some.injEq] at he
        subst hs; subst he
        rw [Nat.sub_self, List.drop_zero, List.take_append_of_le_length (by omega), List.take_of_length_le (l := seg) (by omega)]
        exact h1
      | succ j =>
        simp only [List.getElem?_cons_succ] at hs he
        have := ih (List.pairwise_cons.mp hb).2 (fun s hs => hle s (List.mem_cons_of_mem _ hs)) rfl h2 hs he
        have hcs : c ≤ s := by
          cases j with
          | zero => simp only [List.getElem?_cons_zero, Option.some.injEq] at hs; omega
          | succ j =>
            simp only [List.getElem?_cons_succ] at hs
            exact (List.pairwise_cons.mp (List.pairwise_cons.mp hb).2).1 s (List.mem_of_getElem? hs)
        rw [this, List.drop_append, hsl]
        have e1 : s - a - (c - a) = s - c := by omega
        rw [e1]
        have e2 : seg.drop (s - a) = [] := List.drop_eq_nil_of_le (by omega)
        rw [e2, List.nil_append]

/-- consecutive days of smoothing: the first day, the last day, the cleaning events and the soiling events -/
def Spec.consecutive (n : Nat) (ce se : List Nat) (s e : Nat) : Prop :=
  ∃ j, (borders n ce se)[j]? = some s ∧ (borders n ce se)[j + 1]? = some e

/-- the days from one event up to the day before the next one are smoothed by themselves -/
theorem C68_segment {pn : ℚ} {raw sm : List KF} {ce se : List Nat} (hce : ∀ x ∈ ce, x < raw.length)
    (hse : ∀ x ∈ se, x < raw.length) (h : smoothResults pn raw ce se = .ok sm) {s e : Nat}
    (hc : Spec.consecutive raw.length ce se s e) :
    rts pn ((raw.drop s).take (e - s)) = .ok ((sm.drop s).take (e - s)) := by
  obtain ⟨j, h1, h2⟩ := hc
  have := smoothFrom_segment (borders_sorted _ _ _) (fun s hs => by
    rcases mem_borders.mp hs with h | h | h | h
    · exact (hce s h).le
    · omega
    · omega
    · exact (hse s h).le) (borders_head raw.length ce se) h h1 h2
  rwa [Nat.sub_zero] at this

/-- so two sets of estimates that agree between two events are smoothed alike there, whatever they are elsewhere -/
theorem C68_local {pn : ℚ} {raw raw' sm sm' : List KF} {ce se : List Nat} (hl : raw.length = raw'.length)
    (hce : ∀ x ∈ ce, x < raw.length) (hse : ∀ x ∈ se, x < raw.length) (h : smoothResults pn raw ce se = .ok sm)
    (h' : smoothResults pn raw' ce se = .ok sm') {s e : Nat} (hc : Spec.consecutive raw.length ce se s e)
    (ha : ∀ i, s ≤ i → i < e → raw[i]? = raw'[i]?) : ∀ i, s ≤ i → i < e → sm[i]? = sm'[i]? := by
  have e1 := C68_segment hce hse h hc
  have e2 := C68_segment (by rw [← hl]; exact hce) (by rw [← hl]; exact hse) h' (by rw [← hl]; exact hc)
  have er : (raw.drop s).take (e - s) = (raw'.drop s).take (e - s) := by
    apply List.ext_getElem?
    intro i
    by_cases hi : i < e - s
    · rw [List.getElem?_take_of_lt hi, List.getElem?_take_of_lt hi, List.getElem?_drop, List.getElem?_drop]
      exact ha (s + i) (by omega) (by omega)
    · rw [List.getElem?_eq_none (by rw [List.length_take]; omega), List.getElem?_eq_none (by rw [List.length_take]; omega)]
  rw [er, e2] at e1
  have e3 := Except.ok.inj e1
  intro i h1 h2
  have := congrArg (fun l : List KF => l[i - s]?) e3
  beta_reduce at this
  rw [List.getElem?_take_of_lt (by omega), List.getElem?_take_of_lt (by omega), List.getElem?_drop, List.getElem?_drop,
    Nat.add_sub_cancel' h1] at this
  exact this.symm

/-- the day before an event is not smoothed: its estimate uses the data up to that day only -/
theorem C68_before_event {pn : ℚ} {raw sm : List KF} {ce se : List Nat} (hce : ∀ x ∈ ce, x < raw.length)
    (hse : ∀ x ∈ se, x < raw.length) (h : smoothResults pn raw ce se = .ok sm) {s e : Nat}
    (hc : Spec.consecutive raw.length ce se s e) (hlt : s < e) (he : e ≤ raw.length) : sm[e - 1]? = raw[e - 1]? := by
  have e1 := rts_last (C68_segment hce hse h hc)
  have hl : sm.length = raw.length := smoothResults_length hce hse h
  rw [List.getLast?_eq_getElem?, List.getLast?_eq_getElem?, List.length_take, List.length_take, List.length_drop,
    List.length_drop, hl] at e1
  have em : min (e - s) (raw.length - s) - 1 = e - s - 1 := by omega
  rw [em, List.getElem?_take_of_lt (by omega), List.getElem?_take_of_lt (by omega), List.getElem?_drop, List.getElem?_drop] at e1
  have : s + (e - s - 1) = e - 1 := by omega
  rwa [this] at e1

theorem smoothFrom_last {pn : ℚ} {raw : List KF} {b : List Nat} (hb : b.Pairwise (· ≤ ·)) {s0 z : Nat} (h0 : b.head? = some s0)
    (hle : ∀ s ∈ b, s ≤ raw.length) (hz : b.getLast? = some z) {sm : List KF} (h : smoothFrom pn raw b = .ok sm) :
    sm.drop (z - s0) = raw.drop z := by
  induction b generalizing s0 sm with
  | nil => cases h0
  | cons a b ih =>
    cases h0
    cases b with
    | nil => cases h; cases hz; simp
    | cons c b =>
      unfold smoothFrom at h
      obtain ⟨seg, h1, h⟩ := bind_ok'.mp h
      obtain ⟨rest, h2, h⟩ := bind_ok'.mp h
      cases h
      rw [List.getLast?_cons_cons] at hz
      have := ih (List.pairwise_cons.mp hb).2 rfl (fun s hs => hle s (List.mem_cons_of_mem _ hs)) hz h2
      have hac : a ≤ c := (List.pairwise_cons.mp hb).1 c List.mem_cons_self
      have hcz : c ≤ z := by
        have hm := List.mem_of_getLast? hz
        rcases List.mem_cons.mp hm with rfl | hm
        · exact le_rfl
        · exact (List.pairwise_cons.mp (List.pairwise_cons.mp hb).2).1 z hm
      have hc : c ≤ raw.length := hle c (by simp)
      have hseg := rts_length h1
      rw [List.length_take, List.length_drop] at hseg
      rw [List.drop_append, List.drop_eq_nil_of_le (by omega), List.nil_append, ← this]
      congr 1
      omega

theorem borders_last {n : Nat} {ce se : List Nat} (hce : ∀ x ∈ ce, x < n) (hse : ∀ x ∈ se, x < n) :
    (borders n ce se).getLast? = some (n - 1) := by
  have hm : n - 1 ∈ borders n ce se := mem_borders.mpr (.inr (.inr (.inl rfl)))
  have hs := borders_sorted n ce se
  cases hg : (borders n ce se).getLast? with
  | none => rw [List.getLast?_eq_none_iff] at hg; rw [hg] at hm; cases hm
  | some z =>
    have hzm := List.mem_of_getLast? hg
    have h1 : z ≤ n - 1 := by
      rcases mem_borders.mp hzm with h | h | h | h
      · have := hce z h; omega
      · omega
      · omega
      · have := hse z h; omega
    have h2 : n - 1 ≤ z := by
      obtain ⟨l, hl⟩ := List.getLast?_eq_some_iff.mp hg
      rw [hl] at hs hm
      rcases List.mem_append.mp hm with h | h
      · exact (List.pairwise_append.mp hs).2.2 _ h z (by simp)
      · rw [List.mem_singleton.mp h]
    rw [Nat.le_antisymm h1 h2]

/-- the last day of the data is not smoothed -/
theorem C68_last_day {pn : ℚ} {raw sm : List KF} {ce se : List Nat} (hce : ∀ x ∈ ce, x < raw.length)
    (hse : ∀ x ∈ se, x < raw.length) (h : smoothResults pn raw ce se = .ok sm) : sm.getLast? = raw.getLast? := by
  have := smoothFrom_last (borders_sorted _ _ _) (borders_head raw.length ce se) (fun s hs => by
    rcases mem_borders.mp hs with h | h | h | h
    · exact (hce s h).le
    · omega
    · omega
    · exact (hse s h).le) (borders_last hce hse) h
  rw [Nat.sub_zero] at this
  have hl : sm.length = raw.length := smoothResults_length hce hse h
  rw [List.getLast?_eq_getElem?, List.getLast?_eq_getElem?, hl]
  have e := congrArg (fun l : List KF => l[0]?) this
  simp only [List.getElem?_drop, Nat.add_zero] at e
  exact e

-- days 0-2 and 3-5 are smoothed separately; days 2 and 6 stay as they are
example : borders 7 [3] [] = [0, 3, 6] := by decide
example : Spec.consecutive 7 [3] [] 0 3 ∧ Spec.consecutive 7 [3] [] 3 6 := ⟨⟨0, by decide, by decide⟩, ⟨1, by decide, by decide⟩⟩

end Verif.Cods
