import Verif.Lemmas.CodsKalman
import Verif.Lemmas.SrrLevels
import Verif.Props.CodsCollapse
import Verif.Props.CodsDetect
import Mathlib.Data.List.Sort

/-! # The list of cleaning events stays sorted and inside the data -/

namespace Verif.Cods

open Verif

/-- sorted positions of the data -/
def EvOk (n : Nat) (ce : List Nat) : Prop := ce.Pairwise (· ≤ ·) ∧ ∀ e ∈ ce, e < n

theorem EvOk.sublist {n : Nat} {a b : List Nat} (h : EvOk n b) (hs : a.Sublist b) : EvOk n a :=
  ⟨h.1.sublist hs, fun e he => h.2 e (hs.subset he)⟩

theorem mem_truePos {b : List Bool} {i : Nat} : i ∈ truePos b ↔ getB b i = true := by
  unfold truePos
  rw [List.mem_filter, List.mem_range]
  constructor
  · exact fun h => h.2
  · exact fun h => ⟨getB_lt h, h⟩

theorem truePos_sorted (b : List Bool) : (truePos b).Pairwise (· < ·) :=
  List.Pairwise.sublist List.filter_sublist List.pairwise_lt_range

theorem truePos_evOk (b : List Bool) : EvOk b.length (truePos b) :=
  ⟨(truePos_sorted b).imp (fun h => Nat.le_of_lt h), fun _ he => getB_lt (mem_truePos.mp he)⟩

/-! ### Control step -/

theorem length_npDiff (l : List ℚ) : (npDiff l).length = l.length - 1 := by simp [npDiff]

theorem argmaxFrom_range {m : List Cell} {k : Nat} : ∀ {lo : Nat} {best : Option (Nat × ℚ)} {p : Nat × ℚ},
    argmaxFrom m lo k best = some p → best = some p ∨ (lo ≤ p.1 ∧ p.1 < lo + k) := by
  induction k with
  | zero => intro lo best p h; exact .inl h
  | succ k ih =>
    intro lo best p h
    unfold argmaxFrom at h
    rcases ih h with hb | hb
    · unfold better at hb
      split at hb
      · exact .inl hb
      · split at hb
        · cases hb; exact .inr ⟨le_rfl, by simp⟩
        · split_ifs at hb
          · cases hb; exact .inr ⟨le_rfl, by simp⟩
          · exact .inl hb
    · exact .inr ⟨by omega, by omega⟩

theorem argmaxQ_le (l : List ℚ) : argmaxQ l ≤ l.length - 1 := by
  unfold argmaxQ argmaxCell
  cases h : argmaxFrom (l.map some) 0 (l.length - 1 + 1 - 0) none with
  | none => simp
  | some p =>
    rcases argmaxFrom_range h with h' | h'
    · cases h'
    · simp only [Option.map_some, Option.getD_some]; omega

theorem insort_perm (l : List Nat) (x : Nat) : (insort l x).Perm (x :: l) := by
  unfold insort
  refine List.perm_middle.trans (List.Perm.cons x ?_)
  have e : l.filter (fun y => decide (x < y)) = l.filter (fun y => !decide (y ≤ x)) := by
    apply List.filter_congr
    intro y _
    by_cases h : y ≤ x
    · simp [h, Nat.not_lt.mpr h]
    · simp [h, Nat.lt_of_not_le h]
  rw [e]
  exact List.filter_append_perm _ _

theorem insort_sorted {l : List Nat} (h : l.Pairwise (· ≤ ·)) (x : Nat) : (insort l x).Pairwise (· ≤ ·) := by
  unfold insort
  rw [List.pairwise_append, List.pairwise_cons]
  refine ⟨h.sublist List.filter_sublist, ⟨?_, h.sublist List.filter_sublist⟩, ?_⟩
  · intro y hy
    have := (List.mem_filter.mp hy).2
    exact Nat.le_of_lt (by simpa using this)
  · intro a ha b hb
    have h1 : a ≤ x := by simpa using (List.mem_filter.mp ha).2
    rcases List.mem_cons.mp hb with rfl | hb
    · exact h1
    · have h2 : x < b := by simpa using (List.mem_filter.mp hb).2
      omega

/-- what the control step may do to the list of events -/
theorem setControl_ce (s : V2) (R : ℚ) (win : List ℚ) (index : Nat) (ce : List Nat) :
    (setControl s R win index ce).2 = ce ∨ (setControl s R win index ce).2 = ce.erase index ∨
      (index ∈ ce ∧ 0 < qAt (npDiff win) (argmaxQ (npDiff win)) ∧ argmaxQ (npDiff win) ≠ 4 ∧
        movedDay index (argmaxQ (npDiff win)) ∉ ce.erase index ∧
        (setControl s R win index ce).2 = insort (ce.erase index) (movedDay index (argmaxQ (npDiff win)))) := by
  unfold setControl
  by_cases h1 : argmaxQ (npDiff win) = 4 ∨ index ∉ ce
  · rw [if_pos h1]
    split_ifs
    · exact .inl rfl
    · exact .inr (.inl rfl)
  · rw [if_neg h1]
    push Not at h1
    split_ifs with h2
    · exact .inr (.inr ⟨h1.2, h2.1, h1.1, h2.2, rfl⟩)
    · exact .inr (.inl rfl)

theorem setControl_evOk {n : Nat} {s : V2} {R : ℚ} {win : List ℚ} (hw : win.length ≤ 11) {index : Nat} {ce : List Nat}
    (hi : index + 7 < n) (h : EvOk n ce) : EvOk n (setControl s R win index ce).2 := by
  rcases setControl_ce s R win index ce with e | e | ⟨-, -, -, -, e⟩
  · rw [e]; exact h
  · rw [e]; exact h.sublist List.erase_sublist
  · rw [e]
    have he := h.sublist (List.erase_sublist (a := index))
    refine ⟨insort_sorted he.1 _, fun y hy => ?_⟩
    rcases List.mem_cons.mp ((insort_perm _ _).subset hy) with rfl | hy
    · have := argmaxQ_le (npDiff win)
      rw [length_npDiff] at this
      unfold movedDay; omega
    · exact he.2 y hy

theorem predictDay_evOk {pn R : ℚ} {n : Nat} {rm7 : List ℚ} {se : List Nat} {i : Nat} {k : KF} {ce : List Nat}
    (h : EvOk n ce) : EvOk n (predictDay pn R n rm7 se i k ce).2 := by
  unfold predictDay
  split_ifs with hc
  · refine setControl_evOk (List.length_take_le _ _) ?_ h
    unfold controlled at hc
    exact (of_decide_eq_true hc).2.1
  · exact h

theorem forward_evOk {pn R : ℚ} {n : Nat} {rm7 : List ℚ} {se : List Nat} {zs : List Cell} :
    ∀ {i : Nat} {k : KF} {ce : List Nat}, EvOk n ce → EvOk n (forwardFrom pn R n rm7 se i k ce zs).2 := by
  induction zs with
  | nil => exact fun h => h
  | cons z zs ih =>
    intro i k ce h
    exact ih (predictDay_evOk h)

/-! ### Smoothing -/

theorem borders_sorted (n : Nat) (ce se : List Nat) : (borders n ce se).Pairwise (· ≤ ·) :=
  List.pairwise_insertionSort (· ≤ ·) _

theorem mem_borders {n : Nat} {ce se : List Nat} {b : Nat} : b ∈ borders n ce se ↔ b ∈ ce ∨ b = 0 ∨ b = n - 1 ∨ b ∈ se := by
  unfold borders
  rw [(List.perm_insertionSort _ _).mem_iff]
  simp

theorem borders_head (n : Nat) (ce se : List Nat) : (borders n ce se).head? = some 0 := by
  have h0 : 0 ∈ borders n ce se := mem_borders.mpr (.inr (.inl rfl))
  have hs := borders_sorted n ce se
  cases h : borders n ce se with
  | nil => rw [h] at h0; cases h0
  | cons b l =>
    rw [h] at h0 hs
    rcases List.mem_cons.mp h0 with h0 | h0
    · rw [← h0]; rfl
    · have := (List.pairwise_cons.mp hs).1 0 h0
      have : b = 0 := by omega
      rw [this]; rfl

theorem smoothResults_length {pn : ℚ} {raw : List KF} {ce se : List Nat} (hce : ∀ e ∈ ce, e < raw.length)
    (hse : ∀ e ∈ se, e < raw.length) {sm : List KF} (h : smoothResults pn raw ce se = .ok sm) : sm.length = raw.length := by
  refine (smoothFrom_length (borders_sorted _ _ _) ?_ (borders_head raw.length ce se) h).trans (by omega)
  intro s hs
  rcases mem_borders.mp hs with h | h | h | h
  · exact (hce s h).le
  · omega
  · omega
  · exact (hse s h).le

theorem filterPass_inv {o : KalmanOpts} {zs : List Cell} {rm7 : List ℚ} {R : ℚ} {fit : TheilFit} {se : List Nat} {a b : ℚ}
    {ce : List Nat} {p : List Nat × List KF × ℚ × ℚ} (hse : ∀ e ∈ se, e < zs.length) (hce : EvOk zs.length ce)
    (h : filterPass o zs rm7 R fit se a b ce = .ok p) : EvOk zs.length p.1 ∧ p.2.1.length = zs.length := by
  unfold filterPass at h
  obtain ⟨sm, h1, rfl⟩ := map_ok.mp h
  have hl := forward_length o.processNoise R zs.length rm7 se 0 (initKF fit a b) ce zs
  have hev : EvOk zs.length (forwardFrom o.processNoise R zs.length rm7 se 0 (initKF fit a b) ce zs).2 := forward_evOk hce
  refine ⟨hev, ?_⟩
  simp only
  rw [smoothResults_length (by rw [hl]; exact hev.2) (by rw [hl]; exact hse) h1, hl]

/-! ### Revision -/

theorem pruneEvents_sublist {cps : ℚ} {pis : List ℚ} {ce ce' : List Nat} (h : pruneEvents cps pis ce = .ok ce') :
    ce'.Sublist ce := by
  unfold pruneEvents at h
  split_ifs at h with h0
  · cases h; exact List.nil_sublist _
  · obtain ⟨o, h1, rfl⟩ := map_ok.mp h
    have e : o.length = ce.length := by
      unfold numericOutliers at h1
      split_ifs at h1
      cases h1
      simp
    have h2 : (((ce.zip o).filter fun p => !p.2).map Prod.fst).Sublist ((ce.zip o).map Prod.fst) :=
      List.filter_sublist.map _
    rwa [List.map_fst_zip (by omega)] at h2

theorem addEvents_evOk {maxRate : ℚ} {rates : List ℚ} {ce ce' : List Nat} (h : EvOk rates.length ce)
    (h1 : addEvents maxRate rates ce = .ok ce') : EvOk rates.length ce' ∧ ce ⊆ ce' := by
  unfold addEvents at h1
  split_ifs at h1 with hc
  · obtain ⟨b, hb, rfl⟩ := map_ok.mp h1
    have hl := (C44_exact hb).1
    rw [List.length_map] at hl
    refine ⟨⟨List.pairwise_insertionSort _ _, fun e he => ?_⟩, fun e he => ?_⟩
    · rcases List.mem_append.mp ((List.perm_insertionSort _ _).subset he) with he | he
      · exact h.2 e he
      · have := getB_lt (mem_truePos.mp he); omega
    · exact (List.perm_insertionSort _ _).symm.subset (List.mem_append_left _ he)
  · cases h1; exact ⟨h, fun _ he => he⟩

/-- invariant of the loop -/
structure StOk (n : Nat) (st : KalmanState) : Prop where
  ev : EvOk n st.ce
  len : st.smooth.length = n

theorem revise_evOk {o : KalmanOpts} {n : Nat} {st : KalmanState} {ce : List Nat} (h : StOk n st) (h1 : revise o st = .ok ce) :
    EvOk n ce := by
  unfold revise at h1
  obtain ⟨c, hc, h1⟩ := bind_ok'.mp h1
  have := addEvents_evOk (rates := st.smooth.map fun k => k.s.r) (by rw [List.length_map, h.len]; exact h.ev.sublist (pruneEvents_sublist hc)) h1
  rw [List.length_map, h.len] at this
  exact this.1

theorem pruneLoop_inv {o : KalmanOpts} {zs : List Cell} {rm7 : List ℚ} {R : ℚ} {fit : TheilFit} {se : List Nat}
    (hse : ∀ e ∈ se, e < zs.length) : ∀ {fuel counter : Nat} {st st' : KalmanState}, StOk zs.length st →
      pruneLoop o zs rm7 R fit se fuel counter st = .ok st' → StOk zs.length st' := by
  intro fuel
  induction fuel with
  | zero =>
    intro counter st st' hst h
    unfold pruneLoop at h
    split_ifs at h
    cases h; exact hst
  | succ fuel ih =>
    intro counter st st' hst h
    unfold pruneLoop at h
    by_cases hc : counter < o.pruningIterations
    · rw [if_pos hc] at h
      obtain ⟨ce, hrev, h⟩ := bind_ok'.mp h
      by_cases he : ce = st.ce
      · rw [if_pos he] at h
        exact ih ⟨by rw [finishPass_ce]; exact hst.ev, by rw [finishPass_smooth]; exact hst.len⟩ h
      · rw [if_neg he] at h
        obtain ⟨p, hp, h⟩ := bind_ok'.mp h
        have := filterPass_inv hse (revise_evOk hst hrev) hp
        exact ih ⟨by rw [finishPass_ce]; exact this.1, by rw [finishPass_smooth]; exact this.2⟩ h
    · rw [if_neg hc] at h
      cases h; exact hst

/-- a passed list of positions has to be sorted and inside the data -/
def Spec.validEvents (n : Nat) : Prescient → Prop
  | .positions l => l.Pairwise (· ≤ ·) ∧ ∀ e ∈ l, e < n
  | _ => True

theorem length_soilingEvents (fwd : Bool) (t : ℚ) (y : List Cell) : (soilingEvents fwd t y).length = y.length := by
  unfold soilingEvents
  rw [List.length_map, cellDiff, List.length_map, List.length_range, filledMedian, rollMedianC, List.length_map,
    List.length_range]
  split_ifs
  · exact ffillFrom_length _ _
  · exact bfill_length _

theorem ownEvents_evOk {zs : List Cell} {ce : List Nat} (h : ownEvents zs = .ok ce) : EvOk zs.length ce := by
  unfold ownEvents at h
  obtain ⟨b, hb, rfl⟩ := map_ok.mp h
  have hl := (C44_exact hb).1
  have e : (rollingMedianCe true 9 (1/2) zs).1.length = zs.length := events_length _ _ _ _
  rw [e] at hl
  rw [← hl]; exact truePos_evOk b

theorem startEvents_evOk {zs : List Cell} {pre : Prescient} (hp : Spec.validEvents zs.length pre) {ce : List Nat}
    (h : startEvents zs pre = .ok ce) : EvOk zs.length ce := by
  cases pre with
  | none => exact ownEvents_evOk h
  | positions l => cases h; exact hp
  | series b =>
    unfold startEvents at h
    simp only at h
    split_ifs at h with h1 h2
    · cases h; rw [← h2]; exact truePos_evOk b
    · exact ownEvents_evOk h

/-- the columns of a successful call, with the invariant -/
theorem kalmanSR_inv {o : KalmanOpts} {fuel : Nat} {zs : List Cell} {pre : Prescient} (hp : Spec.validEvents zs.length pre)
    {out : KalmanOut} (h : kalmanSR o fuel zs pre = .ok out) :
    ∃ st : KalmanState, out = kalmanOut zs.length st ∧ StOk zs.length st ∧
      ((o.pruningIterations = 0 ∧ st.ratio = (zs.map fun _ => none) ∧ st.rates = (zs.map fun _ => none)) ∨
        (st.ratio = (if o.clip then clipUpper (ratioOf o st.smooth st.ce) else ratioOf o st.smooth st.ce) ∧
          st.rates = if o.clip then clippedRates st.ratio (st.smooth.map fun k => k.s.r) else zs.map fun _ => none)) := by
  obtain ⟨ce, R, p, st, h1, -, h3, h4, rfl, -⟩ := kalmanSR_ok h
  have hse : ∀ e ∈ truePos (soilingEvents o.fwd 5 zs), e < zs.length := by
    intro e he
    have := getB_lt (mem_truePos.mp he)
    rwa [length_soilingEvents] at this
  have hst := filterPass_inv hse (startEvents_evOk hp h1) h3
  refine ⟨st, rfl, pruneLoop_inv hse ⟨hst.1, hst.2⟩ h4, ?_⟩
  rcases pruneLoop_final (init := ⟨p.1, p.2.1, zs.map fun _ => none, zs.map fun _ => none, p.2.2.1, p.2.2.2⟩)
    (fun _ => rfl) h4 with ⟨rfl, h⟩ | hf
  · exact .inl ⟨by omega, rfl, rfl⟩
  · exact .inr ⟨hf.ratio, hf.rates⟩

end Verif.Cods
