import Verif.Spec.SrrShift
import Verif.Lemmas.SrrSplit
import Verif.Lemmas.Filtering
import Verif.Lemmas.Quantile

/-! # Lemmas on the detection of cleaning events -/

namespace Verif
open Spec

theorem ffillLimitFrom_some (lim : Nat) (p : Cell) (k : Nat) (hk : k ≤ lim) (x : List Cell) (i : Nat)
    (hi : i < x.length) (v : ℚ) :
    cellAt (ffillLimitFrom lim p k x) i = some v ↔
      (∃ j, j ≤ i ∧ i ≤ j + lim ∧ cellAt x j = some v ∧ ∀ k, j < k → k ≤ i → cellAt x k = none) ∨
        (i < k ∧ (∀ j, j ≤ i → cellAt x j = none) ∧ p = some v) := by
  induction x generalizing p k i with
  | nil => simp at hi
  | cons c l ih =>
    cases c with
    | some a =>
      rw [show ffillLimitFrom lim p k (some a :: l) = some a :: ffillLimitFrom lim (some a) lim l from by
        cases k <;> rfl]
      cases i with
      | zero =>
        simp only [cellAt_cons_zero]
        constructor
        · intro h
          exact Or.inl ⟨0, le_refl _, by omega, by rw [cellAt_cons_zero, h], fun k h1 h2 => by omega⟩
        · rintro (⟨j, hj, -, h, -⟩ | ⟨-, h, -⟩)
          · obtain rfl : j = 0 := by omega
            exact h
          · exact absurd (h 0 (le_refl _)) (by simp [cellAt_cons_zero])
      | succ i =>
        rw [cellAt_cons_succ, ih (some a) lim (le_refl _) i (by simpa using hi)]
        constructor
        · rintro (⟨j, h1, h2, h3, h4⟩ | ⟨h1, h2, h3⟩)
          · refine Or.inl ⟨j + 1, by omega, by omega, by rw [cellAt_cons_succ]; exact h3, fun k hk1 hk2 => ?_⟩
            cases k with
            | zero => omega
            | succ k => rw [cellAt_cons_succ]; exact h4 k (by omega) (by omega)
          · refine Or.inl ⟨0, by omega, by omega, by rw [cellAt_cons_zero, h3], fun k hk1 hk2 => ?_⟩
            cases k with
            | zero => omega
            | succ k => rw [cellAt_cons_succ]; exact h2 k (by omega)
        · rintro (⟨j, h1, h2, h3, h4⟩ | ⟨-, h, -⟩)
          · cases j with
            | zero =>
              refine Or.inr ⟨by omega, fun j hj => ?_, by rw [cellAt_cons_zero] at h3; exact h3⟩
              have := h4 (j + 1) (by omega) (by omega)
              rwa [cellAt_cons_succ] at this
            | succ j =>
              refine Or.inl ⟨j, by omega, by omega, by rwa [cellAt_cons_succ] at h3, fun k hk1 hk2 => ?_⟩
              have := h4 (k + 1) (by omega) (by omega)
              rwa [cellAt_cons_succ] at this
          · exact absurd (h 0 (by omega)) (by simp [cellAt_cons_zero])
    | none =>
      have up : ∀ i, (∃ j, j ≤ i ∧ i ≤ j + lim ∧ cellAt l j = some v ∧ ∀ k, j < k → k ≤ i → cellAt l k = none) ↔
          (∃ j, j ≤ i + 1 ∧ i + 1 ≤ j + lim ∧ cellAt (none :: l) j = some v ∧
            ∀ k, j < k → k ≤ i + 1 → cellAt (none :: l) k = none) := by
        intro i
        constructor
        · rintro ⟨j, h1, h2, h3, h4⟩
          refine ⟨j + 1, by omega, by omega, by rw [cellAt_cons_succ]; exact h3, fun k hk1 hk2 => ?_⟩
          cases k with
          | zero => omega
          | succ k => rw [cellAt_cons_succ]; exact h4 k (by omega) (by omega)
        · rintro ⟨j, h1, h2, h3, h4⟩
          cases j with
          | zero => simp [cellAt_cons_zero] at h3
          | succ j =>
            refine ⟨j, by omega, by omega, by rwa [cellAt_cons_succ] at h3, fun k hk1 hk2 => ?_⟩
            have := h4 (k + 1) (by omega) (by omega)
            rwa [cellAt_cons_succ] at this
      have none_up : ∀ i, (∀ j, j ≤ i + 1 → cellAt (none :: l) j = none) ↔ ∀ j, j ≤ i → cellAt l j = none := by
        intro i
        constructor
        · intro h j hj
          have := h (j + 1) (by omega)
          rwa [cellAt_cons_succ] at this
        · intro h j hj
          cases j with
          | zero => rfl
          | succ j => rw [cellAt_cons_succ]; exact h j (by omega)
      cases k with
      | zero =>
        rw [show ffillLimitFrom lim p 0 (none :: l) = none :: ffillLimitFrom lim p 0 l from rfl]
        cases i with
        | zero =>
          simp only [cellAt_cons_zero]
          constructor
          · intro h; exact absurd h (by simp)
          · rintro (⟨j, hj, -, h, -⟩ | ⟨h, -, -⟩)
            · obtain rfl : j = 0 := by omega
              exact h
            · omega
        | succ i =>
          rw [cellAt_cons_succ, ih p 0 hk i (by simpa using hi), up, none_up]
          simp
      | succ k =>
        rw [show ffillLimitFrom lim p (k + 1) (none :: l) = p :: ffillLimitFrom lim p k l from rfl]
        cases i with
        | zero =>
          simp only [cellAt_cons_zero]
          constructor
          · intro h
            refine Or.inr ⟨by omega, fun j hj => ?_, h⟩
            obtain rfl : j = 0 := by omega
            rfl
          · rintro (⟨j, hj, -, h, -⟩ | ⟨-, -, h⟩)
            · obtain rfl : j = 0 := by omega
              simp [cellAt_cons_zero] at h
            · exact h
        | succ i =>
          rw [cellAt_cons_succ, ih p k (by omega) i (by simpa using hi), up, none_up]
          simp

theorem ffillLimit_length (lim : Nat) (x : List Cell) : (ffillLimit lim x).length = x.length :=
  ffillLimitFrom_length lim none 0 x

theorem filledAt_iff {lim : Nat} {x : List Cell} {i : Nat} {v : ℚ} :
    cellAt (ffillLimit lim x) i = some v ↔ FilledAt lim x i v := by
  unfold FilledAt
  by_cases hi : i < x.length
  · unfold ffillLimit
    rw [ffillLimitFrom_some lim none 0 (by omega) x i hi]
    simp [hi]
  · rw [cellAt_ge (by rw [ffillLimit_length]; omega)]
    simp [hi]

theorem cellAt_range_map {f : Nat → Cell} {n i : Nat} :
    cellAt ((List.range n).map f) i = if i < n then f i else none := by
  unfold cellAt
  rw [List.getElem?_map]
  split_ifs with h
  · rw [List.getElem?_range h]; rfl
  · rw [List.getElem?_eq_none (by simpa using h)]; rfl

theorem valids_all {l : List Cell} (h : l.all Option.isSome = true) : l = (valids l).map some := by
  induction l with
  | nil => rfl
  | cons c l ih =>
    cases c with
    | none => simp at h
    | some v =>
      have := ih (by simpa using h)
      unfold valids at this ⊢
      simpa using this

theorem rollMedianC_iff {w : Nat} {y : List Cell} {i : Nat} {m : ℚ} :
    cellAt (rollMedianC w y) i = some m ↔ w / 2 ≤ i ∧ i + (w - 1) / 2 < y.length ∧
      ∃ win : List ℚ, win.length = w ∧ (∀ k (h : k < win.length), cellAt y (i - w / 2 + k) = some win[k]) ∧
        IsMedian win m := by
  unfold rollMedianC
  simp only
  rw [cellAt_range_map]
  constructor
  · intro h
    split_ifs at h with h1 h2
    obtain ⟨g1, g2, g3⟩ := h2
    refine ⟨g1, g2, valids ((List.range w).map fun k => cellAt y (i - w / 2 + k)), ?_, ?_, isMedian_iff.mpr h⟩
    · have := congrArg List.length (valids_all g3)
      simpa using this.symm
    · intro k hk
      have e := valids_all g3
      have hk' : k < w := by
        have := congrArg List.length e
        simp at this; omega
      have := congrArg (fun L : List Cell => L[k]?) e
      simp only [List.getElem?_map, List.getElem?_range hk', List.getElem?_eq_getElem hk, Option.map_some,
        Option.some.injEq] at this
      exact this
  · rintro ⟨g1, g2, win, hw, hwin, hm⟩
    have e : ((List.range w).map fun k => cellAt y (i - w / 2 + k)) = win.map some := by
      apply List.ext_getElem
      · simp [hw]
      · intro k h1 h2
        simp only [List.length_map] at h2
        simp only [List.getElem_map, List.getElem_range]
        exact hwin k h2
    have hv : valids (win.map some) = win := by
      unfold valids; induction win <;> simp_all
    rw [if_pos (by omega), if_pos ⟨g1, g2, by rw [e]; simp⟩, e, hv]
    exact isMedian_iff.mp hm

theorem medianAround_iff {w : Nat} {x : List Cell} {i : Nat} {m : ℚ} :
    cellAt (rollMedianC w (ffillLimit w x)) i = some m ↔ MedianAround w x i m := by
  rw [rollMedianC_iff, ffillLimit_length]
  simp only [filledAt_iff]
  rfl

theorem shiftAt_iff {w : Nat} {x : List Cell} {i : Nat} {d : ℚ} :
    cellAt (srrDelta w x) i = some d ↔ ShiftAt w x i d := by
  unfold srrDelta cellDiff ShiftAt
  rw [cellAt_range_map]
  have hlen : (rollMedianC w (ffillLimit w x)).length = x.length := by
    simp [rollMedianC, ffillLimit_length]
  rw [hlen]
  simp only [← medianAround_iff]
  constructor
  · intro h
    split_ifs at h with h1 h2
    cases ha : cellAt (rollMedianC w (ffillLimit w x)) i with
    | none => rw [ha] at h; simp [cellOp] at h
    | some a =>
      cases hb : cellAt (rollMedianC w (ffillLimit w x)) (i - 1) with
      | none => rw [ha, hb] at h; simp [cellOp] at h
      | some b =>
        rw [ha, hb] at h
        simp only [cellOp, Option.some.injEq] at h
        exact ⟨by omega, a, b, rfl, rfl, h.symm⟩
  · rintro ⟨h0, a, b, ha, hb, rfl⟩
    have hi : i < x.length := by
      by_contra hc
      rw [cellAt_ge (by omega)] at ha
      simp at ha
    rw [if_pos hi, if_neg (by omega), ha, hb]
    rfl

/-- the present cells with their positions -/
def withPos (l : List Cell) : List (Nat × ℚ) :=
  (List.range l.length).filterMap fun i => (cellAt l i).map fun d => (i, d)

theorem withPos_snd (l : List Cell) : (withPos l).map Prod.snd = valids l := by
  unfold withPos valids
  rw [List.map_filterMap]
  conv_rhs => rw [show l = (List.range l.length).map (cellAt l) from by
    apply List.ext_getElem
    · simp
    · intro i h1 h2; simp [cellAt, h1]]
  rw [List.filterMap_map]
  congr 1
  funext i
  simp only [Function.comp_apply, Option.map_map]
  cases cellAt l i <;> rfl

theorem withPos_fst_nodup (l : List Cell) : ((withPos l).map Prod.fst).Nodup := by
  unfold withPos
  rw [List.map_filterMap]
  have : ((List.range l.length).filterMap fun i => ((cellAt l i).map fun d => (i, d)).map Prod.fst) =
      (List.range l.length).filter fun i => (cellAt l i).isSome := by
    rw [← List.filterMap_eq_filter]
    congr 1
    funext i
    cases h : cellAt l i <;> simp [Option.guard, h]
  rw [this]
  exact List.nodup_range.filter _

theorem mem_withPos {l : List Cell} {i : Nat} {d : ℚ} : (i, d) ∈ withPos l ↔ cellAt l i = some d := by
  unfold withPos
  rw [List.mem_filterMap]
  constructor
  · rintro ⟨j, _, h⟩
    obtain ⟨e, he, h2⟩ := Option.map_eq_some_iff.mp h
    simp only [Prod.mk.injEq] at h2
    rw [← h2.1, ← h2.2]; exact he
  · intro h
    refine ⟨i, ?_, by rw [h]; rfl⟩
    rw [List.mem_range]
    by_contra hc
    rw [cellAt_ge (by omega)] at h
    simp at h

theorem stepSizes_iff {w : Nat} {x : List Cell} {l : List ℚ} :
    StepSizes w x l → l.Perm ((valids (srrDelta w x)).map abs) := by
  rintro ⟨ds, hn, hm, rfl⟩
  rw [← withPos_snd, List.map_map]
  have : ds.Perm (withPos (srrDelta w x)) := by
    rw [List.perm_ext_iff_of_nodup hn.of_map (withPos_fst_nodup _).of_map]
    rintro ⟨i, d⟩
    rw [hm, mem_withPos, shiftAt_iff]
  exact this.map _

theorem stepSizes_self (w : Nat) (x : List Cell) : StepSizes w x ((valids (srrDelta w x)).map abs) := by
  refine ⟨withPos (srrDelta w x), withPos_fst_nodup _, fun i d => by rw [mem_withPos, shiftAt_iff], ?_⟩
  rw [← withPos_snd, List.map_map]
  rfl

theorem cleanThreshold_iff {o : DailyOpts} {x : List Cell} {θ : ℚ} :
    srrThreshold o (srrDelta o.dayScale x) = some θ ↔ CleanThreshold o x θ := by
  unfold srrThreshold CleanThreshold
  cases o.cleanThreshold with
  | some c => simp only [Option.some.injEq]; exact eq_comm
  | none =>
    simp only
    constructor
    · intro h
      cases h3 : quantile ((valids (srrDelta o.dayScale x)).map abs) (3 / 4) with
      | none => rw [h3] at h; simp [cellOp] at h
      | some q3 =>
        cases h1 : quantile ((valids (srrDelta o.dayScale x)).map abs) (1 / 4) with
        | none => rw [h3, h1] at h; simp [cellOp] at h
        | some q1 =>
          rw [h3, h1] at h
          simp only [cellOp, Option.some.injEq] at h
          exact ⟨_, q1, q3, stepSizes_self _ _, (isQuantile_iff (by norm_num) (by norm_num)).mpr h1,
            (isQuantile_iff (by norm_num) (by norm_num)).mpr h3, h.symm⟩
    · rintro ⟨l, q1, q3, hl, h1, h3, rfl⟩
      have hp := stepSizes_iff hl
      rw [isQuantile_iff (by norm_num) (by norm_num), quantile_perm hp] at h1 h3
      rw [h1, h3]
      rfl

theorem shiftDetected_iff {o : DailyOpts} {x : List Cell} {i : Nat} :
    (srrDetected o (srrDelta o.dayScale x))[i]? = some true ↔ ShiftDetected o x i := by
  unfold srrDetected ShiftDetected
  rw [List.getElem?_map]
  simp only [← shiftAt_iff, ← cleanThreshold_iff]
  unfold cellAt
  cases (srrDelta o.dayScale x)[i]? with
  | none => simp
  | some c =>
    cases c with
    | none => simp [cellCmp]
    | some d =>
      cases srrThreshold o (srrDelta o.dayScale x) with
      | none => simp [cellCmp]
      | some θ => simp [cellCmp]

end Verif
