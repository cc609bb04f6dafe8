import Verif.Props.CodsSoilingEvents
import Verif.Lemmas.SrrShift
import Verif.Lemmas.SrrLevels

/-! # C62: exactly which days are taken for cleaning and soiling events -/

namespace Verif.Cods

open Verif Verif.Spec

/-- the value a day counts with: the one of the last day with a value up to it or, filling backwards, of the first one from it on -/
def Spec.Known (fwd : Bool) (y : List Cell) (i : Nat) (v : ℚ) : Prop :=
  if fwd then i < y.length ∧ ∃ j ≤ i, cellAt y j = some v ∧ ∀ k, j < k → k ≤ i → cellAt y k = none
  else ∃ j, i ≤ j ∧ cellAt y j = some v ∧ ∀ k, i ≤ k → k < j → cellAt y k = none

/-- the median over the `w` days around day `i` (one more before than after for even `w`), which all have to count -/
def Spec.MedianOver (fwd : Bool) (w : Nat) (y : List Cell) (i : Nat) (m : ℚ) : Prop :=
  w / 2 ≤ i ∧ i + (w - 1) / 2 < y.length ∧ ∃ win : List ℚ, win.length = w ∧
    (∀ k (h : k < win.length), Spec.Known fwd y (i - w / 2 + k) win[k]) ∧ IsMedian win m

/-- the change of that median from the day before to day `i` -/
def Spec.Change (fwd : Bool) (w : Nat) (y : List Cell) (i : Nat) (d : ℚ) : Prop :=
  0 < i ∧ ∃ a b, Spec.MedianOver fwd w y i a ∧ Spec.MedianOver fwd w y (i - 1) b ∧ d = a - b

/-- the sizes of all changes, in any order -/
def Spec.ChangeSizes (fwd : Bool) (w : Nat) (y : List Cell) (l : List ℚ) : Prop :=
  ∃ ds : List (Nat × ℚ), (ds.map Prod.fst).Nodup ∧ (∀ i d, (i, d) ∈ ds ↔ Spec.Change fwd w y i d) ∧ l = ds.map fun x => |x.2|

theorem cellAt_lt {x : List Cell} {i : Nat} {v : ℚ} (h : cellAt x i = some v) : i < x.length := by
  by_contra hc
  rw [cellAt_ge (by omega)] at h
  cases h

theorem cellAt_eq_getElem {x : List Cell} {i : Nat} (h : i < x.length) : cellAt x i = x[i] := by
  unfold cellAt
  rw [List.getElem?_eq_getElem h]
  rfl

theorem known_ffill {y : List Cell} {i : Nat} {v : ℚ} : cellAt (ffill y) i = some v ↔ Spec.Known true y i v := by
  have hl : (ffill y).length = y.length := ffillFrom_length _ _
  unfold Spec.Known
  rw [if_pos rfl]
  have key : ∀ {j : Nat} {u : ℚ}, i < y.length → j ≤ i → cellAt y j = some u → (∀ k, j < k → k ≤ i → cellAt y k = none) →
      cellAt (ffill y) i = some u := by
    intro j u hi hj hu hn
    rw [cellAt_eq_getElem (by rw [hl]; exact hi)]
    unfold ffill
    refine ffillFrom_getElem hj hi (by rw [← cellAt_eq_getElem]; exact hu) fun k hk h1 h2 => ?_
    rw [← cellAt_eq_getElem]
    exact hn k h1 h2
  constructor
  · intro h
    have hi : i < y.length := by have := cellAt_lt h; omega
    refine ⟨hi, ?_⟩
    by_cases hex : ∃ j ≤ i, (cellAt y j).isSome
    · obtain ⟨j0, hj0, hs0⟩ := hex
      have hs := Nat.findGreatest_spec (P := fun j => (cellAt y j).isSome = true) hj0 hs0
      have hle := Nat.findGreatest_le (P := fun j => (cellAt y j).isSome = true) i
      have hgt : ∀ k, Nat.findGreatest (fun j => (cellAt y j).isSome = true) i < k → k ≤ i → cellAt y k = none := by
        intro k h1 h2
        have := Nat.findGreatest_is_greatest (P := fun j => (cellAt y j).isSome = true) h1 h2
        cases hk : cellAt y k with
        | none => rfl
        | some _ => rw [hk] at this; exact absurd rfl this
      generalize Nat.findGreatest (fun j => (cellAt y j).isSome = true) i = j at hs hle hgt
      obtain ⟨u, hu⟩ := Option.isSome_iff_exists.mp hs
      have := key hi hle hu hgt
      rw [h] at this
      cases this
      exact ⟨j, hle, hu, hgt⟩
    · exfalso
      have hn : ∀ k (hk : k < y.length), k ≤ i → y[k] = none := by
        intro k hk hki
        rw [← cellAt_eq_getElem]
        cases hc : cellAt y k with
        | none => rfl
        | some _ => exact absurd ⟨k, hki, by rw [hc]; rfl⟩ hex
      rw [cellAt_eq_getElem (by rw [hl]; exact hi)] at h
      unfold ffill at h
      rw [ffillFrom_getElem_none hi hn] at h
      cases h
  · rintro ⟨hi, j, hj, hu, hn⟩
    exact key hi hj hu hn

theorem known_bfill {y : List Cell} {i : Nat} {v : ℚ} : cellAt (bfill y) i = some v ↔ Spec.Known false y i v := by
  have hl : (bfill y).length = y.length := bfill_length _
  unfold Spec.Known
  rw [if_neg (by simp)]
  have key : ∀ {j : Nat} {u : ℚ}, i ≤ j → cellAt y j = some u → (∀ k, i ≤ k → k < j → cellAt y k = none) →
      cellAt (bfill y) i = some u := by
    intro j u hj hu hn
    have hj' := cellAt_lt hu
    rw [cellAt_eq_getElem (by rw [hl]; omega)]
    refine bfill_getElem hj hj' (by rw [← cellAt_eq_getElem]; exact hu) fun k hk h1 h2 => ?_
    rw [← cellAt_eq_getElem]
    exact hn k h1 h2
  constructor
  · intro h
    have hi : i < y.length := by have := cellAt_lt h; omega
    by_cases hex : ∃ j, i ≤ j ∧ (cellAt y j).isSome
    · have hs := Nat.find_spec hex
      have hmin : ∀ k, i ≤ k → k < Nat.find hex → cellAt y k = none := by
        intro k h1 h2
        have := Nat.find_min hex h2
        cases hk : cellAt y k with
        | none => rfl
        | some _ => exact absurd ⟨h1, by rw [hk]; rfl⟩ this
      generalize Nat.find hex = j at hs hmin
      obtain ⟨u, hu⟩ := Option.isSome_iff_exists.mp hs.2
      have := key hs.1 hu hmin
      rw [h] at this
      cases this
      exact ⟨j, hs.1, hu, hmin⟩
    · exfalso
      have hn : ∀ k (hk : k < y.length), i ≤ k → y[k] = none := by
        intro k hk hki
        rw [← cellAt_eq_getElem]
        cases hc : cellAt y k with
        | none => rfl
        | some _ => exact absurd ⟨k, hki, by rw [hc]; rfl⟩ hex
      rw [cellAt_eq_getElem (by rw [hl]; exact hi), bfill_getElem_none hi hn] at h
      cases h
  · rintro ⟨j, hj, hu, hn⟩
    exact key hj hu hn

theorem medianOver_iff {fwd : Bool} {w : Nat} {y : List Cell} {i : Nat} {m : ℚ} :
    cellAt (filledMedian fwd w y) i = some m ↔ Spec.MedianOver fwd w y i m := by
  unfold filledMedian Spec.MedianOver
  cases fwd with
  | true =>
    rw [if_pos rfl, rollMedianC_iff, show (ffill y).length = y.length from ffillFrom_length _ _]
    simp only [known_ffill]
  | false =>
    rw [if_neg (by simp), rollMedianC_iff, show (bfill y).length = y.length from bfill_length _]
    simp only [known_bfill]

theorem filledMedian_length' (fwd : Bool) (w : Nat) (y : List Cell) : (filledMedian fwd w y).length = y.length := by
  unfold filledMedian rollMedianC
  cases fwd
  · simp [bfill_length]
  · simp [ffill, ffillFrom_length]

theorem change_cell {fwd : Bool} {w : Nat} {y : List Cell} {i : Nat} {d : ℚ} :
    cellAt (Spec.changes fwd w y) i = some d ↔ Spec.Change fwd w y i d := by
  unfold Spec.changes cellDiff Spec.Change
  rw [cellAt_range_map, filledMedian_length']
  simp only [← medianOver_iff]
  constructor
  · intro h
    split_ifs at h with h1 h2
    cases ha : cellAt (filledMedian fwd w y) i with
    | none => rw [ha] at h; simp [cellOp] at h
    | some a =>
      cases hb : cellAt (filledMedian fwd w y) (i - 1) with
      | none => rw [ha, hb] at h; simp [cellOp] at h
      | some b =>
        rw [ha, hb] at h
        simp only [cellOp, Option.some.injEq] at h
        exact ⟨by omega, a, b, rfl, rfl, h.symm⟩
  · rintro ⟨h0, a, b, ha, hb, rfl⟩
    have hi : i < y.length := by have := cellAt_lt ha; rw [filledMedian_length'] at this; exact this
    rw [if_pos hi, if_neg (by omega), ha, hb]
    rfl

/-- **C62 (what is looked at).** The change of a day is the difference of the medians over the `w` days around it and around the day
before, a missing day counting with the last value before it (the next one after it, filling backwards). -/
theorem C62_change {fwd : Bool} {w : Nat} {y : List Cell} {i : Nat} {d : ℚ} :
    (Spec.changes fwd w y)[i]? = some (some d) ↔ Spec.Change fwd w y i d := by
  rw [← change_cell]
  unfold cellAt
  cases (Spec.changes fwd w y)[i]? with
  | none => simp
  | some c => simp

theorem changeSizes_perm {fwd : Bool} {w : Nat} {y : List Cell} {l : List ℚ} (h : Spec.ChangeSizes fwd w y l) :
    l.Perm (valids (cellAbs (Spec.changes fwd w y))) := by
  obtain ⟨ds, hn, hm, rfl⟩ := h
  rw [valids_cellAbs, ← withPos_snd, List.map_map]
  have : ds.Perm (withPos (Spec.changes fwd w y)) := by
    rw [List.perm_ext_iff_of_nodup hn.of_map (withPos_fst_nodup _).of_map]
    rintro ⟨i, d⟩
    rw [hm, mem_withPos, change_cell]
  exact this.map _

/-- the sizes exist -/
theorem changeSizes_self (fwd : Bool) (w : Nat) (y : List Cell) :
    Spec.ChangeSizes fwd w y (valids (cellAbs (Spec.changes fwd w y))) := by
  refine ⟨withPos (Spec.changes fwd w y), withPos_fst_nodup _, fun i d => by rw [mem_withPos, change_cell], ?_⟩
  rw [valids_cellAbs, ← withPos_snd, List.map_map]
  rfl

/-- **C62 (cleaning events).** A day is taken for a cleaning event exactly if the median over the days around it rises by more than the
upper quartile of the sizes of all changes plus `tuner` times the distance of the quartiles. -/
theorem C62_cleaning_event {fwd : Bool} {w : Nat} {tuner : ℚ} {y : List Cell} {i : Nat} {l : List ℚ}
    (hl : Spec.ChangeSizes fwd w y l) :
    (rollingMedianCe fwd w tuner y).1[i]? = some true ↔
      ∃ d q1 q3, Spec.Change fwd w y i d ∧ IsQuantile l (1 / 4) q1 ∧ IsQuantile l (3 / 4) q3 ∧ q3 + tuner * (q3 - q1) < d := by
  rw [event_iff]
  unfold cellQuantile
  simp only [isQuantile_iff (show (0 : ℚ) ≤ 1 / 4 by norm_num) (by norm_num),
    isQuantile_iff (show (0 : ℚ) ≤ 3 / 4 by norm_num) (by norm_num), quantile_perm (changeSizes_perm hl), ← C62_change]
  constructor
  · rintro ⟨d, q3, q1, h1, h2, h3, h4⟩
    exact ⟨d, q1, q3, h1, h3, h2, h4⟩
  · rintro ⟨d, q1, q3, h1, h2, h3, h4⟩
    exact ⟨d, q3, q1, h1, h3, h2, h4⟩

/-- **C62 (soiling events).** A day is taken for a soiling event exactly if the median over the nine days around it changes by less
than the 1 % quantile of the sizes of all changes minus `tuner` times the distance of the 1 % and 99 % quantiles. -/
theorem C62_soiling_event {fwd : Bool} {tuner : ℚ} {y : List Cell} {i : Nat} {l : List ℚ} (hl : Spec.ChangeSizes fwd 9 y l) :
    (soilingEvents fwd tuner y)[i]? = some true ↔
      ∃ d q1 q3, Spec.Change fwd 9 y i d ∧ IsQuantile l (1 / 100) q1 ∧ IsQuantile l (99 / 100) q3 ∧ d < q1 - tuner * (q3 - q1) := by
  rw [soilingEvent_iff]
  unfold Spec.sizes
  rw [← valids_cellAbs]
  simp only [isQuantile_iff (show (0 : ℚ) ≤ 1 / 100 by norm_num) (by norm_num),
    isQuantile_iff (show (0 : ℚ) ≤ 99 / 100 by norm_num) (by norm_num), quantile_perm (changeSizes_perm hl), C62_change]

/-- a rise of the three-day median by 1/10 on the third of seven days, the second day missing -/
example : (rollingMedianCe true 3 0 [some 1, none, some (11/10), some (11/10), some (11/10), some (11/10), some (11/10)]).1 =
    [false, false, true, false, false, false, false] := by decide +kernel
example : valids (cellAbs (Spec.changes true 3 [some 1, none, some (11/10), some (11/10), some (11/10), some (11/10), some (11/10)])) =
    [1/10, 0, 0, 0] := by decide +kernel

end Verif.Cods
