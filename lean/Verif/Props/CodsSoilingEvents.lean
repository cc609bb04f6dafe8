import Verif.Props.CodsDetect
import Verif.Lemmas.Quantile

/-! # C62: the days taken for soiling events -/

namespace Verif.Cods

open Verif Verif.Spec

/-- the sizes of the changes of the rolling median -/
def Spec.sizes (fwd : Bool) (y : List Cell) : List ℚ := (valids (Spec.changes fwd 9 y)).map fun d => |d|

theorem valids_cellAbs (x : List Cell) : valids (cellAbs x) = (valids x).map fun d => |d| := by
  unfold valids cellAbs
  induction x with
  | nil => rfl
  | cons c l ih =>
    cases c with
    | none => exact ih
    | some v => exact congrArg (|v| :: ·) ih

/-- a day is taken for a soiling event exactly if the rolling median over nine days changes by less than the 1 % quantile of
the sizes of all changes minus `tuner` times the distance of the 1 % and 99 % quantiles. -/
theorem soilingEvent_iff {fwd : Bool} {tuner : ℚ} {y : List Cell} {i : Nat} :
    (soilingEvents fwd tuner y)[i]? = some true ↔
      ∃ d q1 q3, (Spec.changes fwd 9 y)[i]? = some (some d) ∧ IsQuantile (Spec.sizes fwd y) (1 / 100) q1 ∧
        IsQuantile (Spec.sizes fwd y) (99 / 100) q3 ∧ d < q1 - tuner * (q3 - q1) := by
  have e : soilingEvents fwd tuner y = (Spec.changes fwd 9 y).map fun d =>
      cellCmp (fun a b => decide (a < b)) d
        (cellOp (fun q3 q1 => q1 - tuner * (q3 - q1)) (quantile (Spec.sizes fwd y) (99 / 100))
          (quantile (Spec.sizes fwd y) (1 / 100))) := by
    unfold soilingEvents cellQuantile Spec.sizes
    rw [valids_cellAbs]
    rfl
  rw [e, List.getElem?_map]
  simp only [isQuantile_iff (show (0 : ℚ) ≤ 1 / 100 by norm_num) (by norm_num),
    isQuantile_iff (show (0 : ℚ) ≤ 99 / 100 by norm_num) (by norm_num)]
  cases hd : (Spec.changes fwd 9 y)[i]? with
  | none => simp
  | some c =>
    cases c with
    | none => simp [cellCmp]
    | some d =>
      cases h3 : quantile (Spec.sizes fwd y) (99 / 100) with
      | none => simp [cellOp, cellCmp]
      | some q3 =>
        cases h1 : quantile (Spec.sizes fwd y) (1 / 100) with
        | none => simp [cellOp, cellCmp]
        | some q1 =>
          simp only [Option.map_some, cellOp, cellCmp, Option.some.injEq, decide_eq_true_eq]
          constructor
          · intro h; exact ⟨d, q1, q3, rfl, rfl, rfl, h⟩
          · rintro ⟨_, _, _, rfl, rfl, rfl, h⟩; exact h

theorem quantiles_sorted {l : List ℚ} {q1 q3 : ℚ} (h1 : IsQuantile l (1 / 100) q1) (h3 : IsQuantile l (99 / 100) q3) : q1 ≤ q3 := by
  rw [isQuantile_iff (by norm_num) (by norm_num)] at h1 h3
  exact quantile_mono h1 h3 (by norm_num) (by norm_num) (by norm_num)

/-- **C62.** A larger tuner never adds a soiling event. -/
theorem C62_soiling_monotone {fwd : Bool} {t1 t2 : ℚ} (ht : t1 ≤ t2) {y : List Cell} {i : Nat}
    (h : (soilingEvents fwd t2 y)[i]? = some true) : (soilingEvents fwd t1 y)[i]? = some true := by
  obtain ⟨d, q1, q3, h1, h2, h3, h4⟩ := soilingEvent_iff.mp h
  have := quantiles_sorted h2 h3
  exact soilingEvent_iff.mpr ⟨d, q1, q3, h1, h2, h3, by nlinarith⟩

/-- **C62.** A day on which the rolling median falls more than on a soiling event is a soiling event. -/
theorem C62_soiling_deeper {fwd : Bool} {tuner : ℚ} {y : List Cell} {i j : Nat} {d e : ℚ}
    (h : (soilingEvents fwd tuner y)[i]? = some true) (hd : (Spec.changes fwd 9 y)[i]? = some (some d))
    (he : (Spec.changes fwd 9 y)[j]? = some (some e)) (hed : e ≤ d) : (soilingEvents fwd tuner y)[j]? = some true := by
  obtain ⟨d', q1, q3, h1, h2, h3, h4⟩ := soilingEvent_iff.mp h
  rw [hd] at h1
  cases h1
  exact soilingEvent_iff.mpr ⟨e, q1, q3, he, h2, h3, lt_of_le_of_lt hed h4⟩

/-- **C62.** The soiling events do not change when the signal is scaled by a positive factor or shifted. -/
theorem C62_soiling_affine {a : ℚ} (ha : 0 < a) (b : ℚ) (fwd : Bool) (tuner : ℚ) (y : List Cell) :
    soilingEvents fwd tuner (y.map (Option.map fun v => a * v + b)) = soilingEvents fwd tuner y := by
  have e : y.map (Option.map fun v => a * v + b) = mapC (fun v => a * v + b) y := rfl
  rw [e]
  unfold soilingEvents
  rw [filledMedian_affine ha, cellDiff_affine, cellAbs_scale ha, cellQuantile_scale ha _ (by norm_num) (by norm_num),
    cellQuantile_scale ha _ (by norm_num) (by norm_num)]
  generalize cellDiff (filledMedian fwd 9 y) = x
  unfold mapC
  rw [List.map_map]
  apply List.map_congr_left
  intro c _
  simp only [Function.comp]
  cases c with
  | none => rfl
  | some d =>
    cases cellQuantile (cellAbs x) (99 / 100) with
    | none => rfl
    | some q3 =>
      cases cellQuantile (cellAbs x) (1 / 100) with
      | none => rfl
      | some q1 =>
        simp only [Option.map_some, cellOp, cellCmp, decide_eq_decide]
        rw [show a * q1 - tuner * (a * q3 - a * q1) = a * (q1 - tuner * (q3 - q1)) by ring]
        exact mul_lt_mul_iff_right₀ ha

theorem quantile_zero {l : List ℚ} {q : ℚ} (hn : ∀ v ∈ l, 0 ≤ v) (hz : l.length + 99 ≤ 100 * l.count 0)
    (h : IsQuantile l (1 / 100) q) : q = 0 := by
  obtain ⟨l', hp, hs, k, θ, hk, ht0, ht1, he, rfl⟩ := h
  rw [← hp.length_eq, ← hp.count_eq] at hz
  have hn' : ∀ v ∈ l', 0 ≤ v := fun v hv => hn v (hp.mem_iff.mp hv)
  have key : ∀ i, i < l'.count 0 → l'.getD i 0 = 0 := by
    intro i hi
    have hil : i < l'.length := lt_of_lt_of_le hi List.count_le_length
    by_contra hne
    have hpos : 0 < l'.getD i 0 := lt_of_le_of_ne (hn' _ (getD_mem' hil)) (Ne.symm hne)
    have h0 : (l'.drop i).count 0 = 0 := by
      rw [List.count_eq_zero]
      intro hm
      obtain ⟨j, hj, hj0⟩ := List.mem_iff_getElem.mp hm
      rw [List.length_drop] at hj
      rw [List.getElem_drop] at hj0
      have := getD_mono hs (i := i) (j := i + j) (by omega) (by omega)
      rw [show l'.getD (i + j) 0 = 0 by rw [List.getD_eq_getElem?_getD, List.getElem?_eq_getElem (by omega), Option.getD_some]; exact hj0]
        at this
      exact absurd hpos (not_lt.mpr this)
    have h1 : (l'.take i).count 0 ≤ i := List.count_le_length.trans (by rw [List.length_take]; omega)
    have h2 : l'.count 0 = (l'.take i).count 0 + (l'.drop i).count 0 := by
      rw [← List.count_append, List.take_append_drop]
    omega
  have hzq : (l'.length : ℚ) + 99 ≤ 100 * (l'.count 0 : ℚ) := by exact_mod_cast hz
  have hk1 : (k : ℚ) + θ ≤ (l'.count 0 : ℚ) - 1 := by linarith
  have hkc : k < l'.count 0 := by
    have : (k : ℚ) < (l'.count 0 : ℚ) := by linarith
    exact_mod_cast this
  rw [key k hkc]
  rcases eq_or_lt_of_le ht0 with h | h
  · rw [← h]; ring
  · have : k + 1 < l'.count 0 := by
      have : (k : ℚ) + 1 < (l'.count 0 : ℚ) + 0 + 0 ∨ (k : ℚ) + 1 ≥ (l'.count 0 : ℚ) := by
        simp only [add_zero]; exact lt_or_ge _ _
      rcases this with h' | h'
      · have h'' : (k : ℚ) + 1 < (l'.count 0 : ℚ) := by linarith
        exact_mod_cast h''
      · exfalso; linarith
    rw [key _ this]; ring

/-- **C62 (soiling events are falls, if 1 % of the days are unchanged).** With a non-negative tuner and a rolling median that stays the
same on 1 % of the days (rounded up), the rolling median falls on every soiling event. In general it need not
(`C62_soiling_rise_refuted`). -/
theorem C62_soiling_falls_partial {fwd : Bool} {tuner : ℚ} (ht : 0 ≤ tuner) {y : List Cell}
    (hz : ((Spec.changes fwd 9 y).filterMap id).length + 99 ≤ 100 * ((Spec.changes fwd 9 y).filterMap id).count 0) {i : Nat}
    (h : (soilingEvents fwd tuner y)[i]? = some true) : ∃ d, (Spec.changes fwd 9 y)[i]? = some (some d) ∧ d < 0 := by
  obtain ⟨d, q1, q3, h1, h2, h3, h4⟩ := soilingEvent_iff.mp h
  have hq := quantiles_sorted h2 h3
  have h0 : q1 = 0 := by
    refine quantile_zero ?_ ?_ h2
    · intro v hv
      obtain ⟨d, -, rfl⟩ := List.mem_map.mp hv
      exact abs_nonneg d
    · unfold Spec.sizes
      have : ((valids (Spec.changes fwd 9 y)).map fun d => |d|).count 0 = (valids (Spec.changes fwd 9 y)).count 0 := by
        generalize valids (Spec.changes fwd 9 y) = l
        induction l with
        | nil => rfl
        | cons a l ih =>
          rw [List.map_cons, List.count_cons, List.count_cons, ih]
          simp
      rw [this, List.length_map]
      exact hz
  rw [h0] at hq h4
  exact ⟨d, h1, by nlinarith⟩

/-- 104 clean days and 30 soiled ones -/
def exDrop : List Cell := (List.range 134).map fun i : Nat => some (if i < 104 then 1 else 9 / 10)

example : (soilingEvents true 5 exDrop).idxOf true = 104 := by decide +kernel

example : (valids (Spec.changes true 9 exDrop)).length + 99 ≤ 100 * (valids (Spec.changes true 9 exDrop)).count 0 := by
  decide +kernel

end Verif.Cods
