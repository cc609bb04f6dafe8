import Verif.Lemmas.CodsDetect

/-! # Properties C62 (detection of cleaning events) and C63 (pruning of cleaning events) -/

namespace Verif.Cods

open Verif

/-- the day-to-day changes of the rolling median that the detection looks at -/
def Spec.changes (fwd : Bool) (w : Nat) (y : List Cell) : List Cell := cellDiff (filledMedian fwd w y)

theorem events_length (fwd : Bool) (w : Nat) (tuner : ℚ) (y : List Cell) :
    (rollingMedianCe fwd w tuner y).1.length = y.length := by
  unfold rollingMedianCe filledMedian rollMedianC cellDiff
  have h1 : (ffill y).length = y.length := by
    unfold ffill
    suffices ∀ (p : Cell) (l : List Cell), (ffillFrom p l).length = l.length from this none y
    intro p l
    induction l generalizing p with
    | nil => rfl
    | cons c l ih => cases c <;> simp [ffillFrom, ih]
  have h2 : (bfill y).length = y.length := by
    clear h1
    induction y with
    | nil => rfl
    | cons c l ih => cases c <;> simp [bfill, ih]
  cases fwd <;> simp [h1, h2]

/-- what it means that a day is detected: its change exceeds the limit -/
theorem event_iff {fwd : Bool} {w : Nat} {tuner : ℚ} {y : List Cell} {i : Nat} :
    (rollingMedianCe fwd w tuner y).1[i]? = some true ↔
      ∃ d q3 q1, (Spec.changes fwd w y)[i]? = some (some d) ∧
        cellQuantile (cellAbs (Spec.changes fwd w y)) (3 / 4) = some q3 ∧
        cellQuantile (cellAbs (Spec.changes fwd w y)) (1 / 4) = some q1 ∧ q3 + tuner * (q3 - q1) < d := by
  have e : (rollingMedianCe fwd w tuner y).1 = (Spec.changes fwd w y).map fun d =>
      cellCmp (fun a b => decide (b < a)) d
        (cellOp (fun q3 q1 => q3 + tuner * (q3 - q1)) (cellQuantile (cellAbs (Spec.changes fwd w y)) (3 / 4))
          (cellQuantile (cellAbs (Spec.changes fwd w y)) (1 / 4))) := rfl
  rw [e, List.getElem?_map]
  cases hd : (Spec.changes fwd w y)[i]? with
  | none => simp
  | some c =>
    cases c with
    | none => simp [cellCmp]
    | some d =>
      cases h3 : cellQuantile (cellAbs (Spec.changes fwd w y)) (3 / 4) with
      | none => simp [cellOp, cellCmp]
      | some q3 =>
        cases h1 : cellQuantile (cellAbs (Spec.changes fwd w y)) (1 / 4) with
        | none => simp [cellOp, cellCmp]
        | some q1 =>
          simp only [Option.map_some, cellOp, cellCmp, Option.some.injEq, decide_eq_true_eq]
          constructor
          · intro h; exact ⟨d, q3, q1, rfl, rfl, rfl, h⟩
          · rintro ⟨v, a, b, rfl, rfl, rfl, h⟩; exact h

theorem quartiles {x : List Cell} {q3 q1 : ℚ} (h3 : cellQuantile (cellAbs x) (3 / 4) = some q3)
    (h1 : cellQuantile (cellAbs x) (1 / 4) = some q1) : 0 ≤ q1 ∧ q1 ≤ q3 := by
  refine ⟨quantile_ge h1 (by norm_num) (by norm_num) ?_, quantile_mono h1 h3 (by norm_num) (by norm_num) (by norm_num)⟩
  intro v hv
  unfold valids cellAbs at hv
  rw [List.filterMap_map] at hv
  obtain ⟨c, -, hc⟩ := List.mem_filterMap.mp hv
  cases c with
  | none => cases hc
  | some u =>
    simp only [Function.comp, Option.map_some, id, Option.some.injEq] at hc
    rw [← hc]; exact abs_nonneg u

/-- a larger tuner never adds an event -/
theorem C62_monotone {fwd : Bool} {w : Nat} {t1 t2 : ℚ} (ht : t1 ≤ t2) {y : List Cell} {i : Nat}
    (h : (rollingMedianCe fwd w t2 y).1[i]? = some true) : (rollingMedianCe fwd w t1 y).1[i]? = some true := by
  obtain ⟨d, q3, q1, h1, h2, h3, h4⟩ := event_iff.mp h
  have := quartiles h2 h3
  exact event_iff.mpr ⟨d, q3, q1, h1, h2, h3, by nlinarith⟩

/-- with a non-negative tuner an event is a day on which the rolling median rises -/
theorem C62_rises {fwd : Bool} {w : Nat} {tuner : ℚ} (ht : 0 ≤ tuner) {y : List Cell} {i : Nat}
    (h : (rollingMedianCe fwd w tuner y).1[i]? = some true) :
    ∃ u v, 0 < i ∧ cellAt (rollingMedianCe fwd w tuner y).2 (i - 1) = some u ∧
      cellAt (rollingMedianCe fwd w tuner y).2 i = some v ∧ u < v := by
  obtain ⟨d, q3, q1, h1, h2, h3, h4⟩ := event_iff.mp h
  have hq := quartiles h2 h3
  have hd : 0 < d := by nlinarith
  have e : (rollingMedianCe fwd w tuner y).2 = filledMedian fwd w y := rfl
  rw [e]
  unfold Spec.changes cellDiff at h1
  rw [List.getElem?_map] at h1
  cases hr : (List.range (filledMedian fwd w y).length)[i]? with
  | none => rw [hr] at h1; cases h1
  | some j =>
    have hj : j = i := by
      rw [List.getElem?_eq_some_iff] at hr
      obtain ⟨_, hr⟩ := hr
      rw [List.getElem_range] at hr; exact hr.symm
    subst hj
    rw [hr] at h1
    simp only [Option.map_some, Option.some.injEq] at h1
    split_ifs at h1 with h0
    cases hu : cellAt (filledMedian fwd w y) j <;> cases hv : cellAt (filledMedian fwd w y) (j - 1) <;>
      rw [hu, hv] at h1 <;> simp [cellOp] at h1
    exact ⟨_, _, by omega, rfl, rfl, by linarith⟩

/-- with a non-negative tuner at most a quarter of the days with a change, rounded up, are events -/
theorem C62_quarter {fwd : Bool} {w : Nat} {tuner : ℚ} (ht : 0 ≤ tuner) (y : List Cell) :
    4 * (rollingMedianCe fwd w tuner y).1.count true ≤ ((Spec.changes fwd w y).filterMap id).length + 2 := by
  change _ ≤ (valids (Spec.changes fwd w y)).length + 2
  have e : (rollingMedianCe fwd w tuner y).1 = (Spec.changes fwd w y).map fun d =>
      cellCmp (fun a b => decide (b < a)) d
        (cellOp (fun q3 q1 => q3 + tuner * (q3 - q1)) (cellQuantile (cellAbs (Spec.changes fwd w y)) (3 / 4))
          (cellQuantile (cellAbs (Spec.changes fwd w y)) (1 / 4))) := rfl
  rw [e]
  generalize Spec.changes fwd w y = x
  cases h3 : cellQuantile (cellAbs x) (3 / 4) with
  | none =>
    have : (x.map fun d => cellCmp (fun a b => decide (b < a)) d
        (cellOp (fun q3 q1 => q3 + tuner * (q3 - q1)) none (cellQuantile (cellAbs x) (1 / 4)))).count true = 0 := by
      rw [List.count_eq_zero]
      intro hm
      obtain ⟨c, -, hc⟩ := List.mem_map.mp hm
      cases c <;> simp [cellOp, cellCmp] at hc
    rw [this]; omega
  | some q3 =>
    cases h1 : cellQuantile (cellAbs x) (1 / 4) with
    | none =>
      have : (x.map fun d => cellCmp (fun a b => decide (b < a)) d
          (cellOp (fun q3 q1 => q3 + tuner * (q3 - q1)) (some q3) none)).count true = 0 := by
        rw [List.count_eq_zero]
        intro hm
        obtain ⟨c, -, hc⟩ := List.mem_map.mp hm
        cases c <;> simp [cellOp, cellCmp] at hc
      rw [this]; omega
    | some q1 =>
      have hq := quartiles h3 h1
      have hcount := count_gt_quartile (l := valids (cellAbs x)) h3
      have hlen : (valids (cellAbs x)).length = (valids x).length := by
        unfold valids cellAbs
        clear * -
        induction x with
        | nil => rfl
        | cons c l ih =>
          cases c with
          | none => exact ih
          | some a => exact congrArg (· + 1) ih
      rw [hlen] at hcount
      have hle : (x.map fun d => cellCmp (fun a b => decide (b < a)) d
          (cellOp (fun q3 q1 => q3 + tuner * (q3 - q1)) (some q3) (some q1))).count true ≤
          ((valids (cellAbs x)).filter fun v => q3 < v).length := by
        have hl : q3 ≤ q3 + tuner * (q3 - q1) := by nlinarith
        simp only [cellOp]
        generalize q3 + tuner * (q3 - q1) = lim at hl
        clear * - hl
        induction x with
        | nil => simp
        | cons c l ih =>
          cases c with
          | none =>
            have e1 : valids (cellAbs (none :: l)) = valids (cellAbs l) := rfl
            rw [e1]
            simpa [cellCmp] using ih
          | some a =>
            have e1 : valids (cellAbs (some a :: l)) = |a| :: valids (cellAbs l) := rfl
            rw [e1, List.map_cons, List.filter_cons]
            by_cases ha : lim < a
            · have : q3 < |a| := lt_of_le_of_lt hl (lt_of_lt_of_le ha (le_abs_self a))
              simp only [cellCmp, ha, this, decide_true, List.count_cons_self, if_true, List.length_cons]
              exact Nat.succ_le_succ ih
            · simp only [cellCmp, ha, decide_false]
              rw [List.count_cons_of_ne (by simp)]
              split_ifs
              · rw [List.length_cons]; exact ih.trans (Nat.le_succ _)
              · exact ih
      omega

/-- the events do not change when the signal is scaled by a positive factor or shifted -/
theorem C62_affine {a : ℚ} (ha : 0 < a) (b : ℚ) (fwd : Bool) (w : Nat) (tuner : ℚ) (y : List Cell) :
    (rollingMedianCe fwd w tuner (y.map (Option.map fun v => a * v + b))).1 = (rollingMedianCe fwd w tuner y).1 := by
  have e : y.map (Option.map fun v => a * v + b) = mapC (fun v => a * v + b) y := rfl
  rw [e]
  unfold rollingMedianCe
  simp only
  rw [filledMedian_affine ha, cellDiff_affine, cellAbs_scale ha, cellQuantile_scale ha _ (by norm_num) (by norm_num),
    cellQuantile_scale ha _ (by norm_num) (by norm_num)]
  generalize cellDiff (filledMedian fwd w y) = x
  unfold mapC
  rw [List.map_map]
  apply List.map_congr_left
  intro c _
  simp only [Function.comp]
  cases c with
  | none => rfl
  | some d =>
    cases cellQuantile (cellAbs x) (3 / 4) with
    | none => rfl
    | some q3 =>
      cases cellQuantile (cellAbs x) (1 / 4) with
      | none => rfl
      | some q1 =>
        simp only [Option.map_some, cellOp, cellCmp, decide_eq_decide]
        rw [show a * q3 + tuner * (a * q3 - a * q1) = a * (q3 + tuner * (q3 - q1)) by ring]
        exact mul_lt_mul_iff_right₀ ha

/-- a constant signal, with any days missing, has no events whatever the tuner -/
theorem C62_constant {c : ℚ} {y : List Cell} (h : ∀ v, some v ∈ y → v = c) (fwd : Bool) (w : Nat) (tuner : ℚ) (i : Nat) :
    (rollingMedianCe fwd w tuner y).1[i]? ≠ some true := by
  intro hi
  obtain ⟨d, q3, q1, h1, h2, h3, h4⟩ := event_iff.mp hi
  have hz : ∀ d, some d ∈ Spec.changes fwd w y → d = 0 := by
    intro d hd
    obtain ⟨j, -, -, u, v, hu, hv, rfl⟩ := cellDiff_mem hd
    rw [filledMedian_const fwd w h u (cellAt_mem hu), filledMedian_const fwd w h v (cellAt_mem hv), sub_self]
  have ha : ∀ v ∈ valids (cellAbs (Spec.changes fwd w y)), v = 0 := by
    intro v hv
    unfold valids cellAbs at hv
    rw [List.filterMap_map] at hv
    obtain ⟨e, he, hc⟩ := List.mem_filterMap.mp hv
    cases e with
    | none => cases hc
    | some u =>
      simp only [Function.comp, Option.map_some, id, Option.some.injEq] at hc
      rw [← hc, hz u he, abs_zero]
  have e3 : q3 = 0 := le_antisymm (quantile_le h2 (by norm_num) (by norm_num) fun v hv => (ha v hv).le)
    (quantile_ge h2 (by norm_num) (by norm_num) fun v hv => (ha v hv).ge)
  have e1 : q1 = 0 := le_antisymm (quantile_le h3 (by norm_num) (by norm_num) fun v hv => (ha v hv).le)
    (quantile_ge h3 (by norm_num) (by norm_num) fun v hv => (ha v hv).ge)
  have ed := hz d (List.mem_of_getElem? h1)
  rw [e3, e1, ed] at h4
  simp at h4

/-- nothing is detected in a constant signal by the soiling-event detection either -/
theorem C62_soiling_constant {c : ℚ} {y : List Cell} (h : ∀ v, some v ∈ y → v = c) (fwd : Bool) (tuner : ℚ) (i : Nat) :
    (soilingEvents fwd tuner y)[i]? ≠ some true := by
  intro hi
  unfold soilingEvents at hi
  rw [List.getElem?_map] at hi
  cases hd : (cellDiff (filledMedian fwd 9 y))[i]? with
  | none => rw [hd] at hi; cases hi
  | some cc =>
    rw [hd] at hi
    simp only [Option.map_some, Option.some.injEq] at hi
    cases cc with
    | none => simp [cellCmp] at hi
    | some d =>
      have hz : ∀ d, some d ∈ cellDiff (filledMedian fwd 9 y) → d = 0 := by
        intro d hd
        obtain ⟨j, -, -, u, v, hu, hv, rfl⟩ := cellDiff_mem hd
        rw [filledMedian_const fwd 9 h u (cellAt_mem hu), filledMedian_const fwd 9 h v (cellAt_mem hv), sub_self]
      have ha : ∀ v ∈ valids (cellAbs (cellDiff (filledMedian fwd 9 y))), v = 0 := by
        intro v hv
        unfold valids cellAbs at hv
        rw [List.filterMap_map] at hv
        obtain ⟨e, he, hc⟩ := List.mem_filterMap.mp hv
        cases e with
        | none => cases hc
        | some u =>
          simp only [Function.comp, Option.map_some, id, Option.some.injEq] at hc
          rw [← hc, hz u he, abs_zero]
      cases h3 : cellQuantile (cellAbs (cellDiff (filledMedian fwd 9 y))) (99 / 100) with
      | none => rw [h3] at hi; simp [cellOp, cellCmp] at hi
      | some q3 =>
        cases h1 : cellQuantile (cellAbs (cellDiff (filledMedian fwd 9 y))) (1 / 100) with
        | none => rw [h1] at hi; simp [cellOp, cellCmp] at hi
        | some q1 =>
          have e3 : q3 = 0 := le_antisymm (quantile_le h3 (by norm_num) (by norm_num) fun v hv => (ha v hv).le)
            (quantile_ge h3 (by norm_num) (by norm_num) fun v hv => (ha v hv).ge)
          have e1 : q1 = 0 := le_antisymm (quantile_le h1 (by norm_num) (by norm_num) fun v hv => (ha v hv).le)
            (quantile_ge h1 (by norm_num) (by norm_num) fun v hv => (ha v hv).ge)
          rw [h3, h1, e3, e1, hz d (List.mem_of_getElem? hd)] at hi
          simp [cellOp, cellCmp] at hi

/-! ## Pruning -/

/-- `np.quantile` needs every value -/
theorem npQuantile_some {x : List Cell} {q v : ℚ} (h : npQuantile x q = some v) :
    x.all Option.isSome = true ∧ quantile (valids x) q = some v := by
  unfold npQuantile at h
  split_ifs at h with h1
  exact ⟨h1, h⟩

theorem outlier_lower_iff {x : List Cell} {mult : ℚ} {o : List Bool} (h : numericOutliers x mult .lower = .ok o) {i : Nat} :
    o[i]? = some true ↔ ∃ v q3 q1, x[i]? = some (some v) ∧ x.all Option.isSome = true ∧
      quantile (valids x) (3 / 4) = some q3 ∧ quantile (valids x) (1 / 4) = some q1 ∧ v < q1 - mult * (q3 - q1) := by
  unfold numericOutliers at h
  split_ifs at h
  simp only [Except.ok.injEq] at h
  subst h
  rw [List.getElem?_map]
  cases hd : x[i]? with
  | none => simp
  | some c =>
    cases c with
    | none => simp [cellCmp]
    | some d =>
      by_cases hall : x.all Option.isSome = true
      · have e3 : npQuantile x (3 / 4) = quantile (valids x) (3 / 4) := by unfold npQuantile; rw [if_pos hall]
        have e1 : npQuantile x (1 / 4) = quantile (valids x) (1 / 4) := by unfold npQuantile; rw [if_pos hall]
        rw [e3, e1]
        cases h3 : quantile (valids x) (3 / 4) with
        | none => simp [cellOp, cellCmp]
        | some q3 =>
          cases h1 : quantile (valids x) (1 / 4) with
          | none => simp [cellOp, cellCmp]
          | some q1 => simp only [Option.map_some, cellOp, cellCmp, Option.some.injEq, hall, true_and,
              decide_eq_true_eq]; constructor
                       · intro h; exact ⟨d, q3, q1, rfl, rfl, rfl, h⟩
                       · rintro ⟨v, a, b, rfl, rfl, rfl, h⟩; exact h
      · have e3 : npQuantile x (3 / 4) = none := by unfold npQuantile; rw [if_neg hall]
        rw [e3]
        simp [cellOp, cellCmp, hall]

/-- a larger multiplier never prunes more events -/
theorem C63_monotone {x : List Cell} {m1 m2 : ℚ} (hm : m1 ≤ m2) {o1 o2 : List Bool}
    (h1 : numericOutliers x m1 .lower = .ok o1) (h2 : numericOutliers x m2 .lower = .ok o2) {i : Nat}
    (h : o2[i]? = some true) : o1[i]? = some true := by
  obtain ⟨v, q3, q1, a, b, c, d, e⟩ := (outlier_lower_iff h2).mp h
  have := quantile_mono d c (by norm_num) (by norm_num) (by norm_num)
  exact (outlier_lower_iff h1).mpr ⟨v, q3, q1, a, b, c, d, by nlinarith⟩

/-- an event with the best level after cleaning is never pruned, so pruning keeps at least one event -/
theorem C63_keeps_best {x : List Cell} {mult : ℚ} (hm : 0 ≤ mult) {o : List Bool}
    (h : numericOutliers x mult .lower = .ok o) {i : Nat} {v : ℚ} (hi : x[i]? = some (some v))
    (hbest : ∀ u, some u ∈ x → u ≤ v) : o[i]? = some false := by
  have hlen : o.length = x.length := by
    unfold numericOutliers at h
    split_ifs at h
    simp only [Except.ok.injEq] at h
    subst h; simp
  have hil : i < x.length := by
    by_contra hc; rw [List.getElem?_eq_none (by omega)] at hi; cases hi
  cases ho : o[i]? with
  | none => rw [List.getElem?_eq_none_iff] at ho; omega
  | some b =>
    cases b with
    | false => rfl
    | true =>
      exfalso
      obtain ⟨v', q3, q1, a, b, c, d, e⟩ := (outlier_lower_iff h).mp ho
      rw [hi] at a; cases a
      have h13 := quantile_mono d c (by norm_num) (by norm_num) (by norm_num)
      have : q1 ≤ v := quantile_le d (by norm_num) (by norm_num) (fun u hu => by
        unfold valids at hu
        obtain ⟨e, he, rfl⟩ := List.mem_filterMap.mp hu
        exact hbest u he)
      nlinarith

/-- if the level after one of the events is missing, nothing is pruned -/
theorem C63_missing {x : List Cell} {mult : ℚ} {o : List Bool} (h : numericOutliers x mult .lower = .ok o)
    (hmiss : none ∈ x) {i : Nat} : o[i]? ≠ some true := by
  intro ho
  obtain ⟨_, _, _, _, b, _⟩ := (outlier_lower_iff h).mp ho
  have := List.all_eq_true.mp b _ hmiss
  cases this

/-- equal levels are never pruned -/
theorem C63_equal {x : List Cell} {mult c : ℚ} {o : List Bool} (h : numericOutliers x mult .lower = .ok o)
    (hc : ∀ v, some v ∈ x → v = c) {i : Nat} : o[i]? ≠ some true := by
  intro ho
  obtain ⟨v, q3, q1, a, b, h3, h1, e⟩ := (outlier_lower_iff h).mp ho
  have hv : ∀ u ∈ valids x, u = c := by
    intro u hu
    unfold valids at hu
    obtain ⟨e, he, rfl⟩ := List.mem_filterMap.mp hu
    exact hc u he
  have e3 : q3 = c := le_antisymm (quantile_le h3 (by norm_num) (by norm_num) fun v h => (hv v h).le)
    (quantile_ge h3 (by norm_num) (by norm_num) fun v h => (hv v h).ge)
  have e1 : q1 = c := le_antisymm (quantile_le h1 (by norm_num) (by norm_num) fun v h => (hv v h).le)
    (quantile_ge h1 (by norm_num) (by norm_num) fun v h => (hv v h).ge)
  rw [e3, e1, hc v (List.mem_of_getElem? a)] at e
  simp at e

/-! ## Examples -/

/-- a slow decline with one step up and a missing day -/
def exStep : List Cell := [some 1, some (99/100), some (98/100), none, some (97/100), some (96/100), some 1, some 1, some 1,
  some (99/100)]

example : (rollingMedianCe true 3 (1/2) exStep).1 =
    [false, false, false, false, false, false, true, false, false, false] := by decide +kernel
example : (rollingMedianCe true 3 10 exStep).1 = List.replicate 10 false := by decide +kernel
example : numericOutliers [some 1, some (98/100), some (1/2), some (99/100), some 1] (6/10) .lower =
    .ok [false, false, true, false, false] := by decide +kernel

/-- a signal that rises every day, once by less -/
def exRise : List Cell := (List.range 100).map fun i : Nat => some (if i < 50 then (i : ℚ) else (i : ℚ) - 1/2)

/-- the limit of the soiling-event detection can be positive: a day on which the rolling median rises is then taken for a
soiling event -/
theorem C62_soiling_rise_refuted :
    (soilingEvents true 5 exRise).idxOf true = 50 ∧
    (cellDiff (filledMedian true 9 exRise))[50]? = some (some (1/2)) := by
  constructor <;> decide +kernel

end Verif.Cods
