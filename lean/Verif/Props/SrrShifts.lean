import Verif.Lemmas.SrrShift
import Verif.Lemmas.SrrExample
import Verif.Lemmas.Frame
import Verif.Props.SrrDaily

/-! # Property C98 (detection of cleaning events in the SRR analysis) -/

namespace Verif.Spec

/-- the performance of the analysed days divided by the factor -/
def normalized (pm : Series) (f : ℚ) (rows : List SrrRow) : List Cell :=
  rows.map fun d => (lookupK pm d.t).map (· / f)

/-- more rain than the threshold on the `k`-th analysed day; a missing rain reading is not rain, and without
a precipitation series it never rains -/
def WetDay (precip : Option Series) (thr : ℚ) (rows : List SrrRow) (k : Nat) : Prop :=
  ∃ d, rows[k]? = some d ∧
    match precip with
    | none => thr < 0
    | some p => ∃ v, lookupK p d.t = some v ∧ thr < v

end Verif.Spec

namespace Verif
open Spec

theorem dayStepped_nodup {l : List Int} (h : dayStepped l = true) : l.Nodup := by
  induction l with
  | nil => simp
  | cons a l ih =>
    rw [List.nodup_cons]
    refine ⟨fun ha => ?_, ih (dayStepped_right (a := [a]) h)⟩
    obtain ⟨s, t, rfl⟩ := List.append_of_mem ha
    have := dayStepped_lt (a := a :: s) (y := a) (b := t) h a (by simp)
    omega

theorem normalized_eq {o : DailyOpts} {pm insol : Series} {precip : Option Series}
    {r : Cell × List SrrRow} (hinit : srrInit pm insol precip = .ok ())
    (h : calcDailyDf o pm insol precip = .ok r) {f : ℚ} (hf : r.1 = some f) (hf0 : f ≠ 0) :
    srrNorm r.1 ((trimMissing (srrJoin pm insol precip)).map SrrDay.pi) = normalized pm f r.2 := by
  obtain ⟨before, after, mid, hsplit, ht, -⟩ := C31_days h
  obtain ⟨hne, hds, ev, hev, h1, h2⟩ := calcDailyDf_ok h
  have hnd : (keys pm).Nodup := dayStepped_nodup (srrInit_daily hinit)
  have hrt : r.2.map SrrRow.t = (trimMissing (srrJoin pm insol precip)).map SrrDay.t := by
    rw [h2]
    apply List.ext_getElem
    · simp [srrRows_length]
    · intro i g1 g2
      simp only [List.length_map] at g2
      unfold srrRows
      simp [List.getD_eq_getElem?_getD, g2]
  have hpi : (trimMissing (srrJoin pm insol precip)).map SrrDay.pi =
      (r.2.map SrrRow.t).map (lookupK pm) := by
    rw [hrt, trimMissing_join, List.map_map, List.map_map, List.map_map]
    apply List.map_congr_left
    rintro ⟨t, x⟩ hx
    have hmem : (t, x) ∈ pm := by
      unfold presentPart at hx
      rw [List.mem_reverse] at hx
      have := (List.dropWhile_sublist _).subset hx
      rw [List.mem_reverse] at this
      exact (List.dropWhile_sublist _).subset this
    simp only [Function.comp_apply, joinDay]
    exact (lookupK_of_mem hnd hmem).symm
  rw [hpi, hf]
  unfold srrNorm normalized
  rw [List.map_map, List.map_map, if_neg (by simpa using hf0)]
  apply List.map_congr_left
  intro d _
  simp only [Function.comp_apply]
  cases lookupK pm d.t <;> rfl

/-- **C98 (steps).** The step reported for a day is the difference of the rolling medians of that day and
the day before: the medians of the normalized performance of `day_scale` days around them, missing days
taking the latest value up to `day_scale` days old; it is 0 where one of the medians does not exist. -/
theorem C98_steps {o : DailyOpts} {pm insol : Series} {precip : Option Series}
    {r : Cell × List SrrRow} (hinit : srrInit pm insol precip = .ok ())
    (h : calcDailyDf o pm insol precip = .ok r) {f : ℚ} (hf : r.1 = some f) (hf0 : f ≠ 0)
    {i : Nat} (hi : i < r.2.length) :
    (∀ d, ShiftAt o.dayScale (normalized pm f r.2) i d → r.2[i].delta = d) ∧
    ((¬ ∃ d, ShiftAt o.dayScale (normalized pm f r.2) i d) → r.2[i].delta = 0) := by
  have hn := normalized_eq hinit h hf hf0
  obtain ⟨hne, hds, ev, hev, h1, h2⟩ := calcDailyDf_ok h
  rw [hn] at h2
  have hdelta : r.2[i].delta = (cellAt (srrDelta o.dayScale (normalized pm f r.2)) i).getD 0 := by
    have hi' : i < (trimMissing (srrJoin pm insol precip)).length := by
      have := congrArg List.length h2
      rw [srrRows_length] at this
      omega
    have : r.2[i]? = some r.2[i] := List.getElem?_eq_getElem hi
    generalize hd : r.2[i] = d at *
    rw [h2] at this
    unfold srrRows at this
    simp only [List.getElem?_map, List.getElem?_range hi', Option.map_some, Option.some.injEq] at this
    rw [← this]
  constructor
  · intro d hd
    rw [hdelta, shiftAt_iff.mpr hd]; rfl
  · intro hno
    rw [hdelta]
    cases hc : cellAt (srrDelta o.dayScale (normalized pm f r.2)) i with
    | none => rfl
    | some d => exact absurd ⟨d, shiftAt_iff.mp hc⟩ hno

/-- **C98 (events).** A day begins a new soiling interval iff its step exceeds the threshold (the given
one, or the upper Tukey fence of the sizes of all steps), or it rained, or both, as the criterion says
(rain on the day, the day before or the day after counting for `'precip_and_shift'`), or the day borders an
outage longer than `day_scale` days. -/
theorem C98_events {o : DailyOpts} {pm insol : Series} {precip : Option Series}
    {r : Cell × List SrrRow} (hinit : srrInit pm insol precip = .ok ())
    (h : calcDailyDf o pm insol precip = .ok r) {f : ℚ} (hf : r.1 = some f) (hf0 : f ≠ 0)
    {i : Nat} (hi : i < r.2.length) :
    r.2[i].event = true ↔
      CleanDay o.criterion (ShiftDetected o (normalized pm f r.2))
        (WetDay precip o.precipThreshold r.2) i ∨
      OutageAfter o.dayScale (normalized pm f r.2) i ∨ OutageBefore o.dayScale (normalized pm f r.2) i := by
  have hn := normalized_eq hinit h hf hf0
  obtain ⟨days, x, hdays, hx, hl1, hl2, hev⟩ := daily_events h
  have hx' : x = normalized pm f r.2 := by rw [hx, hdays]; exact hn
  subst hx'
  rw [hev i hi]
  have hrt : r.2.map SrrRow.t = days.map SrrDay.t := by
    obtain ⟨hne, hds, ev, hev, h1, h2⟩ := calcDailyDf_ok h
    rw [h2, hdays]
    apply List.ext_getElem
    · simp [srrRows_length]
    · intro i g1 g2
      simp only [List.length_map] at g2
      unfold srrRows
      simp [List.getD_eq_getElem?_getD, g2]
  have hwet : ∀ k, (days.map fun d => cellCmp (fun a b => decide (b < a)) d.precip
      (some o.precipThreshold))[k]? = some true ↔ WetDay precip o.precipThreshold r.2 k := by
    intro k
    unfold WetDay
    rw [List.getElem?_map]
    have hk := congrArg (fun L : List Int => L[k]?) hrt
    simp only [List.getElem?_map] at hk
    cases hr : r.2[k]? with
    | none =>
      rw [hr] at hk
      cases hd : days[k]? with
      | none => simp
      | some d => rw [hd] at hk; simp at hk
    | some row =>
      rw [hr] at hk
      cases hd : days[k]? with
      | none => rw [hd] at hk; simp at hk
      | some d =>
        rw [hd] at hk
        simp only [Option.map_some, Option.some.injEq] at hk
        have hmem : d ∈ days := List.mem_of_getElem? hd
        rw [hdays, trimMissing_join] at hmem
        obtain ⟨⟨t, v⟩, -, rfl⟩ := List.mem_map.mp hmem
        simp only [Option.map_some, Option.some.injEq, exists_eq_left', joinDay] at hk ⊢
        cases precip with
        | none => simp [cellCmp]
        | some p =>
          simp only
          rw [hk]
          cases lookupK p t <;> simp [cellCmp]
  have hshift : ∀ k, ((srrDelta o.dayScale (normalized pm f r.2)).map fun d =>
      cellCmp (fun a b => decide (b < a)) d (srrThreshold o (srrDelta o.dayScale (normalized pm f r.2))))[k]? =
        some true ↔ ShiftDetected o (normalized pm f r.2) k := fun k => shiftDetected_iff
  apply or_congr _ Iff.rfl
  unfold CleanedBy CleanDay
  cases o.criterion with
  | shift => exact hshift i
  | precip => exact hwet i
  | precipOrShift => exact or_congr (hshift i) (hwet i)
  | other => exact Iff.rfl
  | precipAndShift =>
    apply and_congr (hshift i)
    unfold RainNear
    constructor
    · rintro ⟨k, hk, rfl | rfl | rfl⟩
      · exact Or.inl ((hwet _).mp hk)
      · exact Or.inr (Or.inl ⟨by omega, (hwet _).mp hk⟩)
      · exact Or.inr (Or.inr ((hwet _).mp hk))
    · rintro (h | ⟨h0, h⟩ | h)
      · exact ⟨i, (hwet _).mpr h, Or.inl rfl⟩
      · exact ⟨i - 1, (hwet _).mpr h, Or.inr (Or.inl (by omega))⟩
      · exact ⟨i + 1, (hwet _).mpr h, Or.inr (Or.inr rfl)⟩

/-- **C31 (events).** A day begins a new interval iff it is a cleaning event by the chosen criterion (a positive shift of the rolling
median above the threshold, rain above the threshold, or the documented combination), or it is the last day before or the first day
after an outage of more than `day_scale` missing days. -/
theorem C31_events {o : DailyOpts} {pm insol : Series} {precip : Option Series}
    {r : Cell × List SrrRow} (hinit : srrInit pm insol precip = .ok ())
    (h : calcDailyDf o pm insol precip = .ok r) {f : ℚ} (hf : r.1 = some f) (hf0 : f ≠ 0)
    {i : Nat} (hi : i < r.2.length) :
    r.2[i].event = true ↔
      CleanDay o.criterion (ShiftDetected o (normalized pm f r.2))
        (WetDay precip o.precipThreshold r.2) i ∨
      OutageAfter o.dayScale (normalized pm f r.2) i ∨ OutageBefore o.dayScale (normalized pm f r.2) i :=
  C98_events hinit h hf hf0 hi

/-- ten days with a clean after the fifth; threshold inferred from the steps -/
def shiftEx : Series := SrrEx.daily [some 1, some (99/100), some (98/100), none, some (94/100), some (94/100),
  some 1, some (99/100), some (98/100), some (97/100), some (96/100)]

example : (calcDailyDf { dayScale := 3, recenter := false } shiftEx shiftEx none).map
    (fun r => (r.1, r.2.map SrrRow.event)) =
    .ok (some 1, [false, false, false, false, false, false, true, false, false, false, false]) := by
  decide +kernel

end Verif
