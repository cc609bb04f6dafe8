import Verif.Lemmas.SrrFit
import Mathlib.Data.List.TakeWhile
import Verif.Lemmas.SrrExample

/-! # Properties C32 (validity of soiling intervals) and C36 (errors of the SRR analysis) -/

namespace Verif
open Spec

/-- **C32 (validity and bounds).** An interval of the result table is valid iff it meets the documented
conditions. A valid one has `low ≤ rate ≤ high ≤ 0` and more than `min_interval_length` days with
positive performance, two of them different, so that the slope is a genuine one; an invalid one has
rate and bounds zero. -/
theorem C32_valid_intervals_soil {zs : List (ℚ × ℚ) → ℚ} (hz : ∀ p, 0 ≤ zs p) {o : ResultOpts}
    {rows : List SrrRow} (H : DailyRows rows) (hlen : 1 ≤ o.minIntervalLength)
    {r : List Interval × List (SrrRow × Option Interval)} (h : calcResultDf zs o rows = .ok r)
    {i : Interval} (hi : i ∈ r.1) :
    (i.valid = true ↔ ValidInterval (theil zs ((positiveDays rows i.run).map fun d => ((d.day : ℚ), d.piNorm)))
      o rows i.run) ∧
    (i.valid = true → i.low ≤ i.slope ∧ i.slope ≤ i.high ∧ i.high ≤ 0 ∧
      o.minIntervalLength < (positiveDays rows i.run).length ∧
      ∃ d ∈ positiveDays rows i.run, ∃ e ∈ positiveDays rows i.run, d.day < e.day) ∧
    (i.valid = false → i.slope = 0 ∧ i.low = 0 ∧ i.high = 0) := by
  obtain ⟨h1, -, -⟩ := calcResultDf_ok h
  rw [h1] at hi
  obtain ⟨t1, t2, t3⟩ := table_row hz hi
  refine ⟨t1, fun hv => ?_, t3⟩
  obtain ⟨e1, e2, e3, -⟩ := t2 hv
  have hV := t1.mp hv
  have hb := theil_bounds hz (posPoints rows i.run)
  rw [e1, e2, e3]
  refine ⟨hb.1, le_min hV.2.1 hb.2, min_le_left _ _, hV.1, ?_⟩
  have hl := hV.1
  obtain ⟨n, hn⟩ : ∃ n, (positiveDays rows i.run).length = n + 2 := ⟨(positiveDays rows i.run).length - 2, by omega⟩
  have hs : (positiveDays rows i.run).Pairwise fun d e => d.t < e.t := H.sorted.sublist List.filter_sublist
  have hlt := List.pairwise_iff_getElem.mp hs 0 1 (by omega) (by omega) (by omega)
  refine ⟨_, List.getElem_mem (n := 0) (by omega), _, List.getElem_mem (n := 1) (by omega), ?_⟩
  have m0 : (positiveDays rows i.run)[0]'(by omega) ∈ rows := (List.mem_filter.mp (List.getElem_mem _)).1
  have m1 : (positiveDays rows i.run)[1]'(by omega) ∈ rows := (List.mem_filter.mp (List.getElem_mem _)).1
  exact (H.day_lt m0 m1).mp hlt

/-- **C32 (rate).** The rate of a valid interval is the Theil–Sen slope of its days with positive
performance: the median over all pairs of days of the difference in performance per day; the reported
losses at its start and end are on the line of that slope through the median day and median
performance. -/
theorem C32_rate_is_theil_sen {zs : List (ℚ × ℚ) → ℚ} (hz : ∀ p, 0 ≤ zs p) {o : ResultOpts}
    {rows : List SrrRow} (H : DailyRows rows) (hlen : 1 ≤ o.minIntervalLength)
    {r : List Interval × List (SrrRow × Option Interval)} (h : calcResultDf zs o rows = .ok r)
    {i : Interval} (hi : i ∈ r.1) (hv : i.valid = true) :
    ∃ slopes : List ℚ, IsMedian slopes i.slope ∧
      (∀ s, s ∈ slopes ↔ ∃ d ∈ positiveDays rows i.run, ∃ e ∈ positiveDays rows i.run, d.day < e.day ∧
        s = (e.piNorm - d.piNorm) / ((e.day : ℚ) - d.day)) ∧
      ∃ my md, IsMedian ((positiveDays rows i.run).map SrrRow.piNorm) my ∧
        IsMedian ((positiveDays rows i.run).map fun d => (d.day : ℚ)) md ∧
        ∃ a z, a ∈ rows ∧ z ∈ rows ∧ a.t = i.start ∧ z.t = i.stop ∧
          i.infStart = my + i.slope * (a.day - md) ∧ i.infEnd = my + i.slope * (z.day - md) := by
  obtain ⟨-, c2, -⟩ := C32_valid_intervals_soil hz H hlen h hi
  obtain ⟨-, -, -, -, d, hd, e, he, hde⟩ := c2 hv
  obtain ⟨h1, -, -⟩ := calcResultDf_ok h
  rw [h1] at hi
  obtain ⟨t1, t2, t3⟩ := table_row hz hi
  obtain ⟨e1, -, -, a, z, ha, hz', hs, hst, hS, hE⟩ := t2 hv
  have mem : ∀ s, s ∈ pairSlopes (posPoints rows i.run) ↔
      ∃ d ∈ positiveDays rows i.run, ∃ e ∈ positiveDays rows i.run, d.day < e.day ∧
        s = (e.piNorm - d.piNorm) / ((e.day : ℚ) - d.day) := by
    intro s
    unfold pairSlopes posPoints
    simp only [List.mem_flatMap, List.mem_filterMap, List.mem_map]
    constructor
    · rintro ⟨p, ⟨e, he, rfl⟩, q, ⟨d, hd, rfl⟩, hs⟩
      split_ifs at hs with hlt
      simp only [Option.some.injEq] at hs
      simp only [Nat.cast_lt] at hlt
      exact ⟨d, hd, e, he, hlt, hs.symm⟩
    · rintro ⟨d, hd, e, he, hlt, rfl⟩
      refine ⟨_, ⟨e, he, rfl⟩, _, ⟨d, hd, rfl⟩, ?_⟩
      have : (d.day : ℚ) < e.day := by exact_mod_cast hlt
      rw [if_pos this]
  have hne : pairSlopes (posPoints rows i.run) ≠ [] := by
    intro hnil
    have := (mem _).mpr ⟨d, hd, e, he, hde, rfl⟩
    rw [hnil] at this
    simp at this
  have hsne : sortQ (pairSlopes (posPoints rows i.run)) ≠ [] := by
    intro e'
    have := sortQ_length_pos hne
    rw [e'] at this
    simp at this
  have hpne : positiveDays rows i.run ≠ [] := by
    intro e'; rw [e'] at hd; simp at hd
  obtain ⟨sl, hsl⟩ := Option.isSome_iff_exists.mp (median_isSome.mpr hne)
  obtain ⟨my, hmy⟩ := Option.isSome_iff_exists.mp (median_isSome.mpr
    (show (positiveDays rows i.run).map SrrRow.piNorm ≠ [] by simpa using hpne))
  obtain ⟨md, hmd⟩ := Option.isSome_iff_exists.mp (median_isSome.mpr
    (show (positiveDays rows i.run).map (fun d => (d.day : ℚ)) ≠ [] by simpa using hpne))
  have hT : (theil zs (posPoints rows i.run)).slope = sl ∧
      (theil zs (posPoints rows i.run)).intercept = my - sl * md := by
    unfold theil
    simp only
    rw [if_neg hsne]
    simp only [hsl, Option.getD_some, true_and]
    have hx : (posPoints rows i.run).map Prod.snd = (positiveDays rows i.run).map SrrRow.piNorm := by
      unfold posPoints; rw [List.map_map]; rfl
    have hy : (posPoints rows i.run).map Prod.fst = (positiveDays rows i.run).map (fun d => (d.day : ℚ)) := by
      unfold posPoints; rw [List.map_map]; rfl
    rw [hx, hy, hmy, hmd]
    rfl
  refine ⟨pairSlopes (posPoints rows i.run), ?_, mem, my, md, isMedian_iff.mpr hmy, isMedian_iff.mpr hmd,
    a, z, ha, hz', hs.symm, hst.symm, ?_, ?_⟩
  · rw [e1, hT.1]; exact isMedian_iff.mpr hsl
  · rw [hS, e1, hT.1, hT.2]; ring
  · rw [hE, e1, hT.1, hT.2]; ring

/-- **C36 (no valid interval).** The interval step raises iff none of the intervals looked at (all, or all
but the first and last when trimming) meets the documented validity conditions, and the error is
NoValidIntervalError. -/
theorem C36_no_valid_interval {zs : List (ℚ × ℚ) → ℚ} (hz : ∀ p, 0 ≤ zs p) (o : ResultOpts)
    (rows : List SrrRow) :
    ((¬ ∃ k, Considered o.trim rows k ∧
        ValidInterval (theil zs ((positiveDays rows k).map fun d => ((d.day : ℚ), d.piNorm))) o rows k) →
      calcResultDf zs o rows = .error .noValidIntervalError) ∧
    ((∃ k, Considered o.trim rows k ∧
        ValidInterval (theil zs ((positiveDays rows k).map fun d => ((d.day : ℚ), d.piNorm))) o rows k) →
      ∃ r, calcResultDf zs o rows = .ok r) := by
  constructor
  · intro hno
    have hf : (intervalTable zs o rows).filter Interval.valid = [] := by
      rw [List.filter_eq_nil_iff]
      intro i hi hv
      apply hno
      refine ⟨i.run, ?_, ((table_row hz hi).1).mp hv⟩
      rw [← mem_runList_iff, ← table_runs (zs := zs)]
      exact List.mem_map.mpr ⟨i, hi, rfl⟩
    unfold calcResultDf
    simp only
    rw [hf]
    simp
  · rintro ⟨k, hk, hV⟩
    rw [← mem_runList_iff, ← table_runs (zs := zs)] at hk
    obtain ⟨i, hi, rfl⟩ := List.mem_map.mp hk
    have hv := ((table_row hz hi).1).mpr hV
    unfold calcResultDf
    simp only
    rw [if_neg (by intro e; rw [e] at hi; simp at hi), if_neg (by
      intro e
      rw [List.filter_eq_nil_iff] at e
      exact e i hi hv)]
    exact ⟨_, rfl⟩

/-- a daily index: at least three timestamps, each one day after the previous one -/
def Spec.Daily (idx : List Int) : Prop :=
  3 ≤ idx.length ∧ ∀ i (h : i + 1 < idx.length), idx[i + 1] = idx[i] + dayNs

theorem isDaily_iff {idx : List Int} : isDaily idx = true ↔ Daily idx := by
  unfold isDaily Spec.Daily
  simp only [Bool.and_eq_true, decide_eq_true_eq]
  refine and_congr_right fun h3 => ⟨fun h i hi => dayStepped_getElem h hi, fun h => ?_⟩
  clear h3
  induction idx with
  | nil => rfl
  | cons a l ih =>
    cases l with
    | nil => rfl
    | cons b l =>
      simp only [dayStepped, Bool.and_eq_true, decide_eq_true_eq]
      refine ⟨h 0 (by simp), ih (fun i hi => ?_)⟩
      have := h (i + 1) (by simpa using hi)
      simpa using this

/-- **C36 (daily data).** The analysis object is created iff performance, insolation and, if given,
precipitation are daily; otherwise ValueError. -/
theorem C36_daily_required (pm insol : Series) (precip : Option Series) :
    (srrInit pm insol precip = .ok () ↔
      Daily pm.index ∧ Daily insol.index ∧ ∀ p, precip = some p → Daily p.index) ∧
    ∀ e, srrInit pm insol precip = .error e → e = .valueError := by
  unfold srrInit
  simp only [← isDaily_iff]
  constructor
  · cases isDaily pm.index <;> cases isDaily insol.index <;> cases precip with
    | none => simp
    | some p => cases hp : isDaily p.index <;> simp [hp]
  · intro e h
    split_ifs at h
    · exact (Except.error.inj h).symm
    · exact (Except.error.inj h).symm
    · cases precip with
      | none => simp at h
      | some p =>
        simp only at h
        split_ifs at h
        exact (Except.error.inj h).symm

/-- **C36 (daily preparation).** The daily preparation succeeds iff the series has a present value, the
day scale is positive and the cleaning criterion is known; a wrong day scale or criterion is a
ValueError. -/
theorem C36_daily_errors (o : DailyOpts) (pm insol : Series) (precip : Option Series) :
    ((∃ r, calcDailyDf o pm insol precip = .ok r) ↔
      (∃ x ∈ pm, x.2 ≠ none) ∧ o.dayScale ≠ 0 ∧ o.criterion ≠ .other) ∧
    ((∃ x ∈ pm, x.2 ≠ none) → (o.dayScale = 0 ∨ o.criterion = .other) →
      calcDailyDf o pm insol precip = .error .valueError) ∧
    ((¬ ∃ x ∈ pm, x.2 ≠ none) → calcDailyDf o pm insol precip = .error .indexError) := by
  have hne : trimMissing (srrJoin pm insol precip) = [] ↔ ¬ ∃ x ∈ pm, x.2 ≠ none := by
    have key : ∀ l : List SrrDay, trimMissing l = [] ↔ ∀ d ∈ l, d.pi = none := by
      intro l
      unfold trimMissing
      rw [List.reverse_eq_nil_iff, List.dropWhile_eq_nil_iff]
      constructor
      · intro h d hd
        have h2 : (l.dropWhile fun d => d.pi.isNone) = [] := by
          cases hc : (l.dropWhile fun d => d.pi.isNone) with
          | nil => rfl
          | cons a k =>
            have := List.head_dropWhile_not (p := fun d : SrrDay => d.pi.isNone) (l := l) (by rw [hc]; simp)
            rw [hc] at h
            have h3 := h a (by simp)
            simp only [hc, List.head_cons] at this
            rw [this] at h3
            exact absurd h3 (by simp)
        rw [List.dropWhile_eq_nil_iff] at h2
        simpa using h2 d hd
      · intro h d hd
        have : d ∈ l := (List.dropWhile_suffix _).subset (List.mem_reverse.mp hd)
        simp [h d this]
    rw [key]
    unfold srrJoin
    simp only [List.mem_map, forall_exists_index, and_imp, forall_apply_eq_imp_iff₂]
    push Not
    rfl
  unfold calcDailyDf
  simp only
  by_cases hp : ∃ x ∈ pm, x.2 ≠ none
  · rw [if_neg (by rw [hne]; exact fun h => h hp)]
    by_cases hd : o.dayScale = 0
    · rw [if_pos hd]
      simp [hd, hp]
    · rw [if_neg hd]
      cases hc : o.criterion <;> simp [srrCriterion, Except.map, hp, hd]
  · rw [if_pos (hne.mpr hp)]
    simp [hp]

/-- the example data: both intervals are valid, with the Theil-Sen slope -1/10 per day -/
example : ((calcDailyDf SrrEx.opts SrrEx.pm SrrEx.insol none).toOption.bind fun r =>
      (calcResultDf (fun _ => 0) SrrEx.res r.2).toOption.map fun x => x.1.map fun i =>
        (i.slope, i.low, i.high)) =
    some [(-1/10, -1/10, -1/10), (-1/10, -1/10, -1/10)] := by decide +kernel

example : ((calcDailyDf SrrEx.opts SrrEx.pm SrrEx.insol none).toOption.bind fun r =>
      (calcResultDf (fun _ => 0) SrrEx.res r.2).toOption.map fun x => x.1.map fun i =>
        (i.valid, i.infStart, i.infEnd)) =
    some [(true, 1, 7/10), (true, 1, 7/10)] := by decide +kernel

/-- too short intervals are invalid, and then there is no valid interval -/
example : ((calcDailyDf SrrEx.opts SrrEx.pm SrrEx.insol none).toOption.map fun r =>
      calcResultDf (fun _ => 0) { SrrEx.res with minIntervalLength := 7 } r.2) =
    some (.error .noValidIntervalError) := by decide +kernel

/-- daily series are accepted, a missing day is not -/
example : srrInit SrrEx.pm SrrEx.insol none = .ok () ∧
    srrInit (SrrEx.pm.take 3 ++ SrrEx.pm.drop 4) SrrEx.insol none = .error .valueError := by decide +kernel

end Verif
