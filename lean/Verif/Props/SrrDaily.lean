import Verif.Lemmas.SrrTable
import Mathlib.Data.List.TakeWhile
import Verif.Lemmas.SrrExample

/-! # Property C31 (soiling intervals partition the days) -/

namespace Verif
open Spec

/-- **C31 (numbering).** Days are numbered from 0 and are one day apart, the interval number grows by
exactly one at each cleaning event and nowhere else. -/
theorem C31_numbering {o : DailyOpts} {pm insol : Series} {precip : Option Series}
    {r : Cell × List SrrRow} (hinit : srrInit pm insol precip = .ok ())
    (h : calcDailyDf o pm insol precip = .ok r) :
    (∀ i (hi : i < r.2.length), r.2[i].day = i) ∧
    (∀ i (hi : i + 1 < r.2.length), r.2[i + 1].t = r.2[i].t + dayNs) ∧
    (∀ hi : 0 < r.2.length, r.2[0].run = if r.2[0].event then 1 else 0) ∧
    ∀ i (hi : i + 1 < r.2.length), r.2[i + 1].run = r.2[i].run + if r.2[i + 1].event then 1 else 0 := by
  obtain ⟨H, -⟩ := calcDailyDf_rows hinit h
  exact ⟨H.day, H.step, H.run0, H.run1⟩

/-- **C31 (days).** The analysed days are the days of the performance series from the first to the last
present value: a contiguous stretch beginning and ending with a present value and missing none. -/
theorem C31_days {o : DailyOpts} {pm insol : Series} {precip : Option Series}
    {r : Cell × List SrrRow} (h : calcDailyDf o pm insol precip = .ok r) :
    ∃ before after : Series, ∃ mid : Series, pm = before ++ mid ++ after ∧
      r.2.map SrrRow.t = mid.map Prod.fst ∧ r.2.map SrrRow.pi = mid.map (fun x => x.2.getD 0) ∧
      (∀ x ∈ before ++ after, x.2 = none) ∧
      (∃ t v, mid.head? = some (t, some v)) ∧ ∃ t v, mid.getLast? = some (t, some v) := by
  obtain ⟨hne, hds, ev, hev, h1, h2⟩ := calcDailyDf_ok h
  have hrt : r.2.map SrrRow.t = (trimMissing (srrJoin pm insol precip)).map SrrDay.t ∧
      r.2.map SrrRow.pi = (trimMissing (srrJoin pm insol precip)).map (fun d => d.pi.getD 0) := by
    rw [h2]
    constructor
    all_goals
      apply List.ext_getElem
      · simp [srrRows_length]
      · intro i g1 g2
        simp only [List.length_map] at g2
        unfold srrRows
        simp [List.getD_eq_getElem?_getD, g2]
  set f : Int × Cell → SrrDay := fun x => ⟨x.1, x.2, lookupK insol x.1,
    match precip with
    | none => some 0
    | some p => lookupK p x.1⟩ with hf
  have hj : srrJoin pm insol precip = pm.map f := rfl
  have ht : trimMissing (pm.map f) =
      (((pm.dropWhile fun x => x.2.isNone).reverse.dropWhile fun x => x.2.isNone).reverse).map f := by
    unfold trimMissing
    rw [List.dropWhile_map, ← List.map_reverse, List.dropWhile_map, ← List.map_reverse]
    rfl
  rw [hj, ht] at hrt hne
  set mid := ((pm.dropWhile fun x => x.2.isNone).reverse.dropWhile fun x => x.2.isNone).reverse with hmid
  have hmne : mid ≠ [] := by
    intro e; rw [e] at hne; exact hne rfl
  refine ⟨pm.takeWhile fun x => x.2.isNone,
    (((pm.dropWhile fun x => x.2.isNone).reverse.takeWhile fun x => x.2.isNone)).reverse, mid, ?_, ?_, ?_,
    ?_, ?_, ?_⟩
  · rw [hmid, List.append_assoc, ← List.reverse_append, List.takeWhile_append_dropWhile,
      List.reverse_reverse, List.takeWhile_append_dropWhile]
  · rw [hrt.1, List.map_map]; rfl
  · rw [hrt.2, List.map_map]; rfl
  · intro x hx
    rw [List.mem_append, List.mem_reverse] at hx
    rcases hx with hx | hx
    · simpa using List.mem_takeWhile_imp hx
    · simpa using List.mem_takeWhile_imp hx
  · have hd : ∃ x l, (pm.dropWhile fun x => x.2.isNone) = x :: l := by
      cases hc : (pm.dropWhile fun x => x.2.isNone) with
      | nil => rw [hc] at hmid; exact absurd (by simpa using hmid) hmne
      | cons x l => exact ⟨x, l, rfl⟩
    obtain ⟨x, l, hxl⟩ := hd
    have hx : x.2.isNone = false := by
      have := List.head_dropWhile_not (p := fun x : Int × Cell => x.2.isNone) (l := pm) (by rw [hxl]; simp)
      simpa [hxl] using this
    have hhead : mid.head? = some x := by
      rw [hmid, List.head?_reverse, hxl, List.reverse_cons]
      have : ∀ L : List (Int × Cell), ((L ++ [x]).dropWhile fun x => x.2.isNone).getLast? = some x := by
        intro L
        induction L with
        | nil => simp [hx]
        | cons y L ih =>
          rw [List.cons_append, List.dropWhile_cons]
          split_ifs with g
          · exact ih
          · rw [← List.cons_append, List.getLast?_append]; simp
      exact this _
    obtain ⟨t, c⟩ := x
    cases c with
    | none => simp at hx
    | some v => exact ⟨t, v, hhead⟩
  · have hmid' : mid.reverse = (pm.dropWhile fun x => x.2.isNone).reverse.dropWhile fun x => x.2.isNone := by
      rw [hmid, List.reverse_reverse]
    have hlast : mid.getLast? = mid.reverse.head? := by rw [List.head?_reverse]
    rw [hlast, hmid']
    have hdn : ((pm.dropWhile fun x => x.2.isNone).reverse.dropWhile fun x => x.2.isNone) ≠ [] := by
      rw [← hmid']; simpa using hmne
    have := List.head_dropWhile_not (p := fun x : Int × Cell => x.2.isNone) hdn
    rw [List.head?_eq_some_head hdn]
    generalize (List.dropWhile _ _).head hdn = x at *
    obtain ⟨t, c⟩ := x
    cases c with
    | none => simp at this
    | some v => exact ⟨t, v, rfl⟩

/-- the flagged days in terms of the columns of the table -/
theorem daily_events {o : DailyOpts} {pm insol : Series} {precip : Option Series}
    {r : Cell × List SrrRow} (h : calcDailyDf o pm insol precip = .ok r) :
    ∃ days : List SrrDay, ∃ x : List Cell,
      days = trimMissing (srrJoin pm insol precip) ∧ x = srrNorm r.1 (days.map SrrDay.pi) ∧
      r.2.length = days.length ∧ x.length = days.length ∧
      ∀ i (hi : i < r.2.length), r.2[i].event = true ↔
        CleanedBy o.criterion
          ((srrDelta o.dayScale x).map fun d => cellCmp (fun a b => decide (b < a)) d
            (srrThreshold o (srrDelta o.dayScale x)))
          (days.map fun d => cellCmp (fun a b => decide (b < a)) d.precip (some o.precipThreshold)) i ∨
        OutageAfter o.dayScale x i ∨ OutageBefore o.dayScale x i := by
  obtain ⟨hne, hds, ev, hev, h1, h2⟩ := calcDailyDf_ok h
  refine ⟨_, _, rfl, rfl, ?_, ?_, ?_⟩
  · rw [h2, srrRows_length]
  · rw [srrNorm_length]; simp
  · rw [← h1] at hev
    intro i hi
    have hi' : i < (trimMissing (srrJoin pm insol precip)).length := by
      rw [h2, srrRows_length] at hi; exact hi
    generalize hdf : trimMissing (srrJoin pm insol precip) = df at *
    generalize hx : srrNorm r.1 (df.map SrrDay.pi) = x at *
    have hxl : x.length = df.length := by rw [← hx, srrNorm_length]; simp
    have hevl : ev.length = df.length := by
      have := srrCriterion_length (by simp [srrDetected, srrDelta_length, hxl]) hev
      simpa using this
    have hwl : (withOutages o.dayScale x ev).length = df.length := by
      rw [withOutages_length (by omega), hxl]
    have he : r.2[i].event = (withOutages o.dayScale x ev)[i]'(by omega) := by
      have := srrRows_getElem (x := x) (delta := srrDelta o.dayScale x) hi' hwl
      simp only [h2, this]
    rw [he]
    have := withOutages_iff (w := o.dayScale) (x := x) (ev := ev) (by omega) (i := i) (by omega)
    rw [List.getElem?_eq_getElem (by omega)] at this
    simp only [Option.some.injEq] at this
    rw [this, srrCriterion_iff (by simp [srrDetected, srrDelta_length, hxl]) hev (by simpa using hi')]
    rfl

/-- **C31 (partition).** Without trimming, every analysed day lies in exactly one soiling interval; every
interval starts on the first day or on a cleaning event, and each of these days starts an interval. -/
theorem C31_partition {o : DailyOpts} {ro : ResultOpts} {zs : List (ℚ × ℚ) → ℚ} {pm insol : Series}
    {precip : Option Series} {r : Cell × List SrrRow} {tab : List Interval}
    {days : List (SrrRow × Option Interval)} (htrim : ro.trim = false)
    (hinit : srrInit pm insol precip = .ok ()) (h : calcDailyDf o pm insol precip = .ok r)
    (hres : calcResultDf zs ro r.2 = .ok (tab, days)) :
    (∀ d ∈ r.2, ∃ i ∈ tab, (i.start ≤ d.t ∧ d.t ≤ i.stop) ∧
      ∀ j ∈ tab, j.start ≤ d.t ∧ d.t ≤ j.stop → j = i) ∧
    (∀ i ∈ tab, (∃ d ∈ r.2, d.t = i.start) ∧ ∃ d ∈ r.2, d.t = i.stop) ∧
    ∀ p (hp : p < r.2.length), (∃ i ∈ tab, i.start = r.2[p].t) ↔ p = 0 ∨ r.2[p].event = true := by
  obtain ⟨H, -⟩ := calcDailyDf_rows hinit h
  have htab : tab = intervalTable zs ro r.2 := by
    unfold calcResultDf at hres
    simp only at hres
    split_ifs at hres
    simp only [Except.ok.injEq, Prod.mk.injEq] at hres
    exact hres.1.symm
  subst htab
  refine ⟨fun d hd => ?_, fun i hi => ?_, fun p hp => ?_⟩
  · obtain ⟨i, hi, hr⟩ := table_exists (zs := zs) htrim hd
    refine ⟨i, hi, (table_covers H hi hd).mpr hr.symm, fun j hj hc => ?_⟩
    have := (table_covers H hj hd).mp hc
    exact table_unique hj hi (by omega)
  · obtain ⟨a, z, ha, hz, -, -, h1, h2, -⟩ := table_bounds hi
    exact ⟨⟨a, ha, h1.symm⟩, ⟨z, hz, h2.symm⟩⟩
  · constructor
    · rintro ⟨i, hi, hs⟩
      by_contra hcon
      push Not at hcon
      obtain ⟨hp0, hev⟩ := hcon
      obtain ⟨a, z, ha, hz, har, hzr, h1, h2, -, hh, -⟩ := table_bounds hi
      have hd : r.2[p] ∈ r.2 := List.getElem_mem hp
      have hrun := (table_covers H hi hd).mp ⟨hs.le, by
        rw [← hs, h1, h2]
        have hs' : (r.2.filter fun d => decide (d.run = i.run)).Pairwise fun d e => d.t < e.t :=
          H.sorted.sublist List.filter_sublist
        exact pairwise_head? hs' hh (by simp [hz, hzr])⟩
      obtain ⟨q, rfl⟩ : ∃ q, p = q + 1 := ⟨p - 1, by omega⟩
      have e1 := H.run1 q hp
      rw [if_neg hev] at e1
      have hq : r.2[q] ∈ r.2 := List.getElem_mem _
      have hqr : r.2[q].run = i.run := by omega
      have hc := ((table_covers H hi hq).mpr hqr).1
      have hlt := (H.t_lt (i := q) (j := q + 1) (by omega) hp).mpr (by omega)
      omega
    · intro hcase
      have hd : r.2[p] ∈ r.2 := List.getElem_mem hp
      obtain ⟨i, hi, hr⟩ := table_exists (zs := zs) htrim hd
      refine ⟨i, hi, ?_⟩
      obtain ⟨a, z, ha, hz, har, -, h1, h2, -⟩ := table_bounds hi
      have hc := ((table_covers H hi hd).mpr hr.symm).1
      obtain ⟨q, hq, rfl⟩ := List.getElem_of_mem ha
      rcases Nat.lt_trichotomy q p with hlt | heq | hgt
      · exfalso
        rcases hcase with h0 | hev
        · omega
        · obtain ⟨p', rfl⟩ : ∃ p', p = p' + 1 := ⟨p - 1, by omega⟩
          have e1 := H.run1 p' hp
          rw [if_pos hev] at e1
          have := H.run_mono (i := q) (j := p') (by omega) (by omega)
          omega
      · subst heq; exact h1
      · have := (H.t_lt (i := p) (j := q) hp hq).mpr hgt
        omega

/-- **C31 (adjacent).** Intervals follow each other in time in the order of the table without
overlap. -/
theorem C31_ordered {o : DailyOpts} {ro : ResultOpts} {zs : List (ℚ × ℚ) → ℚ} {pm insol : Series}
    {precip : Option Series} {r : Cell × List SrrRow} {tab : List Interval}
    {days : List (SrrRow × Option Interval)}
    (hinit : srrInit pm insol precip = .ok ()) (h : calcDailyDf o pm insol precip = .ok r)
    (hres : calcResultDf zs ro r.2 = .ok (tab, days)) :
    (∀ i ∈ tab, i.start ≤ i.stop ∧ i.stop - i.start = i.length * dayNs) ∧
      tab.Pairwise fun i j => i.stop < j.start := by
  obtain ⟨H, -⟩ := calcDailyDf_rows hinit h
  have htab : tab = intervalTable zs ro r.2 := by
    unfold calcResultDf at hres
    simp only at hres
    split_ifs at hres
    simp only [Except.ok.injEq, Prod.mk.injEq] at hres
    exact hres.1.symm
  subst htab
  have hbd : ∀ i ∈ intervalTable zs ro r.2, i.start ≤ i.stop := by
    intro i hi
    obtain ⟨a, z, ha, hz, har, hzr, h1, h2, h3, hh, hl⟩ := table_bounds hi
    have := ((table_covers H hi hz).mpr hzr).1
    omega
  refine ⟨fun i hi => ⟨hbd i hi, ?_⟩, ?_⟩
  · obtain ⟨a, z, ha, hz, har, hzr, h1, h2, h3, -⟩ := table_bounds hi
    rw [h1, h2, h3, H.t_day hz ha]
  · have hs := runList_sorted ro.trim r.2
    rw [← table_runs (zs := zs), List.pairwise_map] at hs
    refine hs.imp_of_mem fun {i j} hi hj hlt => ?_
    obtain ⟨a, z, ha, hz, har, hzr, h1, h2, -⟩ := table_bounds hi
    obtain ⟨a', z', ha', hz', har', hzr', h1', h2', -⟩ := table_bounds hj
    by_contra hcon
    push Not at hcon
    rw [h1', h2] at hcon
    have := H.mono_mem ha' hz hcon
    omega

/-- the example data: two intervals, the second begins with the cleaning event on the fifth day -/
example : ((calcDailyDf SrrEx.opts SrrEx.pm SrrEx.insol none).toOption.map fun r =>
      r.2.map fun d => (d.day, d.event, d.run)) =
    some [(0, false, 0), (1, false, 0), (2, false, 0), (3, false, 0), (4, true, 1), (5, false, 1),
      (6, false, 1), (7, false, 1)] := by decide +kernel

/-- the interval table of the example data -/
example : ((calcDailyDf SrrEx.opts SrrEx.pm SrrEx.insol none).toOption.bind fun r =>
      (calcResultDf (fun _ => 0) SrrEx.res r.2).toOption.map fun x => x.1.map fun i =>
        (i.start / dayNs, i.stop / dayNs, i.length, i.valid)) =
    some [(0, 3, 3, true), (4, 7, 3, true)] := by decide +kernel

end Verif
