import Verif.Props.AvailState

/-! # Property C145 (roll-ups over periods of different lengths) -/

namespace Verif
open Avail Spec

/-- **C145 (losses).** The roll-up period has no influence on anything but the results: with any other period the same
analysis succeeds as well and leaves the same losses, error distributions and outages. -/
theorem C145_same {a : Args} {o o1 : Obj} (h : run a o = (o1, .ok ())) (bin : Int → Int) :
    ∃ rows, run { a with bin := some bin } o = ({ o1 with results := some rows }, .ok ()) := by
  obtain ⟨s, d, outs, sl, rows, b, e, hs, hd, ho, hsl, -, he, -, rfl⟩ := run_ok h
  refine ⟨rollup bin (o.input.index.zip sl.corrected) e, ?_⟩
  have e1 : lossSubsystem { a with bin := some bin } o.input = s := hs
  have e2 : errorDistributions { a with bin := some bin } o.input s.loss = .ok d := hd
  have e3 : Avail.combine { a with bin := some bin } o.input (lossTotal s.loss sl.loss) sl.corrected =
      .ok (rollup bin (o.input.index.zip sl.corrected) e) := by
    unfold Avail.combine
    simp only [he]
    rfl
  unfold run
  simp only [e1, e2, ho, hsl, e3]

/-- the lost production of a row, zero where missing, as a sum over the interval energies of its period -/
theorem rollup_lost {bin : Int → Int} {cum e : List (Int × Cell)} {r : Row} (h : r ∈ rollup bin cum e) :
    r.lost.getD 0 = (valids ((e.filter fun x => decide (bin x.1 = r.label)).map Prod.snd)).sum := by
  unfold rollup at h
  obtain ⟨p, -, rfl⟩ := List.mem_map.mp h
  simp only
  by_cases he : e.filter (fun r => decide (bin r.1 = p)) = []
  · rw [if_pos he, he]; simp [valids]
  · rw [if_neg he]; rfl

theorem rollup_actual {bin : Int → Int} {cum e : List (Int × Cell)} {r : Row} (h : r ∈ rollup bin cum e) :
    r.actual = cellOp (fun a b => a - b) (lastIn bin r.label cum) (firstIn bin r.label cum) := by
  unfold rollup at h
  obtain ⟨p, -, rfl⟩ := List.mem_map.mp h
  rfl

theorem rollup_labels (bin : Int → Int) (cum e : List (Int × Cell)) :
    (rollup bin cum e).map Row.label = (((cum.map Prod.fst ++ e.map Prod.fst).map bin).dedup.insertionSort (· ≤ ·)) := by
  unfold rollup
  rw [List.map_map]
  exact List.map_id _

/-- a sum over the rows of the short periods in a long one is a sum over their labels -/
theorem sum_rows {rows : List Row} {F : Row → ℚ} {G : Int → ℚ} (hFG : ∀ r ∈ rows, F r = G r.label) (g : Int → Int) (P : Int) :
    ((rows.filter fun r => decide (g r.label = P)).map F).sum =
      (((rows.map Row.label).filter fun p => decide (g p = P)).map G).sum := by
  rw [List.filter_map, List.map_map]
  congr 1
  apply List.map_congr_left
  intro r hr
  exact hFG r (List.mem_of_mem_filter hr)

/-- **C145 (lost production).** If every long period consists of short ones (`g` tells to which a short period belongs),
the lost production of a long period is the sum of the lost productions of its short periods, and every short period
belongs to a long one that is listed. -/
theorem C145_lost {a : Args} {o o1 o2 : Obj} {fine : Int → Int} {g : Int → Int} (hb : a.bin = some fine)
    (h1 : run a o = (o1, .ok ())) (h2 : run { a with bin := some fun t => g (fine t) } o = (o2, .ok ())) :
    ∃ short long, o1.results = some short ∧ o2.results = some long ∧
      (∀ r ∈ long, r.lost.getD 0 = ((short.filter fun x => decide (g x.label = r.label)).map fun x => x.lost.getD 0).sum) ∧
      (∀ x ∈ short, ∃ r ∈ long, r.label = g x.label) ∧ (∀ r ∈ long, ∃ x ∈ short, r.label = g x.label) := by
  obtain ⟨s, d, outs, sl, rows, b, e, hs, hd, ho, hsl, hb1, he, hrows, rfl⟩ := run_ok h1
  obtain ⟨s', d', outs', sl', rows', b', e', hs', hd', ho', hsl', hb2, he', hrows', rfl⟩ := run_ok h2
  have q1 : s' = s := by rw [← hs', ← hs]; rfl
  subst q1
  have q2 : d' = d := by
    have : errorDistributions a o.input s'.loss = .ok d' := hd'
    rw [hd] at this; exact (Except.ok.inj this).symm
  subst q2
  rw [ho, Except.ok.injEq] at ho'
  subst ho'
  rw [hsl, Except.ok.injEq] at hsl'
  subst hsl'
  rw [he, Except.ok.injEq] at he'
  subst he'
  have q3 : b = fine := by rw [hb] at hb1; exact (Option.some.inj hb1).symm
  have q4 : b' = fun t => g (fine t) := (Option.some.inj hb2).symm
  subst q3 q4
  refine ⟨rows, rows', rfl, rfl, ?_, ?_, ?_⟩
  · intro r hr
    rw [hrows'] at hr
    rw [rollup_lost hr, hrows, sum_rows (G := fun p => (valids ((e.filter fun x => decide (b x.1 = p)).map Prod.snd)).sum)
      (fun r hr => rollup_lost hr) g r.label, rollup_labels]
    set P := ((((o.input.index.zip sl.corrected).map Prod.fst ++ e.map Prod.fst).map b).dedup.insertionSort (· ≤ ·)) with hP
    have hmem : ∀ x ∈ e.filter (fun x => decide (g (b x.1) = r.label)), b x.1 ∈ P.filter fun p => decide (g p = r.label) := by
      intro x hx
      obtain ⟨hx, hg⟩ := List.mem_filter.mp hx
      refine List.mem_filter.mpr ⟨?_, hg⟩
      rw [hP, List.mem_insertionSort, List.mem_dedup]
      exact List.mem_map_of_mem (List.mem_append_right _ (List.mem_map_of_mem hx))
    rw [← partition_sum b ((periods_nodup _).filter _) hmem]
    congr 1
    apply List.map_congr_left
    intro p hp
    have hp := of_decide_eq_true (List.mem_filter.mp hp).2
    rw [List.filter_filter]
    congr 3
    apply List.filter_congr
    intro x _
    by_cases hx : b x.1 = p
    · simp [hx, hp]
    · simp [hx]
  · intro x hx
    rw [hrows] at hx
    have hl := List.mem_map_of_mem (f := Row.label) hx
    rw [rollup_labels, List.mem_insertionSort, List.mem_dedup] at hl
    obtain ⟨t, ht, htx⟩ := List.mem_map.mp hl
    have : g x.label ∈ (rollup (fun t => g (b t)) (o.input.index.zip sl.corrected) e).map Row.label := by
      rw [rollup_labels, List.mem_insertionSort, List.mem_dedup, ← htx]
      exact List.mem_map_of_mem (f := fun t => g (b t)) ht
    obtain ⟨r, hr, hrl⟩ := List.mem_map.mp this
    exact ⟨r, by rw [hrows']; exact hr, hrl⟩
  · intro r hr
    rw [hrows'] at hr
    have hl := List.mem_map_of_mem (f := Row.label) hr
    rw [rollup_labels, List.mem_insertionSort, List.mem_dedup] at hl
    obtain ⟨t, ht, htx⟩ := List.mem_map.mp hl
    have : b t ∈ (rollup b (o.input.index.zip sl.corrected) e).map Row.label := by
      rw [rollup_labels, List.mem_insertionSort, List.mem_dedup]
      exact List.mem_map_of_mem ht
    obtain ⟨x, hx, hxl⟩ := List.mem_map.mp this
    exact ⟨x, by rw [hrows]; exact hx, by rw [hxl]; exact htx.symm⟩

/-- **C145 (actual production).** For a corrected meter without missing readings, the actual production of a long period
is the sum over its short periods plus the increases of the meter between the last row of a short period and the first
of the next. Missing from the expected statement (equality with the sum): those increases (`C145_actual_refuted`). -/
theorem C145_actual_partial {a : Args} {o o1 o2 : Obj} {fine : Int → Int} {g : Int → Int} (hb : a.bin = some fine)
    (h1 : run a o = (o1, .ok ())) (h2 : run { a with bin := some fun t => g (fine t) } o = (o2, .ok ()))
    {sl : SystemLoss} (hsl : o1.sys = some sl) {l : List (Int × ℚ)}
    (hc : o.input.index.zip sl.corrected = l.map fun r => (r.1, some r.2))
    (hs : (l.map fun x => fine x.1).Pairwise (· ≤ ·)) :
    ∃ short long, o1.results = some short ∧ o2.results = some long ∧
      ∀ r ∈ long, r.actual.getD 0 = ((short.filter fun x => decide (g x.label = r.label)).map fun x => x.actual.getD 0).sum +
        betweenPeriods fine (l.filter fun x => decide (g (fine x.1) = r.label)) := by
  obtain ⟨s, d, outs, sl0, rows, b, e, hs', hd, ho, hsl', hb1, he, hrows, rfl⟩ := run_ok h1
  obtain ⟨s1, d1, outs1, sl1, rows', b', e', hs1, hd1, ho1, hsl1, hb2, he', hrows', rfl⟩ := run_ok h2
  have q1 : s1 = s := by rw [← hs1, ← hs']; rfl
  subst q1
  have q2 : d1 = d := by
    have : errorDistributions a o.input s1.loss = .ok d1 := hd1
    rw [hd] at this; exact (Except.ok.inj this).symm
  subst q2
  rw [ho, Except.ok.injEq] at ho1
  subst ho1
  rw [hsl', Except.ok.injEq] at hsl1
  subst hsl1
  have q5 : sl0 = sl := by simpa using hsl
  subst q5
  have q3 : b = fine := by rw [hb] at hb1; exact (Option.some.inj hb1).symm
  have q4 : b' = fun t => g (fine t) := (Option.some.inj hb2).symm
  subst q3 q4
  refine ⟨rows, rows', rfl, rfl, fun r hr => ?_⟩
  rw [hrows'] at hr
  have hact : ∀ x ∈ rows, x.actual.getD 0 = periodIncrease b x.label l := by
    intro x hx
    rw [hrows] at hx
    rw [rollup_actual hx, hc]
    rfl
  rw [sum_rows (G := fun p => periodIncrease b p l) hact g r.label, rollup_actual hr, hc]
  have hlong : (cellOp (fun a b => a - b) (lastIn (fun t => g (b t)) r.label (l.map fun r => (r.1, some r.2)))
      (firstIn (fun t => g (b t)) r.label (l.map fun r => (r.1, some r.2)))).getD 0 = periodIncrease (fun t => g (b t)) r.label l := rfl
  rw [hlong, periodIncrease_eq, hrows, rollup_labels]
  set P := ((((o.input.index.zip sl0.corrected).map Prod.fst ++ e.map Prod.fst).map b).dedup.insertionSort (· ≤ ·)) with hP
  set m := l.filter fun x => decide (g (b x.1) = r.label) with hm
  have hmem : ∀ x ∈ m, b x.1 ∈ P.filter fun p => decide (g p = r.label) := by
    intro x hx
    obtain ⟨hx, hg⟩ := List.mem_filter.mp hx
    refine List.mem_filter.mpr ⟨?_, hg⟩
    rw [hP, List.mem_insertionSort, List.mem_dedup, hc]
    refine List.mem_map_of_mem (List.mem_append_left _ ?_)
    rw [List.map_map]
    exact List.mem_map_of_mem (f := Prod.fst ∘ fun r : Int × ℚ => (r.1, (some r.2 : Cell))) hx
  have hsm : (m.map fun x => b x.1).Pairwise (· ≤ ·) := hs.sublist (List.Sublist.map _ List.filter_sublist)
  have hsum := sum_periodIncrease b ((periods_nodup (((o.input.index.zip sl0.corrected).map Prod.fst ++ e.map Prod.fst).map b)).filter
    fun p => decide (g p = r.label)) m hmem hsm
  have hcong : ((P.filter fun p => decide (g p = r.label)).map fun p => periodIncrease b p l) =
      (P.filter fun p => decide (g p = r.label)).map fun p => periodIncrease b p m := by
    apply List.map_congr_left
    intro p hp
    have hp := of_decide_eq_true (List.mem_filter.mp hp).2
    rw [periodIncrease_eq, periodIncrease_eq, hm, List.filter_filter]
    have : l.filter (fun x => decide (b x.1 = p)) = l.filter fun x => decide (b x.1 = p) && decide (g (b x.1) = r.label) := by
      apply List.filter_congr
      intro x _
      by_cases hx : b x.1 = p
      · simp [hx, hp]
      · simp [hx]
    rw [this]
  rw [hcong, hsum]
  cases hmm : m with
  | nil => simp [cellOp, withinPeriods, betweenPeriods]
  | cons r0 m' =>
    rw [within_add_between, List.getLast?_eq_some_getLast (by simp)]
    rfl

/-- **C145 (refuted: actual production).** The production of `exSteady` in one period is 7; in halves of a day it
is 5 and 1. -/
theorem C145_actual_refuted :
    (run { exA_args with bin := some fun t => t / 86400000000000 } (Spec.fresh exSteady)).1.results.map (·.map fun r => (r.label, r.actual)) =
      some [(0, some 7)] ∧
    (run { exA_args with bin := some fun t => t / 21600000000000 } (Spec.fresh exSteady)).1.results.map (·.map fun r => (r.label, r.actual)) =
      some [(0, some 5), (1, some 1)] := by
  refine ⟨?_, ?_⟩ <;> decide +kernel

-- periods of six hours make up days: `g` divides the number of the period by four
example : (fun t : Int => t / 86400000000000) = fun t : Int => t / 21600000000000 / 4 := by
  funext t
  omega
-- the lost production of `exA` by day and by six hours
example : (run { exA_args with bin := some fun t => t / 86400000000000 } (Spec.fresh exA)).1.results.map (·.map fun r => (r.label, r.lost)) =
      some [(0, some 18)] ∧
    (run { exA_args with bin := some fun t => t / 21600000000000 } (Spec.fresh exA)).1.results.map (·.map fun r => (r.label, r.lost)) =
      some [(0, some 12), (1, some 6)] := by
  refine ⟨?_, ?_⟩ <;> decide +kernel

end Verif
