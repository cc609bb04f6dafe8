import Verif.Model.Plotting
import Verif.Props.SrrDaily
import Verif.Props.SrrIntervals
import Verif.Props.SrrMonte

/-! # Property C90 (soiling figures) -/

namespace Verif.Plots

open Verif

/-- **C90 (points).** Both soiling figures draw every reading once, at its own time and divided by the recentering
factor of the analysis. -/
theorem C90_points (info : SrrOut) (y : Series) (profiles : Option Int) {f : ℚ} (hf : info.renorm = some f)
    (h0 : f ≠ 0) :
    (monteCarloPlot info y profiles).1 = (y.map fun r => (r.1, r.2.map (· / f))) ∧
    (intervalPlot info y).1 = y.map fun r => (r.1, r.2.map (· / f)) := by
  have : renormalized y info.renorm = y.map fun r => (r.1, r.2.map (· / f)) := by
    rw [hf]
    unfold renormalized
    apply List.map_congr_left
    intro r _
    have : (some f : Cell) ≠ some 0 := by simpa using h0
    rw [if_neg this]
    cases r.2 <;> rfl
  exact ⟨this, this⟩

/-- **C90 (number of profiles).** Without a number all profiles are drawn. With one, the first ones are drawn: as many
as asked for, or all if there are fewer. A negative number leaves out that many of the last ones. -/
theorem C90_profile_count (info : SrrOut) (y : Series) (profiles : Option Int) :
    (monteCarloPlot info y profiles).2 <+: info.profiles ∧
    (profiles = none → (monteCarloPlot info y profiles).2 = info.profiles) ∧
    (∀ k : Nat, profiles = some (k : Int) →
      (monteCarloPlot info y profiles).2.length = min k info.profiles.length) ∧
    ∀ k : Nat, 0 < k → profiles = some (-(k : Int)) →
      (monteCarloPlot info y profiles).2.length = info.profiles.length - k := by
  refine ⟨?_, ?_, ?_, ?_⟩
  · unfold monteCarloPlot takeSlice
    cases profiles with
    | none => exact List.prefix_refl _
    | some k =>
      simp only
      split_ifs
      · exact List.take_prefix _ _
      · exact List.take_prefix _ _
  · rintro rfl; rfl
  · rintro k rfl
    simp only [monteCarloPlot, takeSlice]
    rw [if_neg (by omega)]
    simp
  · rintro k hk rfl
    simp only [monteCarloPlot, takeSlice]
    rw [if_pos (by omega)]
    simp

/-- **C90 (profiles).** Nothing above one is drawn as a profile of an analysis. -/
theorem C90_profiles_le_one {ord : List Nat → List Nat} {zs : List (ℚ × ℚ) → ℚ} (hz : ∀ p, 0 ≤ zs p)
    {o : DailyOpts} {ro : ResultOpts} {m : SrrMethod} {exceed conf : ℚ} {draws : List SrrDraw}
    {pm insol : Series} {precip : Option Series} {out : SrrOut} (hd : ∀ dr ∈ draws, ValidDraw m dr)
    (h : soilingSrr ord zs o ro m exceed conf draws pm insol precip = .ok out) (y : Series) (k : Option Int)
    {p : List (Int × Cell)} (hp : p ∈ (monteCarloPlot out y k).2) {t : Int} {x : ℚ} (hx : (t, some x) ∈ p) :
    x ≤ 1 :=
  C33_profiles_le_one hz hd h ((C90_profile_count out y k).1.subset hp) hx

/-- **C90 (rate histogram).** For the result of an analysis the histogram shows one rate in percent per day for each
valid interval, in the order of the table; there is at least one, and none is positive. -/
theorem C90_rates {ord : List Nat → List Nat} {zs : List (ℚ × ℚ) → ℚ} (hz : ∀ p, 0 ≤ zs p)
    {o : DailyOpts} {ro : ResultOpts} (hlen : 1 ≤ ro.minIntervalLength) {m : SrrMethod} {exceed conf : ℚ}
    {draws : List SrrDraw} {pm insol : Series} {precip : Option Series} {out : SrrOut}
    (h : soilingSrr ord zs o ro m exceed conf draws pm insol precip = .ok out) :
    rateHistogram out ≠ [] ∧ (rateHistogram out).length = out.table.countP Interval.valid ∧
    (∀ x ∈ rateHistogram out, x ≤ 0) ∧ ∀ i ∈ out.table, i.valid = true → i.slope * 100 ∈ rateHistogram out := by
  obtain ⟨hinit, d, hdd, r, hr, mc, hmc, hs⟩ := soilingSrr_ok h
  obtain ⟨H, -⟩ := calcDailyDf_rows hinit hdd
  obtain ⟨h1, h2, i0, hi0, hv0⟩ := calcResultDf_ok hr
  obtain ⟨-, -, -, -, -, -, -, htab, -⟩ := srrSummary_ok hs
  unfold rateHistogram
  rw [htab]
  refine ⟨?_, ?_, ?_, ?_⟩
  · intro hc
    have : 100 * i0.slope ∈ (r.1.filter Interval.valid).map fun i => 100 * i.slope :=
      List.mem_map.mpr ⟨i0, List.mem_filter.mpr ⟨hi0, hv0⟩, rfl⟩
    rw [hc] at this
    simp at this
  · rw [List.length_map, List.countP_eq_length_filter]
  · intro x hx
    obtain ⟨i, hi, rfl⟩ := List.mem_map.mp hx
    obtain ⟨hi, hv⟩ := List.mem_filter.mp hi
    obtain ⟨-, c, -⟩ := C32_valid_intervals_soil hz H hlen hr hi
    obtain ⟨-, c2, c3, -⟩ := c hv
    linarith
  · intro i hi hv
    exact List.mem_map.mpr ⟨i, List.mem_filter.mpr ⟨hi, hv⟩, by ring⟩

/-- **C90 (interval figure).** The soiling profile drawn by the interval figure consists of the days of the valid
intervals, each once and in order of time; it starts at one on the first day of every valid interval and falls by the
reported rate every day, so it never exceeds one. -/
theorem C90_interval_profile {ord : List Nat → List Nat} {zs : List (ℚ × ℚ) → ℚ} (hz : ∀ p, 0 ≤ zs p)
    {o : DailyOpts} {ro : ResultOpts} (hlen : 1 ≤ ro.minIntervalLength) {m : SrrMethod} {exceed conf : ℚ}
    {draws : List SrrDraw} {pm insol : Series} {precip : Option Series} {out : SrrOut}
    (h : soilingSrr ord zs o ro m exceed conf draws pm insol precip = .ok out) (y : Series) :
    ((intervalPlot out y).2.map Prod.fst).Pairwise (· < ·) ∧
    (∀ x ∈ (intervalPlot out y).2, x.2 ≤ 1) ∧
    ∀ t v, (t, v) ∈ (intervalPlot out y).2 ↔
      ∃ i ∈ out.table, i.valid = true ∧ ∃ k : Nat, (k : Int) ≤ i.length ∧ t = i.start + k * dayNs ∧
        v = 1 + k * i.slope := by
  obtain ⟨hinit, d, hdd, r, hr, mc, hmc, hs⟩ := soilingSrr_ok h
  obtain ⟨H, -⟩ := calcDailyDf_rows hinit hdd
  obtain ⟨hord1, hord2⟩ := C31_ordered (tab := r.1) (days := r.2) hinit hdd hr
  obtain ⟨h1, h2, -⟩ := calcResultDf_ok hr
  obtain ⟨-, -, -, -, -, -, -, htab, hperf⟩ := srrSummary_ok hs
  have hpos := dayNs_pos'
  have key : ∀ t v, (t, v) ∈ (intervalPlot out y).2 ↔
      ∃ i ∈ out.table, i.valid = true ∧ ∃ k : Nat, (k : Int) ≤ i.length ∧ t = i.start + k * dayNs ∧
        v = 1 + k * i.slope := by
    intro t v
    simp only [intervalPlot]
    rw [hperf, htab, List.mem_map]
    constructor
    · rintro ⟨x, hx, e⟩
      obtain ⟨hx, hv⟩ := List.mem_filter.mp hx
      rw [h2] at hx
      obtain ⟨hrow, hfi⟩ := analyzedDays_mem hx
      rw [hfi] at hv
      cases hi : intervalOfDay r.1 x.1 with
      | none => rw [hi] at hv; simp at hv
      | some i =>
        rw [hi] at hv
        have him := List.mem_of_find?_eq_some hi
        have hrun : i.run = x.1.run := by simpa using List.find?_some hi
        rw [Prod.mk.injEq] at e
        have hi' : i ∈ intervalTable zs ro d.2 := h1 ▸ him
        have hc := (table_covers H hi' hrow).mpr hrun.symm
        obtain ⟨a, z, ha, hzz, -, -, b1, b2, b3, -⟩ := table_bounds hi'
        have e1 := H.t_day hrow ha
        have e2 := H.t_day hzz hrow
        have q1 : (0 : Int) ≤ (x.1.day : Int) - a.day := by
          by_contra hn
          have : ((x.1.day : Int) - a.day) * dayNs < 0 := mul_neg_of_neg_of_pos (by omega) hpos
          omega
        have q2 : (0 : Int) ≤ (z.day : Int) - x.1.day := by
          by_contra hn
          have : ((z.day : Int) - x.1.day) * dayNs < 0 := mul_neg_of_neg_of_pos (by omega) hpos
          omega
        refine ⟨i, him, by simpa using hv, x.1.day - a.day, by omega, ?_, ?_⟩
        · rw [← e.1, b1]
          have : ((x.1.day - a.day : Nat) : Int) = (x.1.day : Int) - a.day := by omega
          rw [this]; omega
        · rw [← e.2]
          unfold lossPerfectClean
          rw [hfi, hi]
          simp only
          have : daysSince i x.1 = ((x.1.day - a.day : Nat) : Int) := by
            unfold daysSince
            rw [b1, e1, Int.mul_ediv_cancel _ hpos.ne']
            omega
          rw [this]
          push_cast
          rfl
    · rintro ⟨i, hi, hv, k, hk, rfl, rfl⟩
      have hi' : i ∈ intervalTable zs ro d.2 := h1 ▸ hi
      obtain ⟨a, z, ha, hzz, har, hzr, b1, b2, b3, -⟩ := table_bounds hi'
      obtain ⟨p, hp, rfl⟩ := List.getElem_of_mem ha
      obtain ⟨q, hq, rfl⟩ := List.getElem_of_mem hzz
      rw [H.day p hp, H.day q hq] at b3
      have hpk : p + k < d.2.length := by omega
      have ht : i.start + k * dayNs = d.2[p + k].t := by
        rw [b1, H.t_eq hp, H.t_eq hpk]; push_cast; ring
      have hrow : d.2[p + k] ∈ d.2 := List.getElem_mem hpk
      have hcov : i.start ≤ d.2[p + k].t ∧ d.2[p + k].t ≤ i.stop := by
        constructor
        · rw [← ht]; nlinarith
        · rw [b2]
          by_contra hn
          have := (H.t_lt hq hpk).mp (by omega)
          omega
      have hrun := (table_covers H hi' hrow).mp hcov
      have hfind : intervalOfDay r.1 d.2[p + k] = some i := by
        cases hc : intervalOfDay r.1 d.2[p + k] with
        | none =>
          have := List.find?_eq_none.mp hc i hi
          simp [hrun] at this
        | some j =>
          have hj := List.mem_of_find?_eq_some hc
          have hjr : j.run = d.2[p + k].run := by simpa using List.find?_some hc
          exact congrArg some (table_unique (zs := zs) (o := ro) (rows := d.2) (by rw [← h1]; exact hj) hi' (by omega))
      refine ⟨(d.2[p + k], some i), List.mem_filter.mpr ⟨?_, by simpa using hv⟩, ?_⟩
      · rw [h2]
        clear hs hmc hr h
        obtain ⟨tab, days⟩ := r
        simp only at h2 hi h1 hord1 hord2 hfind ⊢
        cases tab with
        | nil => simp at hi
        | cons j l =>
          simp only [analyzedDays, List.mem_map, List.mem_filter, decide_eq_true_eq]
          refine ⟨d.2[p + k], ⟨hrow, ?_, ?_⟩, Prod.ext rfl hfind⟩
          · rcases List.mem_cons.mp hi with rfl | hil
            · exact hcov.1
            · have := (List.pairwise_cons.mp hord2).1 i hil
              have := (hord1 j (by simp)).1
              omega
          · have hlast : i.stop ≤ ((j :: l).getLast (by simp)).stop := by
              by_cases hil : i = (j :: l).getLast (by simp)
              · exact (congrArg Interval.stop hil).le
              · have hi2 : i ∈ (j :: l).dropLast := by
                  have := List.dropLast_append_getLast (l := j :: l) (by simp)
                  rw [← this, List.mem_append] at hi
                  rcases hi with hi | hi
                  · exact hi
                  · simp at hi; exact absurd hi hil
                rw [← List.dropLast_append_getLast (l := j :: l) (by simp), List.pairwise_append] at hord2
                have c1 := hord2.2.2 i hi2 _ (List.mem_singleton_self _)
                have c2 := (hord1 ((j :: l).getLast (by simp)) (List.getLast_mem _)).1
                omega
            omega
      · rw [Prod.mk.injEq]
        refine ⟨ht.symm, ?_⟩
        unfold lossPerfectClean
        simp only
        have : daysSince i d.2[p + k] = (k : Int) := by
          unfold daysSince
          rw [← ht, show i.start + k * dayNs - i.start = k * dayNs by ring, Int.mul_ediv_cancel _ hpos.ne']
        rw [this]
        push_cast
        rfl
  refine ⟨?_, ?_, key⟩
  · simp only [intervalPlot]
    rw [hperf, List.map_map, List.pairwise_map]
    refine List.Pairwise.sublist List.filter_sublist ?_
    rw [h2]
    unfold analyzedDays
    cases r.1 with
    | nil => simp
    | cons j l =>
      simp only
      rw [List.pairwise_map]
      exact (H.sorted.sublist List.filter_sublist)
  · rintro ⟨t, v⟩ hx
    obtain ⟨i, hi, hv, k, -, -, rfl⟩ := (key t v).mp hx
    rw [htab] at hi
    obtain ⟨-, c, -⟩ := C32_valid_intervals_soil hz H hlen hr hi
    obtain ⟨-, c2, c3, -⟩ := c hv
    have : (0 : ℚ) ≤ k := Nat.cast_nonneg k
    simp only
    nlinarith

/-- the result of the example analysis with two sets of random numbers -/
def exSoiling : Except PyErr SrrOut :=
  soilingSrr id (fun _ => 0) SrrEx.opts SrrEx.res .perfectClean 95 (682 / 10) [SrrEx.draw0, SrrEx.draw0]
    SrrEx.pm SrrEx.insol none

example : (exSoiling.toOption.map fun out =>
    (rateHistogram out, (intervalPlot out SrrEx.pm).2.map Prod.snd, (monteCarloPlot out SrrEx.pm (some 1)).2.length,
      (monteCarloPlot out SrrEx.pm (some (-2))).2.length)) =
    some ([-10, -10], [1, 9/10, 8/10, 7/10, 1, 9/10, 8/10, 7/10], 1, 0) := by decide +kernel

end Verif.Plots
