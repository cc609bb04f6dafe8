import Verif.Lemmas.SrrMonte
import Verif.Props.SrrIntervals

/-! # Properties C33 (recoveries and profiles) and C34 (soiling ratio) -/

namespace Verif
open Spec


theorem withRecovery_mem {l : List Interval} {k : Nat} (hk : k < (withRecovery l).length) :
    (withRecovery l)[k].next =
        (if (withRecovery l)[k].valid then
          ((((withRecovery l).drop (k + 1)).filter Interval.valid).head?).map
            (fun j => clipQ 0 1 j.infStart) else none) ∧
    (withRecovery l)[k].recovery =
        ((withRecovery l)[k].next).map fun n => clipQ 0 1 (n - (withRecovery l)[k].infEnd) := by
  induction l generalizing k with
  | nil => simp [withRecovery] at hk
  | cons i l ih =>
    have hfilter : ∀ l : List Interval, (((withRecovery l).filter Interval.valid).head?).map Interval.infStart =
        ((l.filter Interval.valid).head?).map Interval.infStart := by
      intro l
      induction l with
      | nil => rfl
      | cons j l ih =>
        rw [withRecovery, List.filter_cons, List.filter_cons]
        simp only
        cases j.valid
        · simpa using ih
        · simp
    cases k with
    | zero =>
      simp only [withRecovery, List.getElem_cons_zero, List.drop_succ_cons, List.drop_zero, and_true]
      split_ifs
      · unfold nextValidStart
        rw [← hfilter, Option.map_map]
        rfl
      · rfl
    | succ k =>
      simp only [withRecovery, List.getElem_cons_succ, List.drop_succ_cons]
      exact ih (by simpa [withRecovery] using hk)

/-- **C33 (recovery).** The recovery at the end of an interval is inferred iff the interval is valid and a
valid one follows it: it is the rise from its fitted end to the fitted start (limited to [0,1]) of the
next valid interval, limited to [0,1]; in particular it lies in [0,1]. -/
theorem C33_recovery {zs : List (ℚ × ℚ) → ℚ} {o : ResultOpts} {rows : List SrrRow}
    {r : List Interval × List (SrrRow × Option Interval)} (h : calcResultDf zs o rows = .ok r)
    {k : Nat} (hk : k < r.1.length) :
    (∀ x, r.1[k].recovery = some x → 0 ≤ x ∧ x ≤ 1) ∧
    (r.1[k].valid = false → r.1[k].recovery = none) ∧
    (r.1[k].valid = true → (∀ j (hj : j < r.1.length), k < j → r.1[j].valid = false) →
      r.1[k].recovery = none) ∧
    ∀ j (hj : j < r.1.length), k < j → r.1[k].valid = true → r.1[j].valid = true →
      (∀ m (hm : m < r.1.length), k < m → m < j → r.1[m].valid = false) →
      r.1[k].recovery = some (max 0 (min 1 (max 0 (min 1 r.1[j].infStart) - r.1[k].infEnd))) := by
  obtain ⟨h1, -, -⟩ := calcResultDf_ok h
  have hw : ∃ l, r.1 = withRecovery l := ⟨_, h1⟩
  obtain ⟨l, hl⟩ := hw
  have hm := withRecovery_mem (l := l) (k := k) (by rw [← hl]; exact hk)
  simp only [← hl] at hm
  obtain ⟨m1, m2⟩ := hm
  have hclip : ∀ y : ℚ, clipQ 0 1 y = max 0 (min 1 y) := by
    intro y
    unfold clipQ
    rcases le_total y 0 with g | g
    · rw [max_eq_left g, min_eq_right (by linarith : (0 : ℚ) ≤ 1), min_eq_right (by linarith : y ≤ 1),
        max_eq_left g]
    · rw [max_eq_right g, max_eq_right (le_min (by norm_num) g)]
  refine ⟨fun x hx => ?_, fun hv => ?_, fun hv hall => ?_, fun j hj hkj hv hvj hbetween => ?_⟩
  · rw [m2] at hx
    cases hn : r.1[k].next with
    | none => rw [hn] at hx; simp at hx
    | some n =>
      rw [hn] at hx
      simp only [Option.map_some, Option.some.injEq] at hx
      rw [← hx]
      exact ⟨le_min (by norm_num) (le_max_left _ _), min_le_left _ _⟩
  · rw [m2, m1, hv]; rfl
  · rw [m2, m1, if_pos hv]
    have : (r.1.drop (k + 1)).filter Interval.valid = [] := by
      rw [List.filter_eq_nil_iff]
      intro i hi
      obtain ⟨q, hq, rfl⟩ := List.getElem_of_mem hi
      rw [List.getElem_drop]
      simp only [List.length_drop] at hq
      rw [hall (k + 1 + q) (by omega) (by omega)]
      simp
    rw [this]; rfl
  · rw [m2, m1, if_pos hv]
    have : ((r.1.drop (k + 1)).filter Interval.valid).head? = some r.1[j] := by
      have hsplit : r.1.drop (k + 1) = (r.1.drop (k + 1)).take (j - (k + 1)) ++ r.1[j] :: r.1.drop (j + 1) := by
        have : (r.1.drop (k + 1)).drop (j - (k + 1)) = r.1[j] :: r.1.drop (j + 1) := by
          rw [List.drop_drop, show k + 1 + (j - (k + 1)) = j by omega]
          exact List.drop_eq_getElem_cons hj
        rw [← this, List.take_append_drop]
      rw [hsplit, List.filter_append, List.filter_eq_nil_iff.mpr, List.nil_append, List.filter_cons,
        if_pos hvj]
      · rfl
      · intro i hi
        obtain ⟨q, hq, rfl⟩ := List.getElem_of_mem hi
        simp only [List.length_take, List.length_drop] at hq
        rw [List.getElem_take, List.getElem_drop, hbetween (k + 1 + q) (by omega) (by omega) (by omega)]
        simp
    rw [this]
    simp only [Option.map_some, hclip]

/-- the realized profiles of an analysis, with the interval table and daily rows behind them -/
theorem profile_mem {ord : List Nat → List Nat} {m : SrrMethod} {tab : List Interval}
    {days : List (SrrRow × Option Interval)} {draws : List SrrDraw}
    {mc : List (List (Int × Cell) × Cell)} (h : calcMonte ord m tab days draws = .ok mc)
    {out : List (Int × Cell) × Cell} (ho : out ∈ mc) :
    ∃ dr ∈ draws, realization ord m tab days dr = .ok out := by
  have hf := calcMonte_ok h
  clear h
  induction hf with
  | nil => simp at ho
  | cons hr _ ih =>
    rcases List.mem_cons.mp ho with rfl | ho
    · exact ⟨_, by simp, hr⟩
    · obtain ⟨dr, hd, e⟩ := ih ho
      exact ⟨dr, by simp [hd], e⟩

/-- **C33 (profiles at most one).** For every cleaning assumption and all random numbers, no value of a
stochastic soiling profile exceeds 1. -/
theorem C33_profiles_le_one {ord : List Nat → List Nat} {zs : List (ℚ × ℚ) → ℚ} (hz : ∀ p, 0 ≤ zs p)
    {o : DailyOpts} {ro : ResultOpts} {m : SrrMethod} {exceed conf : ℚ} {draws : List SrrDraw}
    {pm insol : Series} {precip : Option Series} {out : SrrOut} (hd : ∀ dr ∈ draws, ValidDraw m dr)
    (h : soilingSrr ord zs o ro m exceed conf draws pm insol precip = .ok out)
    {p : List (Int × Cell)} (hp : p ∈ out.profiles) {t : Int} {x : ℚ} (hx : (t, some x) ∈ p) : x ≤ 1 := by
  obtain ⟨hinit, d, hdd, r, hr, mc, hmc, hs⟩ := soilingSrr_ok h
  obtain ⟨H, -⟩ := calcDailyDf_rows hinit hdd
  obtain ⟨h1, h2, -⟩ := calcResultDf_ok hr
  obtain ⟨-, -, -, -, -, -, hprof, -, -⟩ := srrSummary_ok hs
  rw [hprof, List.mem_map] at hp
  obtain ⟨y, hy, rfl⟩ := hp
  obtain ⟨dr, hdr, hreal⟩ := profile_mem hmc hy
  obtain ⟨starts, hst, e1, -⟩ := realization_ok hreal
  have T : SoilingTable r.1 := by rw [h1]; exact soilingTable_of hz H
  obtain ⟨hlen, hle⟩ := startLosses_le (hd dr hdr) T hst
  rw [e1, List.mem_map] at hx
  obtain ⟨w, hw, e⟩ := hx
  rw [Prod.mk.injEq] at e
  obtain ⟨k, hk, hk2, s, es, er, ex⟩ := dayLoss_some e.2
  rw [h2] at hw
  have hrow := (analyzedDays_mem hw).1
  have hi : r.1[k] ∈ r.1 := List.getElem_mem hk
  have hdays : 0 ≤ daysSince r.1[k] w.1 := by
    have hi' : r.1[k] ∈ intervalTable zs ro d.2 := h1 ▸ hi
    exact daysSince_nonneg H hi' hrow er
  have hs1 : s ≤ 1 := hle (some s) (List.mem_of_getElem? es) s rfl
  have hsl : (drawSlopes dr.slope r.1)[k] ≤ 0 := by
    rw [drawSlopes_getElem dr.slope r.1 hk]
    have hu := (hd dr hdr).slope k
    exact uniform_le hu.1 hu.2 ((T.low_le _ hi).trans (T.high_le _ hi)) (T.high_le _ hi)
  rw [ex]
  have : ((daysSince r.1[k] w.1 : Int) : ℚ) * (drawSlopes dr.slope r.1)[k] ≤ 0 :=
    mul_nonpos_of_nonneg_of_nonpos (by exact_mod_cast hdays) hsl
  linarith

theorem dayLoss_of_mem {tab : List Interval} (hn : (tab.map Interval.run).Nodup) {starts : List Cell}
    {slopes : List ℚ} (hs : starts.length = tab.length) (hl : slopes.length = tab.length) {d : SrrRow}
    {k : Nat} (hk : k < tab.length) (hr : tab[k].run = d.run) :
    dayLoss tab starts slopes d =
      (starts[k]'(by omega)).map fun s => s + daysSince tab[k] d * slopes[k]'(by omega) := by
  unfold dayLoss
  have hf : ((tab.zip (starts.zip slopes)).find? fun x => decide (x.1.run = d.run)) =
      some (tab[k], starts[k]'(by omega), slopes[k]'(by omega)) := by
    cases hc : ((tab.zip (starts.zip slopes)).find? fun x => decide (x.1.run = d.run)) with
    | none =>
      rw [List.find?_eq_none] at hc
      exfalso
      have hm : (tab[k], starts[k]'(by omega), slopes[k]'(by omega)) ∈ tab.zip (starts.zip slopes) := by
        have : (tab.zip (starts.zip slopes))[k]'(by simp; omega) =
            (tab[k], starts[k]'(by omega), slopes[k]'(by omega)) := by
          rw [List.getElem_zip, List.getElem_zip]
        rw [← this]
        exact List.getElem_mem _
      exact hc _ hm (by simpa using hr)
    | some y =>
      have hm := List.mem_of_find?_eq_some hc
      have hp := List.find?_some hc
      simp only [decide_eq_true_eq] at hp
      obtain ⟨j, hj, e⟩ := List.getElem_of_mem hm
      simp only [List.length_zip] at hj
      rw [List.getElem_zip, List.getElem_zip] at e
      have hjk : j = k := by
        have e1 : tab[j]'(by omega) = y.1 := by rw [← e]
        have : (tab.map Interval.run)[j]'(by simp; omega) = (tab.map Interval.run)[k]'(by simp; omega) := by
          simp only [List.getElem_map]
          rw [e1, hp, hr]
        exact (List.Nodup.getElem_inj_iff hn).mp this
      subst hjk
      rw [← e]
  rw [hf]

theorem analyzed_run {zs : List (ℚ × ℚ) → ℚ} {o : ResultOpts} {rows : List SrrRow} (H : DailyRows rows)
    {x : SrrRow × Option Interval} (hx : x ∈ analyzedDays (intervalTable zs o rows) rows) :
    ∃ k, ∃ hk : k < (intervalTable zs o rows).length, (intervalTable zs o rows)[k].run = x.1.run := by
  have hrow := (analyzedDays_mem hx).1
  have hm : x.1.run ∈ (intervalTable zs o rows).map Interval.run := by
    have hruns := table_runs (zs := zs) (o := o) (rows := rows)
    cases hT : intervalTable zs o rows with
    | nil => rw [hT] at hx; simp [analyzedDays] at hx
    | cons i l =>
      rw [hT] at hx
      have hi : i ∈ intervalTable zs o rows := by rw [hT]; simp
      have hz : (i :: l).getLast (by simp) ∈ intervalTable zs o rows := by
        rw [hT]; exact List.getLast_mem _
      simp only [analyzedDays, List.mem_map, List.mem_filter, decide_eq_true_eq] at hx
      obtain ⟨d, ⟨hd, hb1, hb2⟩, rfl⟩ := hx
      obtain ⟨a, -, ha, -, har, -, h1, -⟩ := table_bounds hi
      obtain ⟨-, z, -, hz', -, hzr, -, h2, -⟩ := table_bounds hz
      have g1 : a.run ≤ d.run := H.mono_mem ha hd (by omega)
      have g2 : d.run ≤ z.run := H.mono_mem hd hz' (by omega)
      rw [← hT, hruns, mem_runList_iff]
      have c1 : Considered o.trim rows i.run := by
        rw [← mem_runList_iff, ← hruns]; exact List.mem_map.mpr ⟨i, hi, rfl⟩
      have c2 : Considered o.trim rows ((i :: l).getLast (by simp)).run := by
        rw [← mem_runList_iff, ← hruns]; exact List.mem_map.mpr ⟨_, hz, rfl⟩
      refine ⟨⟨d, hd, rfl⟩, fun ht => ?_⟩
      obtain ⟨⟨e, he, hlt⟩, -⟩ := c1.2 ht
      obtain ⟨-, ⟨f, hf, hgt⟩⟩ := c2.2 ht
      exact ⟨⟨e, he, by simp only; omega⟩, ⟨f, hf, by simp only; omega⟩⟩
  obtain ⟨k, hk, e⟩ := List.getElem_of_mem hm
  simp only [List.length_map] at hk
  exact ⟨k, hk, by simpa using e⟩

/-- **C33 (perfect cleaning).** With perfect cleaning every profile value is
`1 + (days since the interval began) * s` with one drawn rate `s` per interval, between the reported
bounds of the interval's rate; every analysed day has a value. -/
theorem C33_perfect_clean {ord : List Nat → List Nat} {zs : List (ℚ × ℚ) → ℚ} (hz : ∀ p, 0 ≤ zs p)
    {o : ResultOpts} {rows : List SrrRow} (H : DailyRows rows) {dr : SrrDraw}
    (hd : ValidDraw .perfectClean dr)
    {r : List Interval × List (SrrRow × Option Interval)} (h : calcResultDf zs o rows = .ok r)
    {out : List (Int × Cell) × Cell} (hout : realization ord .perfectClean r.1 r.2 dr = .ok out) :
    ∃ s : Nat → ℚ,
      (∀ i ∈ r.1, i.low ≤ s i.run ∧ s i.run ≤ i.high) ∧
      ∀ x ∈ out.1, ∃ i ∈ r.1, i.start ≤ x.1 ∧ x.1 ≤ i.stop ∧
        x.2 = some (1 + (((x.1 - i.start) / dayNs : Int) : ℚ) * s i.run) := by
  obtain ⟨h1, h2, -⟩ := calcResultDf_ok h
  have T : SoilingTable r.1 := by rw [h1]; exact soilingTable_of hz H
  obtain ⟨starts, hst, e1, -⟩ := realization_ok hout
  simp only [startLosses, Except.ok.injEq] at hst
  refine ⟨fun n => (((r.1.zip (drawSlopes dr.slope r.1)).find? fun x => decide (x.1.run = n)).map
    Prod.snd).getD 0, fun i hi => ?_, fun x hx => ?_⟩
  · cases hc : ((r.1.zip (drawSlopes dr.slope r.1)).find? fun x => decide (x.1.run = i.run)) with
    | none =>
      rw [List.find?_eq_none] at hc
      exfalso
      obtain ⟨k, hk, rfl⟩ := List.getElem_of_mem hi
      have hm : (r.1.zip (drawSlopes dr.slope r.1))[k]'(by simp [drawSlopes_length]; exact hk) ∈
        r.1.zip (drawSlopes dr.slope r.1) := List.getElem_mem _
      rw [List.getElem_zip] at hm
      exact hc _ hm (by simp)
    | some y =>
      have hm := List.mem_of_find?_eq_some hc
      have hp := List.find?_some hc
      simp only [decide_eq_true_eq] at hp
      have hy := (zip_drawSlopes hm).1
      have hb := drawSlope_bounds T hd.slope hm
      have : y.1 = i := List.inj_on_of_nodup_map T.runs hy hi hp
      simp only [hc, Option.map_some, Option.getD_some]
      rw [← this]; exact hb
  · rw [e1, List.mem_map] at hx
    obtain ⟨w, hw, rfl⟩ := hx
    rw [h2] at hw
    have hrow := (analyzedDays_mem hw).1
    obtain ⟨k, hk, hr⟩ : ∃ k, ∃ hk : k < r.1.length, r.1[k].run = w.1.run := by
      have hw' := hw
      rw [h1] at hw'
      have := analyzed_run H hw'
      simp only [← h1] at this
      exact this
    have hi : r.1[k] ∈ r.1 := List.getElem_mem hk
    have hi' : r.1[k] ∈ intervalTable zs o rows := h1 ▸ hi
    have hcov := (table_covers H hi' hrow).mpr hr.symm
    refine ⟨r.1[k], hi, hcov.1, hcov.2, ?_⟩
    have hn := T.runs
    rw [dayLoss_of_mem hn (by rw [← hst]; simp) (drawSlopes_length _ _) hk hr]
    simp only [← hst, List.getElem_map, Option.map_some, Option.some.injEq]
    have hsl : (((r.1.zip (drawSlopes dr.slope r.1)).find? fun x => decide (x.1.run = r.1[k].run)).map
        Prod.snd).getD 0 = (drawSlopes dr.slope r.1)[k]'(by rw [drawSlopes_length]; exact hk) := by
      cases hc : ((r.1.zip (drawSlopes dr.slope r.1)).find? fun x => decide (x.1.run = r.1[k].run)) with
      | none =>
        rw [List.find?_eq_none] at hc
        exfalso
        have hm : (r.1.zip (drawSlopes dr.slope r.1))[k]'(by simp [drawSlopes_length]; exact hk) ∈
          r.1.zip (drawSlopes dr.slope r.1) := List.getElem_mem _
        rw [List.getElem_zip] at hm
        exact hc _ hm (by simp)
      | some y =>
        have hm := List.mem_of_find?_eq_some hc
        have hp := List.find?_some hc
        simp only [decide_eq_true_eq] at hp
        obtain ⟨j, hj, e⟩ := List.getElem_of_mem hm
        simp only [List.length_zip, drawSlopes_length, min_self] at hj
        rw [List.getElem_zip] at e
        have hjk : j = k := by
          have : (r.1.map Interval.run)[j]'(by simp; omega) = (r.1.map Interval.run)[k]'(by simp; omega) := by
            simp only [List.getElem_map]
            rw [← hp, ← e]
          exact (List.Nodup.getElem_inj_iff hn).mp this
        subst hjk
        simp only [Option.map_some, Option.getD_some, ← e]
    rw [hsl]
    rfl

/-- recoveries of the example data: from 7/10 back to 1, and none after the last interval -/
example : ((calcDailyDf SrrEx.opts SrrEx.pm SrrEx.insol none).toOption.bind fun r =>
      (calcResultDf (fun _ => 0) SrrEx.res r.2).toOption.map fun x => x.1.map fun i =>
        (i.valid, i.recovery)) =
    some [(true, some (3/10)), (true, none)] := by decide +kernel

/-- the perfect-clean profile of the example data -/
example : ((soilingSrr id (fun _ => 0) SrrEx.opts SrrEx.res .perfectClean 95 (682 / 10)
      [SrrEx.draw0] SrrEx.pm SrrEx.insol none).toOption.map fun o =>
        o.profiles.map fun p => p.map Prod.snd) =
    some [[some 1, some (9 / 10), some (4 / 5), some (7 / 10), some 1, some (9 / 10), some (4 / 5),
      some (7 / 10)]] := by decide +kernel

end Verif
