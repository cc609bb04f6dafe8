import Verif.Props.SrrIntervals

/-! # Property C100 (the fit of a soiling interval) -/

namespace Verif
open Spec

deriving instance Inhabited for SrrRow

namespace Spec
/-- rounding to the nearest integer, halves to the even one -/
def RoundsTo (q : ℚ) (n : Int) : Prop := |q - n| ≤ 1 / 2 ∧ (|q - n| = 1 / 2 → 2 ∣ n)

/-- the slope of every pair of days, each pair once, for days in order of time -/
def daySlopes (days : List SrrRow) : List ℚ :=
  (List.range days.length).flatMap fun j => (List.range j).map fun i =>
    ((days.getD j default).piNorm - (days.getD i default).piNorm) /
      (((days.getD j default).day : ℚ) - (days.getD i default).day)

/-- slope, bounds and line of the Theil–Sen fit to the days; `z` is the width, in ranks, of the confidence
interval -/
structure IsFit (days : List SrrRow) (z : ℚ) (slope low high : ℚ) (line : ℚ → ℚ) : Prop where
  median : IsMedian (daySlopes days) slope
  bounds : ∃ (s : List ℚ) (u v : Int), s.Perm (daySlopes days) ∧ s.Pairwise (· ≤ ·) ∧
    RoundsTo (((daySlopes days).length - z) / 2) u ∧ RoundsTo (((daySlopes days).length + z) / 2) v ∧
    s[(max (u - 1) 0).toNat]? = some low ∧ s[(min v ((daySlopes days).length - 1)).toNat]? = some high
  through : ∃ my md, IsMedian (days.map SrrRow.piNorm) my ∧ IsMedian (days.map fun d => (d.day : ℚ)) md ∧
    ∀ x, line x = my + slope * (x - md)
end Spec

theorem roundsTo_iff {q : ℚ} {n : Int} : RoundsTo q n ↔ roundHE q = n := by
  unfold RoundsTo roundHE
  have h1 := Int.floor_le q
  have h2 := Int.lt_floor_add_one q
  generalize ⌊q⌋ = f at h1 h2
  simp only
  have cases3 : ∀ m : Int, |q - m| ≤ 1 / 2 → m = f ∨ m = f + 1 := by
    intro m hm
    rw [abs_le] at hm
    have a1 : (m : ℚ) < f + 2 := by linarith
    have a2 : (f : ℚ) - 1 < m := by linarith
    have a1' : m < f + 2 := by exact_mod_cast a1
    have a2' : f - 1 < m := by exact_mod_cast a2
    omega
  constructor
  · rintro ⟨ha, hb⟩
    have hc := cases3 n ha
    rw [abs_le] at ha
    rcases hc with rfl | rfl
    · by_cases c1 : q - n < 1 / 2
      · rw [if_pos c1]
      · have c2 : q - n = 1 / 2 := by linarith [ha.2]
        have := hb (by rw [c2]; norm_num)
        rw [if_neg c1, if_neg (by linarith), if_pos (by omega)]
    · push_cast at ha hb
      have c1 : ¬ q - f < 1 / 2 := by linarith [ha.1]
      rw [if_neg c1]
      by_cases c2 : 1 / 2 < q - f
      · rw [if_pos c2]
      · have c3 : q - (f + 1) = - (1 / 2) := by linarith
        have := hb (by rw [c3]; norm_num)
        rw [if_neg c2, if_neg (by omega)]
  · intro h
    split_ifs at h with c1 c2 c3 <;> subst h
    · refine ⟨by rw [abs_le]; constructor <;> linarith, fun e => ?_⟩
      rcases abs_eq (by norm_num : (0 : ℚ) ≤ 1 / 2) |>.mp e with e | e <;> linarith
    · push_cast
      refine ⟨by rw [abs_le]; constructor <;> linarith, fun e => ?_⟩
      rcases abs_eq (by norm_num : (0 : ℚ) ≤ 1 / 2) |>.mp e with e | e <;> linarith
    · exact ⟨by rw [abs_le]; constructor <;> linarith, fun _ => by omega⟩
    · push_cast
      exact ⟨by rw [abs_le]; constructor <;> linarith, fun _ => by omega⟩

theorem filterMap_range_lt {α : Type} (g : Nat → α) {j n : Nat} (h : j ≤ n) :
    (List.range n).filterMap (fun i => if i < j then some (g i) else none) = (List.range j).map g := by
  induction n with
  | zero =>
    have : j = 0 := by omega
    subst this
    rfl
  | succ n ih =>
    rw [List.range_succ, List.filterMap_append]
    by_cases hj : j ≤ n
    · rw [ih hj]
      simp [show ¬ n < j by omega]
    · have : j = n + 1 := by omega
      subst this
      have e : (List.range n).filterMap (fun i => if i < n + 1 then some (g i) else none) = (List.range n).map g := by
        rw [← List.filterMap_eq_map]
        apply List.filterMap_congr
        intro i hi
        rw [List.mem_range] at hi
        rw [if_pos (by omega)]
        rfl
      rw [e, List.range_succ, List.map_append]
      simp

theorem map_range_getD {α : Type} (d : α) (l : List α) : (List.range l.length).map (fun i => l.getD i d) = l := by
  apply List.ext_getElem
  · simp
  · intro i h1 h2
    simp [List.getD_eq_getElem?_getD, h2]

theorem pairSlopes_days {days : List SrrRow} (hs : days.Pairwise fun d e => d.day < e.day) :
    pairSlopes (days.map fun d => ((d.day : ℚ), d.piNorm)) = daySlopes days := by
  unfold pairSlopes daySlopes
  rw [List.flatMap_map]
  simp only [List.filterMap_map]
  conv_lhs => rw [← map_range_getD default days]
  rw [List.flatMap_map]
  apply List.flatMap_congr
  intro j hj
  rw [List.mem_range] at hj
  rw [List.filterMap_map, ← filterMap_range_lt _ hj.le]
  apply List.filterMap_congr
  intro i hi
  rw [List.mem_range] at hi
  simp only [Function.comp]
  have e1 : days.getD j default = days[j] := by simp [List.getD_eq_getElem?_getD, hj]
  have e2 : days.getD i default = days[i] := by simp [List.getD_eq_getElem?_getD, hi]
  rw [e1, e2]
  have hiff : ((days[i].day : ℚ) < days[j].day) ↔ i < j := by
    rw [Nat.cast_lt]
    constructor
    · intro h
      by_contra hc
      rcases Nat.lt_or_eq_of_le (not_lt.mp hc) with h' | h'
      · have := List.pairwise_iff_getElem.mp hs j i hj hi h'
        omega
      · subst h'
        omega
    · intro h
      exact List.pairwise_iff_getElem.mp hs i j hi hj h
  by_cases h : i < j
  · rw [if_pos (hiff.mpr h), if_pos h]
  · rw [if_neg (fun c => h (hiff.mp c)), if_neg h]


theorem positiveDays_sorted {rows : List SrrRow} (H : DailyRows rows) (r : Nat) :
    (positiveDays rows r).Pairwise fun d e => d.day < e.day := by
  have hs : (positiveDays rows r).Pairwise fun d e => d.t < e.t := H.sorted.sublist List.filter_sublist
  rw [List.pairwise_iff_getElem] at hs ⊢
  intro i j hi hj hij
  exact (H.day_lt (List.mem_filter.mp (List.getElem_mem hi)).1 (List.mem_filter.mp (List.getElem_mem hj)).1).mp
    (hs i j hi hj hij)

theorem daySlopes_ne_nil {days : List SrrRow} (h : 2 ≤ days.length) : daySlopes days ≠ [] := by
  unfold daySlopes
  intro e
  rw [List.flatMap_eq_nil_iff] at e
  have := e 1 (List.mem_range.mpr (by omega))
  simp at this

theorem getD_getElem? {l : List ℚ} {k : Nat} (h : k < l.length) : l[k]? = some (l.getD k 0) := by
  rw [List.getD_eq_getElem?_getD, List.getElem?_eq_getElem h]
  rfl

theorem theil_isFit {zs : List (ℚ × ℚ) → ℚ} {days : List SrrRow} (hs : days.Pairwise fun d e => d.day < e.day)
    (h2 : 2 ≤ days.length) (hz : 0 ≤ zs (days.map fun d => ((d.day : ℚ), d.piNorm))) :
    IsFit days (zs (days.map fun d => ((d.day : ℚ), d.piNorm)))
      (theil zs (days.map fun d => ((d.day : ℚ), d.piNorm))).slope
      (theil zs (days.map fun d => ((d.day : ℚ), d.piNorm))).low
      (theil zs (days.map fun d => ((d.day : ℚ), d.piNorm))).high
      (fun x => (theil zs (days.map fun d => ((d.day : ℚ), d.piNorm))).slope * x +
        (theil zs (days.map fun d => ((d.day : ℚ), d.piNorm))).intercept) := by
  have hp := pairSlopes_days hs
  have hne := daySlopes_ne_nil h2
  set pts := days.map fun d => ((d.day : ℚ), d.piNorm) with hpts
  have hsne : sortQ (daySlopes days) ≠ [] := by
    intro e'
    have := sortQ_length_pos hne
    rw [e'] at this
    simp at this
  have hdne : days ≠ [] := by
    intro e'; rw [e'] at h2; simp at h2
  obtain ⟨sl, hsl⟩ := Option.isSome_iff_exists.mp (median_isSome.mpr hne)
  obtain ⟨my, hmy⟩ := Option.isSome_iff_exists.mp (median_isSome.mpr
    (show days.map SrrRow.piNorm ≠ [] by simpa using hdne))
  obtain ⟨md, hmd⟩ := Option.isSome_iff_exists.mp (median_isSome.mpr
    (show days.map (fun d => (d.day : ℚ)) ≠ [] by simpa using hdne))
  have hx : pts.map Prod.snd = days.map SrrRow.piNorm := by
    rw [hpts, List.map_map]; rfl
  have hy : pts.map Prod.fst = days.map (fun d => (d.day : ℚ)) := by
    rw [hpts, List.map_map]; rfl
  have hlen : (sortQ (daySlopes days)).length = (daySlopes days).length := (sortQ_perm _).length_eq
  have hpos := sortQ_length_pos hne
  have hT : theil zs pts = ⟨sl, my - sl * md,
      (sortQ (daySlopes days)).getD (max (roundHE ((((daySlopes days).length : Int) - zs pts) / 2) - 1) 0).toNat 0,
      (sortQ (daySlopes days)).getD (min (roundHE ((((daySlopes days).length : Int) + zs pts) / 2))
        (((daySlopes days).length : Int) - 1)).toNat 0⟩ := by
    unfold theil
    simp only
    rw [hp, if_neg hsne, hsl, hx, hy, hmy, hmd, hlen]
    rfl
  rw [hT]
  refine ⟨isMedian_iff.mpr hsl, ⟨sortQ (daySlopes days), _, _, sortQ_perm _, sortQ_pairwise _, roundsTo_iff.mpr rfl,
    roundsTo_iff.mpr rfl, ?_, ?_⟩, my, md, isMedian_iff.mpr hmy, isMedian_iff.mpr hmd, fun x => by ring⟩
  · push_cast
    apply getD_getElem?
    have hr := roundHE_le ((((daySlopes days).length : ℚ) - zs pts) / 2)
    have : (roundHE ((((daySlopes days).length : ℚ) - zs pts) / 2) : ℚ) < (daySlopes days).length + 1 := by
      have : (1 : ℚ) ≤ (daySlopes days).length := by rw [hlen] at hpos; exact_mod_cast hpos
      linarith
    have : roundHE ((((daySlopes days).length : ℚ) - zs pts) / 2) < ((daySlopes days).length : Int) + 1 := by exact_mod_cast this
    omega
  · push_cast
    apply getD_getElem?
    omega

/-- **C100 (fit).** The rate of a valid interval is the median of the slopes of all pairs of its days with
positive performance, each pair counted once; its lower bound and, capped at zero, its upper bound are the
slopes at the documented ranks; the losses at its start and end are on the line of that slope through the
median day and the median performance. -/
theorem C100_interval_fit {zs : List (ℚ × ℚ) → ℚ} (hz : ∀ p, 0 ≤ zs p) {o : ResultOpts}
    {rows : List SrrRow} (H : DailyRows rows) (hlen : 1 ≤ o.minIntervalLength)
    {r : List Interval × List (SrrRow × Option Interval)} (h : calcResultDf zs o rows = .ok r)
    {i : Interval} (hi : i ∈ r.1) (hv : i.valid = true) :
    ∃ z high line, 0 ≤ z ∧ IsFit (positiveDays rows i.run) z i.slope i.low high line ∧ i.high = min 0 high ∧
      ∃ a b, a ∈ rows ∧ b ∈ rows ∧ a.t = i.start ∧ b.t = i.stop ∧ i.infStart = line a.day ∧ i.infEnd = line b.day := by
  obtain ⟨h1, -, -⟩ := calcResultDf_ok h
  rw [h1] at hi
  obtain ⟨t1, t2, -⟩ := table_row hz hi
  obtain ⟨e1, e2, e3, a, z, ha, hz', hs, hst, hS, hE⟩ := t2 hv
  have hV := (t1.mp hv).1
  have hfit := theil_isFit (zs := zs) (positiveDays_sorted H i.run) (by omega) (hz _)
  rw [e1, e2]
  exact ⟨_, _, _, hz _, hfit, e3, a, z, ha, hz', hs.symm, hst.symm, hS, hE⟩

/-! ## linear soiling -/

theorem isMedian_const {l : List ℚ} {b m : ℚ} (hl : ∀ x ∈ l, x = b) (h : IsMedian l m) : m = b := by
  obtain ⟨l', hp, -, hne, rfl⟩ := h
  have hl' : ∀ x ∈ l', x = b := fun x hx => hl x (hp.mem_iff.mp hx)
  have hpos := List.length_pos_iff.mpr hne
  have g : ∀ k, k < l'.length → l'.getD k 0 = b := by
    intro k hk
    rw [List.getD_eq_getElem?_getD, List.getElem?_eq_getElem hk]
    exact hl' _ (List.getElem_mem hk)
  rw [g _ (by omega), g _ (by omega)]
  ring

theorem daySlopes_linear {days : List SrrRow} {c b : ℚ} (hs : days.Pairwise fun d e => d.day < e.day)
    (hlin : ∀ d ∈ days, d.piNorm = c + b * d.day) : ∀ x ∈ daySlopes days, x = b := by
  intro x hx
  unfold daySlopes at hx
  obtain ⟨j, hj, hx⟩ := List.mem_flatMap.mp hx
  obtain ⟨i, hi, rfl⟩ := List.mem_map.mp hx
  rw [List.mem_range] at hi hj
  have hi' : i < days.length := by omega
  have e1 : days.getD j default = days[j] := by simp [List.getD_eq_getElem?_getD, hj]
  have e2 : days.getD i default = days[i] := by simp [List.getD_eq_getElem?_getD, hi']
  have hlt := List.pairwise_iff_getElem.mp hs i j hi' hj hi
  have hlt' : (days[i].day : ℚ) < days[j].day := by exact_mod_cast hlt
  rw [e1, e2, hlin _ (List.getElem_mem hj), hlin _ (List.getElem_mem hi')]
  rw [div_eq_iff (by linarith)]
  ring

theorem isMedian_affine {l : List SrrRow} {c b my md : ℚ} (hlin : ∀ d ∈ l, d.piNorm = c + b * d.day) (hb : b ≤ 0)
    (hmy : IsMedian (l.map SrrRow.piNorm) my) (hmd : IsMedian (l.map fun d => (d.day : ℚ)) md) : my = c + b * md := by
  obtain ⟨s, hp, hs, hne, rfl⟩ := hmd
  have hm : IsMedian (l.map SrrRow.piNorm)
      (c + b * ((s.getD ((s.length - 1) / 2) 0 + s.getD (s.length / 2) 0) / 2)) := by
    refine ⟨(s.map fun x => c + b * x).reverse, ?_, ?_, by simpa using hne, ?_⟩
    · have e : l.map SrrRow.piNorm = (l.map fun d => (d.day : ℚ)).map fun x => c + b * x := by
        rw [List.map_map]
        exact List.map_congr_left fun d hd => hlin d hd
      rw [e]
      exact (List.reverse_perm _).trans (hp.map _)
    · rw [List.pairwise_reverse, List.pairwise_map]
      exact hs.imp fun h => by nlinarith
    · have hpos := List.length_pos_iff.mpr hne
      have g : ∀ k, k < s.length → (s.map fun x => c + b * x).reverse.getD k 0 = c + b * s.getD (s.length - 1 - k) 0 := by
        intro k hk
        have h1 : k < (s.map fun x => c + b * x).reverse.length := by simpa using hk
        have h2 : s.length - 1 - k < s.length := by omega
        rw [List.getD_eq_getElem?_getD, List.getD_eq_getElem?_getD, List.getElem?_eq_getElem h1, List.getElem?_eq_getElem h2,
          Option.getD_some, Option.getD_some, List.getElem_reverse, List.getElem_map]
        simp only [List.length_map]
      simp only [List.length_reverse, List.length_map]
      rw [g _ (by omega), g _ (by omega)]
      have i1 : s.length - 1 - (s.length - 1) / 2 = s.length / 2 := by omega
      have i2 : s.length - 1 - s.length / 2 = (s.length - 1) / 2 := by omega
      rw [i1, i2]
      ring
  rw [isMedian_iff] at hmy hm
  rw [hmy] at hm
  exact Option.some.inj hm

/-- a row of the table whose days lie on a line -/
theorem linear_row {zs : List (ℚ × ℚ) → ℚ} (hz : ∀ p, 0 ≤ zs p) {o : ResultOpts}
    {rows : List SrrRow} (H : DailyRows rows) (hlen : 1 ≤ o.minIntervalLength) (ho : 0 < o.maxRelSlopeError)
    {i : Interval} (hi : i ∈ intervalTable zs o rows) {c b : ℚ} (hb : b ≤ 0)
    (hlin : ∀ d ∈ positiveDays rows i.run, d.piNorm = c + b * d.day)
    (hl : o.minIntervalLength < (positiveDays rows i.run).length)
    (hstep : ∀ d ∈ positiveDays rows i.run, -o.maxNegativeStep < d.delta) :
    i.valid = true ∧ i.slope = b ∧ i.low = b ∧ i.high = b ∧
      ∃ a z, a ∈ rows ∧ z ∈ rows ∧ a.t = i.start ∧ z.t = i.stop ∧ i.infStart = c + b * a.day ∧ i.infEnd = c + b * z.day := by
  have hsorted := positiveDays_sorted H i.run
  have hfit := theil_isFit (zs := zs) hsorted (by omega) (hz _)
  have hslope := isMedian_const (daySlopes_linear hsorted hlin) hfit.median
  have hbounds : (theil zs ((positiveDays rows i.run).map fun d => ((d.day : ℚ), d.piNorm))).low = b ∧
      (theil zs ((positiveDays rows i.run).map fun d => ((d.day : ℚ), d.piNorm))).high = b := by
    obtain ⟨s, u, v, hp, -, -, -, h1, h2⟩ := hfit.bounds
    have hm : ∀ x ∈ s, x = b := fun x hx => daySlopes_linear hsorted hlin x (hp.mem_iff.mp hx)
    exact ⟨hm _ (List.mem_of_getElem? h1), hm _ (List.mem_of_getElem? h2)⟩
  have hv : i.valid = true := by
    rw [(table_row hz hi).1]
    unfold posPoints
    refine ⟨hl, by rw [hslope]; exact hb, fun hneg => ?_, fun h0 => ?_, hstep⟩
    · rw [hslope] at hneg ⊢
      rw [hbounds.1, hbounds.2, min_eq_right hb, sub_self, mul_zero]
      exact mul_pos ho (by linarith)
    · rw [hbounds.1, hbounds.2]
      exact min_le_right _ _
  obtain ⟨-, t2, -⟩ := table_row hz hi
  obtain ⟨e1, e2, e3, a, z, ha, hz', hs, hst, hS, hE⟩ := t2 hv
  obtain ⟨my, md, hmy, hmd, hline⟩ := hfit.through
  have hmy' := isMedian_affine hlin hb hmy hmd
  refine ⟨hv, e1.trans hslope, e2.trans hbounds.1, ?_, a, z, ha, hz', hs.symm, hst.symm, ?_, ?_⟩
  · rw [e3]
    have : (theil zs (posPoints rows i.run)).high = b := hbounds.2
    rw [this, min_eq_right hb]
  · refine hS.trans ((hline a.day).trans ?_)
    rw [hslope, hmy']; ring
  · refine hE.trans ((hline z.day).trans ?_)
    rw [hslope, hmy']; ring

/-- **C100 (linear soiling).** If over the days of an interval with positive performance the normalized
performance falls on a straight line with slope `b ≤ 0`, there are more than the minimum number of days
and no large negative step, the interval is valid and its rate, both bounds and the losses at its start and
end are exactly those of the line. -/
theorem C100_linear_recovered {zs : List (ℚ × ℚ) → ℚ} (hz : ∀ p, 0 ≤ zs p) {o : ResultOpts}
    {rows : List SrrRow} (H : DailyRows rows) (hlen : 1 ≤ o.minIntervalLength) (ho : 0 < o.maxRelSlopeError)
    {r : List Interval × List (SrrRow × Option Interval)} (h : calcResultDf zs o rows = .ok r)
    {i : Interval} (hi : i ∈ r.1) {c b : ℚ} (hb : b ≤ 0)
    (hlin : ∀ d ∈ positiveDays rows i.run, d.piNorm = c + b * d.day)
    (hl : o.minIntervalLength < (positiveDays rows i.run).length)
    (hstep : ∀ d ∈ positiveDays rows i.run, -o.maxNegativeStep < d.delta) :
    i.valid = true ∧ i.slope = b ∧ i.low = b ∧ i.high = b ∧
      ∃ a z, a ∈ rows ∧ z ∈ rows ∧ a.t = i.start ∧ z.t = i.stop ∧ i.infStart = c + b * a.day ∧ i.infEnd = c + b * z.day :=
  linear_row hz H hlen ho ((calcResultDf_ok h).1 ▸ hi) hb hlin hl hstep

/-- the two intervals of `SrrEx.pm` lie on lines of slope -1/10 -/
example : ((calcDailyDf SrrEx.opts SrrEx.pm SrrEx.insol none).toOption.map fun r : Cell × List SrrRow =>
    (decide (∀ d ∈ positiveDays r.2 0, d.piNorm = 1 + (-1/10) * (d.day : ℚ)),
      decide (∀ d ∈ positiveDays r.2 1, d.piNorm = 14/10 + (-1/10) * (d.day : ℚ)),
      (positiveDays r.2 0).length, decide (∀ d ∈ positiveDays r.2 0, -(1/2 : ℚ) < d.delta))) =
    some (true, true, 4, true) := by decide +kernel
example : ((calcDailyDf SrrEx.opts SrrEx.pm SrrEx.insol none).toOption.map fun r : Cell × List SrrRow => daySlopes (positiveDays r.2 1)) =
    some [-1/10, -1/10, -1/10, -1/10, -1/10, -1/10] := by decide +kernel
example : RoundsTo (5 / 2) 2 ∧ ¬ RoundsTo (5 / 2) 3 ∧ RoundsTo (7 / 2) 4 := by
  rw [roundsTo_iff, roundsTo_iff, roundsTo_iff]
  decide +kernel

end Verif
