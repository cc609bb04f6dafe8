import Verif.Model.Plotting
import Verif.Lemmas.Filtering
import Verif.Props.YearOnYear

/-! # Property C88 (degradation over time) -/

namespace Verif.Plots
open Verif

/-- the numbers among the readings of the `days` days up to and including `t` -/
def Spec.InWindow (s : Series) (days : Nat) (t : Int) (x : ℚ) : Prop :=
  ∃ u, (u, some x) ∈ s ∧ t - (days : Int) * dayNs < u ∧ u ≤ t

/-- how many there are -/
def Spec.windowCount (s : Series) (days : Nat) (t : Int) : Nat :=
  (s.filter fun r => r.2.isSome && decide (t - (days : Int) * dayNs < r.1 ∧ r.1 ≤ t)).length

/-- for every row, draws with replacement from the rows of its window -/
def Spec.ValidPick (s : Series) (days : Nat) (pick : Nat → Nat → Nat → Nat) : Prop :=
  ∀ x ∈ s.zipIdx, ∀ r k,
    k < (s.filter fun y => decide (x.1.1 - (days : Int) * dayNs < y.1 ∧ y.1 ≤ x.1.1)).length →
    pick x.2 r k < (s.filter fun y => decide (x.1.1 - (days : Int) * dayNs < y.1 ∧ y.1 ≤ x.1.1)).length

theorem mem_valids {l : List Cell} {x : ℚ} : x ∈ valids l ↔ some x ∈ l := by
  unfold valids; simp

theorem mem_window {s : Series} {days : Nat} {t : Int} {x : ℚ} :
    x ∈ valids (window days s t) ↔ Spec.InWindow s days t x := by
  rw [mem_valids]
  unfold window Spec.InWindow
  simp only [List.mem_map, List.mem_filter, decide_eq_true_eq, Prod.exists, exists_eq_right]

theorem valids_length (s : Series) : (valids (s.map Prod.snd)).length = (s.filter fun r => r.2.isSome).length := by
  induction s with
  | nil => rfl
  | cons a s ih =>
    obtain ⟨t, c⟩ := a
    cases c with
    | none => simpa [valids] using ih
    | some v => simpa [valids] using ih

theorem window_count (s : Series) (days : Nat) (t : Int) :
    (valids (window days s t)).length = Spec.windowCount s days t := by
  unfold window Spec.windowCount
  rw [valids_length, List.filter_filter]

theorem timeseriesPlot_ok {pl ph : Nat → Nat → Nat → Nat} {values : Option Series} {days : Nat} {ci : Bool}
    {fig : TimeFig} (h : timeseriesPlot pl ph values days ci = .ok fig) :
    ∃ s, values = some s ∧ (s.map Prod.fst).Pairwise (· ≤ ·) ∧
      fig.band = (if ci then
          some (s.zipIdx.map fun x => (x.1.1, edge (pl x.2) days s (25 / 10) x.1.1,
            edge (ph x.2) days s (975 / 10) x.1.1))
          else none) ∧
      fig.trend = s.map (fun r => (r.1, rollMedianT days s r.1)) ∧
      fig.overall = median (valids (s.map Prod.snd)) := by
  cases values with
  | none => cases h
  | some s =>
    simp only [timeseriesPlot] at h
    by_cases hp : (s.map Prod.fst).Pairwise (· ≤ ·)
    · rw [if_neg (not_not.mpr hp)] at h
      cases h
      exact ⟨s, rfl, hp, rfl, rfl, rfl⟩
    · rw [if_pos hp] at h; cases h

/-- **C88 (when there is a figure).** Missing year-on-year values are reported as a missing key, unordered ones are
refused, and in all other cases a figure is drawn. -/
theorem C88_total (pl ph : Nat → Nat → Nat → Nat) (days : Nat) (ci : Bool) (s : Series) :
    timeseriesPlot pl ph none days ci = .error .keyError ∧
    (¬ (s.map Prod.fst).Pairwise (· ≤ ·) → timeseriesPlot pl ph (some s) days ci = .error .valueError) ∧
    ((s.map Prod.fst).Pairwise (· ≤ ·) → ∃ fig, timeseriesPlot pl ph (some s) days ci = .ok fig) := by
  refine ⟨rfl, fun h => ?_, fun h => ?_⟩
  · simp only [timeseriesPlot, if_pos h]
  · simp only [timeseriesPlot, if_neg (not_not.mpr h)]
    exact ⟨_, rfl⟩

/-- **C88 (trend).** The trend has one point per year-on-year value. It is drawn exactly where the preceding days
hold at least half as many values as days; there it is their median and lies between the smallest and the largest
of them. -/
theorem C88_trend {pl ph : Nat → Nat → Nat → Nat} {s : Series} {days : Nat} {ci : Bool}
    {fig : TimeFig} (h : timeseriesPlot pl ph (some s) days ci = .ok fig) :
    fig.trend.map Prod.fst = s.map Prod.fst ∧
    ∀ t v, (t, v) ∈ fig.trend →
      (v.isSome ↔ days / 2 ≤ Spec.windowCount s days t ∧ 0 < Spec.windowCount s days t) ∧
      ∀ m, v = some m →
        Verif.Spec.IsMedian ((s.filter fun r =>
          decide (t - (days : Int) * dayNs < r.1 ∧ r.1 ≤ t)).filterMap Prod.snd) m ∧
        (∀ lo, (∀ x, Spec.InWindow s days t x → lo ≤ x) → lo ≤ m) ∧
        (∀ hi, (∀ x, Spec.InWindow s days t x → x ≤ hi) → m ≤ hi) := by
  obtain ⟨s', hs, -, -, ht, -⟩ := timeseriesPlot_ok h
  cases hs
  refine ⟨by rw [ht]; simp, fun t v hv => ?_⟩
  rw [ht] at hv
  obtain ⟨r, hr, he⟩ := List.mem_map.mp hv
  simp only [Prod.mk.injEq] at he
  obtain ⟨rfl, rfl⟩ := he
  unfold rollMedianT
  simp only
  rw [window_count]
  constructor
  · by_cases hc : Spec.windowCount s days r.1 < days / 2
    · rw [if_pos hc]
      simp only [Option.isSome_none, Bool.false_eq_true, false_iff]
      omega
    · rw [if_neg hc]
      unfold median
      rw [quantile_isSome, ← List.length_pos_iff, window_count]
      omega
  · intro m hm
    split_ifs at hm with hc
    have hmed := hm
    unfold median at hm
    refine ⟨isMedian_iff.mpr ?_, fun lo hlo => quantile_ge hm (by norm_num) (by norm_num) fun x hx => hlo x (mem_window.mp hx),
      fun hi hhi => quantile_le hm (by norm_num) (by norm_num) fun x hx => hhi x (mem_window.mp hx)⟩
    rw [← hmed]
    unfold window valids
    rw [List.filterMap_map]
    rfl

/-- **C88 (locality).** A point of the trend depends on nothing but the values of the preceding days. -/
theorem C88_local {pl ph pl' ph' : Nat → Nat → Nat → Nat} {s s' : Series} {days : Nat} {ci ci' : Bool}
    {fig fig' : TimeFig} (h : timeseriesPlot pl ph (some s) days ci = .ok fig)
    (h' : timeseriesPlot pl' ph' (some s') days ci' = .ok fig') {t : Int} {v v' : Cell}
    (hv : (t, v) ∈ fig.trend) (hv' : (t, v') ∈ fig'.trend)
    (heq : (s.filter fun r => decide (t - (days : Int) * dayNs < r.1 ∧ r.1 ≤ t)) =
      s'.filter fun r => decide (t - (days : Int) * dayNs < r.1 ∧ r.1 ≤ t)) : v = v' := by
  obtain ⟨_, hs, -, -, ht, -⟩ := timeseriesPlot_ok h
  cases hs
  obtain ⟨_, hs, -, -, ht', -⟩ := timeseriesPlot_ok h'
  cases hs
  rw [ht] at hv
  rw [ht'] at hv'
  obtain ⟨r, -, he⟩ := List.mem_map.mp hv
  obtain ⟨r', -, he'⟩ := List.mem_map.mp hv'
  simp only [Prod.mk.injEq] at he he'
  obtain ⟨rfl, rfl⟩ := he
  obtain ⟨hr, rfl⟩ := he'
  unfold rollMedianT window
  rw [hr, heq]

theorem bootPercentile_range {pick : Nat → Nat → Nat} {x : List Cell} {p m : ℚ}
    (hpick : ∀ r k, k < x.length → pick r k < x.length) (hp0 : 0 ≤ p) (hp1 : p ≤ 100)
    (h : bootPercentile pick x p = some m) :
    (∀ lo, (∀ y ∈ valids x, lo ≤ y) → lo ≤ m) ∧ (∀ hi, (∀ y ∈ valids x, y ≤ hi) → m ≤ hi) := by
  unfold bootPercentile at h
  simp only at h
  split_ifs at h
  have hq0 : 0 ≤ p / 100 := by positivity
  have hq1 : p / 100 ≤ 1 := by rw [div_le_one (by norm_num)]; exact hp1
  have draw : ∀ r y, y ∈ valids ((List.range x.length).map fun k : Nat => x.getD (pick r k) none) → y ∈ valids x := by
    intro r y hy
    rw [mem_valids] at hy ⊢
    obtain ⟨k, hk, hy⟩ := List.mem_map.mp hy
    have hb := hpick r k (List.mem_range.mp hk)
    rw [List.getD_eq_getElem?_getD, List.getElem?_eq_getElem hb, Option.getD_some] at hy
    rw [← hy]; exact List.getElem_mem hb
  have mem : ∀ w ∈ valids ((List.range 100).map fun r : Nat =>
      median (valids ((List.range x.length).map fun k : Nat => x.getD (pick r k) none))),
      ∃ r, median (valids ((List.range x.length).map fun k : Nat => x.getD (pick r k) none)) = some w := by
    intro w hw
    rw [mem_valids] at hw
    obtain ⟨r, -, hr⟩ := List.mem_map.mp hw
    exact ⟨r, hr⟩
  constructor
  · intro lo hlo
    refine quantile_ge h hq0 hq1 fun w hw => ?_
    obtain ⟨r, hr⟩ := mem w hw
    exact quantile_ge hr (by norm_num) (by norm_num) fun y hy => hlo y (draw r y hy)
  · intro hi hhi
    refine quantile_le h hq0 hq1 fun w hw => ?_
    obtain ⟨r, hr⟩ := mem w hw
    exact quantile_le hr (by norm_num) (by norm_num) fun y hy => hhi y (draw r y hy)

/-- **C88 (band), partial.** Whatever is drawn at random, both edges of the band lie between the smallest and the
largest value of the preceding days. Missing: that the lower edge is below the upper one, see the next theorem. -/
theorem C88_band_range_partial {s : Series} {days : Nat} {pl ph : Nat → Nat → Nat → Nat}
    (hpl : Spec.ValidPick s days pl) (hph : Spec.ValidPick s days ph) {fig : TimeFig} (h : timeseriesPlot pl ph (some s) days true = .ok fig) :
    ∃ b, fig.band = some b ∧ b.map Prod.fst = s.map Prod.fst ∧
      ∀ t lo hi m, (t, lo, hi) ∈ b → (lo = some m ∨ hi = some m) →
        (∀ x, (∀ y, Spec.InWindow s days t y → x ≤ y) → x ≤ m) ∧
        (∀ x, (∀ y, Spec.InWindow s days t y → y ≤ x) → m ≤ x) := by
  obtain ⟨_, hs, -, hb, -, -⟩ := timeseriesPlot_ok h
  cases hs
  rw [if_pos rfl] at hb
  refine ⟨_, hb, ?_, ?_⟩
  · rw [List.map_map]
    conv_rhs => rw [← List.zipIdx_map_fst 0 s, List.map_map]
    rfl
  · intro t lo hi m hm hd
    obtain ⟨⟨r, i⟩, hri, he⟩ := List.mem_map.mp hm
    simp only [Prod.mk.injEq] at he
    obtain ⟨rfl, rfl, rfl⟩ := he
    have key : ∀ (pick : Nat → Nat → Nat → Nat), Spec.ValidPick s days pick → ∀ p : ℚ, 0 ≤ p → p ≤ 100 →
        edge (pick i) days s p r.1 = some m →
        (∀ x, (∀ y, Spec.InWindow s days r.1 y → x ≤ y) → x ≤ m) ∧
        (∀ x, (∀ y, Spec.InWindow s days r.1 y → y ≤ x) → m ≤ x) := by
      intro pick hpick p h0 h1 he
      unfold edge at he
      simp only at he
      split_ifs at he
      obtain ⟨ha, hb⟩ := bootPercentile_range (fun q k hk => by
        have := hpick (r, i) hri q k
        simp only [window, List.length_map] at hk ⊢
        exact this hk) h0 h1 he
      exact ⟨fun x hx => ha x fun y hy => hx y (mem_window.mp hy),
        fun x hx => hb x fun y hy => hx y (mem_window.mp hy)⟩
    rcases hd with hd | hd
    · exact key pl hpl _ (by norm_num) (by norm_num) hd
    · exact key ph hph _ (by norm_num) (by norm_num) hd

/-- **C88 is false for the band**: the two edges are drawn from independent samples, so the lower edge may end up
above the upper one. -/
theorem C88_band_order_refuted :
    ∃ (pl ph : Nat → Nat → Nat → Nat) (s : Series) (t : Int), Spec.ValidPick s 2 pl ∧ Spec.ValidPick s 2 ph ∧
      ((timeseriesPlot pl ph (some s) 2 true).map fun fig => fig.band.map fun b => b.getLast?) =
        .ok (some (some (t, some 1, some 0))) := by
  refine ⟨fun i _ _ => i, fun _ _ _ => 0, [(0, some 0), (dayNs, some 1)], dayNs, ?_, ?_, by decide +kernel⟩
  · intro x hx r k _
    simp only [List.zipIdx_cons, List.zipIdx_nil, List.mem_cons, List.not_mem_nil, or_false] at hx
    rcases hx with rfl | rfl
    · change 0 < _; decide +kernel
    · change 1 < _; decide +kernel
  · intro x hx r k hk
    simp only at hk ⊢
    omega

/-- **C88 (overall line).** In the figure of a year-on-year analysis the horizontal line is the reported rate. -/
theorem C88_overall {inferFreq : List Int → Option Int} {recenter : Bool} {exceed conf : ℚ}
    {method : Uncertainty} {block : Nat} {choose : List ℚ → List (List ℚ)} {draws : List (List Nat)}
    {s : Series} {r : YoYResult} {pl ph : Nat → Nat → Nat → Nat} {days : Nat} {ci : Bool} {fig : TimeFig}
    (h : yoy inferFreq recenter exceed conf method block choose draws s = .ok r)
    (hf : timeseriesPlot pl ph (some (r.values.map fun p => (p.1, some p.2))) days ci = .ok fig) :
    fig.overall = some r.rd := by
  obtain ⟨_, hs, -, -, -, ho⟩ := timeseriesPlot_ok hf
  cases hs
  obtain ⟨c0, hc0, hrd, -, -, hv⟩ := yoy_ok h
  obtain ⟨-, -, -, hrt, hmed⟩ := yoyCore_ok hc0
  rw [ho, hrd, ← hmed, hrt, hv, List.map_map]
  congr 1
  unfold valids
  rw [List.filterMap_map, List.filterMap_filterMap, List.filterMap_map]
  congr 1
  funext x
  simp only [Function.comp_apply, id]
  cases x.yoy <;> rfl

/-- numbers at least `g` apart in a half-open range -/
theorem spaced_count {l : List Int} {g lo w : Int} (hl : l.Pairwise fun a b => a + g ≤ b)
    (h : ∀ x ∈ l, lo < x ∧ x ≤ lo + w) (hne : l ≠ []) : ((l.length : Int) - 1) * g < w := by
  induction l generalizing lo w with
  | nil => exact absurd rfl hne
  | cons a l ih =>
    rw [List.pairwise_cons] at hl
    have ha := h a (by simp)
    by_cases hnil : l = []
    · subst hnil; simp; omega
    · have := ih (lo := a + g - 1) (w := lo + w - (a + g - 1)) hl.2
        (fun x hx => ⟨by have := hl.1 x hx; omega, by have := (h x (by simp [hx])).2; omega⟩) hnil
      rw [List.length_cons]
      push_cast
      nlinarith

/-- **C88 is false for weekly data**: with values a week or more apart no point of the trend and of the band is
drawn at all, however many years there are, for every window of at least four days. -/
theorem C88_weekly_refuted {pl ph : Nat → Nat → Nat → Nat} {s : Series} {days : Nat} {ci : Bool}
    (hs : (s.map Prod.fst).Pairwise fun a b => a + 7 * dayNs ≤ b) (hd : 4 ≤ days) :
    ∃ fig, timeseriesPlot pl ph (some s) days ci = .ok fig ∧ (∀ p ∈ fig.trend, p.2 = none) ∧
      ∀ b, fig.band = some b → ∀ p ∈ b, p.2.1 = none ∧ p.2.2 = none := by
  have hpos : (0 : Int) < dayNs := by decide
  have hsort : (s.map Prod.fst).Pairwise (· ≤ ·) := hs.imp fun {a b} h => by omega
  obtain ⟨fig, hf⟩ := (C88_total pl ph days ci s).2.2 hsort
  obtain ⟨_, hs', -, hb, ht, -⟩ := timeseriesPlot_ok hf
  cases hs'
  have few : ∀ t, (valids (window days s t)).length < days / 2 := by
    intro t
    rw [window_count]
    unfold Spec.windowCount
    generalize hk : (s.filter fun r => r.2.isSome && decide (t - (days : Int) * dayNs < r.1 ∧ r.1 ≤ t)) = k
    by_cases hne : k = []
    · subst hne; simp; omega
    · have h1 : (k.map Prod.fst).Pairwise fun a b => a + 7 * dayNs ≤ b := by
        rw [← hk]
        exact hs.sublist (List.filter_sublist.map _)
      have h2 := spaced_count (lo := t - (days : Int) * dayNs) (w := (days : Int) * dayNs) h1
        (by
          intro x hx
          obtain ⟨r, hr, rfl⟩ := List.mem_map.mp hx
          rw [← hk, List.mem_filter] at hr
          have := hr.2
          simp only [Bool.and_eq_true, decide_eq_true_eq] at this
          omega) (by simpa using hne)
      rw [List.length_map] at h2
      have h3 : ((k.length : Int) - 1) * 7 < days := by
        have : (((k.length : Int) - 1) * 7) * dayNs < days * dayNs := by
          calc (((k.length : Int) - 1) * 7) * dayNs = ((k.length : Int) - 1) * (7 * dayNs) := by ring
            _ < _ := h2
        exact lt_of_mul_lt_mul_right this hpos.le
      omega
  refine ⟨fig, hf, ?_, ?_⟩
  · intro p hp
    rw [ht] at hp
    obtain ⟨r, -, rfl⟩ := List.mem_map.mp hp
    simp only [rollMedianT]
    rw [if_pos (few r.1)]
  · intro b hbb p hp
    rw [hb] at hbb
    split_ifs at hbb
    cases hbb
    obtain ⟨⟨r, i⟩, -, rfl⟩ := List.mem_map.mp hp
    simp only [edge]
    rw [if_pos (few r.1), if_pos (few r.1)]
    exact ⟨rfl, rfl⟩

/-- **C88 (daily data), partial.** With a value for every day the trend is drawn from the day on that has half a
window before it. -/
theorem C88_daily_partial {pl ph : Nat → Nat → Nat → Nat} {a : Int} {l : List ℚ} {days : Nat} {ci : Bool}
    {i : Nat} (hi : i < l.length) (h2 : days / 2 ≤ i + 1) (hd : 1 ≤ days) :
    ∃ fig v, timeseriesPlot pl ph
        (some (l.zipIdx.map fun x => (a + (x.2 : Int) * dayNs, some x.1))) days ci = .ok fig ∧
      (a + (i : Int) * dayNs, some v) ∈ fig.trend := by
  have hpos : (0 : Int) < dayNs := by decide
  generalize hs : (l.zipIdx.map fun x => (a + (x.2 : Int) * dayNs, some x.1) : Series) = s
  have hlen : s.length = l.length := by rw [← hs]; simp
  have hget : ∀ j (hj : j < s.length), (s[j]).1 = a + (j : Int) * dayNs ∧ (s[j]).2.isSome := by
    intro j hj
    subst hs
    simp
  have hsort : (s.map Prod.fst).Pairwise (· ≤ ·) := by
    rw [List.pairwise_map, List.pairwise_iff_getElem]
    intro j k hj hk hjk
    rw [(hget j hj).1, (hget k hk).1]
    have : (j : Int) * dayNs ≤ (k : Int) * dayNs := by
      apply mul_le_mul_of_nonneg_right _ hpos.le
      exact_mod_cast hjk.le
    omega
  obtain ⟨fig, hf⟩ := (C88_total pl ph days ci s).2.2 hsort
  have hi' : i < s.length := by omega
  have hmem : a + (i : Int) * dayNs ∈ fig.trend.map Prod.fst := by
    rw [(C88_trend hf).1, ← (hget i hi').1]
    exact List.mem_map_of_mem (List.getElem_mem hi')
  obtain ⟨⟨t, v⟩, hv, ht⟩ := List.mem_map.mp hmem
  simp only at ht
  subst ht
  have hcount : min (i + 1) days ≤ Spec.windowCount s days (a + (i : Int) * dayNs) := by
    unfold Spec.windowCount
    have hsub := List.Sublist.filter
      (fun r : Int × Cell => r.2.isSome && decide (a + (i : Int) * dayNs - (days : Int) * dayNs < r.1 ∧
        r.1 ≤ a + (i : Int) * dayNs))
      ((List.drop_sublist (i + 1 - days) (s.take (i + 1))).trans (List.take_sublist (i + 1) s))
    have hall : ((s.take (i + 1)).drop (i + 1 - days)).filter
        (fun r : Int × Cell => r.2.isSome && decide (a + (i : Int) * dayNs - (days : Int) * dayNs < r.1 ∧
        r.1 ≤ a + (i : Int) * dayNs)) = (s.take (i + 1)).drop (i + 1 - days) := by
      rw [List.filter_eq_self]
      intro r hr
      obtain ⟨j, hj, rfl⟩ := List.mem_iff_getElem.mp hr
      simp only [List.length_drop, List.length_take] at hj
      simp only [List.getElem_drop, List.getElem_take]
      have h1 := hget (i + 1 - days + j) (by omega)
      simp only [h1.1, h1.2, Bool.true_and, decide_eq_true_eq]
      have e1 : ((i + 1 - days + j : Nat) : Int) ≤ i := by omega
      have e2 : (i : Int) - days < ((i + 1 - days + j : Nat) : Int) := by omega
      have m1 := mul_le_mul_of_nonneg_right e1 hpos.le
      have m2 := mul_lt_mul_of_pos_right e2 hpos
      rw [sub_mul] at m2
      omega
    rw [hall] at hsub
    have := hsub.length_le
    simp only [List.length_drop, List.length_take] at this
    omega
  have := ((C88_trend hf).2 _ v hv).1.mpr ⟨by omega, by omega⟩
  obtain ⟨m, hm⟩ := Option.isSome_iff_exists.mp this
  exact ⟨fig, m, hf, hm ▸ hv⟩

example : ((timeseriesPlot (fun _ _ _ => 0) (fun _ _ _ => 0)
    (some ([1, 5, 2, 4].zipIdx.map fun x => (((x.2 : Nat) : Int) * dayNs, some x.1))) 3 false).map
      fun fig => (fig.trend.map Prod.snd, fig.overall)) =
    .ok ([some 1, some 3, some 2, some 4], some 3) := by decide +kernel

example : ((timeseriesPlot (fun _ _ _ => 0) (fun _ _ _ => 0)
    (some ([1, 5, 2, 4].zipIdx.map fun x => (((x.2 : Nat) : Int) * 7 * dayNs, some x.1))) 28 true).map
      fun fig => fig.trend.map Prod.snd) =
    .ok [none, none, none, none] := by decide +kernel

end Verif.Plots
