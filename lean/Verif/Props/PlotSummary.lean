import Verif.Model.Plotting
import Verif.Props.YearOnYear

/-! # Property C87 (degradation summary figure) -/

namespace Verif.Plots
open Verif

/-- the meaning of the colours: never used, used once, used twice -/
def Spec.palette : List (Nat × Color) := [(0, .red), (1, .green), (2, .plot)]

theorem colorOf_palette {n : Nat} {c : Color} : colorOf n = some c ↔ (n, c) ∈ Spec.palette := by
  unfold Spec.palette colorOf
  split <;> simp_all [eq_comm]

theorem colorOf_le {n : Nat} (h : n ≤ 2) : ∃ c, colorOf n = some c := by
  obtain rfl | rfl | rfl : n = 0 ∨ n = 1 ∨ n = 2 := by omega
  all_goals exact ⟨_, rfl⟩

theorem mapM_colorOf {l : List (Int × Nat)} {c : List Color}
    (h : (l.mapM fun u => colorOf u.2) = some c) :
    List.Forall₂ (fun (u : Int × Nat) x => colorOf u.2 = some x) l c := by
  induction l generalizing c with
  | nil => simp_all
  | cons a l ih =>
    rw [List.mapM_cons] at h
    cases ha : colorOf a.2 with
    | none => simp [ha] at h
    | some x =>
      cases hl : (l.mapM fun u => colorOf u.2) with
      | none => simp [ha, hl] at h
      | some y =>
        simp only [ha, hl, Option.bind_eq_bind, Option.bind_some, Option.pure_def, Option.some.injEq] at h
        subst h
        exact .cons ha (ih hl)

theorem mapM_colorOf_exists {l : List (Int × Nat)} (h : ∀ p ∈ l, p.2 ≤ 2) :
    ∃ c, (l.mapM fun u => colorOf u.2) = some c ∧ c.length = l.length := by
  induction l with
  | nil => exact ⟨[], rfl, rfl⟩
  | cons a l ih =>
    obtain ⟨x, hx⟩ := colorOf_le (h a (by simp))
    obtain ⟨c, hc, hl⟩ := ih fun p hp => h p (by simp [hp])
    exact ⟨x :: c, by simp [List.mapM_cons, hx, hc], by simp [hl]⟩

theorem pointColors_length {d : Bool} {u : List (Int × Nat)} {n : Nat} {c : List Color}
    (h : pointColors d u n = .ok c) : c.length = n := by
  unfold pointColors at h
  split at h
  · split at h
    · cases h
    · split at h
      · cases h; assumption
      · cases h
  · cases h; simp

/-- what a figure contains -/
theorem summaryPlot_ok {rd : ℚ} {info : YoYResult} {y : Series} {bins : Option Int} {d : Bool}
    {fig : SummaryFig} (h : summaryPlot rd info y bins d = .ok fig) :
    ∃ a l c, y = a :: l ∧ pointColors d info.usage y.length = .ok c ∧
      1 ≤ summaryBins bins info.values.length ∧
      fig = { hist := info.values.map Prod.snd
              bins := (summaryBins bins info.values.length).toNat
              rate := rd
              count := if d then some info.values.length else none
              points := (renormalized y info.renorm).zip c
              line := ((a.1, 1), ((y.getLastD a).1, lineEnd rd a.1 (y.getLastD a).1)) } := by
  cases y with
  | nil => cases h
  | cons a l =>
    simp only [summaryPlot] at h
    by_cases hb : summaryBins bins info.values.length < 1
    · rw [if_pos hb] at h; cases h
    rw [if_neg hb] at h
    cases hc : pointColors d info.usage (a :: l).length with
    | error e => rw [hc] at h; cases h
    | ok c =>
      rw [hc] at h
      cases h
      exact ⟨a, l, c, rfl, rfl, by omega, rfl⟩

/-- **C87 (points).** Every reading is drawn exactly once, in the given order, at its own time and divided by the
recentering factor. -/
theorem C87_points {rd : ℚ} {info : YoYResult} {y : Series} {bins : Option Int} {d : Bool}
    {fig : SummaryFig} (h : summaryPlot rd info y bins d = .ok fig) {f : ℚ}
    (hf : info.renorm = some f) (h0 : f ≠ 0) :
    fig.points.map Prod.fst = y.map fun r => (r.1, r.2.map (· / f)) := by
  obtain ⟨a, l, c, rfl, hc, -, rfl⟩ := summaryPlot_ok h
  have hl := pointColors_length hc
  simp only
  rw [List.map_fst_zip (by simp [renormalized, hl]), hf]
  unfold renormalized
  apply List.map_congr_left
  intro r _
  have : (some f : Cell) ≠ some 0 := by simpa using h0
  rw [if_neg this]
  cases r.2 <;> rfl

/-- **C87 (histogram).** The histogram shows exactly the year-on-year values, in at least one and at most as many
bins; the line through it is the reported rate and the detailed label gives their number. -/
theorem C87_histogram {rd : ℚ} {info : YoYResult} {y : Series} {bins : Option Int} {d : Bool}
    {fig : SummaryFig} (h : summaryPlot rd info y bins d = .ok fig) :
    fig.hist = info.values.map Prod.snd ∧ 1 ≤ fig.bins ∧ fig.bins ≤ fig.hist.length ∧ fig.rate = rd ∧
      fig.count = (if d then some fig.hist.length else none) := by
  obtain ⟨a, l, c, rfl, hc, hb, rfl⟩ := summaryPlot_ok h
  refine ⟨rfl, ?_, ?_, rfl, by simp⟩
  · simp only; omega
  · simp only [List.length_map]
    unfold summaryBins
    omega

/-- **C87 (trend line).** The line starts at 1 on the first day and changes by the reported rate, in percent per
365.25 days, over the whole days of the data. -/
theorem C87_line {rd : ℚ} {info : YoYResult} {y : Series} {bins : Option Int} {d : Bool}
    {fig : SummaryFig} (h : summaryPlot rd info y bins d = .ok fig) {a z : Int × Cell}
    (ha : y.head? = some a) (hz : y.getLast? = some z) {n : Nat} {rest : Int}
    (hn : z.1 = a.1 + n * dayNs + rest) (h0 : 0 ≤ rest) (h1 : rest < dayNs) :
    fig.line.1 = (a.1, 1) ∧ fig.line.2.1 = z.1 ∧
      (fig.line.2.2 - 1) * (365 + 1 / 4) * 100 = rd * n := by
  obtain ⟨b, l, c, rfl, hc, hb, rfl⟩ := summaryPlot_ok h
  simp only [List.head?_cons, Option.some.injEq] at ha
  subst ha
  have hl : (b :: l).getLastD b = z := by
    rw [List.getLastD_eq_getLast?, hz]; rfl
  have hd : (z.1 - b.1) / dayNs = (n : Int) := by
    have hpos : (0 : Int) < dayNs := by decide
    rw [hn, show b.1 + (n : Int) * dayNs + rest - b.1 = rest + n * dayNs by ring,
      Int.add_mul_ediv_right _ _ hpos.ne', Int.ediv_eq_zero_of_lt h0 h1, zero_add]
  simp only [hl, true_and]
  unfold lineEnd
  rw [hd]
  push_cast
  ring

/-- **C87 (colours).** In the detailed figure of a year-on-year analysis of time-ordered data, every point has the
colour of the usage count of its own timestamp. -/
theorem C87_colors_partial {inferFreq : List Int → Option Int} {recenter : Bool} {exceed conf : ℚ}
    {method : Uncertainty} {block : Nat} {choose : List ℚ → List (List ℚ)} {draws : List (List Nat)}
    {s : Series} {r : YoYResult} {bins : Option Int} {fig : SummaryFig}
    (h : yoy inferFreq recenter exceed conf method block choose draws s = .ok r)
    (hs : (s.map Prod.fst).Pairwise (· < ·)) (hfig : summaryPlot r.rd r s bins true = .ok fig) :
    ∀ p ∈ fig.points, ∃ n, (p.1.1, n) ∈ r.usage ∧ (n, p.2) ∈ Spec.palette := by
  obtain ⟨c0, hc0, -, -, hu, -⟩ := yoy_ok h
  obtain ⟨-, hsort, ht, -, -⟩ := yoyCore_ok hc0
  have hid : (sortIndex s).map Prod.fst = s.map Prod.fst := by
    have := sortIndex_strict (hs.imp fun h => ne_of_lt h : (s.map Prod.fst).Nodup)
    exact List.Perm.eq_of_pairwise (le := fun a b : Int => a < b)
      (fun a b _ _ h1 h2 => absurd (lt_trans h1 h2) (lt_irrefl _)) this hs ((sortIndex_perm s).map _)
  have hkeys : r.usage.map Prod.fst = s.map Prod.fst := by
    rw [hu, usageOfPoints, List.map_map]
    change c0.table.map YoYRow.dt = _
    rw [ht, yoyTable_dt, hsort, renormalize_keys, hid]
  obtain ⟨a, l, c, hy, hc, -, rfl⟩ := summaryPlot_ok hfig
  simp only
  have hf : List.Forall₂ (fun (u : Int × Nat) x => colorOf u.2 = some x) r.usage c := by
    simp only [pointColors, if_true] at hc
    split at hc
    · cases hc
    · split_ifs at hc
      cases hc
      rename_i hm _
      exact mapM_colorOf hm
  intro p hp
  obtain ⟨i, hi, hpi⟩ := List.mem_iff_getElem.mp hp
  rw [List.getElem_zip] at hpi
  simp only [List.length_zip, lt_min_iff] at hi
  have hus : i < r.usage.length := by rw [hf.length_eq]; exact hi.2
  have hcol := List.Forall₂.get hf hus hi.2
  simp only [List.get_eq_getElem] at hcol
  refine ⟨(r.usage[i]).2, ?_, ?_⟩
  · have hk : (r.usage[i]).1 = p.1.1 := by
      have h1 : (r.usage.map Prod.fst)[i]'(by simpa using hus) = (r.usage[i]).1 := by simp
      have hsl : i < s.length := by simpa [renormalized] using hi.1
      have h2 : (s.map Prod.fst)[i]'(by simpa using hsl) = (s[i]).1 := by simp
      have h3 : (r.usage.map Prod.fst)[i]? = (s.map Prod.fst)[i]? := by rw [hkeys]
      rw [List.getElem?_eq_getElem (by simpa using hus), List.getElem?_eq_getElem (by simpa using hsl),
        Option.some.injEq, h1, h2] at h3
      rw [h3, ← hpi]
      simp [renormalized]
    rw [← hk]
    exact List.getElem_mem hus
  · rw [← hpi]
    exact colorOf_palette.mp hcol

/-- **C87 (availability of the figure).** After a successful analysis of time-ordered data a figure with at least
one requested bin is drawn, and with the default bins exactly when there are at least forty year-on-year
values. -/
theorem C87_drawn_partial {inferFreq : List Int → Option Int} {recenter : Bool} {exceed conf : ℚ}
    {method : Uncertainty} {block : Nat} {choose : List ℚ → List (List ℚ)} {draws : List (List Nat)}
    {s : Series} {r : YoYResult} (h : yoy inferFreq recenter exceed conf method block choose draws s = .ok r)
    (d : Bool) :
    (∀ b : Int, 1 ≤ b → ∃ fig, summaryPlot r.rd r s (some b) d = .ok fig) ∧
    (40 ≤ r.values.length → ∃ fig, summaryPlot r.rd r s none d = .ok fig) ∧
    (r.values.length < 40 → summaryPlot r.rd r s none d = .error .valueError) := by
  obtain ⟨hperm, hle⟩ := C24_range h
  obtain ⟨c0, hc0, -, -, hu, hv⟩ := yoy_ok h
  obtain ⟨-, hsort, ht, hrt, hmed⟩ := yoyCore_ok hc0
  have hlen : r.usage.length = s.length := by simpa using hperm.length_eq
  have hne : r.values ≠ [] := by
    have h1 : c0.rates ≠ [] := by
      rw [← quantile_isSome (q := 1/2)]
      unfold median at hmed
      rw [hmed]; rfl
    rw [hrt] at h1
    intro h2
    apply h1
    rw [hv] at h2
    rw [List.filterMap_eq_nil_iff] at h2
    unfold valids
    rw [List.filterMap_eq_nil_iff]
    intro x hx
    obtain ⟨w, hw, rfl⟩ := List.mem_map.mp hx
    simpa using h2 w hw
  have hs : s ≠ [] := by
    rintro rfl
    have hu0 : r.usage = [] := List.eq_nil_of_length_eq_zero (by simpa using hlen)
    have : c0.table = [] := by
      rw [hu, usageOfPoints, List.map_eq_nil_iff] at hu0; exact hu0
    exact hne (by rw [hv, this]; rfl)
  obtain ⟨c, hc, hcl⟩ := mapM_colorOf_exists hle
  have hpc : ∃ c, pointColors d r.usage s.length = .ok c := by
    unfold pointColors
    cases d
    · exact ⟨_, rfl⟩
    · exact ⟨c, by simp [hc, hcl, hlen]⟩
  obtain ⟨a, l, rfl⟩ := List.exists_cons_of_ne_nil hs
  obtain ⟨c', hc'⟩ := hpc
  have hpos : 0 < r.values.length := List.length_pos_iff.mpr hne
  refine ⟨fun b hb => ?_, fun hn => ?_, fun hn => ?_⟩
  · have : ¬ summaryBins (some b) r.values.length < 1 := by unfold summaryBins; simp only [Option.getD_some]; omega
    simp only [summaryPlot, if_neg this, hc']
    exact ⟨_, rfl⟩
  · have : ¬ summaryBins none r.values.length < 1 := by unfold summaryBins; simp only [Option.getD_none]; omega
    simp only [summaryPlot, if_neg this, hc']
    exact ⟨_, rfl⟩
  · have : summaryBins none r.values.length < 1 := by unfold summaryBins; simp only [Option.getD_none]; omega
    simp only [summaryPlot, if_pos this]

/-- **C87 is false in general (1)**: an analysis may succeed and its figure with default arguments fail. -/
theorem C87_default_bins_refuted :
    ∃ (s : Series) (r : YoYResult), (s.map Prod.fst).Nodup ∧
      yoy noFreq false 95 68 .none 30 (fun _ => []) [] s = .ok r ∧
      summaryPlot r.rd r s none false = .error .valueError := by
  cases h : yoy noFreq false 95 68 .none 30 (fun _ => []) [] exampleYoY with
  | error e =>
    have : (yoy noFreq false 95 68 .none 30 (fun _ => []) [] exampleYoY).toOption.isSome = true := by
      decide +kernel
    rw [h] at this; simp [Except.toOption] at this
  | ok r =>
    refine ⟨exampleYoY, r, by decide +kernel, h, (C87_drawn_partial h false).2.2 ?_⟩
    have h1 : (yoy noFreq false 95 68 .none 30 (fun _ => []) [] exampleYoY).toOption.map
        (fun r => decide (r.values.length < 40)) = some true := by decide +kernel
    rw [h] at h1
    simpa [Except.toOption] using h1

/-- **C87 is false in general (2)**: the analysis accepts rows in any order, but in the detailed figure a point
of unordered data may have the colour of another point: the sample at `u` has been used twice and is painted as
used once. -/
theorem C87_colors_refuted :
    ∃ (s : Series) (u : Int) (v : Cell), (s.map Prod.fst).Nodup ∧
      ((yoy noFreq false 95 68 .none 30 (fun _ => []) [] s).bind fun r =>
        (summaryPlot r.rd r s (some 1) true).map fun fig =>
          decide ((u, 2) ∈ r.usage) && decide ((u, 1) ∉ r.usage) && decide (((u, v), Color.green) ∈ fig.points))
        = .ok true :=
  ⟨exampleYoY, 18321 * dayNs, some 99, by decide +kernel, by decide +kernel⟩

example : ((yoy noFreq false 95 68 .none 30 (fun _ => []) [] exampleYoY).bind fun r =>
    (summaryPlot r.rd r (sortIndex exampleYoY) (some 3) true).map fun fig => fig.points.map Prod.snd) =
      .ok [.green, .green, .plot, .plot, .green] := by decide +kernel

end Verif.Plots
