import Verif.Props.PlotTimeseries
import Verif.Lemmas.Quantile

/-! # Property C88 (where the band is drawn and what its edges are) -/

namespace Verif.Plots
open Verif

/-- the values of the `days` days up to and including `t` -/
def Spec.windowValues (s : List (Int × ℚ)) (days : Nat) (t : Int) : List ℚ :=
  (s.filter fun r => decide (t - (days : Int) * dayNs < r.1 ∧ r.1 ≤ t)).map Prod.snd

/-- the `p` quantile of the medians of 100 resamples, drawn with replacement, as many as there are values -/
def Spec.BootstrapEdge (w : List ℚ) (p m : ℚ) : Prop :=
  ∃ (samples : List (List ℚ)) (meds : List ℚ), samples.length = 100 ∧
    (∀ x ∈ samples, x.length = w.length ∧ ∀ y ∈ x, y ∈ w) ∧
    List.Forall₂ Verif.Spec.IsMedian samples meds ∧ Verif.Spec.IsQuantile meds p m

theorem window_values (s : List (Int × ℚ)) (days : Nat) (t : Int) :
    window days (s.map fun r => (r.1, some r.2)) t = (Spec.windowValues s days t).map some := by
  unfold window Spec.windowValues
  rw [List.filter_map, List.map_map, List.map_map]
  rfl

theorem valids_map_some' (l : List ℚ) : valids (l.map some) = l := by
  unfold valids
  simp

theorem forall₂_range {α : Type} {R : List ℚ → α → Prop} (f : Nat → List ℚ) (g : Nat → α) (n : Nat)
    (h : ∀ r, R (f r) (g r)) : List.Forall₂ R ((List.range n).map f) ((List.range n).map g) := by
  rw [List.forall₂_map_left_iff, List.forall₂_map_right_iff, List.forall₂_same]
  exact fun r _ => h r

theorem bootPercentile_values {pick : Nat → Nat → Nat} {w : List ℚ} {p : ℚ} (h0 : 0 ≤ p / 100) (h1 : p / 100 ≤ 1) (hw : w ≠ [])
    (hpick : ∀ r k, k < w.length → pick r k < w.length) :
    ∃ m, bootPercentile pick (w.map some) p = some m ∧ Spec.BootstrapEdge w (p / 100) m := by
  have hpos : 0 < w.length := List.length_pos_iff.mpr hw
  let f : Nat → List ℚ := fun r => (List.range w.length).map fun k => w.getD (pick r k) 0
  have hf : ∀ r : Nat, (List.range (w.map some).length).map (fun k : Nat => (w.map some).getD (pick r k) none) = (f r).map some := by
    intro r
    rw [List.length_map, List.map_map]
    refine List.map_congr_left fun k hk => ?_
    have hb := hpick r k (List.mem_range.mp hk)
    simp [List.getD_eq_getElem?_getD, hb]
  have hne : ∀ r, f r ≠ [] := fun r h0 => by
    have := congrArg List.length h0
    simp [f] at this
    exact hw this
  have hmed : ∀ r, ∃ v, median (f r) = some v := fun r => Option.isSome_iff_exists.mp (median_isSome.mpr (hne r))
  choose g hg using hmed
  have hmb : (List.range 100).map (fun r : Nat => median (valids
      ((List.range (w.map some).length).map fun k : Nat => (w.map some).getD (pick r k) none))) =
      ((List.range 100).map g).map some := by
    rw [List.map_map]
    refine List.map_congr_left fun r _ => ?_
    rw [hf, valids_map_some', hg]
    rfl
  have hq : (quantile ((List.range 100).map g) (p / 100)).isSome := quantile_isSome.mpr (by simp)
  obtain ⟨m, hm⟩ := Option.isSome_iff_exists.mp hq
  refine ⟨m, ?_, (List.range 100).map f, (List.range 100).map g, by simp, ?_, forall₂_range f g 100 fun r => isMedian_iff.mpr (hg r),
    (isQuantile_iff h0 h1).mpr hm⟩
  · unfold bootPercentile
    simp only
    rw [hmb, if_pos (by simp), valids_map_some', hm]
  · intro x hx
    obtain ⟨r, -, rfl⟩ := List.mem_map.mp hx
    refine ⟨by simp [f], fun y hy => ?_⟩
    obtain ⟨k, hk, rfl⟩ := List.mem_map.mp hy
    have hb := hpick r k (List.mem_range.mp hk)
    rw [List.getD_eq_getElem?_getD, List.getElem?_eq_getElem hb, Option.getD_some]
    exact List.getElem_mem hb

/-- **C88 (band).** The band of a figure has one pair of edges per year-on-year value. They are drawn exactly where the
preceding days hold at least half as many values as days, i.e. where the trend is drawn; the lower (upper) edge is the
2.5 % (97.5 %) quantile of the medians of 100 resamples of these values. -/
theorem C88_band {s : List (Int × ℚ)} {days : Nat} (hd : 0 < days) {pl ph : Nat → Nat → Nat → Nat}
    (hpl : Spec.ValidPick (s.map fun r => (r.1, some r.2)) days pl)
    (hph : Spec.ValidPick (s.map fun r => (r.1, some r.2)) days ph) {fig : TimeFig}
    (h : timeseriesPlot pl ph (some (s.map fun r => (r.1, some r.2))) days true = .ok fig) :
    ∃ b, fig.band = some b ∧ b.map Prod.fst = s.map Prod.fst ∧
      ∀ t lo hi, (t, lo, hi) ∈ b →
        ((Spec.windowValues s days t).length < days / 2 → lo = none ∧ hi = none) ∧
        (days / 2 ≤ (Spec.windowValues s days t).length → ∃ l u, lo = some l ∧ hi = some u ∧
          Spec.BootstrapEdge (Spec.windowValues s days t) (25 / 1000) l ∧
          Spec.BootstrapEdge (Spec.windowValues s days t) (975 / 1000) u) := by
  obtain ⟨_, hs, -, hb, -, -⟩ := timeseriesPlot_ok h
  cases hs
  rw [if_pos rfl] at hb
  refine ⟨_, hb, ?_, ?_⟩
  · have e : s.map Prod.fst = (s.map fun r => ((r.1, some r.2) : Int × Cell)).map Prod.fst := by
      rw [List.map_map]; rfl
    rw [List.map_map, e]
    conv_rhs => rw [← List.zipIdx_map_fst 0 (s.map fun r => ((r.1, some r.2) : Int × Cell)), List.map_map]
    rfl
  · intro t lo hi hm
    obtain ⟨⟨r, i⟩, hri, he⟩ := List.mem_map.mp hm
    simp only [Prod.mk.injEq] at he
    obtain ⟨rfl, rfl, rfl⟩ := he
    have hwin : ∀ t', (Spec.windowValues s days t').length = ((s.map fun r => ((r.1, some r.2) : Int × Cell)).filter fun y =>
        decide (t' - (days : Int) * dayNs < y.1 ∧ y.1 ≤ t')).length := by
      intro t'
      unfold Spec.windowValues
      rw [List.filter_map, List.length_map, List.length_map]
      rfl
    have hne : Spec.windowValues s days r.1 ≠ [] := by
      have hr : r ∈ s.map fun r => ((r.1, some r.2) : Int × Cell) := by
        have := List.mem_map_of_mem (f := Prod.fst) hri
        rwa [List.zipIdx_map_fst] at this
      obtain ⟨q, hq, rfl⟩ := List.mem_map.mp hr
      apply List.ne_nil_of_mem (a := q.2)
      refine List.mem_map_of_mem (List.mem_filter.mpr ⟨hq, ?_⟩)
      have : (0 : Int) < (days : Int) * dayNs := by
        have h1 : (0 : Int) < days := by exact_mod_cast hd
        have h2 : (0 : Int) < dayNs := by decide
        positivity
      simp only [decide_eq_true_eq]
      omega
    have key : ∀ (pick : Nat → Nat → Nat → Nat), Spec.ValidPick (s.map fun r => (r.1, some r.2)) days pick → ∀ p : ℚ,
        0 ≤ p / 100 → p / 100 ≤ 1 →
        ((Spec.windowValues s days r.1).length < days / 2 →
          edge (pick i) days (s.map fun r => (r.1, some r.2)) p r.1 = none) ∧
        (days / 2 ≤ (Spec.windowValues s days r.1).length → ∃ m,
          edge (pick i) days (s.map fun r => (r.1, some r.2)) p r.1 = some m ∧
            Spec.BootstrapEdge (Spec.windowValues s days r.1) (p / 100) m) := by
      intro pick hpick p h0 h1
      unfold edge
      simp only
      rw [window_values, valids_map_some']
      refine ⟨fun hlt => if_pos hlt, fun hge => ?_⟩
      rw [if_neg (not_lt.mpr hge)]
      refine bootPercentile_values h0 h1 hne fun q k hk => ?_
      rw [hwin] at hk ⊢
      exact hpick (r, i) hri q k hk
    refine ⟨fun hlt => ⟨(key pl hpl _ (by norm_num) (by norm_num)).1 hlt,
      (key ph hph _ (by norm_num) (by norm_num)).1 hlt⟩, fun hge => ?_⟩
    obtain ⟨l, hl, hl'⟩ := (key pl hpl (25 / 10) (by norm_num) (by norm_num)).2 hge
    obtain ⟨u, hu, hu'⟩ := (key ph hph (975 / 10) (by norm_num) (by norm_num)).2 hge
    refine ⟨l, u, hl, hu, ?_, ?_⟩
    · rwa [show (25 / 10 / 100 : ℚ) = 25 / 1000 by norm_num] at hl'
    · rwa [show (975 / 10 / 100 : ℚ) = 975 / 1000 by norm_num] at hu'

/-- three daily values, a window of four days: the band starts at the second value -/
example : let s : List (Int × ℚ) := [(0, 1), (dayNs, 2), (2 * dayNs, 4)]
    Spec.ValidPick (s.map fun r => (r.1, some r.2)) 4 (fun _ _ k => k) ∧
    (timeseriesPlot (fun _ _ k => k) (fun _ _ k => k) (some (s.map fun r => (r.1, some r.2))) 4 true).toOption.bind
      (fun f => f.band.map fun b => b.map fun x => x.2.1) = some [none, some (3 / 2), some 2] := by
  refine ⟨fun x _ r k hk => hk, ?_⟩
  decide +kernel

end Verif.Plots
