import Verif.Lemmas.ClipFine
import Verif.Props.ClipLogic
import Verif.Props.Utilities

/-! # What the logic-based clipping filter excludes from finely sampled series (C80)

Stated for increasing series whose most frequent step is below ten minutes, without negative
readings and without frozen days; readings may be missing. -/

namespace Verif.Clip

open Verif Spec

theorem inBand_iff {lo hi x : ℚ} (hlo : 0 ≤ lo) (hhi : 0 ≤ hi) :
    inBand (some lo) (some hi) (some x) = true ↔ AtLevel lo hi x := by
  unfold inBand AtLevel
  simp only [Bool.or_eq_true, Bool.and_eq_true, decide_eq_true_eq]
  rcases hhi.eq_or_lt with he | hp
  · subst he
    constructor
    · intro h
      exfalso
      unfold Flt.ofDiv at h
      rw [if_pos rfl] at h
      rcases hlo.eq_or_lt with he | hp
      · subst he
        simp [Flt.le, Flt.lt] at h
      · have h1 : ¬ (0 - lo = 0) := by linarith
        have h2 : ¬ (0 < 0 - lo) := by linarith
        rw [if_neg h1, if_neg h2] at h
        simp [Flt.le, Flt.lt] at h
        linarith
    · rintro ⟨h, _⟩
      exact absurd h (lt_irrefl _)
  · have hd : Flt.ofDiv (hi - lo) hi = .fin ((hi - lo) / hi) := by
      unfold Flt.ofDiv; rw [if_neg hp.ne']
    rw [hd]
    have e1 : Flt.le (.fin ((hi - lo) / hi)) (.fin (25/1000)) = true ↔ hi - lo ≤ 25/1000 * hi := by
      rw [← div_le_iff₀ hp]; simp [Flt.le]
    have e2 : Flt.lt (.fin (25/1000)) (.fin ((hi - lo) / hi)) = true ↔ 25/1000 * hi < hi - lo := by
      rw [← lt_div_iff₀ hp]; simp [Flt.lt]
    rw [e1, e2]
    constructor
    · rintro ((⟨⟨a, b⟩, c⟩ | ⟨⟨a, b⟩, c⟩) | ⟨⟨a, b⟩, c⟩)
      · exact ⟨hp, .inl ⟨c, a, b⟩⟩
      · exact ⟨hp, .inr ⟨c, .inl (by rw [abs_le]; constructor <;> linarith)⟩⟩
      · exact ⟨hp, .inr ⟨c, .inr (by rw [abs_le]; constructor <;> linarith)⟩⟩
    · rintro ⟨_, ⟨c, a, b⟩ | ⟨c, a | a⟩⟩
      · exact .inl (.inl ⟨⟨a, b⟩, c⟩)
      · rw [abs_le] at a
        exact .inl (.inr ⟨⟨by linarith [a.2], by linarith [a.1]⟩, c⟩)
      · rw [abs_le] at a
        exact .inr ⟨⟨by linarith [a.2], by linarith [a.1]⟩, c⟩

theorem plateauCells_eq {s : Series} (hs : StrictSorted (keys s))
    (hv : ∀ d, Varied (dayReadings s d)) {m : String} {c : ℚ} {k : Nat} {f : Int}
    (hf : ¬ 10 * minuteNs ≤ f) {det : List Bool} (h : detect s m c (some k) f = .ok det) (d : Int) :
    onDay ((s.zip det).map fun x => (x.1.1, if x.2 then x.1.2 else none)) d =
      plateauCells s (s.index.headD 0) c k d := by
  have hlen := length_detect h
  have hrow : (s.zip det).map (fun x => (x.1.1, if x.2 then x.1.2 else none)) =
      s.map (fun r => (r.1, open Classical in
        if FinePlateau s (s.index.headD 0) c k r.1 then r.2 else none)) := by
    apply List.ext_getElem?
    intro i
    rw [List.getElem?_map, List.getElem?_map]
    cases hi : s[i]? with
    | none =>
      have : (s.zip det)[i]? = none := by
        rw [List.getElem?_eq_none_iff] at hi ⊢
        rw [List.length_zip]; omega
      rw [this]; rfl
    | some r =>
      have hil := (List.getElem?_eq_some_iff.mp hi).1
      have hdi : det[i]? = some (det[i]'(by omega)) := List.getElem?_eq_getElem (by omega)
      have hz : (s.zip det)[i]? = some (r, det[i]'(by omega)) :=
        List.getElem?_zip_eq_some.mpr ⟨hi, hdi⟩
      rw [hz]
      have hiff := detect_fine hs hv hf h (t := r.1) (v := r.2) hi
      rw [hdi, Option.some.injEq] at hiff
      simp only [Option.map_some]
      by_cases hp : FinePlateau s (s.index.headD 0) c k r.1
      · rw [if_pos hp, if_pos (hiff.mpr hp)]
      · rw [if_neg hp, if_neg (fun e => hp (hiff.mp e))]
  rw [hrow]
  unfold onDay plateauCells
  rw [List.filter_map, List.map_map]
  rfl

theorem nonneg_level {s : Series} {t0 : Int} {c : ℚ} {k : Nat} {d : Int}
    (hn : ∀ t x, (t, some x) ∈ s → 0 ≤ x) {q v : ℚ} (h0 : 0 ≤ q) (h1 : q ≤ 1)
    (h : robustQuantile (plateauCells s t0 c k d) q = some v) : 0 ≤ v := by
  have hk : ∀ u ∈ robustKeep (plateauCells s t0 c k d) q, 0 ≤ u := by
    intro u hu
    have hm := (mem_robustKeep hu).1
    unfold plateauCells at hm
    obtain ⟨r, hr, he⟩ := List.mem_map.mp hm
    have hr' := List.mem_of_mem_filter hr
    split_ifs at he
    exact hn r.1 u (by rw [← he]; exact hr')
  exact quantile_ge h h0 h1 hk

/-- one more reading per excluded one -/
theorem count_le_excluded : ∀ (mask : List Bool) (l : List Cell) (g : Cell → Bool),
    mask.length = l.length →
    mask.count true ≤ (((mask.zip l).map fun x => x.1 || g x.2).map (!·)).count false := by
  intro mask
  induction mask with
  | nil => intro l g _; simp
  | cons a mask ih =>
    intro l g hl'
    cases l with
    | nil => simp at hl'
    | cons b l =>
      have := ih l g (by simpa using hl')
      simp only [List.zip_cons_cons, List.map_cons, List.count_cons]
      cases a
      · simp only [Bool.false_or, beq_iff_eq, Bool.false_eq_true, if_false]; omega
      · simp only [Bool.true_or, Bool.not_true, beq_self_eq_true, if_true]; omega

theorem length_clipped : ∀ (v : List Cell) (mask : List Bool), v.length = mask.length →
    (((v.zip mask).filter fun x => x.2).map Prod.fst).length = mask.count true := by
  intro v
  induction v with
  | nil => intro mask hm; cases mask <;> simp_all
  | cons a v ih =>
    intro mask hm
    cases mask with
    | nil => simp at hm
    | cons b mask =>
      have := ih mask (by simpa using hm)
      cases b <;> simp_all

theorem powerCleaned_id {s : Series} (hs : StrictSorted (keys s))
    (hv : ∀ d, Varied (dayReadings s d)) : powerCleaned s = s.map Prod.snd := by
  rw [powerCleaned_eq hs.nodup]
  apply List.map_congr_left
  intro r _
  rw [not_frozen_of_varied (by rw [valids_onDay]; exact hv _)]
  rfl

/-- the run of the filter on a finely sampled series -/
theorem run_fine {s : Series} (hs : StrictSorted (keys s)) (hf : FineSampling (keys s))
    (hv : ∀ d, Varied (dayReadings s d)) {m : String} {c : ℚ} {k : Nat} {out : List Bool}
    (h : logicClipFilter s m c (some k) = .ok out) {i : Nat} {t : Int} {x : ℚ}
    (hi : s[i]? = some (t, some x)) :
    ∃ b, out[i]? = some (!(inBand
        (robustQuantile (plateauCells s (s.index.headD 0) c k (t / 86400000000000)) (75/1000))
        (robustQuantile (plateauCells s (s.index.headD 0) c k (t / 86400000000000)) (99/100))
        (some x) || b)) ∧
      (b = true → (∃ q, robustQuantile (s.map Prod.snd) (99/100) = some q ∧ q ≤ x) ∧
        (4 : ℚ) * s.length < 100 * (out.count false : Nat)) := by
  obtain ⟨f, det, clip, e1, e2, e3, ho⟩ := verdict hs h hi
  have hfine := modeMin_fine hf e1
  have e4 := clipPower_ok e3
  have hdl : ∀ d, dayLevels f clip d =
      (robustQuantile (plateauCells s (s.index.headD 0) c k d) (75/1000),
        robustQuantile (plateauCells s (s.index.headD 0) c k d) (99/100)) := by
    intro d
    unfold dayLevels
    simp only
    rw [if_neg hfine, e4, plateauCells_eq hs hv hfine e2]
  rw [hdl, powerCleaned_id hs hv, not_frozen_of_varied (by rw [valids_onDay]; exact hv _)] at ho
  simp only [Bool.false_eq_true, if_false] at ho
  refine ⟨_, ho, ?_⟩
  intro hb
  rw [Bool.and_eq_true] at hb
  obtain ⟨hb1, hb2⟩ := hb
  constructor
  · cases hq : robustQuantile (s.map Prod.snd) (99/100) with
    | none => rw [hq] at hb2; simp [cellCmp] at hb2
    | some q => rw [hq] at hb2; exact ⟨q, rfl, by simpa [cellCmp] using hb2⟩
  · have hout : out = (applyOverall (powerCleaned s) (bandMask f s clip)
        (clippedOf s (bandMask f s clip))).map (!·) := by
      obtain ⟨f2, det2, clip2, a1, a2, a3, a4⟩ := logic_ok h
      rw [e1, Option.some.injEq] at a1
      subst a1
      rw [e2, Except.ok.injEq] at a2
      subst a2
      rw [e3, Except.ok.injEq] at a3
      subst a3
      exact a4
    have hle : (clippedOf s (bandMask f s clip)).length ≤ out.count false := by
      unfold clippedOf
      rw [length_clipped _ _ (by rw [length_bandMask, List.length_map]), hout,
        powerCleaned_id hs hv]
      unfold applyOverall
      rw [if_pos hb1]
      exact count_le_excluded (bandMask f s clip) (s.map Prod.snd)
        (fun x => cellCmp (fun a b => decide (a ≥ b)) x (robustQuantile (s.map Prod.snd) (99/100)))
        (by rw [length_bandMask, List.length_map])
    unfold overallApplies at hb1
    cases hq1 : robustQuantile (s.map Prod.snd) (99/100) with
    | none => rw [hq1] at hb1; simp at hb1
    | some a =>
      cases hq2 : robustQuantile (clippedOf s (bandMask f s clip)) (99/100) with
      | none => rw [hq1, hq2] at hb1; simp at hb1
      | some b =>
        rw [hq1, hq2] at hb1
        simp only [Bool.and_eq_true, decide_eq_true_eq, List.length_map] at hb1
        have hl : 0 < s.length := by
          have := (List.getElem?_eq_some_iff.mp hi).1; omega
        have hn : (0 : ℚ) < s.length := by exact_mod_cast hl
        have h4 := hb1.2
        rw [gt_iff_lt, div_mul_eq_mul_div, lt_div_iff₀ hn] at h4
        have h5 : ((clippedOf s (bandMask f s clip)).length : ℚ) ≤ (out.count false : Nat) := by
          exact_mod_cast hle
        linarith

/-- **C80 (fine sampling, soundness).** On a series whose most frequent step is below ten minutes an
excluded reading lies at the plateau levels of its day, the robust 7.5 % and 99 % quantiles of the
readings in quarters of an hour that belong to a plateau of quarter-hour medians; or the overall
rule applies to it: it is at least the robust 99 % quantile of all readings and more than 4 % of all
readings are excluded. -/
theorem C80_fine_excluded {t0 : Int} {v0 : Cell} {s' : Series}
    (hs : (((t0, v0) :: s').map Prod.fst).Pairwise (· < ·))
    (hf : FineSampling (((t0, v0) :: s').map Prod.fst))
    (hn : ∀ t x, (t, some x) ∈ (t0, v0) :: s' → 0 ≤ x)
    (hv : ∀ d, Varied (dayReadings ((t0, v0) :: s') d)) {m : String} {c : ℚ} {k : Nat}
    {out : List Bool} (h : logicClipFilter ((t0, v0) :: s') m c (some k) = .ok out) {i : Nat}
    {t : Int} {x : ℚ} (hi : ((t0, v0) :: s')[i]? = some (t, some x))
    (hout : out[i]? = some false) :
    (∃ lo hi,
      robustQuantile (plateauCells ((t0, v0) :: s') t0 c k (t / 86400000000000)) (75/1000) = some lo ∧
      robustQuantile (plateauCells ((t0, v0) :: s') t0 c k (t / 86400000000000)) (99/100) = some hi ∧
      AtLevel lo hi x) ∨
    ((∃ q, robustQuantile (((t0, v0) :: s').map Prod.snd) (99/100) = some q ∧ q ≤ x) ∧
      (4 : ℚ) * ((t0, v0) :: s').length < 100 * (out.count false : Nat)) := by
  obtain ⟨b, hb, hb'⟩ := run_fine hs hf hv h hi
  rw [hout, Option.some.injEq] at hb
  cases b with
  | true => exact .inr (hb' rfl)
  | false =>
    left
    rw [Bool.or_false] at hb
    have e : (Series.index ((t0, v0) :: s')).headD 0 = t0 := rfl
    rw [e] at hb
    cases hlo : robustQuantile (plateauCells ((t0, v0) :: s') t0 c k (t / 86400000000000))
        (75/1000) with
    | none => rw [hlo] at hb; simp [inBand] at hb
    | some lo =>
      cases hhi : robustQuantile (plateauCells ((t0, v0) :: s') t0 c k (t / 86400000000000))
          (99/100) with
      | none => rw [hlo, hhi] at hb; simp [inBand] at hb
      | some hi' =>
        rw [hlo, hhi] at hb
        refine ⟨lo, hi', rfl, rfl, ?_⟩
        apply (inBand_iff (nonneg_level hn (by norm_num) (by norm_num) hlo)
          (nonneg_level hn (by norm_num) (by norm_num) hhi)).mp
        cases hh : inBand (some lo) (some hi') (some x)
        · rw [hh] at hb; simp at hb
        · rfl

/-- **C80 (fine sampling, completeness).** Every reading at the plateau levels of its day is
excluded, whether or not its own quarter of an hour belongs to a plateau. -/
theorem C80_fine_at_level {t0 : Int} {v0 : Cell} {s' : Series}
    (hs : (((t0, v0) :: s').map Prod.fst).Pairwise (· < ·))
    (hf : FineSampling (((t0, v0) :: s').map Prod.fst))
    (hn : ∀ t x, (t, some x) ∈ (t0, v0) :: s' → 0 ≤ x)
    (hv : ∀ d, Varied (dayReadings ((t0, v0) :: s') d)) {m : String} {c : ℚ} {k : Nat}
    {out : List Bool} (h : logicClipFilter ((t0, v0) :: s') m c (some k) = .ok out) {i : Nat}
    {t : Int} {x lo hi' : ℚ} (hi : ((t0, v0) :: s')[i]? = some (t, some x))
    (hlo : robustQuantile (plateauCells ((t0, v0) :: s') t0 c k (t / 86400000000000)) (75/1000) =
      some lo)
    (hhi : robustQuantile (plateauCells ((t0, v0) :: s') t0 c k (t / 86400000000000)) (99/100) =
      some hi') (hl : AtLevel lo hi' x) : out[i]? = some false := by
  obtain ⟨b, hb, _⟩ := run_fine hs hf hv h hi
  have e : (Series.index ((t0, v0) :: s')).headD 0 = t0 := rfl
  rw [e, hlo, hhi, (inBand_iff (nonneg_level hn (by norm_num) (by norm_num) hlo)
    (nonneg_level hn (by norm_num) (by norm_num) hhi)).mpr hl] at hb
  simpa using hb

/-- **C80 (fine sampling, default window).** On finely sampled series the default window is five
quarters of an hour for single-axis tracking and three otherwise. -/
theorem C80_fine_default_window {s : Series} (hf : FineSampling (s.map Prod.fst)) (m : String)
    (c : ℚ) : logicClipFilter s m c none = logicClipFilter s m c
      (some (if m = "single_axis_tracking" then 5 else 3)) := by
  unfold logicClipFilter
  cases hm : modeMin (stepsOf s.index) with
  | none => rfl
  | some f =>
    have hfine := modeMin_fine hf hm
    unfold detect rollDefault
    have : (15 * minuteNs < 30 * minuteNs) = True := by simp [minuteNs]
    simp only [Option.getD_none, Option.getD_some, hfine, if_false, this, and_true]

/-- **C80 (fine sampling, no plateau).** A day without a plateau of quarter-hour medians loses no
reading, except by the overall rule. -/
theorem C80_fine_no_plateau {t0 : Int} {v0 : Cell} {s' : Series}
    (hs : (((t0, v0) :: s').map Prod.fst).Pairwise (· < ·))
    (hf : FineSampling (((t0, v0) :: s').map Prod.fst))
    (hn : ∀ t x, (t, some x) ∈ (t0, v0) :: s' → 0 ≤ x)
    (hv : ∀ d, Varied (dayReadings ((t0, v0) :: s') d)) {m : String} {c : ℚ} {k : Nat}
    {out : List Bool} (h : logicClipFilter ((t0, v0) :: s') m c (some k) = .ok out) {i : Nat}
    {t : Int} {x : ℚ} (hi : ((t0, v0) :: s')[i]? = some (t, some x))
    (hno : ∀ q : Int, q / 96 = t / 86400000000000 →
      ¬ InQuarterPlateau ((t0, v0) :: s') c k q)
    (hout : out[i]? = some false) :
    ∃ q, robustQuantile (((t0, v0) :: s').map Prod.snd) (99/100) = some q ∧ q ≤ x := by
  rcases C80_fine_excluded hs hf hn hv h hi hout with ⟨lo, hi', hlo, _, _⟩ | ⟨hq, _⟩
  · exfalso
    have hnone : valids (plateauCells ((t0, v0) :: s') t0 c k (t / 86400000000000)) = [] := by
      rw [List.eq_nil_iff_forall_not_mem]
      intro y hy
      rw [mem_validsC] at hy
      unfold plateauCells at hy
      obtain ⟨r, hr, he⟩ := List.mem_map.mp hy
      have hd : r.1 / 86400000000000 = t / 86400000000000 := by
        simpa using (List.mem_filter.mp hr).2
      split_ifs at he with hp
      exact hno (r.1 / 900000000000) (by rw [← hd]; omega) hp.2
    rw [robustQuantile_of_valids hnone] at hlo
    exact absurd hlo (by simp)
  · exact hq

/-! ### a day sampled every five minutes -/

/-- five-minute readings with a plateau of 100 (three quarters of an hour) and noise -/
def fineDay : List ℚ :=
  [0, 0, 0, 20, 25, 30, 50, 55, 60, 100, 100, 99, 100, 100, 101, 100, 100, 100, 70, 60, 50, 20, 10, 0]

/-- the plateau is excluded; the noisy readings 99 and 101 lie outside its levels and are kept -/
example : logicClipFilter (regular 0 300000000000 fineDay) "fixed" (2/10) (some 3) = .ok
    [true, true, true, true, true, true, true, true, true, false, false, true, false, false, true,
      false, false, false, true, true, true, true, true, true] := by decide +kernel

/-- the day meets the hypotheses, and its quarters three to five form a plateau -/
example : FineSampling ((regular 0 300000000000 fineDay).map Prod.fst) ∧
    (∀ t x, (t, some x) ∈ regular 0 300000000000 fineDay → 0 ≤ x) ∧
    (∀ d, Varied (dayReadings (regular 0 300000000000 fineDay) d)) ∧
    InQuarterPlateau (regular 0 300000000000 fineDay) (2/10) 3 4 := by
  refine ⟨⟨300000000000, by decide +kernel, by decide +kernel, by decide +kernel⟩, ?_, ?_, ?_⟩
  · intro t x h
    obtain ⟨i, y, hy, e⟩ := mem_regular.mp h
    simp only [Prod.mk.injEq, Option.some.injEq] at e
    rw [e.2]
    have : ∀ y ∈ fineDay, 0 ≤ y := by decide +kernel
    exact this y (List.mem_of_getElem? hy)
  · intro d
    by_cases h : d = 0
    · subst h
      unfold Varied
      decide +kernel
    · have : dayReadings (regular 0 300000000000 fineDay) d = [] := by
        unfold dayReadings
        rw [List.filterMap_eq_nil_iff]
        intro r hr
        obtain ⟨h1, h2⟩ := List.mem_filter.mp hr
        exfalso
        obtain ⟨i, x, hx, rfl⟩ := mem_regular.mp h1
        have hi : i < 24 := (List.getElem?_eq_some_iff.mp hx).1
        simp only [decide_eq_true_eq] at h2
        apply h
        rw [← h2]
        omega
      rw [this]
      constructor <;> norm_num
  · refine ⟨3, [100, 100, 100], rfl, by norm_num, by norm_num,
      ⟨100, by simp, 100, by simp, by simp, by norm_num, by norm_num⟩, ?_⟩
    intro n x hx
    have hn : n < 3 := (List.getElem?_eq_some_iff.mp hx).1
    have hx' : x = 100 := by
      have := List.mem_of_getElem? hx
      simpa using this
    subst hx'
    have hall : ∀ (p : Int) (y : ℚ),
        Verif.Spec.IsMedian (quarterReadings (regular 0 300000000000 fineDay) p) y → y ≤ 101 := by
      intro p y hy
      refine quantile_le (isMedian_iff.mp hy) (by norm_num) (by norm_num) ?_
      intro u hu
      unfold quarterReadings at hu
      obtain ⟨r, hr, he⟩ := List.mem_filterMap.mp hu
      obtain ⟨i, z, hz, e⟩ := mem_regular.mp (List.mem_of_mem_filter hr)
      have hm : ∀ y ∈ fineDay, y ≤ 101 := by decide +kernel
      subst e
      simp only [Option.some.injEq] at he
      subst he
      exact hm z (List.mem_of_getElem? hz)
    refine ⟨isMedian_iff.mpr ?_, fun p y hy _ => by linarith [hall p y hy]⟩
    have : n = 0 ∨ n = 1 ∨ n = 2 := by omega
    rcases this with rfl | rfl | rfl <;> decide +kernel

end Verif.Clip
