import Verif.Props.ClipFine
import Verif.Props.ClipPlateau

/-! # Exactly what the logic-based clipping filter excludes (C93)

A reading is excluded if and only if it belongs to the plateau levels of its day or the overall rule
applies and it reaches the overall threshold. -/

namespace Verif.Clip

open Verif Spec

/-- `q` is the robust 99 % quantile of the readings -/
def Q99 (l : List Cell) (q : ℚ) : Prop := robustQuantile l (99/100) = some q

theorem clippedOf_map (s : Series) (g : Int × Cell → Bool) :
    clippedOf s (s.map g) = (s.filter g).map Prod.snd := by
  unfold clippedOf Series.values
  induction s with
  | nil => rfl
  | cons a s ih =>
    simp only [List.map_cons, List.zip_cons_cons, List.filter_cons]
    cases g a
    · simpa using ih
    · simpa using ih

theorem clippedOf_levels {s : Series} {g : Int × Cell → Bool} {level : Int → ℚ → ℚ → Prop}
    (h0 : ∀ t, g (t, none) = false) (h : ∀ t x, g (t, some x) = true ↔ AtDayLevel level t x) :
    clippedOf s (s.map g) = (levelReadings level s).map some := by
  rw [clippedOf_map]
  unfold levelReadings
  induction s with
  | nil => rfl
  | cons a s ih =>
    obtain ⟨t, v⟩ := a
    rw [List.filter_cons, List.filterMap_cons]
    cases v with
    | none => rw [h0]; simpa using ih
    | some x =>
      by_cases hx : AtDayLevel level t x
      · rw [(h t x).mpr hx]
        simp only [Option.bind_some, if_pos hx, if_true, List.map_cons, ih]
      · have : g (t, some x) = false := by
          rw [← Bool.not_eq_true]; exact fun e => hx ((h t x).mp e)
        rw [this]
        simpa [if_neg hx] using ih

theorem pdiff_iff {q p : ℚ} (hp : 0 ≤ p) :
    Flt.lt (Flt.abs (Flt.ofDiv (q - p) ((q + p) / 2))) (.fin (5/1000)) = true ↔
      |q - p| < 5/1000 * ((q + p) / 2) := by
  rcases lt_trichotomy (q + p) 0 with hz | hz | hz
  · have h1 : ¬ ((q + p) / 2 = 0) := by intro e; linarith
    have h2 : (q + p) / 2 < 0 := by linarith
    unfold Flt.ofDiv
    rw [if_neg h1]
    simp only [Flt.abs, Flt.lt, decide_eq_true_eq]
    rw [abs_div, abs_of_neg h2, abs_of_neg (by linarith : q - p < 0), div_lt_iff₀ (by linarith)]
    constructor <;> intro h <;> linarith
  · have h1 : (q + p) / 2 = 0 := by linarith
    rw [h1]
    have h2 : ¬ |q - p| < 5/1000 * 0 := by
      rw [mul_zero]; exact not_lt.mpr (abs_nonneg _)
    unfold Flt.ofDiv
    rw [if_pos rfl]
    constructor
    · intro h
      split_ifs at h <;> simp [Flt.abs, Flt.lt] at h
    · intro h; exact absurd h h2
  · have h1 : ¬ ((q + p) / 2 = 0) := by intro e; linarith
    have h2 : 0 < (q + p) / 2 := by linarith
    unfold Flt.ofDiv
    rw [if_neg h1]
    simp only [Flt.abs, Flt.lt, decide_eq_true_eq]
    rw [abs_div, abs_of_pos h2, div_lt_iff₀ h2]

theorem atLevel_nonneg {lo hi x : ℚ} (h0 : 0 ≤ lo) (h : AtLevel lo hi x) : 0 ≤ x := by
  obtain ⟨hp, ⟨_, h1, _⟩ | ⟨_, h1 | h1⟩⟩ := h
  · linarith
  · rw [abs_le] at h1; linarith [h1.1]
  · rw [abs_le] at h1; linarith [h1.1]

theorem quantile_levels_nonneg {level : Int → ℚ → ℚ → Prop} (hn : ∀ d lo hi, level d lo hi → 0 ≤ lo)
    {s : Series} {p : ℚ} (h : Q99 ((levelReadings level s).map some) p) : 0 ≤ p := by
  unfold Q99 robustQuantile at h
  refine quantile_ge h (by norm_num) (by norm_num) ?_
  intro u hu
  have hm := (mem_robustKeep hu).1
  obtain ⟨w, hw, e⟩ := List.mem_map.mp hm
  rw [Option.some.injEq] at e
  subst e
  unfold levelReadings at hw
  obtain ⟨r, _, hr⟩ := List.mem_filterMap.mp hw
  obtain ⟨y, _, hy⟩ := Option.bind_eq_some_iff.mp hr
  split_ifs at hy with hl
  rw [Option.some.injEq] at hy
  subst hy
  obtain ⟨lo, hi, h1, h2⟩ := hl
  exact atLevel_nonneg (hn _ _ _ h1) h2

/-- the verdict, given what the daily levels are -/
theorem verdict_exact {s : Series} (hs : StrictSorted (keys s))
    (hv : ∀ d, Varied (dayReadings s d)) {m : String} {c : ℚ} {k : Option Nat} {out : List Bool}
    (h : logicClipFilter s m c k = .ok out) {level : Int → ℚ → ℚ → Prop}
    (hlev : ∀ f det clip, modeMin (stepsOf s.index) = some f → detect s m c k f = .ok det →
      clipPower s det = .ok clip → ∀ d x,
        inBand (dayLevels f clip d).1 (dayLevels f clip d).2 (some x) = true ↔
          ∃ lo hi, level d lo hi ∧ AtLevel lo hi x)
    (hn : ∀ d lo hi, level d lo hi → 0 ≤ lo) {i : Nat} {t : Int} {x : ℚ}
    (hi : s[i]? = some (t, some x)) :
    out[i]? = some false ↔ AtDayLevel level t x ∨ ∃ q, OverallRule Q99 level s q ∧ q ≤ x := by
  obtain ⟨f, det, clip, e1, e2, e3, ho⟩ := verdict hs h hi
  have hl := hlev f det clip e1 e2 e3
  rw [powerCleaned_id hs hv, not_frozen_of_varied (by rw [valids_onDay]; exact hv _)] at ho
  simp only [Bool.false_eq_true, if_false] at ho
  have hcl : clippedOf s (bandMask f s clip) = (levelReadings level s).map some := by
    unfold bandMask
    refine clippedOf_levels (fun t => ?_) (fun t x => ?_)
    · simp only
      generalize (dayLevels f clip (dayOf t)).1 = a
      generalize (dayLevels f clip (dayOf t)).2 = b
      cases a <;> cases b <;> rfl
    · exact hl _ _
  rw [hcl] at ho
  have hover : (overallApplies (s.map Prod.snd) ((levelReadings level s).map some) &&
      cellCmp (fun a b => decide (a ≥ b)) (some x) (robustQuantile (s.map Prod.snd) (99/100))) = true ↔
      ∃ q, OverallRule Q99 level s q ∧ q ≤ x := by
    have hpos : (0 : ℚ) < s.length := by
      have := (List.getElem?_eq_some_iff.mp hi).1
      exact_mod_cast (by omega : 0 < s.length)
    unfold overallApplies OverallRule
    rw [Bool.and_eq_true]
    cases hq : robustQuantile (s.map Prod.snd) (99/100) with
    | none => simp [Q99, hq]
    | some q =>
      cases hp : robustQuantile ((levelReadings level s).map some) (99/100) with
      | none => simp [Q99, hp]
      | some p =>
        have hp0 := quantile_levels_nonneg hn hp
        simp only [Bool.and_eq_true, pdiff_iff hp0, decide_eq_true_eq, List.length_map, cellCmp, Q99,
          hq, hp, Option.some.injEq, gt_iff_lt]
        have h4 : (4 : ℚ) < (levelReadings level s).length / (s.length : ℚ) * 100 ↔
            4 * (s.length : ℚ) < 100 * (levelReadings level s).length := by
          rw [div_mul_eq_mul_div, lt_div_iff₀ hpos, mul_comm 100]
        rw [h4]
        constructor
        · rintro ⟨⟨a, b⟩, c⟩
          exact ⟨q, ⟨p, rfl, rfl, a, by linarith⟩, c⟩
        · rintro ⟨q', ⟨p', rfl, rfl, a, b⟩, c⟩
          exact ⟨⟨a, by linarith⟩, c⟩
  have hb : inBand (dayLevels f clip (dayOf t)).1 (dayLevels f clip (dayOf t)).2 (some x) = true ↔
      AtDayLevel level t x := hl _ _
  rw [ho, ← hover, ← hb, Option.some.injEq, Bool.not_eq_false', Bool.or_eq_true]

/-- the plateau levels of a day of a finely sampled series: the robust 7.5 % and 99 % quantiles of
the readings whose quarter of an hour belongs to a plateau -/
def FineLevels (s : Series) (t0 : Int) (c : ℚ) (k : Nat) (d : Int) (lo hi : ℚ) : Prop :=
  robustQuantile (plateauCells s t0 c k d) (75/1000) = some lo ∧
    robustQuantile (plateauCells s t0 c k d) (99/100) = some hi

/-- **C93 (fine sampling).** On a series whose prevailing step is below ten minutes a reading is
excluded if and only if it belongs to the plateau levels of its day or the overall rule applies and
it is at least the overall threshold. -/
theorem C93_fine_exact {t0 : Int} {v0 : Cell} {s' : Series}
    (hs : (((t0, v0) :: s').map Prod.fst).Pairwise (· < ·))
    (hf : FineSampling (((t0, v0) :: s').map Prod.fst))
    (hn : ∀ t x, (t, some x) ∈ (t0, v0) :: s' → 0 ≤ x)
    (hv : ∀ d, Varied (dayReadings ((t0, v0) :: s') d)) {m : String} {c : ℚ} {k : Nat}
    {out : List Bool} (h : logicClipFilter ((t0, v0) :: s') m c (some k) = .ok out) {i : Nat}
    {t : Int} {x : ℚ} (hi : ((t0, v0) :: s')[i]? = some (t, some x)) :
    out[i]? = some false ↔
      AtDayLevel (FineLevels ((t0, v0) :: s') t0 c k) t x ∨
      ∃ q, OverallRule Q99 (FineLevels ((t0, v0) :: s') t0 c k) ((t0, v0) :: s') q ∧ q ≤ x := by
  refine verdict_exact hs hv h ?_
    (fun d lo hi hl => nonneg_level hn (by norm_num) (by norm_num) hl.1) hi
  intro f det clip e1 e2 e3 d x
  have hfine := modeMin_fine hf e1
  have e4 := clipPower_ok e3
  have hdl : dayLevels f clip d =
      (robustQuantile (plateauCells ((t0, v0) :: s') t0 c k d) (75/1000),
        robustQuantile (plateauCells ((t0, v0) :: s') t0 c k d) (99/100)) := by
    unfold dayLevels
    simp only
    rw [if_neg hfine, e4, plateauCells_eq hs hv hfine e2]
    rfl
  rw [hdl]
  simp only
  unfold FineLevels
  cases hlo : robustQuantile (plateauCells ((t0, v0) :: s') t0 c k d) (75/1000) with
  | none => simp [inBand]
  | some lo =>
    cases hhi : robustQuantile (plateauCells ((t0, v0) :: s') t0 c k d) (99/100) with
    | none => simp [inBand]
    | some hi' =>
      rw [inBand_iff (nonneg_level hn (by norm_num) (by norm_num) hlo)
        (nonneg_level hn (by norm_num) (by norm_num) hhi)]
      constructor
      · intro ha; exact ⟨lo, hi', ⟨rfl, rfl⟩, ha⟩
      · rintro ⟨lo', hi2, ⟨a, b⟩, ha⟩
        rw [Option.some.injEq] at a b
        subst a; subst b
        exact ha

/-- **C93 (coarser sampling).** On a regular series with steps of ten minutes or more a reading is
excluded if and only if it belongs to the levels given by the least and the greatest plateau reading
of its day or the overall rule applies and it is at least the overall threshold. -/
theorem C93_regular_exact {t0 f : Int} (hf : 600000000000 ≤ f) {vals : List ℚ}
    (hl : 10 < vals.length) (hv : ∀ d, Varied (dayReadings (regular t0 f vals) d)) {m : String}
    {c : ℚ} {k : Nat} {out : List Bool}
    (h : logicClipFilter (regular t0 f vals) m c (some k) = .ok out) {i : Nat} {x : ℚ}
    (hx : vals[i]? = some x) :
    out[i]? = some false ↔
      AtDayLevel (PlateauExtremes t0 f vals c k) (t0 + (i : Int) * f) x ∨
      ∃ q, OverallRule Q99 (PlateauExtremes t0 f vals c k) (regular t0 f vals) q ∧ q ≤ x := by
  have hpos : 0 < f := by omega
  have hf' : 10 * minuteNs ≤ f := hf
  have hs := regular_sorted (t0 := t0) hpos vals
  have hn : ∀ d lo hi, PlateauExtremes t0 f vals c k d lo hi → 0 ≤ lo := by
    rintro d lo hi ⟨⟨⟨j, h1, _, h3, _⟩, _⟩, _⟩
    exact plateau_nonneg h3 h1
  refine verdict_exact hs hv h ?_ hn (regular_get (t0 := t0) (f := f) hx)
  intro f' det clip e1 e2 e3 d x
  rw [modeMin_regular (by omega), Option.some.injEq] at e1
  subst e1
  obtain ⟨det', hd, hlen, hdet⟩ := detect_regular hf' (by omega) hv m c k
  rw [hd, Except.ok.injEq] at e2
  subst e2
  have e4 := clipPower_ok e3
  subst e4
  have hdl : dayLevels f ((((regular t0 f vals).zip det').map
      fun x => (x.1.1, if x.2 then x.1.2 else none))) d =
      ((valids (onDay (((regular t0 f vals).zip det').map
        fun x => (x.1.1, if x.2 then x.1.2 else none)) d)).min?,
       (valids (onDay (((regular t0 f vals).zip det').map
        fun x => (x.1.1, if x.2 then x.1.2 else none)) d)).max?) := by
    unfold dayLevels; simp only; rw [if_pos hf']
  rw [hdl]
  simp only
  set L := valids (onDay (((regular t0 f vals).zip det').map
        fun x => (x.1.1, if x.2 then x.1.2 else none)) d) with hL
  have hmem : ∀ y, y ∈ L ↔ ∃ j : Nat, vals[j]? = some y ∧ k ≤ j + 1 ∧ InPlateau t0 f vals c k j ∧
      (t0 + (j : Int) * f) / 86400000000000 = d := by
    intro y
    rw [hL, mem_dayClip]
    constructor
    · rintro ⟨j, a, b, e⟩
      obtain ⟨b1, b2⟩ := (hdet j (List.getElem?_eq_some_iff.mp a).1).mp b
      exact ⟨j, a, b1, b2, e⟩
    · rintro ⟨j, a, b1, b2, e⟩
      exact ⟨j, a, (hdet j (List.getElem?_eq_some_iff.mp a).1).mpr ⟨b1, b2⟩, e⟩
  have hset : ∀ lo hi, PlateauExtremes t0 f vals c k d lo hi ↔
      L.min? = some lo ∧ L.max? = some hi := by
    intro lo hi
    unfold PlateauExtremes
    simp only [IsLeast, IsGreatest, lowerBounds, upperBounds, Set.mem_setOf_eq,
      List.min?_eq_some_iff, List.max?_eq_some_iff]
    constructor
    · rintro ⟨⟨a, b⟩, a', b'⟩
      exact ⟨⟨(hmem _).mpr a, fun z hz => b ((hmem z).mp hz)⟩,
        (hmem _).mpr a', fun z hz => b' ((hmem z).mp hz)⟩
    · rintro ⟨⟨a, b⟩, a', b'⟩
      exact ⟨⟨(hmem _).mp a, fun z hz => b _ ((hmem z).mpr hz)⟩,
        (hmem _).mp a', fun z hz => b' _ ((hmem z).mpr hz)⟩
  constructor
  · intro hb
    cases hmn : L.min? with
    | none => rw [hmn] at hb; simp [inBand] at hb
    | some lo =>
      cases hmx : L.max? with
      | none => rw [hmn, hmx] at hb; simp [inBand] at hb
      | some hi =>
        have hpe := (hset lo hi).mpr ⟨hmn, hmx⟩
        have h0 := hn d lo hi hpe
        have h1 : lo ≤ hi := hpe.1.2 hpe.2.1
        rw [hmn, hmx, inBand_iff h0 (h0.trans h1)] at hb
        exact ⟨lo, hi, hpe, hb⟩
  · rintro ⟨lo, hi, hpe, ha⟩
    have h0 := hn d lo hi hpe
    have h1 : lo ≤ hi := hpe.1.2 hpe.2.1
    obtain ⟨a, b⟩ := (hset lo hi).mp hpe
    rw [a, b, inBand_iff h0 (h0.trans h1)]
    exact ha

/-! ### a day with a plateau and a day with one reading at its level -/

/-- hourly readings from midnight on: a plateau of 10 on the first day, a single 10 on the second -/
def twoPeaks : List ℚ :=
  [0, 0, 0, 0, 1, 3, 6, 8, 9, 10, 10, 10, 10, 10, 8, 6, 3, 1, 0, 0, 0, 0, 0, 0,
   0, 0, 0, 0, 1, 3, 6, 7, 8, 9, 10, 8, 7, 6, 5, 3, 1, 0, 0, 0]

/-- the single reading of 10 is excluded by the overall rule although its day has no plateau -/
example : logicClipFilter (regular 0 3600000000000 twoPeaks) "fixed" (2/10) (some 2) = .ok
    ((List.range 44).map fun i => !(decide (9 ≤ i ∧ i ≤ 13) || decide (i = 34))) := by
  decide +kernel

/-- the two days meet the hypotheses -/
example : 10 < twoPeaks.length ∧ ∀ d, Varied (dayReadings (regular 0 3600000000000 twoPeaks) d) := by
  refine ⟨by decide, fun d => ?_⟩
  by_cases h0 : d = 0
  · subst h0; unfold Varied; decide +kernel
  by_cases h1 : d = 1
  · subst h1; unfold Varied; decide +kernel
  have : dayReadings (regular 0 3600000000000 twoPeaks) d = [] := by
    unfold dayReadings
    rw [List.filterMap_eq_nil_iff]
    intro r hr
    obtain ⟨h2, h3⟩ := List.mem_filter.mp hr
    exfalso
    have h4 : ∀ r ∈ regular 0 3600000000000 twoPeaks, r.1 / 86400000000000 = 0 ∨
        r.1 / 86400000000000 = 1 := by decide +kernel
    rw [decide_eq_true_eq] at h3
    rcases h4 r h2 with h | h <;> omega
  rw [this]
  simp [Varied]

end Verif.Clip
