import Verif.Lemmas.ClipLogic
import Verif.Lemmas.Filtering
import Verif.Lemmas.Percentile
import Verif.Lemmas.Scaling

/-! The logic-based clipping filter does not depend on the unit of the power. -/

namespace Verif.Clip

open Verif

/-- all cells times `c` -/
abbrev scaleC (c : ℚ) (l : List Cell) : List Cell := l.map fun v => v.map (c * ·)

theorem sum_scale {α : Type} (c : ℚ) (f : α → ℚ) (l : List α) :
    (l.map fun x => c * f x).sum = c * (l.map f).sum := by
  induction l with
  | nil => simp
  | cons a l ih => simp [ih, mul_add]

theorem max?_scale {c : ℚ} (hc : 0 < c) (l : List ℚ) :
    (l.map (c * ·)).max? = l.max?.map (c * ·) := by
  cases l with
  | nil => rfl
  | cons a l =>
    simp only [List.map_cons, List.max?_cons', Option.map_some, Option.some.injEq]
    induction l generalizing a with
    | nil => rfl
    | cons b l ih =>
      simp only [List.map_cons, List.foldl_cons]
      rw [← ih, mul_max_of_nonneg _ _ hc.le]

theorem min?_scale {c : ℚ} (hc : 0 < c) (l : List ℚ) :
    (l.map (c * ·)).min? = l.min?.map (c * ·) := by
  cases l with
  | nil => rfl
  | cons a l =>
    simp only [List.map_cons, List.min?_cons', Option.map_some, Option.some.injEq]
    induction l generalizing a with
    | nil => rfl
    | cons b l ih =>
      simp only [List.map_cons, List.foldl_cons]
      rw [← ih, mul_min_of_nonneg _ _ hc.le]

theorem cellCmp_lt_scale {c : ℚ} (hc : 0 < c) (x y : Cell) :
    cellCmp (fun a b => decide (a < b)) (x.map (c * ·)) (y.map (c * ·)) =
      cellCmp (fun a b => decide (a < b)) x y := by
  cases x <;> cases y <;> simp [cellCmp, hc]

theorem cellCmp_ge_scale {c : ℚ} (hc : 0 < c) (x y : Cell) :
    cellCmp (fun a b => decide (a ≥ b)) (x.map (c * ·)) (y.map (c * ·)) =
      cellCmp (fun a b => decide (a ≥ b)) x y := by
  cases x <;> cases y <;> simp [cellCmp, hc]

theorem onDay_scale (c : ℚ) (s : Series) (d : Int) :
    onDay (scaleS c s) d = scaleC c (onDay s d) := by
  unfold onDay scaleS
  rw [List.filter_map, List.map_map, scaleC, List.map_map]
  rfl

theorem dropDupFirst_scale (c : ℚ) (s : Series) :
    dropDupFirst (scaleS c s) = scaleS c (dropDupFirst s) := by
  induction s with
  | nil => rfl
  | cons a s ih =>
    have e : scaleS c (a :: s) = (a.1, a.2.map (c * ·)) :: scaleS c s := rfl
    rw [e, dropDupFirst, ih, dropDupFirst]
    unfold scaleS
    rw [List.map_cons, List.filter_map]
    rfl

theorem mean_scale (c : ℚ) (l : List ℚ) : mean (l.map (c * ·)) = (mean l).map (c * ·) := by
  unfold mean
  cases l with
  | nil => rfl
  | cons a l =>
    simp only [List.map_cons]
    have h : (c * a :: l.map (c * ·)).sum = c * (a :: l).sum := by
      have := sum_scale c id (a :: l)
      simpa using this
    simp only [Option.map_some, Option.some.injEq, h, List.length_cons, List.length_map]
    ring

theorem frozen_scale {c : ℚ} (hc : 0 < c) (l : List Cell) : frozen (scaleC c l) = frozen l := by
  unfold frozen
  simp only
  rw [valids_scale, mean_scale]
  cases hm : mean (valids l) with
  | none => simp
  | some m =>
    simp only [Option.map_some, List.length_map, List.map_map]
    have h1 : (((fun x => (x - c * m) ^ 2) ∘ fun x => c * x)) = fun x : ℚ => c ^ 2 * (x - m) ^ 2 := by
      funext x; simp; ring
    rw [h1]
    have h2 : ((valids l).map fun x => c ^ 2 * (x - m) ^ 2).sum =
        c ^ 2 * ((valids l).map fun x => (x - m) ^ 2).sum := by
      exact sum_scale _ _ _
    rw [h2]
    have hm1 : decide (c * m < 0) = decide (m < 0) := by
      rw [decide_eq_decide]
      constructor
      · intro h; by_contra hn; push Not at hn; nlinarith
      · intro h; nlinarith
    have hm2 : decide (0 < c * m) = decide (0 < m) := by
      rw [decide_eq_decide]
      constructor
      · intro h; by_contra hn; push Not at hn; nlinarith
      · intro h; positivity
    have hm3 : (c ^ 2 * ((valids l).map fun x => (x - m) ^ 2).sum / ((valids l).length - 1 : ℚ) <
          (c * m / 10) ^ 2) ↔
        (((valids l).map fun x => (x - m) ^ 2).sum / ((valids l).length - 1 : ℚ) < (m / 10) ^ 2) := by
      have e1 : (c * m / 10) ^ 2 = c ^ 2 * (m / 10) ^ 2 := by ring
      rw [e1, mul_div_assoc, mul_lt_mul_iff_right₀ (by positivity)]
    rw [hm1, hm2, decide_eq_decide.mpr hm3]

theorem cleanFrozen_scale {c : ℚ} (hc : 0 < c) (s : Series) :
    cleanFrozen (scaleS c s) = scaleS c (cleanFrozen s) := by
  unfold cleanFrozen
  simp only [onDay_scale, frozen_scale hc]
  unfold scaleS
  simp only [List.map_map]
  apply List.map_congr_left
  intro r _
  simp only [Function.comp_apply]
  split_ifs <;> rfl

theorem resample15_scale {c : ℚ} (hc : 0 < c) (s : Series) :
    resample15 (scaleS c s) = scaleS c (resample15 s) := by
  have hi : Series.index (scaleS c s) = s.index := fst_scaleS c s
  unfold resample15
  simp only [hi]
  conv_rhs => unfold scaleS
  rw [List.map_map]
  apply List.map_congr_left
  intro k _
  simp only [Function.comp_apply, Prod.mk.injEq, true_and]
  rw [← median_smul hc, ← valids_scale]
  unfold scaleS
  rw [List.filter_map, List.map_map, List.map_map]
  rfl

theorem dropLow_scale {c : ℚ} (hc : 0 < c) (s : Series) :
    dropLow (scaleS c s) = scaleS c (dropLow s) := by
  unfold dropLow
  simp only [onDay_scale, valids_scale, max?_scale hc]
  unfold scaleS
  simp only [List.map_map]
  apply List.map_congr_left
  intro r _
  simp only [Function.comp_apply]
  have e : Option.map (fun x => 1/10 * x) (Option.map (fun x => c * x)
      (valids (onDay s (dayOf r.1))).max?) =
      Option.map (fun x => c * x) (Option.map (fun x => 1/10 * x)
        (valids (onDay s (dayOf r.1))).max?) := by
    rw [Option.map_map, Option.map_map]
    congr 1
    funext x; simp; ring
  rw [e, cellCmp_lt_scale hc]
  split_ifs <;> rfl

theorem rangePct_scale {c : ℚ} (hc : 0 < c) (l : List ℚ) :
    rangePct (l.map (c * ·)) = rangePct l := by
  unfold rangePct
  rw [max?_scale hc, min?_scale hc]
  cases l.max? <;> cases l.min? <;> simp only [Option.map_some, Option.map_none]
  rename_i mx mn
  have h : c * mx + c * mn = 0 ↔ mx + mn = 0 := by
    rw [← mul_add]; simp [hc.ne']
  by_cases h0 : mx + mn = 0
  · rw [if_pos (h.mpr h0), if_pos h0]
  · rw [if_neg (fun e => h0 (h.mp e)), if_neg h0]
    congr 1
    field_simp

theorem rollingRange_scale {c : ℚ} (hc : 0 < c) (k : Nat) (l : List Cell) :
    rollingRange k (scaleC c l) = rollingRange k l := by
  unfold rollingRange
  rw [List.length_map]
  apply List.map_congr_left
  intro i _
  simp only
  rw [← List.map_drop, ← List.map_take, valids_scale, List.length_map, rangePct_scale hc]

theorem gridFlags_scale {c : ℚ} (hc : 0 < c) (k : Nat) (q : ℚ) (g : Series) :
    gridFlags k q (scaleS c g) = gridFlags k q g := by
  unfold gridFlags
  simp only
  rw [dropLow_scale hc]
  have h1 : Series.index (scaleS c (dropLow g)) = (dropLow g).index := fst_scaleS _ _
  have h2 : Series.values (scaleS c (dropLow g)) = scaleC c (dropLow g).values := by
    simp [scaleS, Function.comp_def]
  rw [h1, h2, rollingRange_scale hc]

theorem detect_scale {c : ℚ} (hc : 0 < c) (s : Series) (m : String) (q : ℚ) (k : Option Nat)
    (f : Int) : detect (scaleS c s) m q k f = detect s m q k f := by
  have hi : Series.index (scaleS c s) = s.index := fst_scaleS c s
  have hg : detectionGrid (scaleS c s) f = (detectionGrid s f).map (scaleS c) := by
    unfold detectionGrid
    simp only
    rw [dropDupFirst_scale, cleanFrozen_scale hc]
    have hj : Series.index (scaleS c (cleanFrozen (dropDupFirst s))) =
      (cleanFrozen (dropDupFirst s)).index := fst_scaleS _ _
    rw [hj]
    split_ifs
    · rw [interpolateSeries_scale]
    · rw [resample15_scale hc]; rfl
  unfold detect
  rw [hg, hi]
  cases detectionGrid s f with
  | error e => rfl
  | ok g =>
    simp only [Except.map, Except.bind]
    rw [gridFlags_scale hc]

theorem clipPower_scale (c : ℚ) (s : Series) (det : List Bool) :
    clipPower (scaleS c s) det = (clipPower s det).map (scaleS c) := by
  have hz : (scaleS c s).zip det =
      (s.zip det).map fun x => ((x.1.1, x.1.2.map (c * ·)), x.2) := by
    unfold scaleS
    rw [List.zip_map_left]
    apply List.map_congr_left
    rintro ⟨r, b⟩ _
    rfl
  unfold clipPower
  simp only
  rw [hz, List.filter_map, List.map_map, List.map_map]
  have e1 : (List.map ((fun x : (Int × Cell) × Bool => x.1.1) ∘
      fun x => ((x.1.1, x.1.2.map (c * ·)), x.2))
      (List.filter ((fun x : (Int × Cell) × Bool => x.2) ∘
        fun x => ((x.1.1, x.1.2.map (c * ·)), x.2)) (s.zip det))) =
      ((s.zip det).filter fun x => x.2).map fun x => x.1.1 := rfl
  rw [e1]
  split_ifs
  · rfl
  · simp only [Except.map]
    congr 1
    unfold scaleS
    rw [List.map_map]
    apply List.map_congr_left
    rintro ⟨r, b⟩ _
    cases b <;> rfl

theorem robustQuantile_scale {c : ℚ} (hc : 0 < c) (x : List Cell) {q : ℚ} (h0 : 0 ≤ q)
    (h1 : q ≤ 1) : robustQuantile (scaleC c x) q = (robustQuantile x q).map (c * ·) := by
  unfold robustQuantile
  rw [robustKeep_scale hc x h0 h1, quantile_smul hc h0 h1]

theorem dayLevels_scale {c : ℚ} (hc : 0 < c) (f : Int) (clip : Series) (d : Int) :
    dayLevels f (scaleS c clip) d =
      ((dayLevels f clip d).1.map (c * ·), (dayLevels f clip d).2.map (c * ·)) := by
  unfold dayLevels
  simp only [onDay_scale]
  split_ifs
  · rw [valids_scale, min?_scale hc, max?_scale hc]
  · rw [robustQuantile_scale hc _ (by norm_num) (by norm_num),
      robustQuantile_scale hc _ (by norm_num) (by norm_num)]

theorem ofDiv_scale {c : ℚ} (hc : 0 < c) (a b : ℚ) : Flt.ofDiv (c * a) (c * b) = Flt.ofDiv a b := by
  unfold Flt.ofDiv
  have hb : c * b = 0 ↔ b = 0 := by simp [hc.ne']
  have ha : c * a = 0 ↔ a = 0 := by simp [hc.ne']
  have ha' : 0 < c * a ↔ 0 < a := by
    constructor
    · intro h; by_contra hn; push Not at hn; nlinarith
    · intro h; positivity
  simp only [hb, ha, ha']
  split_ifs with h
  · rfl
  · rfl
  · rfl
  · rw [mul_div_mul_left _ _ hc.ne']

theorem inBand_scale {c : ℚ} (hc : 0 < c) (lo hi v : Cell) :
    inBand (lo.map (c * ·)) (hi.map (c * ·)) (v.map (c * ·)) = inBand lo hi v := by
  cases lo <;> cases hi <;> cases v <;> simp only [Option.map_some, Option.map_none, inBand]
  rename_i lo hi v
  have hd : Flt.ofDiv (c * hi - c * lo) (c * hi) = Flt.ofDiv (hi - lo) hi := by
    rw [← mul_sub, ofDiv_scale hc]
  have e1 : ∀ a b : ℚ, decide (c * a ≤ c * b) = decide (a ≤ b) := by
    intro a b; rw [decide_eq_decide]; exact mul_le_mul_iff_right₀ hc
  simp only [hd, mul_assoc, e1]

theorem bandMask_scale {c : ℚ} (hc : 0 < c) (f : Int) (s clip : Series) :
    bandMask f (scaleS c s) (scaleS c clip) = bandMask f s clip := by
  unfold bandMask
  simp only [dayLevels_scale hc]
  unfold scaleS
  rw [List.map_map]
  apply List.map_congr_left
  intro r _
  simp only [Function.comp_apply, inBand_scale hc]

theorem powerCleaned_scale {c : ℚ} (hc : 0 < c) (s : Series) :
    powerCleaned (scaleS c s) = scaleC c (powerCleaned s) := by
  unfold powerCleaned
  have hi : Series.index (scaleS c s) = s.index := fst_scaleS c s
  rw [hi, dropDupFirst_scale, cleanFrozen_scale hc, scaleC]
  generalize s.index = idx
  rw [List.map_map]
  apply List.map_congr_left
  intro t _
  rw [Function.comp_apply, lookupK_scaleS]

theorem applyOverall_scale {c : ℚ} (hc : 0 < c) (cleaned : List Cell) (mask : List Bool)
    (clipped : List Cell) :
    applyOverall (scaleC c cleaned) mask (scaleC c clipped) = applyOverall cleaned mask clipped := by
  have ho : overallApplies (scaleC c cleaned) (scaleC c clipped) = overallApplies cleaned clipped := by
    unfold overallApplies
    rw [robustQuantile_scale hc _ (by norm_num) (by norm_num),
      robustQuantile_scale hc _ (by norm_num) (by norm_num)]
    cases robustQuantile cleaned (99/100) <;> cases robustQuantile clipped (99/100) <;>
      simp only [Option.map_some, Option.map_none, List.length_map]
    rename_i a b
    have : Flt.ofDiv (c * a - c * b) ((c * a + c * b) / 2) = Flt.ofDiv (a - b) ((a + b) / 2) := by
      rw [← mul_sub, ← mul_add, mul_div_assoc, ofDiv_scale hc]
    rw [this]
  unfold applyOverall
  rw [ho, robustQuantile_scale hc _ (by norm_num) (by norm_num)]
  split_ifs
  · rw [List.zip_map_right, List.map_map]
    apply List.map_congr_left
    rintro ⟨b, v⟩ _
    simp only [Function.comp_apply, Prod.map_apply, id, cellCmp_ge_scale hc]
  · rfl

theorem clippedOf_scale (c : ℚ) (s : Series) (band : List Bool) :
    clippedOf (scaleS c s) band = scaleC c (clippedOf s band) := by
  have hv : Series.values (scaleS c s) = scaleC c s.values := by simp [scaleS, Function.comp_def]
  unfold clippedOf
  rw [hv]
  generalize s.values = v
  rw [scaleC, List.zip_map_left, List.filter_map, List.map_map, scaleC, List.map_map]
  rfl

theorem tail_scale {c : ℚ} (hc : 0 < c) (s clip : Series) (f : Int) :
    applyOverall (powerCleaned (scaleS c s)) (bandMask f (scaleS c s) (scaleS c clip))
        (clippedOf (scaleS c s) (bandMask f (scaleS c s) (scaleS c clip))) =
      applyOverall (powerCleaned s) (bandMask f s clip) (clippedOf s (bandMask f s clip)) := by
  rw [bandMask_scale hc, powerCleaned_scale hc, clippedOf_scale, applyOverall_scale hc]

theorem logic_eq (s : Series) (m : String) (q : ℚ) (k : Option Nat) :
    logicClipFilter s m q k = (formatClipping (.datetime s.index) m).bind fun _ =>
      match modeMin (stepsOf s.index) with
      | none => .error .keyError
      | some f => (detect s m q k f).bind fun det => (clipPower s det).bind fun clip =>
        .ok ((applyOverall (powerCleaned s) (bandMask f s clip)
          (clippedOf s (bandMask f s clip))).map (!·)) := rfl

theorem logic_scale {c : ℚ} (hc : 0 < c) (s : Series) (m : String) (q : ℚ) (k : Option Nat) :
    logicClipFilter (scaleS c s) m q k = logicClipFilter s m q k := by
  have hi : Series.index (scaleS c s) = s.index := fst_scaleS c s
  rw [logic_eq, logic_eq, hi]
  generalize formatClipping (.datetime s.index) m = F
  generalize modeMin (stepsOf s.index) = f
  cases F with
  | error e => simp only [Except.bind]
  | ok o =>
    cases f with
    | none => simp only [Except.bind]
    | some f =>
      simp only [Except.bind]
      rw [detect_scale hc]
      generalize detect s m q k f = D
      cases D with
      | error e => simp only
      | ok det =>
        simp only
        rw [clipPower_scale]
        generalize clipPower s det = C
        cases C with
        | error e => simp only [Except.map]
        | ok clip =>
          simp only [Except.map]
          rw [tail_scale hc]

end Verif.Clip
