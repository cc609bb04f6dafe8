import Verif.Lemmas.Filtering
import Verif.Spec.Filtering
import Verif.Lemmas.Quantile

/-! # Properties C12-C19 (filters) -/

namespace Verif
open Spec

/-! ## C12 -/

theorem lt_iff_below (x y : Flt) : Flt.lt x y = true ↔ Below x y := by
  unfold Below
  cases x <;> cases y <;> simp [Flt.lt, number]
  exact WithBot.coe_lt_coe.mpr (WithTop.coe_lt_top _)

theorem le_iff_atMost (x y : Flt) : Flt.le x y = true ↔ AtMost x y := by
  unfold AtMost
  cases x <;> cases y <;> simp [Flt.le, number]

/-- **C12 (normalized_filter).** True exactly for numbers strictly above the lower and strictly
below the upper bound; without a bound the infinite end is excluded, every finite number allowed. -/
theorem C12_normalized (lo hi : Option Flt) (x : Flt) :
    normalizedFilter lo hi x = true ↔
      Below (lo.getD .ninf) x ∧ Below x (hi.getD .pinf) := by
  simp [normalizedFilter, lt_iff_below]

/-- **C12 (None bounds).** A bound of None imposes no restriction on a finite number. -/
theorem C12_normalized_none (b : Flt) (q : ℚ) :
    (normalizedFilter none (some b) (.fin q) = true ↔ Below (.fin q) b) ∧
    (normalizedFilter (some b) none (.fin q) = true ↔ Below b (.fin q)) ∧
    normalizedFilter none none (.fin q) = true := by
  have h1 : Below .ninf (.fin q) := (lt_iff_below _ _).mp rfl
  have h2 : Below (.fin q) .pinf := (lt_iff_below _ _).mp rfl
  refine ⟨?_, ?_, rfl⟩ <;> rw [C12_normalized] <;> simp [h1, h2]

/-- **C12 (poa_filter, tcell_filter).** -/
theorem C12_poa_tcell (lo hi x : Flt) :
    (poaFilter lo hi x = true ↔ Below lo x ∧ Below x hi) ∧
      (tcellFilter lo hi x = true ↔ Below lo x ∧ Below x hi) := by
  simp [poaFilter, tcellFilter, lt_iff_below]

/-- **C12 (csi_filter).** For a positive clear-sky irradiance `c` the point is accepted exactly when
the measurement is within `thr·c` of `c`, the limits included. -/
theorem C12_csi {c : ℚ} (hc : 0 < c) (thr m : ℚ) :
    csiFilter thr (.fin m) (.fin c) = true ↔ |m - c| ≤ thr * c := by
  simp only [csiFilter, Flt.div, Flt.ofDiv, if_neg hc.ne', Flt.le, Bool.and_eq_true,
    decide_eq_true_eq]
  rw [le_div_iff₀ hc, div_le_iff₀ hc, abs_le]
  constructor <;> rintro ⟨h1, h2⟩ <;> constructor <;> linarith

/-- **C12 (csi_filter at night).** A zero clear-sky irradiance is never accepted. -/
theorem C12_csi_zero (thr : ℚ) (m : Flt) : csiFilter thr m (.fin 0) = false := by
  cases m with
  | nan => rfl
  | fin a =>
    simp only [csiFilter, Flt.div, Flt.ofDiv, if_true]
    split
    · rfl
    · split <;> rfl
  | ninf => rfl
  | pinf => rfl

/-- **C12 (hour_angle_filter).** -/
theorem C12_hour_angle (lo hi x : Flt) :
    hourAngleFilter lo hi x = true ↔ AtMost lo x ∧ AtMost x hi := by
  simp [hourAngleFilter, le_iff_atMost]

/-- **C12 (missing).** No range filter accepts a missing value. -/
theorem C12_missing_rejected (a b : Option Flt) (lo hi : Flt) (thr : ℚ) (y : Flt) :
    normalizedFilter a b .nan = false ∧ poaFilter lo hi .nan = false ∧
    tcellFilter lo hi .nan = false ∧ hourAngleFilter lo hi .nan = false ∧
    csiFilter thr .nan y = false ∧ csiFilter thr y .nan = false := by
  refine ⟨?_, ?_, ?_, ?_, rfl, ?_⟩
  · cases h : a.getD .ninf <;> simp [normalizedFilter, h, Flt.lt]
  · cases lo <;> rfl
  · cases lo <;> rfl
  · cases lo <;> rfl
  · cases y <;> rfl

example : normalizedFilter (some (.fin (1/100))) none (.fin (1/100)) = false := by decide +kernel
example : normalizedFilter (some (.fin (1/100))) none (.fin 1) = true := by decide +kernel
example : normalizedFilter none none .pinf = false := by decide +kernel
example : csiFilter (15/100) (.fin 920) (.fin 800) = true := by decide +kernel

/-! ## C13 -/

/-- **C13 (two_way_window_filter).** -/
theorem C13_two_way {c : ℚ} (hc : 0 < c) (s : Series) (P : Int) (thr : ℚ) :
    twoWayWindowFilter (scaleS c s) P thr = twoWayWindowFilter s P thr := by
  unfold twoWayWindowFilter
  have hq : quantile (valids ((scaleS c s).map Prod.snd)) (99/100) =
      (quantile (valids (s.map Prod.snd)) (99/100)).map (c * ·) := by
    rw [valids_snd_scaleS, quantile_smul hc (by norm_num) (by norm_num)]
  have hn : ((scaleS c s).map fun r => (r.1, cellOp (fun x y => x / y) r.2
        (if quantile (valids ((scaleS c s).map Prod.snd)) (99/100) = some 0 then none
          else quantile (valids ((scaleS c s).map Prod.snd)) (99/100)))) =
      s.map fun r => (r.1, cellOp (fun x y => x / y) r.2
        (if quantile (valids (s.map Prod.snd)) (99/100) = some 0 then none
          else quantile (valids (s.map Prod.snd)) (99/100))) := by
    rw [hq]
    generalize quantile (valids (s.map Prod.snd)) (99/100) = q
    unfold scaleS
    rw [List.map_map]
    apply List.map_congr_left
    rintro ⟨t, x⟩ _
    simp only [Function.comp_apply]
    congr 1
    cases q with
    | none => cases x <;> rfl
    | some q =>
      simp only [Option.map_some, Option.some.injEq, mul_eq_zero, hc.ne', false_or]
      by_cases h : q = 0
      · simp only [h, if_true]; cases x <;> rfl
      · simp only [h, if_false]
        cases x with
        | none => rfl
        | some x => simp only [Option.map_some, cellOp]; congr 1; rw [mul_div_mul_left _ _ hc.ne']
  simp only
  rw [hn]

/-- **C13 (insolation_filter, quantile_clip_filter).** -/
theorem C13_quantile_filters {c : ℚ} (hc : 0 < c) (x : List Cell) (q : ℚ) :
    insolationFilter (x.map fun v => v.map (c * ·)) q = insolationFilter x q ∧
      quantileClipFilter (x.map fun v => v.map (c * ·)) q = quantileClipFilter x q := by
  constructor
  · unfold insolationFilter
    split
    · rfl
    · rename_i h
      push Not at h
      simp only
      rw [valids_scale, quantile_smul hc h.1 h.2, List.map_map]
      congr 1
      apply List.map_congr_left
      intro v _
      exact cellCmp_scale _ (fun a b => le_scale hc b a) _ _
  · unfold quantileClipFilter
    split
    · rfl
    · rename_i h
      push Not at h
      simp only
      have hsmall : robustSmall (x.map fun v => v.map (c * ·)) q =
          (robustSmall x q).map (c * ·) := by
        unfold robustSmall
        rw [List.map_map]
        have : ((fun c : Cell => c.getD 0) ∘ fun v : Cell => v.map (c * ·)) =
            (c * ·) ∘ fun c : Cell => c.getD 0 := by
          funext v; cases v <;> simp
        rw [this, ← List.map_map, quantile_smul hc h.1 h.2, Option.map_map, Option.map_map]
        congr 1; funext v; simp; ring
      have hkeep : robustKeep (x.map fun v => v.map (c * ·)) q = (robustKeep x q).map (c * ·) := by
        unfold robustKeep
        rw [hsmall, List.filter_map, valids_scale]
        congr 2
        apply List.filter_congr
        intro v _
        exact cellCmp_scale _ (fun a b => lt_scale hc b a) _ _
      rw [show robustQuantile (x.map fun v => v.map (c * ·)) q = (robustQuantile x q).map (c * ·) by
        unfold robustQuantile; rw [hkeep, quantile_smul hc h.1 h.2], List.map_map]
      congr 1
      apply List.map_congr_left
      intro v _
      simp only [Function.comp_apply]
      rw [← cellCmp_scale (c := c) (fun a b => decide (a < b)) (fun a b => lt_scale hc a b) v]
      congr 1
      simp only [Option.map_map]
      congr 1; funext y; simp; ring

/-- **C13 (hampel_filter).** -/
theorem C13_hampel {c : ℚ} (hc : 0 < c) (s : Series) (k t0 : ℚ) :
    hampelFilter (scaleS c s) k t0 = hampelFilter s k t0 := by
  unfold hampelFilter
  simp only
  rw [rollMedian_scale hc, snd_scaleS, zipWith_scale _ c (cellOp_abs_scale hc), fst_scaleS]
  set dif := List.zipWith (cellOp fun x y => |x - y|) (rollMedian (centerWin k) 1 s) (s.map Prod.snd)
  have hz : (s.map Prod.fst).zip (dif.map fun x => x.map (c * ·)) =
      scaleS c ((s.map Prod.fst).zip dif) := by
    unfold scaleS
    rw [List.zip_map_right]; rfl
  rw [hz, rollMedian_scale hc, List.map_map]
  set mad := rollMedian (centerWin k) 1 ((s.map Prod.fst).zip dif)
  rw [List.zipWith_map, List.zipWith_map_right]
  congr 1
  funext a b
  rw [← cellCmp_scale (c := c) (fun a b => decide (a ≤ b)) (fun a b => le_scale hc a b) a]
  congr 1
  simp only [Function.comp_apply, Option.map_map]
  congr 1; funext y; simp; ring

theorem tukeyFence_scale {c : ℚ} (hc : 0 < c) (l : List Cell) (k : ℚ) :
    tukeyFence (l.map fun x => x.map (c * ·)) k =
      ((tukeyFence l k).1.map (c * ·), (tukeyFence l k).2.map (c * ·)) := by
  unfold tukeyFence
  simp only
  rw [valids_scale, quantile_smul hc (by norm_num) (by norm_num),
    quantile_smul hc (by norm_num) (by norm_num)]
  cases quantile (valids l) (1/4) <;> cases quantile (valids l) (3/4) <;>
    simp [cellOp] <;> constructor <;> ring

/-- **C13 (directional_tukey_filter).** -/
theorem C13_tukey {c : ℚ} (hc : 0 < c) (s : Series) (P : Int) (k : ℚ) :
    directionalTukeyFilter (scaleS c s) P k = directionalTukeyFilter s P k := by
  unfold directionalTukeyFilter
  simp only
  rw [rollMedian_scale hc, rollMedian_scale hc, snd_scaleS,
    zipWith_scale _ c (cellOp_sub_scale c), zipWith_scale _ c (cellOp_sub_scale c),
    tukeyFence_scale hc, tukeyFence_scale hc, List.zipWith_map]
  congr 1
  funext a b
  simp only
  rw [cellCmp_scale _ (fun a b => lt_scale hc b a), cellCmp_scale _ (fun a b => lt_scale hc a b),
    cellCmp_scale _ (fun a b => lt_scale hc b a), cellCmp_scale _ (fun a b => lt_scale hc a b)]

/-- seven points, one outlier; in kW and in W -/
example : twoWayWindowFilter ((List.range 9).map fun k : Nat =>
      ((k : Int), if k = 4 then some 2 else some 1)) 7 (3/100) =
    [true, true, true, true, false, true, true, true, true] := by decide +kernel
example : hampelFilter [(0, some 1), (1, some 2), (2, some 1), (3, some 9), (4, some 2),
      (5, some 1), (6, some 2)] 4 3 =
    [true, true, true, false, true, true, true] := by decide +kernel

/-! ## C14 -/

theorem present_eq (s : Series) (a b : Int) :
    present s a b = valids ((s.filter fun u => decide (a ≤ u.1 ∧ u.1 ≤ b)).map Prod.snd) := by
  unfold present valids
  induction s with
  | nil => rfl
  | cons r s ih =>
    simp only [List.filterMap_cons, List.filter_cons]
    by_cases h : a ≤ r.1 ∧ r.1 ≤ b
    · simp only [h, and_self, if_true, decide_true, List.map_cons, List.filterMap_cons, id]
      cases r.2 <;> simp [ih]
    · simp only [h, if_false, decide_false, Bool.false_eq_true]
      exact ih

/-- the deviation column at one row -/
theorem dev_ge_iff {x : Cell} {w : List ℚ} {q thr : ℚ} (hq : q ≠ 0) (hthr : 0 < thr) :
    thr ≤ (cellOp (fun x y => |x - y|) (x.map (q⁻¹ * ·))
        ((if w.length < 5 then none else median w).map (q⁻¹ * ·))).getD 0 ↔
      ∃ v, x = some v ∧ FarFromMedian w v (thr * |q|) := by
  cases x with
  | none => simp [cellOp]; exact hthr
  | some v =>
    simp only [Option.some.injEq, exists_eq_left']
    unfold FarFromMedian
    simp only [isMedian_iff]
    by_cases h5 : w.length < 5
    · simp only [h5, if_true, Option.map_none, cellOp, Option.map_some, Option.getD_none]
      constructor
      · intro h; linarith
      · rintro ⟨h, _⟩; omega
    · simp only [h5, if_false]
      cases hm : median w with
      | none => simp [cellOp]; exact hthr
      | some m =>
        simp only [Option.map_some, cellOp, Option.getD_some, Option.some.injEq, exists_eq_left',
          not_lt.mp h5, true_and]
        rw [← mul_sub, abs_mul, abs_inv]
        have : 0 < |q| := abs_pos.mpr hq
        rw [inv_mul_eq_div, le_div_iff₀ this]

/-- the mask as one decision per row -/
theorem twoWay_rows (s : Series) (P : Int) (thr : ℚ) {q : ℚ} (hq : q ≠ 0)
    (hs : quantile (valids (s.map Prod.snd)) (99/100) = some q) :
    twoWayWindowFilter s P thr = s.map fun r => decide (
      min ((cellOp (fun x y => |x - y|) (r.2.map (q⁻¹ * ·))
        ((if (present s (r.1 - P) r.1).length < 5 then none
          else median (present s (r.1 - P) r.1)).map (q⁻¹ * ·))).getD 0)
      ((cellOp (fun x y => |x - y|) (r.2.map (q⁻¹ * ·))
        ((if (present s r.1 (r.1 + P)).length < 5 then none
          else median (present s r.1 (r.1 + P))).map (q⁻¹ * ·))).getD 0) < thr) := by
  unfold twoWayWindowFilter
  simp only
  rw [hs]
  have hn : (s.map fun r => (r.1, cellOp (fun x y => x / y) r.2
      (if some q = some (0 : ℚ) then none else some q))) = scaleS q⁻¹ s := by
    unfold scaleS
    apply List.map_congr_left
    rintro ⟨t, x⟩ _
    rw [if_neg (by simpa using hq)]
    cases x with
    | none => rfl
    | some x => simp only [cellOp, Option.map_some]; congr 2; rw [div_eq_inv_mul]
  rw [hn, rollMedian_mul (inv_ne_zero hq), rollMedian_mul (inv_ne_zero hq), snd_scaleS]
  unfold rollMedian
  simp only [List.map_map, List.zipWith_map, List.map_zipWith, List.zipWith_self]
  apply List.map_congr_left
  intro r _
  simp only [Function.comp_apply]
  congr 4
  · rw [present_eq]; rfl
  · rw [present_eq]; rfl

/-- **C14.** With a positive threshold, a point of the series is rejected exactly when it is present
and is at least `threshold × |99th percentile|` away from the median of the window before it and
from the median of the window after it, both windows holding at least five present points. -/
theorem C14_rejects_iff (s : Series) (P : Int) {thr q : ℚ} (hthr : 0 < thr) (hq : q ≠ 0)
    (hs : IsQuantile ((s.map Prod.snd).filterMap id) (99/100) q) {i : Nat} {t : Int} {x : Cell}
    (hi : s[i]? = some (t, x)) :
    (twoWayWindowFilter s P thr)[i]? = some false ↔
      ∃ v, x = some v ∧ FarFromMedian (present s (t - P) t) v (thr * |q|) ∧
        FarFromMedian (present s t (t + P)) v (thr * |q|) := by
  replace hs : quantile (valids (s.map Prod.snd)) (99/100) = some q := (isQuantile_iff (by norm_num) (by norm_num)).mp hs
  rw [twoWay_rows s P thr hq hs, List.getElem?_map, hi]
  simp only [Option.map_some, Option.some.injEq, decide_eq_false_iff_not, not_lt, le_min_iff]
  rw [dev_ge_iff hq hthr, dev_ge_iff hq hthr]
  constructor
  · rintro ⟨⟨v, rfl, h1⟩, ⟨w, hw, h2⟩⟩
    cases hw
    exact ⟨v, rfl, h1, h2⟩
  · rintro ⟨v, rfl, h1, h2⟩
    exact ⟨⟨v, rfl, h1⟩, ⟨v, rfl, h2⟩⟩

/-- **C14 (length).** One decision per point. -/
theorem C14_length (s : Series) (P : Int) (thr : ℚ) :
    (twoWayWindowFilter s P thr).length = s.length := by
  simp [twoWayWindowFilter, rollMedian]

/-- **C14 (degenerate scale).** When the 99th percentile is zero or there is no data at all, nothing
is rejected (for a positive threshold). -/
theorem C14_degenerate (s : Series) (P : Int) {thr : ℚ} (hthr : 0 < thr)
    (hs : ∀ q, IsQuantile ((s.map Prod.snd).filterMap id) (99/100) q → q = 0) :
    ∀ b ∈ twoWayWindowFilter s P thr, b = true := by
  replace hs : ∀ q, quantile (valids (s.map Prod.snd)) (99/100) = some q → q = 0 := fun q h =>
    hs q ((isQuantile_iff (by norm_num) (by norm_num)).mpr h)
  have hnone : (if quantile (valids (s.map Prod.snd)) (99/100) = some 0 then none
      else quantile (valids (s.map Prod.snd)) (99/100)) = (none : Cell) := by
    split
    · rfl
    · rename_i h
      cases hq : quantile (valids (s.map Prod.snd)) (99/100) with
      | none => rfl
      | some q => exact absurd (by rw [hq, hs q hq]) h
  intro b hb
  unfold twoWayWindowFilter at hb
  simp only [hnone] at hb
  have hc : ∀ x : Cell, cellOp (fun x y => x / y) x none = none := by intro x; cases x <;> rfl
  have hc' : ∀ x : Cell, cellOp (fun x y => |x - y|) none x = none := by intro x; cases x <;> rfl
  simp only [hc, List.map_map, rollMedian, List.zipWith_map,
    List.zipWith_self, Function.comp_def, hc', Option.getD_none, min_self, hthr, decide_true,
    List.mem_map] at hb
  obtain ⟨_, _, h⟩ := hb
  exact h.symm

/-! ## C15 -/

/-- **C15 (partial).** The upper fence is `k` inter-quartile ranges above the third quartile for
every `k`; the lower fence is `k` ranges below the first quartile when `k = 1.5`. Missing: the lower
fence for other `k`, where the claim is false (`C15_lower_fence_ignores_k`). -/
theorem C15_tukey_fence_partial (l : List Cell) (k p25 p75 : ℚ)
    (h25 : IsQuantile (l.filterMap id) (1/4) p25) (h75 : IsQuantile (l.filterMap id) (3/4) p75) :
    (tukeyFence l k).2 = some (p75 + k * (p75 - p25)) ∧
      (tukeyFence l (3/2)).1 = some (p25 - 3/2 * (p75 - p25)) := by
  replace h25 : quantile (valids l) (1/4) = some p25 := (isQuantile_iff (by norm_num) (by norm_num)).mp h25
  replace h75 : quantile (valids l) (3/4) = some p75 := (isQuantile_iff (by norm_num) (by norm_num)).mp h75
  unfold tukeyFence
  rw [h25, h75]
  refine ⟨?_, rfl⟩
  simp only [cellOp]; congr 1; ring

/-- **C15 (refutation).** For every series with a positive inter-quartile range and every `k ≠ 1.5`
the lower fence is not `k` ranges below the first quartile. -/
theorem C15_lower_fence_ignores_k (l : List Cell) {k p25 p75 : ℚ} (hk : k ≠ 3/2)
    (h25 : IsQuantile (l.filterMap id) (1/4) p25) (h75 : IsQuantile (l.filterMap id) (3/4) p75)
    (hiqr : p25 < p75) : (tukeyFence l k).1 ≠ some (p25 - k * (p75 - p25)) := by
  replace h25 : quantile (valids l) (1/4) = some p25 := (isQuantile_iff (by norm_num) (by norm_num)).mp h25
  replace h75 : quantile (valids l) (3/4) = some p75 := (isQuantile_iff (by norm_num) (by norm_num)).mp h75
  unfold tukeyFence
  rw [h25, h75]
  simp only [cellOp, ne_eq, Option.some.injEq]
  intro h
  have : (k - 3/2) * (p75 - p25) = 0 := by linarith
  rcases mul_eq_zero.mp this with h | h
  · exact hk (by linarith)
  · linarith

/-- With `k = 3` the point -4 of this sample lies within three inter-quartile ranges of the first
quartile but outside the lower fence used. -/
theorem C15_witness : tukeyFence [some 0, some 1, some 2, some 3, some 4] 3 = (some (-2), some 9) ∧
    ((1 : ℚ) - 3 * (3 - 1) < -4 ∧ (-4 : ℚ) < -2) := by decide +kernel

/-! ## C16 -/

/-- **C16.** `clip_filter` returns the answer of the filter that was named, provided every keyword is
one it accepts, TypeError otherwise; every other name gives ValueError whatever the keywords. -/
theorem C16_clip_filter {V R : Type} (qu xg lo : Kwargs V → Except PyErr R) (kw : Kwargs V) :
    ((∀ k ∈ kw, k.1 = "quantile") → clipFilter qu xg lo "quantile" kw = qu kw) ∧
    ((∃ k ∈ kw, k.1 ≠ "quantile") → clipFilter qu xg lo "quantile" kw = .error .typeError) ∧
    ((∀ k ∈ kw, k.1 = "mounting_type") → clipFilter qu xg lo "xgboost" kw = xg kw) ∧
    ((∃ k ∈ kw, k.1 ≠ "mounting_type") → clipFilter qu xg lo "xgboost" kw = .error .typeError) ∧
    ((∀ k ∈ kw, k.1 ∈ ["mounting_type", "rolling_range_max_cutoff", "roll_periods"]) →
      clipFilter qu xg lo "logic" kw = lo kw) ∧
    ((∃ k ∈ kw, k.1 ∉ ["mounting_type", "rolling_range_max_cutoff", "roll_periods"]) →
      clipFilter qu xg lo "logic" kw = .error .typeError) ∧
    ∀ m, m ∉ ["quantile", "xgboost", "logic"] → clipFilter qu xg lo m kw = .error .valueError := by
  have key : ∀ (ps : List String) (f : Kwargs V → Except PyErr R),
      ((∀ k ∈ kw, k.1 ∈ ps) → callKw ps f kw = f kw) ∧
      ((∃ k ∈ kw, k.1 ∉ ps) → callKw ps f kw = .error .typeError) := by
    intro ps f
    unfold callKw
    constructor
    · intro h
      exact if_pos (List.all_eq_true.mpr fun k hk => decide_eq_true (h k hk))
    · rintro ⟨k, hk, hn⟩
      exact if_neg fun h => hn (of_decide_eq_true (List.all_eq_true.mp h k hk))
  refine ⟨?_, ?_, ?_, ?_, ?_, ?_, ?_⟩
  · intro h; exact (key ["quantile"] qu).1 fun k hk => by simp [h k hk]
  · rintro ⟨k, hk, h⟩; exact (key ["quantile"] qu).2 ⟨k, hk, by simpa using h⟩
  · intro h; exact (key ["mounting_type"] xg).1 fun k hk => by simp [h k hk]
  · rintro ⟨k, hk, h⟩; exact (key ["mounting_type"] xg).2 ⟨k, hk, by simpa using h⟩
  · exact (key _ lo).1
  · exact (key _ lo).2
  · intro m hm
    simp only [List.mem_cons, List.not_mem_nil, or_false, not_or] at hm
    unfold clipFilter
    rw [if_neg hm.1, if_neg hm.2.1, if_neg hm.2.2]

/-- **C16 (clear-sky filter).** The same for `clearsky_filter`: the index filter takes one keyword, any other is a `TypeError`. -/
theorem C16_clearsky_filter {V R : Type} (csi pv : Kwargs V → Except PyErr R) (kw : Kwargs V) :
    ((∀ k ∈ kw, k.1 = "threshold") → clearskyFilter csi pv "csi" kw = csi kw) ∧
    ((∃ k ∈ kw, k.1 ≠ "threshold") → clearskyFilter csi pv "csi" kw = .error .typeError) ∧
    clearskyFilter csi pv "pvlib" kw = pv kw ∧
    ∀ m, m ∉ ["csi", "pvlib"] → clearskyFilter csi pv m kw = .error .valueError := by
  refine ⟨?_, ?_, rfl, ?_⟩
  · intro h
    exact if_pos (List.all_eq_true.mpr fun k hk => by simp [h k hk])
  · rintro ⟨k, hk, hne⟩
    unfold clearskyFilter callKw
    rw [if_pos rfl, if_neg]
    intro h
    have := List.all_eq_true.mp h k hk
    simp [hne] at this
  · intro m hm
    simp only [List.mem_cons, List.not_mem_nil, or_false, not_or] at hm
    unfold clearskyFilter
    rw [if_neg hm.1, if_neg hm.2]

example : clipFilter (V := ℚ) (R := Nat) (fun kw => .ok kw.length) (fun _ => .ok 7) (fun _ => .ok 9)
    "quantile" [("quantile", 95/100)] = .ok 1 := by decide +kernel
example : clipFilter (V := ℚ) (R := Nat) (fun kw => .ok kw.length) (fun _ => .ok 7) (fun _ => .ok 9)
    "Logic" [] = .error .valueError := by decide +kernel

/-! ## C17 -/

/-- **C17 (decision).** A point is accepted exactly when it is present and below 99 % of the robust
quantile; missing points never are, and without a robust quantile nothing is accepted. -/
theorem C17_accepts_iff {x : List Cell} {q : ℚ} (h0 : 0 ≤ q) (h1 : q ≤ 1) :
    ∃ mask, quantileClipFilter x q = .ok mask ∧ mask.length = x.length ∧
      ∀ (i : Nat) (c : Cell), x[i]? = some c →
        (mask[i]? = some true ↔
          ∃ a v, c = some a ∧ robustQuantile x q = some v ∧ a < 99/100 * v) := by
  refine ⟨_, by unfold quantileClipFilter; rw [if_neg (by push Not; exact ⟨h0, h1⟩)], by simp, ?_⟩
  intro i c hc
  rw [List.getElem?_map, hc]
  simp only [Option.map_some, Option.some.injEq]
  cases c with
  | none => simp [cellCmp]
  | some a =>
    cases robustQuantile x q with
    | none => simp [cellCmp]
    | some v => simp [cellCmp, mul_comm]

theorem C17_level_out_of_range (x : List Cell) {q : ℚ} (h : q < 0 ∨ 1 < q) :
    quantileClipFilter x q = .error .valueError := by
  unfold quantileClipFilter; rw [if_pos h]

theorem robustSmall_some {x : List Cell} (hx : x ≠ []) (q : ℚ) :
    ∃ s, robustSmall x q = some s := by
  unfold robustSmall
  rw [quantile_some (by simpa using hx)]
  exact ⟨_, rfl⟩

theorem robustKeep_eq {x : List Cell} {q s : ℚ} (h : robustSmall x q = some s) :
    robustKeep x q = (valids x).filter fun a => decide (s < a) := by
  unfold robustKeep
  rw [h]
  unfold valids
  clear h
  induction x with
  | nil => rfl
  | cons c x ih =>
    cases c with
    | none => simpa [cellCmp] using ih
    | some a => by_cases ha : s < a <;> simp [cellCmp, ha] <;> exact ih

/-- **C17 (monotone in the level, partial).** If some value is positive, raising the quantile level
keeps every accepted point accepted. Missing: series without positive values, where the claim is
false (`C17_not_monotone_without_positive_values`). -/
theorem C17_monotone_partial {x : List Cell} {q r : ℚ} (h0 : 0 ≤ q) (hqr : q ≤ r) (h1 : r ≤ 1)
    (hpos : ∃ a, some a ∈ x ∧ 0 < a) {mq mr : List Bool}
    (hq : quantileClipFilter x q = .ok mq) (hr : quantileClipFilter x r = .ok mr)
    {i : Nat} (hi : mq[i]? = some true) : mr[i]? = some true := by
  obtain ⟨a, hax, ha⟩ := hpos
  have hxne : x ≠ [] := by rintro rfl; simp at hax
  obtain ⟨sq, hsq⟩ := robustSmall_some hxne q
  obtain ⟨sr, hsr⟩ := robustSmall_some hxne r
  obtain ⟨m1, e1, l1, A1⟩ := C17_accepts_iff (x := x) h0 (hqr.trans h1)
  obtain ⟨m2, e2, l2, A2⟩ := C17_accepts_iff (x := x) (h0.trans hqr) h1
  rw [e1] at hq; cases hq
  rw [e2] at hr; cases hr
  have hlt : i < x.length := by
    rw [← l1]; exact (List.getElem?_eq_some_iff.mp hi).1
  obtain ⟨c, hc⟩ : ∃ c, x[i]? = some c := ⟨x[i], List.getElem?_eq_getElem hlt⟩
  obtain ⟨b, v, rfl, hv, hb⟩ := (A1 i c hc).mp hi
  -- the level-r threshold is at most max/1000
  have hsmall : ∀ p s, 0 ≤ p → p ≤ 1 → robustSmall x p = some s →
      ∃ w, quantile (x.map fun c => c.getD 0) p = some w ∧ s = w / 1000 := by
    intro p s _ _ h
    unfold robustSmall at h
    cases hw : quantile (x.map fun c => c.getD 0) p with
    | none => rw [hw] at h; cases h
    | some w => rw [hw] at h; cases h; exact ⟨w, rfl, rfl⟩
  obtain ⟨wq, hwq, rfl⟩ := hsmall q sq h0 (hqr.trans h1) hsq
  obtain ⟨wr, hwr, rfl⟩ := hsmall r sr (h0.trans hqr) h1 hsr
  have hww : wq ≤ wr := quantile_mono hwq hwr h0 hqr h1
  -- some kept value exists at level r
  have hkeep : ∃ z ∈ valids x, wr / 1000 < z := by
    by_contra hno
    push Not at hno
    have haz := hno a (by unfold valids; exact List.mem_filterMap.mpr ⟨some a, hax, rfl⟩)
    have hwr0 : 0 < wr := by linarith
    have : wr ≤ wr / 1000 := by
      apply quantile_le hwr (h0.trans hqr) h1
      intro y hy
      obtain ⟨c, hcx, rfl⟩ := List.mem_map.mp hy
      cases c with
      | none => simp; linarith
      | some y => exact hno y (List.mem_filterMap.mpr ⟨some y, hcx, rfl⟩)
    linarith
  obtain ⟨z, hz, hzr⟩ := hkeep
  have hrr : robustKeep x r = (robustKeep x q).filter fun a => decide (wr / 1000 < a) := by
    rw [robustKeep_eq hsr, robustKeep_eq hsq, List.filter_filter]
    apply List.filter_congr
    intro y _
    by_cases hy : wr / 1000 < y
    · have : wq / 1000 < y := by linarith
      simp [hy, this]
    · simp [hy]
  have hne : robustKeep x r ≠ [] := by
    rw [robustKeep_eq hsr]
    exact List.ne_nil_of_mem (List.mem_filter.mpr ⟨hz, by simpa using hzr⟩)
  unfold robustQuantile at hv
  obtain ⟨vr, hvr⟩ : ∃ w, quantile (robustKeep x r) r = some w := by
    rw [quantile_some hne]; exact ⟨_, rfl⟩
  obtain ⟨vm, hvm⟩ : ∃ w, quantile (robustKeep x q) r = some w := by
    rw [quantile_some (quantile_eq_some hv).1]; exact ⟨_, rfl⟩
  have k1 : v ≤ vm := quantile_mono hv hvm h0 hqr h1
  have k2 : vm ≤ vr := by
    rw [hrr] at hvr
    exact quantile_filter_ge (h0.trans hqr) h1 hvm hvr
  exact (A2 i _ hc).mpr ⟨b, vr, rfl, hvr, by linarith⟩

/-- **C17 (refutation).** Without positive values a higher level can accept less. -/
theorem C17_not_monotone_without_positive_values :
    quantileClipFilter [some (-5), some 0] (1/2) = .ok [true, false] ∧
    quantileClipFilter [some (-5), some 0] 1 = .ok [false, false] := by decide +kernel

example : quantileClipFilter [some 0, none, some 3, some 7, some 10, some 10] (9/10) =
    .ok [true, false, true, true, false, false] := by decide +kernel

/-! ## C18 -/

/-- **C18.** The complete decision table of the validation: which error is raised first, and that
no other input is rejected. -/
theorem C18_validation (ts : List Int) (mounting : String) :
    formatClipping .otherIndex mounting = .error .typeError ∧
    (mounting ∉ ["single_axis_tracking", "fixed"] →
      formatClipping (.datetime ts) mounting = .error .valueError) ∧
    (mounting ∈ ["single_axis_tracking", "fixed"] →
      (¬ ts.Pairwise (· ≤ ·) → formatClipping (.datetime ts) mounting = .error .indexError) ∧
      (ts.Pairwise (· ≤ ·) → ts.length ≤ 10 →
        formatClipping (.datetime ts) mounting = .error .exception) ∧
      (ts.Pairwise (· ≤ ·) → 10 < ts.length → formatClipping (.datetime ts) mounting = .ok ts)) := by
  have hsort : ts.insertionSort (· ≤ ·) = ts ↔ ts.Pairwise (· ≤ ·) := by
    constructor
    · intro h; rw [← h]; exact List.pairwise_insertionSort _ ts
    · intro h; exact h.insertionSort_eq
  simp only [List.mem_cons, List.not_mem_nil, or_false, not_or]
  refine ⟨rfl, ?_, ?_⟩
  · intro h
    simp only [formatClipping]
    rw [if_pos h]
  · intro h
    have hm : ¬ (mounting ≠ "single_axis_tracking" ∧ mounting ≠ "fixed") := by tauto
    simp only [formatClipping]
    rw [if_neg hm]
    refine ⟨?_, ?_, ?_⟩
    · intro hs; rw [if_pos (fun h => hs (hsort.mp h))]
    · intro hs hl; rw [if_neg (not_not.mpr (hsort.mpr hs)), if_pos hl]
    · intro hs hl; rw [if_neg (not_not.mpr (hsort.mpr hs)), if_neg (by omega)]

example : formatClipping (.datetime [1, 2, 3, 4, 5, 6, 7, 8, 9, 10, 11]) "fixed" =
    .ok [1, 2, 3, 4, 5, 6, 7, 8, 9, 10, 11] := by decide +kernel
example : formatClipping (.datetime [2, 1]) "roof" = .error .valueError := by decide +kernel
example : formatClipping (.datetime [2, 1]) "fixed" = .error .indexError := by decide +kernel

/-! ## C19 -/

/-- knots in increasing order -/
def Spec.Knots (tbl : List (ℚ × ℚ)) : Prop := tbl.Pairwise fun a b => a.1 < b.1

theorem interp1d_below {x0 y0 x : ℚ} {l : List (ℚ × ℚ)} (h : x ≤ x0) :
    interp1d ((x0, y0) :: l) x = some y0 := by
  cases l with
  | nil => rfl
  | cons p l => obtain ⟨x1, y1⟩ := p; simp [interp1d, h]

/-- **C19 (nodes).** The table is reproduced at the tabulated frequencies. -/
theorem C19_reproduces_table {tbl : List (ℚ × ℚ)} (hk : Knots tbl) {x y : ℚ} (h : (x, y) ∈ tbl) :
    interp1d tbl x = some y := by
  induction tbl with
  | nil => simp at h
  | cons p l ih =>
    obtain ⟨x0, y0⟩ := p
    rcases List.mem_cons.mp h with h | h
    · cases h; exact interp1d_below (le_refl _)
    · have hlt : x0 < x := (List.pairwise_cons.mp hk).1 _ h
      cases l with
      | nil => simp at h
      | cons p1 l =>
        obtain ⟨x1, y1⟩ := p1
        have h' := ih (List.pairwise_cons.mp hk).2 h
        simp only [interp1d]
        rw [if_neg (not_le.mpr hlt)]
        by_cases hx : x ≤ x1
        · rw [if_pos hx]
          have hxx : x = x1 := by
            rcases List.mem_cons.mp h with h | h
            · cases h; rfl
            · exact absurd hx (not_le.mpr ((List.pairwise_cons.mp (List.pairwise_cons.mp hk).2).1 _ h))
          have hy : y = y1 := by
            rw [hxx, interp1d_below (le_refl _)] at h'
            exact (Option.some.inj h').symm
          rw [hxx, hy]
          have : x1 - x0 ≠ 0 := by rw [hxx] at hlt; linarith
          congr 1; field_simp; ring
        · rw [if_neg hx]; exact h'

/-- **C19 (range).** For every frequency the looked-up value lies between the bounds of the table. -/
theorem C19_within_table {tbl : List (ℚ × ℚ)} (hk : Knots tbl) (hne : tbl ≠ []) {lo hi : ℚ}
    (hlo : ∀ p ∈ tbl, lo ≤ p.2) (hhi : ∀ p ∈ tbl, p.2 ≤ hi) (x : ℚ) :
    ∃ v, interp1d tbl x = some v ∧ lo ≤ v ∧ v ≤ hi := by
  induction tbl with
  | nil => exact absurd rfl hne
  | cons p l ih =>
    obtain ⟨x0, y0⟩ := p
    have h0 := hlo (x0, y0) (by simp)
    have h0' := hhi (x0, y0) (by simp)
    simp only at h0 h0'
    cases l with
    | nil => exact ⟨y0, rfl, h0, h0'⟩
    | cons p1 l =>
      obtain ⟨x1, y1⟩ := p1
      have h1 := hlo (x1, y1) (by simp)
      have h1' := hhi (x1, y1) (by simp)
      simp only at h1 h1'
      simp only [interp1d]
      by_cases hx0 : x ≤ x0
      · rw [if_pos hx0]; exact ⟨y0, rfl, h0, h0'⟩
      · rw [if_neg hx0]
        by_cases hx1 : x ≤ x1
        · rw [if_pos hx1]
          refine ⟨_, rfl, ?_⟩
          have hw : 0 < x1 - x0 := by linarith [not_le.mp hx0]
          have e : y0 + (x - x0) * (y1 - y0) / (x1 - x0) =
              (1 - (x - x0) / (x1 - x0)) * y0 + (x - x0) / (x1 - x0) * y1 := by
            field_simp; ring
          have hl0 : 0 ≤ (x - x0) / (x1 - x0) := div_nonneg (by linarith [not_le.mp hx0]) hw.le
          have hl1 : (x - x0) / (x1 - x0) ≤ 1 := by rw [div_le_one hw]; linarith
          rw [e]
          generalize (x - x0) / (x1 - x0) = w at hl0 hl1
          constructor <;> nlinarith
        · rw [if_neg hx1]
          exact ih (List.pairwise_cons.mp hk).2 (by simp) (fun p hp => hlo p (by simp [hp]))
            (fun p hp => hhi p (by simp [hp]))

theorem interp1d_ge {tbl : List (ℚ × ℚ)} (hk : Knots tbl) {lo v : ℚ}
    (hlo : ∀ p ∈ tbl, lo ≤ p.2) {x : ℚ} (hv : interp1d tbl x = some v) : lo ≤ v := by
  have hhi : ∃ hi, ∀ p ∈ tbl, p.2 ≤ hi := by
    clear hk hlo hv
    induction tbl with
    | nil => exact ⟨0, by simp⟩
    | cons a l ih =>
      obtain ⟨hi, h⟩ := ih
      refine ⟨max a.2 hi, fun p hp => ?_⟩
      rcases List.mem_cons.mp hp with h1 | h1
      · rw [h1]; exact le_max_left _ _
      · exact (h p h1).trans (le_max_right _ _)
  obtain ⟨hi, hhi⟩ := hhi
  have hne : tbl ≠ [] := by rintro rfl; cases hv
  obtain ⟨w, hw, h, _⟩ := C19_within_table hk hne hlo hhi x
  rw [hw] at hv; cases hv; exact h

/-- **C19 (monotone).** With increasing table values a longer sampling interval never gives a
smaller threshold. -/
theorem C19_monotone {tbl : List (ℚ × ℚ)} (hk : Knots tbl)
    (hm : tbl.Pairwise fun a b => a.2 ≤ b.2) {x x' v v' : ℚ} (hx : x ≤ x')
    (hv : interp1d tbl x = some v) (hv' : interp1d tbl x' = some v') : v ≤ v' := by
  induction tbl with
  | nil => cases hv
  | cons p l ih =>
    obtain ⟨x0, y0⟩ := p
    by_cases h0 : x ≤ x0
    · rw [interp1d_below h0, Option.some.injEq] at hv
      rw [← hv]
      refine interp1d_ge hk ?_ hv'
      intro p hp
      rcases List.mem_cons.mp hp with h | h
      · rw [h]
      · exact (List.pairwise_cons.mp hm).1 p h
    · cases l with
      | nil => simp [interp1d] at hv hv'; rw [← hv, ← hv']
      | cons p1 l =>
        obtain ⟨x1, y1⟩ := p1
        have h0' : ¬ x' ≤ x0 := fun h => h0 (hx.trans h)
        have hy : y0 ≤ y1 := (List.pairwise_cons.mp hm).1 (x1, y1) (by simp)
        have hw : 0 < x1 - x0 := by
          have := (List.pairwise_cons.mp hk).1 (x1, y1) (by simp)
          simp only at this; linarith
        by_cases h1 : x ≤ x1
        · simp only [interp1d, if_neg h0, if_pos h1, Option.some.injEq] at hv
          by_cases h1' : x' ≤ x1
          · simp only [interp1d, if_neg h0', if_pos h1', Option.some.injEq] at hv'
            rw [← hv, ← hv']
            have : (x - x0) * (y1 - y0) / (x1 - x0) ≤ (x' - x0) * (y1 - y0) / (x1 - x0) := by
              apply div_le_div_of_nonneg_right _ hw.le
              apply mul_le_mul_of_nonneg_right _ (by linarith)
              linarith
            linarith
          · simp only [interp1d, if_neg h0', if_neg h1'] at hv'
            have hle : y1 ≤ v' := by
              refine interp1d_ge (List.pairwise_cons.mp hk).2 ?_ hv'
              intro p hp
              rcases List.mem_cons.mp hp with h | h
              · rw [h]
              · exact (List.pairwise_cons.mp (List.pairwise_cons.mp hm).2).1 p h
            rw [← hv]
            have : (x - x0) * (y1 - y0) / (x1 - x0) ≤ y1 - y0 := by
              rw [div_le_iff₀ hw, mul_comm]
              apply mul_le_mul_of_nonneg_left _ (by linarith)
              linarith
            linarith
        · have h1' : ¬ x' ≤ x1 := fun h => h1 (hx.trans h)
          simp only [interp1d, if_neg h0, if_neg h1] at hv
          simp only [interp1d, if_neg h0', if_neg h1'] at hv'
          exact ih (List.pairwise_cons.mp hk).2 (List.pairwise_cons.mp hm).2 hv hv'

/-- **C19 (published tables).** For every sampling frequency the four thresholds lie within the
published ranges; without look-up or without a frequency the caller's values are used unchanged. -/
theorem C19_thresholds (ns : ℚ) (p : ClearskyParams) :
    let r := clearskyLookup true (some ns) p
    (50 ≤ r.window ∧ r.window ≤ 120) ∧ (60 ≤ r.maxDiff ∧ r.maxDiff ≤ 90) ∧
    (5/1000 ≤ r.varDiff ∧ r.varDiff ≤ 7/100) ∧ (50 ≤ r.slopeDev ∧ r.slopeDev ≤ 96) ∧
    clearskyLookup true none p = p ∧ ∀ f, clearskyLookup false f p = p := by
  have key : ∀ (tbl : List (ℚ × ℚ)) (lo hi : ℚ), Knots tbl → tbl ≠ [] → (∀ p ∈ tbl, lo ≤ p.2) →
      (∀ p ∈ tbl, p.2 ≤ hi) → ∀ x, lo ≤ (interp1d tbl x).getD 0 ∧ (interp1d tbl x).getD 0 ≤ hi := by
    intro tbl lo hi hk hne h1 h2 x
    obtain ⟨v, hv, a, b⟩ := C19_within_table hk hne h1 h2 x
    rw [hv]; exact ⟨a, b⟩
  refine ⟨?_, ?_, ?_, ?_, rfl, fun f => by cases f <;> rfl⟩
  · apply key windowsTable <;> simp [windowsTable, Knots] <;> norm_num
  · apply key maxDiffTable <;> simp [maxDiffTable, Knots] <;> norm_num
  · apply key varDiffTable <;> simp [varDiffTable, Knots] <;> norm_num
  · apply key slopeDevTable <;> simp [slopeDevTable, Knots] <;> norm_num

/-- ten-minute data -/
example : clearskyLookup true (some (600 * 10 ^ 9)) ⟨90, 75, 32/1000, 75⟩ =
    ⟨75, 70, 21/1000, 135/2⟩ := by decide +kernel
/-- hourly data uses the 30-minute row -/
example : clearskyLookup true (some (3600 * 10 ^ 9)) ⟨90, 75, 32/1000, 75⟩ =
    ⟨120, 90, 7/100, 96⟩ := by decide +kernel

end Verif
