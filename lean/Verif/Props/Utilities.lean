import Verif.Model.Utilities
import Verif.Lemmas.Quantile

/-! # Property C04 (robust statistics) -/

namespace Verif

/-- Independent statement of "the same data with missing/night samples encoded differently":
cell by cell the two series agree or one has NaN where the other has 0. -/
def Spec.SameUpToMissing (x y : List Cell) : Prop :=
  List.Forall₂ (fun a b : Cell => a = b ∨ (a = none ∧ b = some 0) ∨ (a = some 0 ∧ b = none)) x y

/-- Non-negative series. -/
def Spec.Nonneg (x : List Cell) : Prop := ∀ v, some v ∈ x → (0 : ℚ) ≤ v

theorem sameUpToMissing_map_getD {x y : List Cell} (h : Spec.SameUpToMissing x y) :
    x.map (fun c => c.getD 0) = y.map (fun c => c.getD 0) := by
  induction h with
  | nil => rfl
  | cons hab _ ih =>
    rcases hab with rfl | ⟨rfl, rfl⟩ | ⟨rfl, rfl⟩ <;> simp [ih]

theorem robustSmall_nonneg {x : List Cell} {q s : ℚ} (hx : Spec.Nonneg x) (h0 : 0 ≤ q)
    (h1 : q ≤ 1) (hs : robustSmall x q = some s) : 0 ≤ s := by
  unfold robustSmall at hs
  obtain ⟨v, hv, rfl⟩ := Option.map_eq_some_iff.mp hs
  have : 0 ≤ v := by
    apply quantile_ge hv h0 h1
    intro a ha
    obtain ⟨c, hc, rfl⟩ := List.mem_map.mp ha
    cases c with
    | none => simp
    | some c => exact hx c hc
  linarith

theorem robustKeep_congr {x y : List Cell} {q : ℚ} (h : Spec.SameUpToMissing x y)
    (hx : Spec.Nonneg x) (h0 : 0 ≤ q) (h1 : q ≤ 1) : robustKeep x q = robustKeep y q := by
  have hs : robustSmall x q = robustSmall y q := by unfold robustSmall; rw [sameUpToMissing_map_getD h]
  unfold robustKeep
  rw [← hs]
  cases hsm : robustSmall x q with
  | none =>
    have : ∀ l : List Cell, l.filter (fun c => cellCmp (fun a b => decide (a > b)) c none) = [] := by
      intro l
      apply List.filter_eq_nil_iff.mpr
      intro c _; cases c <;> simp [cellCmp]
    rw [this, this]
  | some s =>
    have hpos := robustSmall_nonneg hx h0 h1 hsm
    clear hs hsm hx
    have hz : ¬ s < 0 := not_lt.mpr hpos
    induction h with
    | nil => rfl
    | @cons a b l l' hab _ ih =>
      rcases hab with rfl | ⟨rfl, rfl⟩ | ⟨rfl, rfl⟩
      · simp only [List.filter_cons]
        cases a with
        | none => simpa [cellCmp] using ih
        | some a =>
          by_cases has : a > s
          · simp only [cellCmp, has, decide_true, ite_true, valids, List.filterMap_cons, id_eq]
            exact congrArg _ ih
          · simpa [cellCmp, has] using ih
      · simpa [List.filter_cons, cellCmp, hz] using ih
      · simpa [List.filter_cons, cellCmp, hz] using ih

/-- C04. On a non-negative series the robust quantile, median and mean do not change when missing
samples are encoded as 0 instead of NaN (or the other way round). -/
theorem C04_encoding_independent {x y : List Cell} {q : ℚ} (h : Spec.SameUpToMissing x y)
    (hx : Spec.Nonneg x) (h0 : 0 ≤ q) (h1 : q ≤ 1) :
    robustQuantile x q = robustQuantile y q ∧ robustMedian x q = robustMedian y q ∧
      robustMean x q = robustMean y q := by
  unfold robustQuantile robustMedian robustMean
  rw [robustKeep_congr h hx h0 h1]
  exact ⟨rfl, rfl, rfl⟩

example : Spec.SameUpToMissing [none, some 5, some 0, some 7] [some 0, some 5, none, some 7] ∧
    robustMean [none, some 5, some 0, some 7] (1/2) = some 6 ∧
    robustMean [some 0, some 5, none, some 7] (1/2) = some 6 := by
  refine ⟨?_, by decide +kernel, by decide +kernel⟩
  refine .cons (by simp) (.cons (by simp) (.cons (by simp) (.cons (by simp) .nil)))

theorem mem_robustKeep {x : List Cell} {q v : ℚ} (h : v ∈ robustKeep x q) :
    some v ∈ x ∧ ∃ s, robustSmall x q = some s ∧ s < v := by
  unfold robustKeep valids at h
  simp only [List.mem_filterMap, List.mem_filter, id_eq, exists_eq_right] at h
  obtain ⟨h1, h2⟩ := h
  refine ⟨h1, ?_⟩
  cases hs : robustSmall x q with
  | none => simp [hs, cellCmp] at h2
  | some s => exact ⟨s, rfl, by simpa [hs, cellCmp] using h2⟩

theorem robustKeep_mem {x : List Cell} {q v s : ℚ} (h : some v ∈ x)
    (hs : robustSmall x q = some s) (hv : s < v) : v ∈ robustKeep x q := by
  unfold robustKeep valids
  simp only [List.mem_filterMap, List.mem_filter, id_eq, exists_eq_right]
  exact ⟨h, by simpa [hs, cellCmp] using hv⟩

/-- C04 (range). Every robust statistic lies within any bounds of the samples it kept; the samples
kept are exactly the measured samples above one thousandth of the zero-filled quantile. -/
theorem C04_within_range {x : List Cell} {q : ℚ} (h0 : 0 ≤ q) (h1 : q ≤ 1) {v lo hi : ℚ}
    (hv : robustQuantile x q = some v ∨ robustMedian x q = some v ∨ robustMean x q = some v)
    (hb : ∀ u, some u ∈ x →
      (∀ z, Spec.IsQuantile (x.map (fun c => c.getD 0)) q z → z < 1000 * u) → lo ≤ u ∧ u ≤ hi) :
    lo ≤ v ∧ v ≤ hi := by
  simp only [isQuantile_iff h0 h1] at hb
  have hk : ∀ u ∈ robustKeep x q, lo ≤ u ∧ u ≤ hi := by
    intro u hu
    obtain ⟨hu1, s, hs, hlt⟩ := mem_robustKeep hu
    apply hb u hu1
    intro z hz
    unfold robustSmall at hs
    rw [hz] at hs
    simp at hs
    subst hs
    linarith
  rcases hv with hv | hv | hv
  · exact ⟨quantile_ge hv h0 h1 (fun u hu => (hk u hu).1),
      quantile_le hv h0 h1 (fun u hu => (hk u hu).2)⟩
  · exact ⟨quantile_ge hv (by norm_num) (by norm_num) (fun u hu => (hk u hu).1),
      quantile_le hv (by norm_num) (by norm_num) (fun u hu => (hk u hu).2)⟩
  · exact ⟨mean_ge hv (fun u hu => (hk u hu).1), mean_le hv (fun u hu => (hk u hu).2)⟩

example : robustMedian [none, some 5, some (1/1000), some 7] = some 6 := by decide +kernel

/-- C04 (definedness). A robust statistic is NaN exactly when no sample exceeds the threshold. -/
theorem C04_nan_iff {x : List Cell} {q : ℚ} (h0 : 0 ≤ q) (h1 : q ≤ 1) :
    robustMedian x q = none ↔
      ∀ u, some u ∈ x → ∃ z, Spec.IsQuantile (x.map (fun c => c.getD 0)) q z ∧ 1000 * u ≤ z := by
  simp only [isQuantile_iff h0 h1]
  unfold robustMedian median
  rw [← Option.not_isSome_iff_eq_none, quantile_isSome, not_not]
  constructor
  · intro h u hu
    have hne : x.map (fun c => c.getD 0) ≠ [] := by
      intro hc; rw [List.map_eq_nil_iff] at hc; subst hc; simp at hu
    refine ⟨_, quantile_some hne q, ?_⟩
    by_contra hc
    push Not at hc
    have hs : robustSmall x q = some (quantileSorted (sortQ (x.map (fun c => c.getD 0))) q / 1000) := by
      unfold robustSmall; rw [quantile_some hne]; rfl
    have : u ∈ robustKeep x q := robustKeep_mem hu hs (by linarith)
    rw [h] at this; simp at this
  · intro h
    apply List.eq_nil_iff_forall_not_mem.mpr
    intro u hu
    obtain ⟨hu1, s, hs, hlt⟩ := mem_robustKeep hu
    obtain ⟨z, hz, hle⟩ := h u hu1
    unfold robustSmall at hs
    rw [hz] at hs
    simp at hs
    linarith

example : robustMedian [none, some 0] = none := by decide +kernel

/-- C04 (order). The robust statistics do not depend on the order of the samples. -/
theorem C04_order_independent {x y : List Cell} (q : ℚ) (h : x.Perm y) :
    robustQuantile x q = robustQuantile y q ∧ robustMedian x q = robustMedian y q ∧
      robustMean x q = robustMean y q := by
  have hs : robustSmall x q = robustSmall y q := by
    unfold robustSmall; rw [quantile_perm (h.map _)]
  have hk : (robustKeep x q).Perm (robustKeep y q) := by
    unfold robustKeep valids
    rw [hs]
    exact (h.filter _).filterMap _
  exact ⟨quantile_perm hk q, quantile_perm hk _, mean_perm hk⟩

/-- The docstring (rdtools/utilities.py:8, "ensures that time series with NaN's and distributions without
NaN's return the same results") is not true in the reading "NaNs may be dropped beforehand": the
zero-filled NaNs lower the threshold. -/
theorem C04_dropna_changes_result :
    ∃ x : List Cell, Spec.Nonneg x ∧
      robustQuantile x (1/2) ≠ robustQuantile (x.filter (·.isSome)) (1/2) := by
  refine ⟨[none, none, none, some 1, some 3000], ?_, by decide +kernel⟩
  intro v hv; simp at hv; rcases hv with rfl | rfl <;> norm_num

end Verif
