import Verif.Model.ClearskyPoa
import Verif.Props.Rescale
import Mathlib.Data.List.Nodup

/-! # Averages of the simulated clear-sky irradiance -/

namespace Verif
open Spec

theorem simStep_pos : 0 < simStep := by decide

theorem mem_minuteTimes {a b m : Int} : m ∈ minuteTimes a b ↔ m ≤ b ∧ ∃ k : Nat, m = a + k * simStep := by
  unfold minuteTimes
  simp only [List.mem_map, List.mem_range]
  have hp := simStep_pos
  constructor
  · rintro ⟨k, hk, rfl⟩
    refine ⟨?_, k, rfl⟩
    have h1 : (k : Int) ≤ (b - a) / simStep := by omega
    have h2 := (Int.le_ediv_iff_mul_le hp).mp h1
    linarith
  · rintro ⟨hb, k, rfl⟩
    refine ⟨k, ?_, rfl⟩
    have : (k : Int) ≤ (b - a) / simStep := (Int.le_ediv_iff_mul_le hp).mpr (by linarith)
    omega

theorem nodup_minuteTimes (a b : Int) : (minuteTimes a b).Nodup := by
  unfold minuteTimes
  apply List.Nodup.map _ List.nodup_range
  intro x y h
  simp only [add_right_inj] at h
  have := mul_right_cancel₀ simStep_pos.ne' h
  exact_mod_cast this

theorem backfillId_iff {index : List Int} (hs : index.Pairwise (· < ·)) {t : Int} {k : Nat} :
    backfillId index t = some k ↔
      ∃ h : k < index.length, t ≤ index[k] ∧ ∀ j (hj : j + 1 = k), index[j]'(by omega) < t := by
  unfold backfillId
  rw [List.findIdx?_eq_some_iff_getElem]
  constructor
  · rintro ⟨h, h1, h2⟩
    refine ⟨h, by simpa using h1, fun j hj => ?_⟩
    have := h2 j (by omega)
    simpa using this
  · rintro ⟨h, h1, h2⟩
    refine ⟨h, by simpa using h1, fun j hj => ?_⟩
    obtain ⟨i, rfl⟩ : ∃ i, k = i + 1 := ⟨k - 1, by omega⟩
    have h3 := h2 i rfl
    have h4 : index[j]'(by omega) ≤ index[i]'(by omega) := by
      rcases Nat.lt_or_ge j i with hlt | hge
      · exact (List.pairwise_iff_getElem.mp hs j i (by omega) (by omega) hlt).le
      · have : j = i := by omega
        subst this
        exact le_refl _
    simp
    linarith

theorem filter_all_of_length {α : Type} {p : α → Bool} {l : List α} (h : (l.filter p).length = l.length) :
    l.filter p = l := by
  rw [List.filter_eq_self]
  rw [← List.countP_eq_length_filter, List.countP_eq_length] at h
  exact h

theorem groupMeans_full {index times : List Int} {sim : Int → Cell}
    (h : (groupMeans index times sim).length = index.length) :
    (∀ k < index.length, ∃ t ∈ times, backfillId index t = some k) ∧
    groupMeans index times sim = (List.range index.length).map fun k =>
      mean (valids ((times.filter fun t => decide (backfillId index t = some k)).map sim)) := by
  unfold groupMeans at h
  rw [List.length_map] at h
  have h1 := filter_all_of_length (h.trans List.length_range.symm)
  constructor
  · intro k hk
    have := List.filter_eq_self.mp h1 k (List.mem_range.mpr hk)
    simpa using this
  · unfold groupMeans
    rw [h1]

theorem groupMeans_length {index times : List Int} (sim : Int → Cell)
    (h : ∀ k < index.length, ∃ t ∈ times, backfillId index t = some k) :
    (groupMeans index times sim).length = index.length := by
  unfold groupMeans
  rw [List.length_map, List.filter_eq_self.mpr, List.length_range]
  intro k hk
  obtain ⟨t, ht, hk'⟩ := h k (List.mem_range.mp hk)
  rw [List.any_eq_true]
  exact ⟨t, ht, by simpa using hk'⟩

theorem getLast_ge {t0 : Int} {l : List Int} (hs : (t0 :: l).Pairwise (· < ·)) {k : Nat} (h : k < (t0 :: l).length) :
    (t0 :: l)[k] ≤ (t0 :: l).getLastD t0 := by
  have e : (t0 :: l).getLastD t0 = (t0 :: l)[(t0 :: l).length - 1]'(by simp) := by
    rw [← List.getLast_eq_getElem (by simp)]
    simp [List.getLastD_eq_getLast?, List.getLast?_eq_some_getLast]
  rw [e]
  rcases Nat.lt_or_ge k ((t0 :: l).length - 1) with hlt | hge
  · exact (List.pairwise_iff_getElem.mp hs k _ h (by simp) hlt).le
  · have : k = (t0 :: l).length - 1 := by omega
    subst this
    exact le_refl _

theorem getLast_eq {t0 : Int} {l : List Int} :
    (t0 :: l).getLastD t0 = (t0 :: l)[(t0 :: l).length - 1]'(by simp) := by
  rw [← List.getLast_eq_getElem (by simp)]
  simp [List.getLastD_eq_getLast?, List.getLast?_eq_some_getLast]

/-- the simulated minutes of the interval that ends at a timestamp -/
theorem minutes_of_id {t0 : Int} {l : List Int} (hs : (t0 :: l).Pairwise (· < ·)) {i : Nat} (hi : i + 1 < (t0 :: l).length)
    {m : Int} :
    m ∈ (minuteTimes t0 ((t0 :: l).getLastD t0)).filter (fun t => decide (backfillId (t0 :: l) t = some (i + 1))) ↔
      (t0 :: l)[i] < m ∧ m ≤ (t0 :: l)[i + 1] ∧ ∃ k : Nat, m = t0 + k * simStep := by
  rw [List.mem_filter, decide_eq_true_eq, mem_minuteTimes, backfillId_iff hs]
  constructor
  · rintro ⟨⟨-, hk⟩, h, h1, h2⟩
    exact ⟨h2 i rfl, h1, hk⟩
  · rintro ⟨h1, h2, hk⟩
    refine ⟨⟨h2.trans (getLast_ge hs hi), hk⟩, hi, h2, fun j hj => ?_⟩
    have : j = i := by omega
    subst this
    exact h1

theorem averaged_ok {sim : Int → Cell} {index : List Int} {v : List Cell} (h : averagedClearsky sim index = .ok v) :
    ∃ t0 l, index = t0 :: l ∧ index.Pairwise (· < ·) ∧
      (groupMeans index (minuteTimes t0 (index.getLastD t0)) sim).length = index.length ∧
      v = none :: (groupMeans index (minuteTimes t0 (index.getLastD t0)) sim).tail := by
  unfold averagedClearsky at h
  cases index with
  | nil => simp at h
  | cons t0 l =>
    simp only at h
    split_ifs at h with h1 h2
    simp only [Except.ok.injEq] at h
    exact ⟨t0, l, rfl, h1, not_not.mp h2, h.symm⟩

theorem averaged_length {sim : Int → Cell} {index : List Int} {v : List Cell} (h : averagedClearsky sim index = .ok v) :
    v.length = index.length := by
  obtain ⟨t0, l, rfl, -, h1, rfl⟩ := averaged_ok h
  rw [List.length_cons, List.length_tail, h1]
  simp

theorem default_unscaled {minimize : (ℚ → Cell) → Flt → Flt} {sim : Int → Cell} {poa : Series} {out : List (Int × Flt)}
    (h : clearskyPoaSeries minimize sim none false poa = .ok out) :
    ∃ v, averagedClearsky sim (poa.map Prod.fst) = .ok v ∧
      out = ((poa.map Prod.fst).zip v).map fun r => (r.1, Flt.ofCell r.2) := by
  unfold clearskyPoaSeries at h
  simp only at h
  cases hv : averagedClearsky sim (poa.map Prod.fst) with
  | error e => rw [hv] at h; simp [Except.map, Except.bind] at h
  | ok v =>
    rw [hv] at h
    simp only [Except.map, Except.bind, Bool.false_eq_true, if_false, Except.ok.injEq] at h
    exact ⟨v, rfl, h.symm⟩

/-! ## The factor -/

theorem singleRescale_clear {minimize : (ℚ → Cell) → Flt → Flt} (hmin : FindsMinimum minimize) {rows : List IrrRow}
    {g k : ℚ} (hne : clearPairs g rows ≠ []) (hall : ∀ p ∈ clearPairs g rows, p.1 = k * p.2) :
    singleRescale minimize rows (.fin g) = .fin k := by
  have hlen : (0 : ℚ) < (clearPairs g rows).length := by exact_mod_cast List.length_pos_iff.mpr hne
  have hz : ∀ p ∈ clearPairs g rows, p.2 ≠ 0 := by
    intro p hp h0
    have := (mem_clearPairs.mp hp).2.2.1
    rw [h0, mul_zero] at this
    exact lt_irrefl _ this
  obtain ⟨x, h5, h6⟩ := hmin (fun x => meanSquare x (rows.filter (clearFilter (.fin g)))) (.fin g) k 0 (by
      simp only [meanSquare_clear]
      rw [mean_squares k hne, squares_exact hall]
      simp) (by
      intro y w hw
      simp only [meanSquare_clear, mean_squares y hne, Option.some.injEq] at hw
      rw [← hw]
      apply div_nonneg _ hlen.le
      rw [← squares_eq]
      apply List.sum_nonneg
      intro z hz
      obtain ⟨p, -, rfl⟩ := List.mem_map.mp hz
      positivity)
  simp only [meanSquare_clear, mean_squares x hne, Option.some.injEq] at h6
  have h8 : squares x (clearPairs g rows) ≤ 0 := by
    rw [div_eq_zero_iff] at h6
    rcases h6 with h6 | h6
    · exact h6.le
    · exact absurd h6 hlen.ne'
  have h9 := squares_exact_unique hne (fun p hp => ⟨hall p hp, hz p hp⟩) h8
  subst h9
  exact h5

/-- clear rows that follow one factor give that factor, unless the first guess is accepted as it is -/
theorem rescale_clear {minimize : (ℚ → Cell) → Flt → Flt} (hmin : FindsMinimum minimize) {rows : List IrrRow}
    {g k thr : ℚ} (hg : rescaleGuess rows = .ok (.fin g)) (hk : 0 < k) (hgpos : 0 < g) (ht : 0 ≤ thr)
    (hne : clearPairs g rows ≠ []) (hall : ∀ p ∈ clearPairs g rows, p.1 = k * p.2)
    (hall' : ∀ p ∈ clearPairs k rows, p.1 = k * p.2) {n : Nat} (hn : 2 ≤ n) :
    irradianceRescaleSeries minimize .iterative rows n thr =
      .ok (rows.map fun r => timesCell (.fin (if |g - 1| ≤ thr then g else k)) r.2) := by
  have hne' : clearPairs k rows ≠ [] := by
    obtain ⟨p, hp⟩ := List.exists_mem_of_ne_nil _ hne
    obtain ⟨h1, h2⟩ := mem_clearPairs.mp hp
    have h3 := hall p hp
    have h4 : 0 < p.2 := (mul_pos_iff_of_pos_left hgpos).mp h2.2.1
    have h5 : 0 < k * p.2 := mul_pos hk h4
    exact List.ne_nil_of_mem (mem_clearPairs.mpr ⟨h1, h2.1, h5, by linarith, by linarith⟩)
  have o1 := singleRescale_clear hmin hne hall
  have o2 := singleRescale_clear hmin hne' hall'
  obtain ⟨n, rfl⟩ : ∃ m, n = m + 2 := ⟨n - 2, by omega⟩
  unfold irradianceRescaleSeries
  simp only
  rw [hg]
  simp only [Except.bind, irradianceRescale, Int.toNat_natCast]
  have hloop : rescaleLoop (singleRescale minimize rows) thr (n + 2) (.fin 1) (.fin g) 0 =
      if |g - 1| ≤ thr then .ok (.fin g, .fin 1, 0)
      else if |k - g| ≤ thr then .ok (.fin k, .fin g, 1) else .ok (.fin k, .fin k, 2) := by
    rw [rescaleLoop]
    simp only [Flt.sub, Flt.abs, Flt.lt, decide_eq_true_eq]
    by_cases h1 : |g - 1| ≤ thr
    · rw [if_neg (not_lt.mpr h1), if_pos h1]
    · rw [if_pos (not_le.mp h1), if_neg h1, o1, rescaleLoop]
      simp only [Flt.sub, Flt.abs, Flt.lt, decide_eq_true_eq]
      by_cases h2 : |k - g| ≤ thr
      · rw [if_neg (not_lt.mpr h2), if_pos h2]
      · rw [if_pos (not_le.mp h2), if_neg h2, o2, rescaleLoop.eq_def]
        simp only [Flt.sub, Flt.abs, Flt.lt, decide_eq_true_eq, sub_self, abs_zero, not_lt.mpr ht, if_false]
  rw [hloop]
  by_cases h1 : |g - 1| ≤ thr
  · simp only [if_pos h1]; rfl
  · by_cases h2 : |k - g| ≤ thr
    · simp only [if_neg h1, if_pos h2]; rfl
    · simp only [if_neg h1, if_neg h2]; rfl

end Verif
