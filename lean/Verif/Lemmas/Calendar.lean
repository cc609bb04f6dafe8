import Verif.Model.Calendar
import Mathlib.Tactic.Ring

/-! # Facts about the calendar -/

namespace Verif

theorem yoe_range {doe yoe : Int} (h1 : 0 ≤ doe) (h2 : doe < 146097)
    (hy : (doe - doe / 1460 + doe / 36524 - doe / 146096) / 365 = yoe) :
    0 ≤ doe - (365 * yoe + yoe / 4 - yoe / 100) ∧
      doe - (365 * yoe + yoe / 4 - yoe / 100) ≤ 365 ∧ 0 ≤ yoe ∧ yoe ≤ 399 := by
  have hyr : 0 ≤ yoe ∧ yoe ≤ 399 := by omega
  have hb : doe / 36524 = 0 ∨ doe / 36524 = 1 ∨ doe / 36524 = 2 ∨ doe / 36524 = 3 ∨
    doe / 36524 = 4 := by omega
  have hc : yoe / 100 = 0 ∨ yoe / 100 = 1 ∨ yoe / 100 = 2 ∨ yoe / 100 = 3 := by omega
  refine ⟨?_, ?_, hyr.1, hyr.2⟩
  · rcases hb with h | h | h | h | h <;> rcases hc with g | g | g | g <;> rw [h] at hy <;> omega
  · rcases hb with h | h | h | h | h <;> rcases hc with g | g | g | g <;> rw [h] at hy <;> omega

/-- The 366th day of a March-based year exists only before a leap day. -/
theorem doy_365 {doe yoe : Int} (h1 : 0 ≤ doe) (h2 : doe < 146097)
    (hy : (doe - doe / 1460 + doe / 36524 - doe / 146096) / 365 = yoe)
    (hd : doe - (365 * yoe + yoe / 4 - yoe / 100) = 365) :
    (yoe + 1) % 4 = 0 ∧ ((yoe + 1) % 100 ≠ 0 ∨ yoe = 399) := by
  have hyr : 0 ≤ yoe ∧ yoe ≤ 399 := by omega
  have hb : doe / 36524 = 0 ∨ doe / 36524 = 1 ∨ doe / 36524 = 2 ∨ doe / 36524 = 3 ∨
    doe / 36524 = 4 := by omega
  have hc : yoe / 100 = 0 ∨ yoe / 100 = 1 ∨ yoe / 100 = 2 ∨ yoe / 100 = 3 := by omega
  have hcc : doe / 146096 = 0 ∨ doe / 146096 = 1 := by omega
  constructor
  · by_contra hr
    obtain ⟨d, r, hdr, hr0, hr1⟩ : ∃ d r : Int, yoe = 4 * d + r ∧ 0 ≤ r ∧ r ≤ 2 :=
      ⟨yoe / 4, yoe % 4, by omega, by omega, by omega⟩
    have hd4 : yoe / 4 = d := by omega
    rw [hd4] at hd
    rcases hb with h | h | h | h | h <;> rcases hc with g | g | g | g <;>
      rcases hcc with k | k <;> rw [h, k] at hy <;> rw [g] at hd <;> omega
  · by_contra hr
    push Not at hr
    rcases hb with h | h | h | h | h <;> rcases hc with g | g | g | g <;>
      rcases hcc with k | k <;> rw [h, k] at hy <;> rw [g] at hd <;> omega

/-- day number from a March-based year, month index and day -/
theorem dayNumber_march (Y mp d : Int) (h0 : 0 ≤ mp) (h1 : mp ≤ 11) :
    dayNumber ⟨if mp < 10 then Y else Y + 1, if mp < 10 then mp + 3 else mp - 9, d⟩ =
      365 * Y + Y / 4 - Y / 100 + Y / 400 + (153 * mp + 2) / 5 + d - 719469 := by
  unfold dayNumber
  simp only
  by_cases h : mp < 10
  · have e1 : ¬ (mp + 3 ≤ 2) := by omega
    have e2 : mp + 3 > 2 := by omega
    simp only [h, if_true, e1, if_false, e2]
    rw [show mp + 3 - 3 = mp by ring]
    have f1 : Y / 4 = Y % 400 / 4 + Y / 400 * 100 := by omega
    have f2 : Y / 100 = Y % 400 / 100 + Y / 400 * 4 := by omega
    have f3 : Y = 400 * (Y / 400) + Y % 400 := by omega
    rw [f1, f2]
    linarith
  · have e1 : mp - 9 ≤ 2 := by omega
    have e2 : ¬ (mp - 9 > 2) := by omega
    simp only [h, if_true, e1, if_false, e2]
    rw [show mp - 9 + 9 = mp by ring, show Y + 1 - 1 = Y by ring]
    have f1 : Y / 4 = Y % 400 / 4 + Y / 400 * 100 := by omega
    have f2 : Y / 100 = Y % 400 / 100 + Y / 400 * 4 := by omega
    have f3 : Y = 400 * (Y / 400) + Y % 400 := by omega
    rw [f1, f2]
    linarith

/-- every day has a March-based decomposition, within its month -/
theorem civil_march_len (n : Int) : ∃ Y mp d : Int, 0 ≤ mp ∧ mp ≤ 11 ∧ 1 ≤ d ∧ d ≤ 31 ∧
    civil n = ⟨if mp < 10 then Y else Y + 1, if mp < 10 then mp + 3 else mp - 9, d⟩ ∧
    n = 365 * Y + Y / 4 - Y / 100 + Y / 400 + (153 * mp + 2) / 5 + d - 719469 ∧
    (mp = 11 → d = 29 → (Y + 1) % 4 = 0 ∧ ((Y + 1) % 100 ≠ 0 ∨ (Y + 1) % 400 = 0)) ∧
    (mp = 11 → d ≤ 29) ∧ (mp < 11 → (153 * mp + 2) / 5 + d ≤ (153 * (mp + 1) + 2) / 5) := by
  generalize hz : n + 719468 = z
  have h1 : 0 ≤ z % 146097 := Int.emod_nonneg _ (by norm_num)
  have h2 : z % 146097 < 146097 := Int.emod_lt_of_pos _ (by norm_num)
  have h3 : 146097 * (z / 146097) + z % 146097 = z := Int.mul_ediv_add_emod z 146097
  generalize hera : z / 146097 = era at h3
  generalize hdoe : z % 146097 = doe at h1 h2 h3
  generalize hy : (doe - doe / 1460 + doe / 36524 - doe / 146096) / 365 = yoe
  obtain ⟨d0, d1, y0, y1⟩ := yoe_range h1 h2 hy
  have hleap := doy_365 h1 h2 hy
  generalize hdoy : doe - (365 * yoe + yoe / 4 - yoe / 100) = doy at d0 d1 hleap
  generalize hmp : (5 * doy + 2) / 153 = mp
  have hm : 0 ≤ mp ∧ mp ≤ 11 := by omega
  refine ⟨yoe + era * 400, mp, doy - (153 * mp + 2) / 5 + 1, hm.1, hm.2, ?_, ?_, ?_, ?_, ?_, ?_, ?_⟩
  · omega
  · omega
  · unfold civil
    simp only [hz, hera, hdoe, hy, hdoy, hmp]
    by_cases h : mp < 10
    · have : ¬ (mp + 3 ≤ 2) := by omega
      simp only [h, if_true, this, if_false, add_zero]
    · have : mp - 9 ≤ 2 := by omega
      simp only [h, if_true, this, if_false]
  · have f1 : (yoe + era * 400) / 4 = yoe / 4 + era * 100 := by omega
    have f2 : (yoe + era * 400) / 100 = yoe / 100 + era * 4 := by omega
    have f3 : (yoe + era * 400) / 400 = era := by omega
    rw [f1, f2, f3]
    linarith
  · intro e1 e2
    have : doy = 365 := by subst e1; omega
    have := hleap this
    omega
  · intro e1; subst e1; omega
  · intro e1; omega

/-- every day has a March-based decomposition -/
theorem civil_march (n : Int) : ∃ Y mp d : Int, 0 ≤ mp ∧ mp ≤ 11 ∧ 1 ≤ d ∧ d ≤ 31 ∧
    civil n = ⟨if mp < 10 then Y else Y + 1, if mp < 10 then mp + 3 else mp - 9, d⟩ ∧
    n = 365 * Y + Y / 4 - Y / 100 + Y / 400 + (153 * mp + 2) / 5 + d - 719469 ∧
    (mp = 11 → d = 29 → (Y + 1) % 4 = 0 ∧ ((Y + 1) % 100 ≠ 0 ∨ (Y + 1) % 400 = 0)) ∧
    (mp = 11 → d ≤ 29) := by
  obtain ⟨Y, mp, d, h0, h1, h2, h3, h4, h5, h6, h7, -⟩ := civil_march_len n
  exact ⟨Y, mp, d, h0, h1, h2, h3, h4, h5, h6, h7⟩

/-- **Round trip**: the date of a day number has that day number. -/
theorem dayNumber_civil (n : Int) : dayNumber (civil n) = n := by
  obtain ⟨Y, mp, d, h0, h1, _, _, hc, hn, _⟩ := civil_march n
  rw [hc, dayNumber_march Y mp d h0 h1, ← hn]

/-- One calendar year is 365 or 366 days. -/
theorem addYearsDate_one (n : Int) :
    dayNumber (addYearsDate 1 (civil n)) = n + 365 ∨
      dayNumber (addYearsDate 1 (civil n)) = n + 366 := by
  obtain ⟨Y, mp, d, h0, h1, h2, h3, hc, hn, hl, hl2⟩ := civil_march n
  rw [hc]
  unfold addYearsDate
  simp only
  have hy : (if mp < 10 then Y else Y + 1) + 1 = if mp < 10 then Y + 1 else Y + 1 + 1 := by
    split <;> rfl
  rw [hy]
  by_cases h : (if mp < 10 then mp + 3 else mp - 9) = 2 ∧ d = 29 ∧
      isLeap (if mp < 10 then Y + 1 else Y + 1 + 1) = false
  · rw [if_pos h]
    obtain ⟨g1, g2, g3⟩ := h
    have hmp : mp = 11 := by by_cases h : mp < 10 <;> simp only [h, if_true, if_false] at g1 <;> omega
    subst hmp
    rw [dayNumber_march (Y + 1) 11 28 (by norm_num) (by norm_num)]
    have := hl rfl g2
    omega
  · rw [if_neg h, dayNumber_march (Y + 1) mp d h0 h1]
    omega

theorem dayNs_pos : 0 < dayNs := by unfold dayNs; norm_num

/-- One calendar year later is 365 or 366 days later. -/
theorem addYears_one (t : Int) : addYears 1 t = t + 365 * dayNs ∨ addYears 1 t = t + 366 * dayNs := by
  unfold addYears
  have h : dayNs * (t / dayNs) + t % dayNs = t := Int.mul_ediv_add_emod t dayNs
  rcases addYearsDate_one (t / dayNs) with e | e <;> rw [e]
  · left; linarith
  · right; linarith

theorem lt_addYears (t : Int) : t < addYears 1 t := by
  have := dayNs_pos
  rcases addYears_one t with e | e <;> rw [e] <;> linarith

example : civil 0 = ⟨1970, 1, 1⟩ := by decide
example : civil 18321 = ⟨2020, 2, 29⟩ := by decide
example : addYearsDate 1 (civil 18321) = ⟨2021, 2, 28⟩ := by decide

end Verif
