import Verif.Lemmas.Calendar
import Verif.Model.CodsEvents

/-! # Day of year -/

namespace Verif.Cods

open Verif

/-- day number of 1 January -/
theorem jan1 (y : Int) : dayNumber ⟨y, 1, 1⟩ =
    365 * (y - 1) + (y - 1) / 4 - (y - 1) / 100 + (y - 1) / 400 + 307 - 719469 := by
  have := dayNumber_march (y - 1) 10 1 (by norm_num) (by norm_num)
  simp only [show ¬ ((10 : Int) < 10) by norm_num, if_false] at this
  rw [show y - 1 + 1 = y by ring] at this
  rw [show (10 : Int) - 9 = 1 by norm_num] at this
  rw [this]
  norm_num
  ring

/-- days before 1 March of a year, up to a constant -/
def marchDays (y : Int) : Int := 365 * y + y / 4 - y / 100 + y / 400

theorem marchDays_succ (y : Int) : marchDays (y + 1) = marchDays y + (if isLeap (y + 1) then 366 else 365) := by
  unfold marchDays isLeap
  have h4 : (y + 1) / 4 = y / 4 + if (y + 1) % 4 = 0 then 1 else 0 := by split_ifs <;> omega
  have h100 : (y + 1) / 100 = y / 100 + if (y + 1) % 100 = 0 then 1 else 0 := by split_ifs <;> omega
  have h400 : (y + 1) / 400 = y / 400 + if (y + 1) % 400 = 0 then 1 else 0 := by split_ifs <;> omega
  rw [h4, h100, h400]
  have i1 : (y + 1) % 400 = 0 → (y + 1) % 100 = 0 := by omega
  have i2 : (y + 1) % 100 = 0 → (y + 1) % 4 = 0 := by omega
  by_cases a : (y + 1) % 4 = 0 <;> by_cases b : (y + 1) % 100 = 0 <;> by_cases c : (y + 1) % 400 = 0 <;>
    simp [a, b, c] <;> first | linarith | exact absurd (i1 c) b | exact absurd (i2 b) a

theorem jan1' (y : Int) : dayNumber ⟨y, 1, 1⟩ = marchDays (y - 1) + 307 - 719469 := by rw [jan1]; rfl

theorem jan1_succ (y : Int) : dayNumber ⟨y + 1, 1, 1⟩ = dayNumber ⟨y, 1, 1⟩ + (if isLeap y then 366 else 365) := by
  rw [jan1', jan1', show y + 1 - 1 = y - 1 + 1 by ring, marchDays_succ, show y - 1 + 1 = y by ring]
  ring

theorem leapDays (y : Int) : (365 : Int) ≤ (if isLeap y then 366 else 365) ∧ (if isLeap y then (366 : Int) else 365) ≤ 366 := by
  split_ifs <;> norm_num

theorem year_bounds (n : Int) : dayNumber ⟨yearOfDay n, 1, 1⟩ ≤ n ∧ n < dayNumber ⟨yearOfDay n + 1, 1, 1⟩ := by
  obtain ⟨Y, mp, d, h0, h1, h2, h3, hc, hn, -, hl2⟩ := civil_march n
  have hn' : n = marchDays Y + (153 * mp + 2) / 5 + d - 719469 := hn
  clear hn
  unfold yearOfDay
  rw [hc]
  simp only
  by_cases h : mp < 10
  · simp only [h, if_true]
    rw [jan1', jan1', show Y + 1 - 1 = Y by ring]
    have e := marchDays_succ (Y - 1)
    rw [show Y - 1 + 1 = Y by ring] at e
    have := leapDays Y
    generalize (if isLeap Y then (366 : Int) else 365) = k at *
    generalize marchDays Y = a at *
    generalize marchDays (Y - 1) = b at *
    clear hc hl2
    omega
  · simp only [h, if_false]
    rw [jan1', jan1', show Y + 1 + 1 - 1 = Y + 1 by ring, show Y + 1 - 1 = Y by ring]
    have e := marchDays_succ Y
    have := leapDays (Y + 1)
    generalize (if isLeap (Y + 1) then (366 : Int) else 365) = k at *
    generalize marchDays (Y + 1) = a at *
    generalize marchDays Y = b at *
    clear hc
    have : mp = 10 ∨ mp = 11 := by omega
    rcases this with e | e
    · subst e; omega
    · subst e; have := hl2 rfl; omega

theorem marchDays_le {y z : Int} (h : y ≤ z) : marchDays y ≤ marchDays z := by
  unfold marchDays; omega

theorem jan1_mono {y z : Int} (h : y < z) : dayNumber ⟨y + 1, 1, 1⟩ ≤ dayNumber ⟨z, 1, 1⟩ := by
  rw [jan1', jan1']
  have := marchDays_le (y := y + 1 - 1) (z := z - 1) (by omega)
  linarith

/-- the year of a day is the one whose days contain it -/
theorem yearOfDay_eq {n y : Int} (h1 : dayNumber ⟨y, 1, 1⟩ ≤ n) (h2 : n < dayNumber ⟨y + 1, 1, 1⟩) : yearOfDay n = y := by
  obtain ⟨g1, g2⟩ := year_bounds n
  rcases lt_trichotomy (yearOfDay n) y with h | h | h
  · have := jan1_mono h; omega
  · exact h
  · have := jan1_mono h; omega

theorem dayOfYear_eq (n : Int) : dayOfYear n = n - dayNumber ⟨yearOfDay n, 1, 1⟩ + 1 := rfl

/-- the day of year is from 1 to 365, or 366 in a leap year -/
theorem dayOfYear_range (n : Int) : 1 ≤ dayOfYear n ∧ dayOfYear n ≤ if isLeap (yearOfDay n) then 366 else 365 := by
  obtain ⟨g1, g2⟩ := year_bounds n
  rw [jan1_succ] at g2
  rw [dayOfYear_eq]
  omega

/-- the day with a given day of year -/
theorem dayOfYear_of {y d : Int} (h1 : 1 ≤ d) (h2 : d ≤ 365) :
    dayOfYear (dayNumber ⟨y, 1, 1⟩ + d - 1) = d ∧ yearOfDay (dayNumber ⟨y, 1, 1⟩ + d - 1) = y := by
  have hy : yearOfDay (dayNumber ⟨y, 1, 1⟩ + d - 1) = y := by
    apply yearOfDay_eq
    · omega
    · rw [jan1_succ]; split_ifs <;> omega
  refine ⟨?_, hy⟩
  rw [dayOfYear_eq, hy]; omega

/-- 366 consecutive days contain every day of year up to 365 -/
theorem dayOfYear_cover (a : Int) {d : Int} (h1 : 1 ≤ d) (h2 : d ≤ 365) :
    ∃ m, a ≤ m ∧ m ≤ a + 365 ∧ dayOfYear m = d := by
  obtain ⟨g1, g2⟩ := year_bounds a
  by_cases h : dayOfYear a ≤ d
  · refine ⟨dayNumber ⟨yearOfDay a, 1, 1⟩ + d - 1, ?_, ?_, (dayOfYear_of h1 h2).1⟩
    · rw [dayOfYear_eq] at h; omega
    · omega
  · refine ⟨dayNumber ⟨yearOfDay a + 1, 1, 1⟩ + d - 1, ?_, ?_, (dayOfYear_of h1 h2).1⟩
    · omega
    · rw [dayOfYear_eq] at h
      rw [jan1_succ]; split_ifs <;> omega

/-- the same month and day in two leap years, or in two common years, have the same day of year -/
theorem dayOfYear_date {n m : Int} (h1 : (civil n).month = (civil m).month) (h2 : (civil n).day = (civil m).day)
    (h3 : isLeap (yearOfDay n) = isLeap (yearOfDay m)) : dayOfYear n = dayOfYear m := by
  unfold dayOfYear
  unfold yearOfDay at h3
  obtain ⟨Y, mp, d, a0, a1, a2, a3, hc, hn, -⟩ := civil_march n
  obtain ⟨Z, mq, e, b0, b1, b2, b3, hc', hm, -⟩ := civil_march m
  rw [hc, hc'] at h1 h2 h3 ⊢
  simp only at h1 h2 h3 ⊢
  subst h2
  have hmp : mp = mq := by
    by_cases h : mp < 10 <;> by_cases h' : mq < 10 <;> simp only [h, h', if_true, if_false] at h1 <;> omega
  subst hmp
  have hn' : n = marchDays Y + (153 * mp + 2) / 5 + d - 719469 := hn
  have hm' : m = marchDays Z + (153 * mp + 2) / 5 + d - 719469 := hm
  rw [jan1', jan1']
  by_cases h : mp < 10
  · simp only [h, if_true] at h3 ⊢
    have e := marchDays_succ (Y - 1)
    have e' := marchDays_succ (Z - 1)
    rw [show Y - 1 + 1 = Y by ring] at e
    rw [show Z - 1 + 1 = Z by ring, ← h3] at e'
    rw [hn', hm', e, e']
    ring
  · simp only [h, if_false]
    rw [show Y + 1 - 1 = Y by ring, show Z + 1 - 1 = Z by ring, hn', hm']
    ring

end Verif.Cods
