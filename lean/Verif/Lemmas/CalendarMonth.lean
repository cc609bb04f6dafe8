import Verif.Lemmas.CalendarYear
import Verif.Model.AggregationCal

/-! # Months, years and weeks as consecutive runs of days -/

namespace Verif

open Cods (marchDays marchDays_succ leapDays jan1' jan1_succ jan1_mono year_bounds yearOfDay)

/-- first day of a month -/
def monthFirst (k : Int) : Int := dayNumber ⟨k / 12, k % 12 + 1, 1⟩

theorem monthFirst_eq (k : Int) :
    monthFirst k = marchDays ((k - 2) / 12) + (153 * ((k - 2) % 12) + 2) / 5 + 1 - 719469 := by
  unfold monthFirst
  have h := dayNumber_march ((k - 2) / 12) ((k - 2) % 12) 1 (by omega) (by omega)
  have e1 : (if (k - 2) % 12 < 10 then (k - 2) / 12 else (k - 2) / 12 + 1) = k / 12 := by split <;> omega
  have e2 : (if (k - 2) % 12 < 10 then (k - 2) % 12 + 3 else (k - 2) % 12 - 9) = k % 12 + 1 := by split <;> omega
  rw [e1, e2] at h
  rw [h]
  rfl

/-- a month has 28 to 31 days -/
theorem monthFirst_step (k : Int) : monthFirst k + 28 ≤ monthFirst (k + 1) ∧ monthFirst (k + 1) ≤ monthFirst k + 31 := by
  rw [monthFirst_eq, monthFirst_eq]
  by_cases h : (k - 2) % 12 = 11
  · have e1 : (k + 1 - 2) / 12 = (k - 2) / 12 + 1 := by omega
    have e2 : (k + 1 - 2) % 12 = 0 := by omega
    rw [e1, e2, h, marchDays_succ]
    have := leapDays ((k - 2) / 12 + 1)
    generalize (if isLeap ((k - 2) / 12 + 1) then (366 : Int) else 365) = j at *
    generalize marchDays ((k - 2) / 12) = b at *
    omega
  · have e1 : (k + 1 - 2) / 12 = (k - 2) / 12 := by omega
    have e2 : (k + 1 - 2) % 12 = (k - 2) % 12 + 1 := by omega
    rw [e1, e2]
    generalize marchDays ((k - 2) / 12) = b at *
    have := Int.emod_nonneg (k - 2) (show (12 : Int) ≠ 0 by norm_num)
    have := Int.emod_lt_of_pos (k - 2) (show (0 : Int) < 12 by norm_num)
    generalize (k - 2) % 12 = m at *
    omega

/-- a day is in its month, and its day of the month counts from the first -/
theorem month_bounds (n : Int) : monthFirst (monthNo n) ≤ n ∧ n < monthFirst (monthNo n + 1) ∧
    (civil n).day = n - monthFirst (monthNo n) + 1 := by
  obtain ⟨Y, mp, d, h0, h1, h2, h3, hc, hn, hl, hl2, hlen⟩ := civil_march_len n
  have hn' : n = marchDays Y + (153 * mp + 2) / 5 + d - 719469 := hn
  have hk : monthNo n = 12 * Y + mp + 2 := by
    unfold monthNo; rw [hc]; by_cases h : mp < 10 <;> simp only [h, if_true, if_false] <;> ring
  have hday : (civil n).day = d := by rw [hc]
  have q1 : (monthNo n - 2) / 12 = Y := by rw [hk]; omega
  have q2 : (monthNo n - 2) % 12 = mp := by rw [hk]; omega
  have e0 : monthFirst (monthNo n) = marchDays Y + (153 * mp + 2) / 5 + 1 - 719469 := by
    rw [monthFirst_eq, q1, q2]
  refine ⟨by rw [e0]; omega, ?_, by rw [hday, e0]; omega⟩
  rw [monthFirst_eq]
  by_cases h : mp = 11
  · have r1 : (monthNo n + 1 - 2) / 12 = Y + 1 := by rw [hk]; omega
    have r2 : (monthNo n + 1 - 2) % 12 = 0 := by rw [hk]; omega
    rw [r1, r2, marchDays_succ]
    have hd := hl2 h
    have hd29 : d = 29 → isLeap (Y + 1) = true := by
      intro e
      have := hl h e
      unfold isLeap
      exact decide_eq_true this
    by_cases e : d = 29
    · rw [if_pos (hd29 e)]; subst h; omega
    · have := leapDays (Y + 1)
      generalize (if isLeap (Y + 1) then (366 : Int) else 365) = j at *
      subst h; omega
  · have r1 : (monthNo n + 1 - 2) / 12 = Y := by rw [hk]; omega
    have r2 : (monthNo n + 1 - 2) % 12 = mp + 1 := by rw [hk]; omega
    rw [r1, r2]
    have := hlen (by omega)
    omega

/-- months in order -/
theorem monthFirst_lt {j k : Int} (h : j < k) : monthFirst j < monthFirst k := by
  have key : ∀ m : Nat, monthFirst j < monthFirst (j + 1 + m) := by
    intro m
    induction m with
    | zero => have := (monthFirst_step j).1; simp; omega
    | succ m ih =>
      have := (monthFirst_step (j + 1 + m)).1
      rw [show j + 1 + ((m + 1 : Nat) : Int) = j + 1 + m + 1 by push_cast; ring]
      omega
  have := key (k - (j + 1)).toNat
  rwa [show j + 1 + ((k - (j + 1)).toNat : Int) = k by omega] at this

/-! ## Periods -/

theorem firstDay_lt (c : CalFreq) {j k : Int} (h : j < k) : periodFirstDay c j < periodFirstDay c k := by
  have hy : dayNumber ⟨j, 1, 1⟩ < dayNumber ⟨k, 1, 1⟩ := by
    have h1 := jan1_mono h
    have h2 := jan1_succ j
    have := leapDays j
    omega
  cases c with
  | monthStart => exact monthFirst_lt h
  | monthEnd => exact monthFirst_lt h
  | yearStart => exact hy
  | yearEnd => exact hy
  | week => simp only [periodFirstDay]; omega

/-- a timestamp is in its period -/
theorem period_bounds (c : CalFreq) (t : Int) :
    periodFirstDay c (periodNo c t) ≤ t / dayNs ∧ t / dayNs < periodFirstDay c (periodNo c t + 1) := by
  cases c with
  | monthStart => exact ⟨(month_bounds (t / dayNs)).1, (month_bounds (t / dayNs)).2.1⟩
  | monthEnd => exact ⟨(month_bounds (t / dayNs)).1, (month_bounds (t / dayNs)).2.1⟩
  | yearStart => exact year_bounds (t / dayNs)
  | yearEnd => exact year_bounds (t / dayNs)
  | week => unfold periodFirstDay periodNo; simp only; omega

/-- and in no other -/
theorem periodNo_eq {c : CalFreq} {t k : Int} (h1 : periodFirstDay c k ≤ t / dayNs)
    (h2 : t / dayNs < periodFirstDay c (k + 1)) : periodNo c t = k := by
  obtain ⟨g1, g2⟩ := period_bounds c t
  have le : ∀ {a b : Int}, a ≤ b → periodFirstDay c a ≤ periodFirstDay c b := by
    intro a b h
    rcases lt_or_eq_of_le h with h | h
    · exact le_of_lt (firstDay_lt c h)
    · rw [h]
  rcases lt_trichotomy (periodNo c t) k with h | h | h
  · have := le (show periodNo c t + 1 ≤ k by omega); omega
  · exact h
  · have := le (show k + 1 ≤ periodNo c t by omega); omega

/-- periods in order of time -/
theorem periodNo_mono (c : CalFreq) {t u : Int} (h : t ≤ u) : periodNo c t ≤ periodNo c u := by
  by_contra hc
  obtain ⟨g1, -⟩ := period_bounds c t
  obtain ⟨-, g2⟩ := period_bounds c u
  have hd : t / dayNs ≤ u / dayNs := Int.ediv_le_ediv dayNs_pos h
  have : periodFirstDay c (periodNo c u + 1) ≤ periodFirstDay c (periodNo c t) := by
    rcases lt_or_eq_of_le (show periodNo c u + 1 ≤ periodNo c t by omega) with h | h
    · exact le_of_lt (firstDay_lt c h)
    · rw [h]
  omega

theorem periodLabel_div (c : CalFreq) (k : Int) : periodLabel c k / dayNs =
    (if c = .monthStart ∨ c = .yearStart then periodFirstDay c k else periodFirstDay c (k + 1) - 1) ∧
    periodLabel c k % dayNs = 0 := by
  have h : ∀ n : Int, n * dayNs / dayNs = n ∧ n * dayNs % dayNs = 0 := fun n =>
    ⟨Int.mul_ediv_cancel n (ne_of_gt dayNs_pos), Int.mul_emod_left n dayNs⟩
  cases c <;> simp only [periodLabel] <;> simp [h]

/-- the label is in its period -/
theorem periodNo_label (c : CalFreq) (k : Int) : periodNo c (periodLabel c k) = k := by
  have hs := firstDay_lt c (show k < k + 1 by omega)
  apply periodNo_eq <;> rw [(periodLabel_div c k).1] <;> split_ifs <;> omega

theorem periodLabel_lt (c : CalFreq) {j k : Int} (h : j < k) : periodLabel c j < periodLabel c k := by
  by_contra hc
  have := periodNo_mono c (not_lt.mp hc)
  rw [periodNo_label, periodNo_label] at this
  omega

theorem monthNo_monthFirst (k : Int) : monthNo (monthFirst k) = k := by
  have := periodNo_label .monthStart k
  unfold periodNo at this
  simp only [(periodLabel_div .monthStart k).1] at this
  exact this

theorem civil_monthFirst (k : Int) : civil (monthFirst k) = ⟨k / 12, k % 12 + 1, 1⟩ := by
  have h := monthNo_monthFirst k
  obtain ⟨Y, mp, d, h0, h1, -, -, hc, -⟩ := civil_march (monthFirst k)
  have hd := (month_bounds (monthFirst k)).2.2
  rw [h] at hd
  unfold monthNo at h
  rw [hc] at h hd ⊢
  simp only at h hd
  have e1 : (if mp < 10 then Y else Y + 1) = k / 12 := by
    by_cases g : mp < 10 <;> simp only [g, if_true, if_false] at h ⊢ <;> omega
  have e2 : (if mp < 10 then mp + 3 else mp - 9) = k % 12 + 1 := by
    by_cases g : mp < 10 <;> simp only [g, if_true, if_false] at h ⊢ <;> omega
  rw [e1, e2, hd]
  simp

theorem first_of_month {n : Int} (h : (civil n).day = 1) : n = monthFirst (monthNo n) := by
  have := (month_bounds n).2.2
  omega

end Verif
