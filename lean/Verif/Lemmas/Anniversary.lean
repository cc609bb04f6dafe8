import Verif.Lemmas.CalendarMonth
import Verif.Spec.YoYSeason

/-! # Anniversaries of days -/

namespace Verif

open Cods (marchDays marchDays_succ)
open Spec (SameDayOfYear CompleteDaily LatestAnniversary)

theorem civil_of_month {n k : Int} (h1 : monthFirst k ≤ n) (h2 : n < monthFirst (k + 1)) :
    civil n = ⟨k / 12, k % 12 + 1, n - monthFirst k + 1⟩ := by
  have hk : monthNo n = k := by
    have := periodNo_eq (c := .monthStart) (t := n * dayNs) (k := k)
      (by rw [Int.mul_ediv_cancel n (ne_of_gt dayNs_pos)]; exact h1)
      (by rw [Int.mul_ediv_cancel n (ne_of_gt dayNs_pos)]; exact h2)
    unfold periodNo at this
    simpa only [Int.mul_ediv_cancel n (ne_of_gt dayNs_pos)] using this
  have hd := (month_bounds n).2.2
  rw [hk] at hd
  obtain ⟨Y, mp, d, h0, h1', -, -, hc, -⟩ := civil_march n
  unfold monthNo at hk
  rw [hc] at hk hd ⊢
  simp only at hk hd ⊢
  by_cases h : mp < 10
  · simp only [h, if_true] at hk ⊢
    have e1 : k / 12 = Y := by omega
    have e2 : k % 12 + 1 = mp + 3 := by omega
    rw [e1, e2, hd]
  · simp only [h, if_false] at hk ⊢
    have e1 : k / 12 = Y + 1 := by omega
    have e2 : k % 12 + 1 = mp - 9 := by omega
    rw [e1, e2, hd]

theorem dayNumber_day (k d : Int) : dayNumber ⟨k / 12, k % 12 + 1, d⟩ = monthFirst k + d - 1 := by
  unfold monthFirst dayNumber
  simp only
  ring

/-- a month other than February has the same length every year -/
theorem monthLen_eq {k : Int} (h : k % 12 ≠ 1) :
    monthFirst (k + 12 + 1) - monthFirst (k + 12) = monthFirst (k + 1) - monthFirst k := by
  rw [monthFirst_eq, monthFirst_eq, monthFirst_eq, monthFirst_eq]
  have e1 : (k + 12 + 1 - 2) / 12 = (k - 2) / 12 + 1 := by omega
  have e2 : (k + 12 + 1 - 2) % 12 = (k - 2) % 12 + 1 := by omega
  have e3 : (k + 12 - 2) / 12 = (k - 2) / 12 + 1 := by omega
  have e4 : (k + 12 - 2) % 12 = (k - 2) % 12 := by omega
  have e5 : (k + 1 - 2) / 12 = (k - 2) / 12 := by omega
  have e6 : (k + 1 - 2) % 12 = (k - 2) % 12 + 1 := by omega
  rw [e1, e2, e3, e4, e5, e6]
  ring

/-- the length of February -/
theorem feb_len {k : Int} (h : k % 12 = 1) :
    monthFirst (k + 1) - monthFirst k = if isLeap (k / 12) then 29 else 28 := by
  rw [monthFirst_eq, monthFirst_eq]
  have e1 : (k + 1 - 2) / 12 = (k - 2) / 12 + 1 := by omega
  have e2 : (k + 1 - 2) % 12 = 0 := by omega
  have e3 : (k - 2) % 12 = 11 := by omega
  have e4 : k / 12 = (k - 2) / 12 + 1 := by omega
  rw [e1, e2, e3, e4, marchDays_succ]
  split_ifs <;> norm_num <;> ring

theorem not_leap_succ {y : Int} (h : isLeap y = true) : isLeap (y + 1) = false := by
  unfold isLeap at *
  simp only [decide_eq_true_eq, decide_eq_false_iff_not] at *
  omega

/-- the day number of the first anniversary -/
def anniversary (m : Int) : Int := dayNumber (addYearsDate 1 (civil m))

theorem addYears_one_eq (t : Int) : addYears 1 t = anniversary (t / dayNs) * dayNs + t % dayNs := rfl

/-- the date of the anniversary is the anniversary of the date -/
theorem civil_anniversary (m : Int) : civil (anniversary m) = addYearsDate 1 (civil m) := by
  obtain ⟨b1, b2, -⟩ := month_bounds m
  have hc := civil_of_month b1 b2
  generalize monthNo m = k at *
  unfold anniversary
  rw [hc]
  unfold addYearsDate
  simp only
  generalize hd' : (if k % 12 + 1 = 2 ∧ m - monthFirst k + 1 = 29 ∧ isLeap (k / 12 + 1) = false then (28 : Int)
    else m - monthFirst k + 1) = d'
  have e1 : k / 12 + 1 = (k + 12) / 12 := by omega
  have e2 : k % 12 = (k + 12) % 12 := by omega
  have hdn : dayNumber ⟨k / 12 + 1, k % 12 + 1, d'⟩ = monthFirst (k + 12) + d' - 1 := by
    rw [e1, e2, dayNumber_day]
  rw [hdn]
  have hd1 : 1 ≤ d' := by rw [← hd']; split_ifs <;> omega
  have hlen : d' ≤ monthFirst (k + 12 + 1) - monthFirst (k + 12) := by
    by_cases hf : k % 12 = 1
    · rw [feb_len (by omega), ← e1]
      have hl := feb_len hf
      by_cases h29 : m - monthFirst k + 1 = 29
      · cases hleap : isLeap (k / 12 + 1)
        · rw [if_pos ⟨by omega, h29, hleap⟩] at hd'
          simp only [Bool.false_eq_true, if_false]
          omega
        · rw [if_neg (by simp [hleap])] at hd'
          simp only [if_true]
          omega
      · rw [if_neg (fun h => h29 h.2.1)] at hd'
        split_ifs at hl ⊢ <;> omega
    · rw [monthLen_eq hf]
      rw [if_neg (fun h => hf (by omega))] at hd'
      omega
  rw [civil_of_month (k := k + 12) (by omega) (by omega), ← e1, ← e2]
  congr 1
  omega

theorem anniversary_bounds (m : Int) : anniversary m = m + 365 ∨ anniversary m = m + 366 := addYearsDate_one m

theorem anniversary_le {a b : Int} (h : a ≤ b) : anniversary a ≤ anniversary b := by
  rcases eq_or_lt_of_le h with rfl | h
  · exact le_refl _
  · have h1 := anniversary_bounds a
    have h2 := anniversary_bounds b
    omega

/-- a day other than 29 February is the anniversary of a day -/
theorem exists_anniversary {n : Int} (h : ¬ ((civil n).month = 2 ∧ (civil n).day = 29)) :
    ∃ m, anniversary m = n := by
  obtain ⟨b1, b2, -⟩ := month_bounds n
  have hc := civil_of_month b1 b2
  generalize hk : monthNo n - 12 = k at *
  have hk' : monthNo n = k + 12 := by omega
  rw [hk'] at b1 b2 hc
  rw [hc] at h
  simp only at h
  have e1 : k / 12 + 1 = (k + 12) / 12 := by omega
  have e2 : k % 12 = (k + 12) % 12 := by omega
  refine ⟨monthFirst k + (n - monthFirst (k + 12)), ?_⟩
  have hlen : n - monthFirst (k + 12) < monthFirst (k + 1) - monthFirst k := by
    by_cases hf : k % 12 = 1
    · have := feb_len hf
      have := feb_len (k := k + 12) (by omega)
      split_ifs at * <;> omega
    · have := monthLen_eq hf
      omega
  unfold anniversary
  rw [civil_of_month (k := k) (by omega) (by omega)]
  unfold addYearsDate
  simp only
  rw [if_neg (by intro hh; exact h ⟨by omega, by omega⟩), e1, e2, dayNumber_day]
  omega

/-- the day before 29 February is 28 February -/
theorem before_leap_day {n : Int} (h1 : (civil n).month = 2) (h2 : (civil n).day = 29) :
    (civil (n - 1)).month = 2 ∧ (civil (n - 1)).day = 28 := by
  obtain ⟨b1, b2, -⟩ := month_bounds n
  have hc := civil_of_month b1 b2
  rw [hc] at h1 h2
  simp only at h1 h2
  rw [civil_of_month (n := n - 1) (k := monthNo n) (by omega) (by omega)]
  simp only
  omega

/-- On a complete daily index every sample is compared with the sample of the same day of the previous year. -/
theorem sameDay_of_anniversary {times : List Int} (hc : CompleteDaily times) {t u : Int} (ht : t ∈ times)
    (h : LatestAnniversary times t u) : SameDayOfYear t u := by
  obtain ⟨t0, n, hmem⟩ := hc
  obtain ⟨i, hi, rfl⟩ := (hmem t).mp ht
  obtain ⟨j, hj, rfl⟩ := (hmem u).mp h.mem
  have hp := dayNs_pos
  have hdiv : ∀ k : Int, (t0 + k * dayNs) / dayNs = t0 / dayNs + k := fun k =>
    Int.add_mul_ediv_right t0 k (ne_of_gt hp)
  have hmod : ∀ k : Int, (t0 + k * dayNs) % dayNs = t0 % dayNs := fun k => Int.add_mul_emod_self_right t0 k dayNs
  have hday : t0 = dayNs * (t0 / dayNs) + t0 % dayNs := (Int.mul_ediv_add_emod t0 dayNs).symm
  have hcmp : ∀ a b : Int, anniversary a * dayNs + t0 % dayNs ≤ t0 + b * dayNs ↔ anniversary a ≤ t0 / dayNs + b := by
    intro a b
    constructor
    · intro hh
      by_contra hx
      have : (t0 / dayNs + b + 1) * dayNs ≤ anniversary a * dayNs :=
        Int.mul_le_mul_of_nonneg_right (by omega) hp.le
      nlinarith
    · intro hh
      have : anniversary a * dayNs ≤ (t0 / dayNs + b) * dayNs := Int.mul_le_mul_of_nonneg_right hh hp.le
      nlinarith
  have hna := h.notAfter
  rw [addYears_one_eq, hdiv, hmod] at hna
  have hna' := (hcmp _ _).mp hna
  -- no sample has a later anniversary
  have hlast : ∀ m : Int, anniversary m ≤ t0 / dayNs + i → anniversary (t0 / dayNs + j) < anniversary m → False := by
    intro m hm hlt
    have hjm : t0 / dayNs + j < m := by
      by_contra hx
      exact absurd (anniversary_le (not_lt.mp hx)) (by omega)
    have hm2 := anniversary_bounds m
    have hk : m = t0 / dayNs + ((m - t0 / dayNs).toNat : Int) := by omega
    have hin : t0 + ((m - t0 / dayNs).toNat : Int) * dayNs ∈ times :=
      (hmem _).mpr ⟨(m - t0 / dayNs).toNat, by omega, rfl⟩
    have hl := h.latest _ hin (by
      rw [addYears_one_eq, hdiv, hmod, ← hk]; exact (hcmp _ _).mpr hm)
    rw [addYears_one_eq, hdiv, hmod, ← hk, addYears_one_eq, hdiv, hmod] at hl
    have : anniversary (t0 / dayNs + j) * dayNs < anniversary m * dayNs := Int.mul_lt_mul_of_pos_right hlt hp
    omega
  refine ⟨by rw [hmod, hmod], ?_⟩
  rw [hdiv, hdiv]
  generalize t0 / dayNs + (i : Int) = N at *
  generalize t0 / dayNs + (j : Int) = M at *
  by_cases hl : (civil N).month = 2 ∧ (civil N).day = 29
  · obtain ⟨f1, f2⟩ := before_leap_day hl.1 hl.2
    obtain ⟨m, hm⟩ := exists_anniversary (n := N - 1) (by omega)
    have hM : anniversary M = N - 1 := by
      have hnot : anniversary M ≠ N := by
        intro he
        have := civil_anniversary M
        rw [he] at this
        have h1 := congrArg Date.month this
        have h2 := congrArg Date.day this
        have h3 := congrArg Date.year this
        unfold addYearsDate at h1 h2 h3
        simp only at h1 h2 h3
        by_cases hc : (civil M).month = 2 ∧ (civil M).day = 29 ∧ isLeap ((civil M).year + 1) = false
        · rw [if_pos hc] at h2; omega
        · rw [if_neg hc] at h2
          have hleapM : isLeap ((civil M).year + 1) = true := by
            by_contra hx
            exact hc ⟨by omega, by omega, by simpa using hx⟩
          -- 29 February of two consecutive years
          obtain ⟨c1, c2, -⟩ := month_bounds M
          have hcM := civil_of_month c1 c2
          rw [hcM] at h1 h2 h3 hleapM
          simp only at h1 h2 h3 hleapM
          have := feb_len (k := monthNo M) (by omega)
          have hly : isLeap (monthNo M / 12) = true := by
            by_contra hx
            rw [if_neg (by simpa using hx)] at this
            omega
          rw [not_leap_succ hly] at hleapM
          exact absurd hleapM (by simp)
      by_contra hx
      exact hlast m (by omega) (by omega)
    have := civil_anniversary M
    rw [hM] at this
    have h1 := congrArg Date.month this
    have h2 := congrArg Date.day this
    unfold addYearsDate at h1 h2
    simp only at h1 h2
    refine ⟨by omega, Or.inr ⟨by omega, by omega, ?_⟩⟩
    split_ifs at h2 with hc <;> omega
  · obtain ⟨m, hm⟩ := exists_anniversary hl
    have hM : anniversary M = N := by
      by_contra hx
      exact hlast m (by omega) (by omega)
    have := civil_anniversary M
    rw [hM] at this
    have h1 := congrArg Date.month this
    have h2 := congrArg Date.day this
    unfold addYearsDate at h1 h2
    simp only at h1 h2
    refine ⟨h1, ?_⟩
    split_ifs at h2 with hc
    · exact Or.inr ⟨by omega, by omega, by omega⟩
    · exact Or.inl h2

end Verif
