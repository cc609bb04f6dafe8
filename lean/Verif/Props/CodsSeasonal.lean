import Verif.Lemmas.CalendarYear
import Verif.Lemmas.Filtering
import Verif.Lemmas.Percentile
import Verif.Spec.Cods

/-! # Property C46 (periodicity of the seasonal component) -/

namespace Verif.Cods

open Verif Spec

/-- the values of the signal on a day of year, without the days at both ends that are cut off -/
def Spec.onDay (signal : List (Int × Cell)) (cut : Nat) (d : Int) : List ℚ :=
  (((signal.drop cut).take (signal.length - 2 * cut)).filter fun p => dayOfYear p.1 = d).filterMap Prod.snd

theorem removeLength_of_long {n : Nat} (h : 367 ≤ n) :
    removeLength n = ((min 180 ((n - 365) / 2) : Nat) : Int) ∧ 0 < min 180 ((n - 365) / 2) := by
  unfold removeLength
  have e : ((n : Int) - 365) = ((n - 365 : Nat) : Int) := by omega
  rw [e]
  have e2 : Int.tdiv ((n - 365 : Nat) : Int) 2 = (((n - 365) / 2 : Nat) : Int) := rfl
  rw [e2]
  omega

theorem valids_trimmed {signal : List (Int × Cell)} {r : Nat} (hr : removeLength signal.length = (r : Int)) (h0 : 0 < r)
    (h2 : 2 * r ≤ signal.length) (d : Int) :
    valids (((trimmed signal).filter fun p => dayOfYear p.1 = d).map Prod.snd) = Spec.onDay signal r d := by
  have split : signal = signal.take r ++ ((signal.drop r).take (signal.length - 2 * r) ++ signal.drop (signal.length - r)) := by
    have e1 : signal.drop (signal.length - r) = (signal.drop r).drop (signal.length - 2 * r) := by
      rw [List.drop_drop]; congr 1; omega
    rw [e1, List.take_append_drop, List.take_append_drop]
  have key : ∀ (l : List (Int × Cell)) (o : Nat) (P : Nat → Bool),
      ((∀ i, o ≤ i → i < o + l.length → P i = false) →
        valids (((l.mapIdx fun i p => (p.1, if P (o + i) then p.2 else none)).filter
          fun p => dayOfYear p.1 = d).map Prod.snd) = []) ∧
      ((∀ i, o ≤ i → i < o + l.length → P i = true) →
        valids (((l.mapIdx fun i p => (p.1, if P (o + i) then p.2 else none)).filter
          fun p => dayOfYear p.1 = d).map Prod.snd) = (l.filter fun p => dayOfYear p.1 = d).filterMap Prod.snd) := by
    intro l
    induction l with
    | nil => intro o P; exact ⟨fun _ => rfl, fun _ => rfl⟩
    | cons p l ih =>
      intro o P
      have shift : (fun (i : Nat) (p : Int × Cell) => (p.1, if P (o + (i + 1)) then p.2 else none)) =
          fun i p => (p.1, if P (o + 1 + i) then p.2 else none) := by
        funext i p; rw [show o + (i + 1) = o + 1 + i by omega]
      constructor
      · intro hP
        rw [List.mapIdx_cons, shift]
        have h1 := (ih (o + 1) P).1 (fun i a b => hP i (by omega) (by simp; omega))
        rw [List.filter_cons]
        have hp : P (o + 0) = false := hP _ (by omega) (by simp)
        by_cases hd : dayOfYear p.1 = d
        · simp only [hd, decide_true, if_true, List.map_cons, hp, Bool.false_eq_true, if_false]
          exact h1
        · simp only [hd, decide_false, Bool.false_eq_true, if_false]
          exact h1
      · intro hP
        rw [List.mapIdx_cons, shift]
        have h1 := (ih (o + 1) P).2 (fun i a b => hP i (by omega) (by simp; omega))
        rw [List.filter_cons, List.filter_cons]
        have hp : P (o + 0) = true := hP _ (by omega) (by simp)
        by_cases hd : dayOfYear p.1 = d
        · simp only [hd, decide_true, if_true, List.map_cons, hp]
          rw [List.filterMap_cons]
          unfold valids at h1 ⊢
          rw [List.filterMap_cons, h1]
          rfl
        · simp only [hd, decide_false, Bool.false_eq_true, if_false]
          exact h1
  have vapp : ∀ a b : List (Int × Cell), valids (((a ++ b).filter fun p => dayOfYear p.1 = d).map Prod.snd) =
      valids ((a.filter fun p => dayOfYear p.1 = d).map Prod.snd) ++
        valids ((b.filter fun p => dayOfYear p.1 = d).map Prod.snd) := by
    intro a b; unfold valids; rw [List.filter_append, List.map_append, List.filterMap_append]
  have hK : ∀ i, keptEdge signal.length (r : Int) i = decide (r ≤ i ∧ i < signal.length - r) := by
    intro i
    unfold keptEdge
    rw [if_pos (by omega), if_pos (by omega)]
    rw [← Bool.decide_and]
    apply decide_eq_decide.mpr
    omega
  unfold trimmed
  rw [hr]
  have mid : ((signal.drop r).take (signal.length - 2 * r)).length = signal.length - 2 * r := by
    rw [List.length_take, List.length_drop]; omega
  generalize hn : signal.length = n at *
  generalize hM : (signal.drop r).take (n - 2 * r) = M at *
  have tl : (signal.take r).length = r := by rw [List.length_take]; omega
  have dl : (signal.drop (n - r)).length = r := by rw [List.length_drop]; omega
  generalize signal.take r = A at *
  generalize signal.drop (n - r) = B at *
  conv_lhs => rw [split]
  rw [List.mapIdx_append, List.mapIdx_append, vapp, vapp]
  have k1 := (key A 0 (keptEdge n r)).1 (by intro i a b; rw [hK, decide_eq_false]; omega)
  have k2 := (key M r (keptEdge n r)).2 (by intro i a b; rw [hK, decide_eq_true]; omega)
  have k3 := (key B (n - r) (keptEdge n r)).1 (by intro i a b; rw [hK, decide_eq_false]; omega)
  have s1 : (fun (i : Nat) (p : Int × Cell) => (p.1, if keptEdge n r (0 + i) then p.2 else none)) =
      fun i p => (p.1, if keptEdge n r i then p.2 else none) := by
    funext i p; rw [Nat.zero_add]
  have s2 : (fun (i : Nat) (p : Int × Cell) => (p.1, if keptEdge n r (i + A.length) then p.2 else none)) =
      fun i p => (p.1, if keptEdge n r (r + i) then p.2 else none) := by
    funext i p; rw [tl, Nat.add_comm]
  have s3 : (fun (i : Nat) (p : Int × Cell) => (p.1, if keptEdge n r (i + M.length + A.length) then p.2 else none)) =
      fun i p => (p.1, if keptEdge n r (n - r + i) then p.2 else none) := by
    funext i p; rw [mid, tl, show i + (n - 2 * r) + r = n - r + i by omega]
  rw [s1] at k1
  rw [s2, s3, k1, k2, k3]
  unfold Spec.onDay
  rw [hn, hM]
  simp

/-- for more than a year of data: at most half a year is cut off at each end, and every day up to the 365th of a year
carries the median of the remaining values of its day of year -/
theorem C46_median {signal : List (Int × Cell)} (hn : 367 ≤ signal.length) {out : List Int} {t : Int} {c : Cell}
    (h : (t, c) ∈ forcePeriodicity signal out) (hd : dayOfYear t ≤ 365) :
    (∀ v, c = some v ↔ Spec.IsMedian (Spec.onDay signal (min 180 ((signal.length - 365) / 2)) (dayOfYear t)) v) ∧
    (c = none ↔ Spec.onDay signal (min 180 ((signal.length - 365) / 2)) (dayOfYear t) = []) := by
  obtain ⟨hr, hp⟩ := removeLength_of_long hn
  unfold forcePeriodicity at h
  obtain ⟨t', -, e⟩ := List.mem_map.mp h
  cases e
  unfold medianSignal
  rw [if_pos ⟨(dayOfYear_range t).1, hd⟩, valids_trimmed hr hp (by omega)]
  refine ⟨fun v => isMedian_iff.symm, ?_⟩
  constructor
  · intro h
    by_contra hne
    have := median_isSome.mpr hne
    rw [h] at this; cases this
  · intro h; rw [h]; rfl

/-- two dates with the same day of year have the same value -/
theorem C46_periodic {signal : List (Int × Cell)} {out : List Int} {t t' : Int} {c c' : Cell}
    (h : (t, c) ∈ forcePeriodicity signal out) (h' : (t', c') ∈ forcePeriodicity signal out)
    (hd : dayOfYear t = dayOfYear t') : c = c' := by
  unfold forcePeriodicity at h h'
  obtain ⟨_, -, e⟩ := List.mem_map.mp h
  obtain ⟨_, -, e'⟩ := List.mem_map.mp h'
  cases e; cases e'
  rw [hd]

/-- the same month and day in two common years, or in two leap years, have the same value -/
theorem C46_same_date {signal : List (Int × Cell)} {out : List Int} {t t' : Int} {c c' : Cell}
    (h : (t, c) ∈ forcePeriodicity signal out) (h' : (t', c') ∈ forcePeriodicity signal out)
    (h1 : (civil t).month = (civil t').month) (h2 : (civil t).day = (civil t').day)
    (h3 : isLeap (civil t).year = isLeap (civil t').year) : c = c' :=
  C46_periodic h h' (dayOfYear_date h1 h2 h3)

/-- the days of the output are those asked for -/
theorem C46_index (signal : List (Int × Cell)) (out : List Int) :
    (forcePeriodicity signal out).map Prod.fst = out := by
  unfold forcePeriodicity; rw [List.map_map]; exact List.map_id _

/-- the last day of a leap year is missing -/
theorem C46_leap_day_refuted {signal : List (Int × Cell)} {out : List Int} {t : Int} {c : Cell}
    (h : (t, c) ∈ forcePeriodicity signal out) (hl : isLeap (civil t).year = true)
    (hd : (civil t).month = 12 ∧ (civil t).day = 31) : c = none := by
  unfold forcePeriodicity at h
  obtain ⟨_, -, e⟩ := List.mem_map.mp h
  cases e
  unfold medianSignal
  have hy : dayOfYear t = 366 := by
    have h1 := jan1_succ (yearOfDay t)
    have hl' : isLeap (yearOfDay t) = true := hl
    rw [hl', if_pos rfl] at h1
    have h2 : civil t = ⟨yearOfDay t, 12, 31⟩ := by
      obtain ⟨a, b⟩ := hd
      unfold yearOfDay
      rw [← a, ← b]
    have h3 := dayNumber_civil t
    rw [h2] at h3
    have h4 := dayNumber_march (yearOfDay t) 9 31 (by norm_num) (by norm_num)
    simp only [show (9 : Int) < 10 by norm_num, if_true] at h4
    rw [show (9 : Int) + 3 = 12 by norm_num, h3] at h4
    rw [jan1'] at h1
    rw [dayOfYear_eq]
    have h5 : t = marchDays (yearOfDay t) + (153 * 9 + 2) / 5 + 31 - 719469 := h4
    rw [show yearOfDay t + 1 - 1 = yearOfDay t by ring] at h1
    omega
  rw [if_neg (by omega)]

/-- a signal of 182 to 366 days is wiped out completely -/
theorem C46_one_year_refuted {signal : List (Int × Cell)} (h1 : 182 ≤ signal.length) (h2 : signal.length ≤ 366)
    {out : List Int} {t : Int} {c : Cell} (h : (t, c) ∈ forcePeriodicity signal out) : c = none := by
  unfold forcePeriodicity at h
  obtain ⟨_, -, e⟩ := List.mem_map.mp h
  cases e
  unfold medianSignal
  split_ifs with hd
  · have hk : ∀ i, i < signal.length → keptEdge signal.length (removeLength signal.length) i = false := by
      intro i hi
      generalize signal.length = n at *
      have hr : removeLength n = -(((365 - n) / 2 : Nat) : Int) := by
        unfold removeLength
        rcases Nat.lt_or_ge 365 n with h | h
        · have : n = 366 := by omega
          subst this; decide
        · have e : ((n : Int) - 365) = -((365 - n : Nat) : Int) := by omega
          have e2 : Int.tdiv (-((365 - n : Nat) : Int)) 2 = -(((365 - n) / 2 : Nat) : Int) := by
            rw [Int.neg_tdiv]; rfl
          rw [e, e2]
          omega
      rw [hr]
      unfold keptEdge
      by_cases hz : (365 - n) / 2 = 0
      · rw [hz]; simp
      · rw [if_neg (by omega), if_neg (by omega), ← Bool.decide_and]
        apply decide_eq_false
        omega
    have : valids (((trimmed signal).filter fun p => dayOfYear p.1 = dayOfYear t).map Prod.snd) = [] := by
      unfold valids
      rw [List.filterMap_eq_nil_iff]
      intro c hc
      obtain ⟨p, hp, rfl⟩ := List.mem_map.mp hc
      have hp := (List.mem_filter.mp hp).1
      unfold trimmed at hp
      obtain ⟨i, hi, rfl⟩ := List.mem_mapIdx.mp hp
      simp only [hk i hi, Bool.false_eq_true, if_false]
      rfl
    rw [this]; rfl
  · rfl

/-- with two years of consecutive days without gaps every day up to the 365th of a year has a value -/
theorem C46_complete {signal : List (Int × Cell)} {d0 : Int} (hn : 726 ≤ signal.length)
    (hday : ∀ i (hi : i < signal.length), signal[i].1 = d0 + i ∧ signal[i].2.isSome)
    {out : List Int} {t : Int} {c : Cell} (h : (t, c) ∈ forcePeriodicity signal out) (hd : dayOfYear t ≤ 365) :
    c.isSome := by
  have h1 := (C46_median (by omega) h hd).2
  have hmin : min 180 ((signal.length - 365) / 2) = 180 := by omega
  rw [hmin] at h1
  rw [Option.isSome_iff_ne_none]
  intro hc
  have hempty := h1.mp hc
  obtain ⟨m, m1, m2, m3⟩ := dayOfYear_cover (d0 + 180) (dayOfYear_range t).1 hd
  obtain ⟨k, hk⟩ : ∃ k : Nat, m = d0 + 180 + k := ⟨(m - d0 - 180).toNat, by omega⟩
  have hi : 180 + k < signal.length := by omega
  obtain ⟨g1, g2⟩ := hday _ hi
  have hm : signal[180 + k].1 = m := by rw [g1]; omega
  obtain ⟨v, hv⟩ := Option.isSome_iff_exists.mp g2
  have : v ∈ Spec.onDay signal 180 (dayOfYear t) := by
    unfold Spec.onDay
    refine List.mem_filterMap.mpr ⟨signal[180 + k], List.mem_filter.mpr ⟨?_, ?_⟩, hv⟩
    · rw [List.mem_iff_getElem]
      refine ⟨k, ?_, ?_⟩
      · rw [List.length_take, List.length_drop]; omega
      · rw [List.getElem_take, List.getElem_drop]
    · rw [hm, m3]; simp
  rw [hempty] at this
  cases this

/-- the seasonal component stays within the range of the signal it is made from -/
theorem C46_range {signal : List (Int × Cell)} {lo hi : ℚ} (hr : ∀ p ∈ signal, ∀ v, p.2 = some v → lo ≤ v ∧ v ≤ hi)
    {out : List Int} {t : Int} {v : ℚ} (h : (t, some v) ∈ forcePeriodicity signal out) : lo ≤ v ∧ v ≤ hi := by
  unfold forcePeriodicity at h
  obtain ⟨u, -, e0⟩ := List.mem_map.mp h
  obtain ⟨rfl, e⟩ := Prod.mk.inj e0
  clear e0
  unfold medianSignal at e
  split_ifs at e with hd
  have hx : ∀ x ∈ valids (((trimmed signal).filter fun p => dayOfYear p.1 = dayOfYear u).map Prod.snd), lo ≤ x ∧ x ≤ hi := by
    intro x hx
    unfold valids at hx
    obtain ⟨c, hc, hcx⟩ := List.mem_filterMap.mp hx
    obtain ⟨p, hp, rfl⟩ := List.mem_map.mp hc
    have hp := (List.mem_filter.mp hp).1
    unfold trimmed at hp
    obtain ⟨i, hi, rfl⟩ := List.mem_mapIdx.mp hp
    simp only at hcx
    split_ifs at hcx
    · exact hr _ (List.getElem_mem hi) x hcx
    · cases hcx
  exact ⟨median_ge e fun x h => (hx x h).1, median_le e fun x h => (hx x h).2⟩

/-! ### The samples for the bootstrap -/

/-- a sample has the same value on the same day of year; it is the median signal of a shifted day, with its distance to
the mean scaled, around 1 -/
theorem C46_sample {signal : List (Int × Cell)} {mult : ℚ} {shift : Int} {t : Int} {v : ℚ}
    (h : (t, some v) ∈ seasonalSample signal mult shift) :
    ∃ m, Spec.IsMedian ((signal.filter fun p => dayOfYear p.1 = (dayOfYear t - shift) % 365 + 1).filterMap Prod.snd) m ∧
      v = 1 + mult * (m - (signal.filterMap Prod.snd).sum / (signal.filterMap Prod.snd).length) := by
  suffices H : ∃ m a, Spec.IsMedian ((signal.filter fun p => dayOfYear p.1 = (dayOfYear t - shift) % 365 + 1).filterMap Prod.snd) m ∧
      mean (signal.filterMap Prod.snd) = some a ∧ v = 1 + mult * (m - a) by
    obtain ⟨m, a, h1, h2, h3⟩ := H
    refine ⟨m, h1, ?_⟩
    rw [h3]
    generalize signal.filterMap Prod.snd = l at h2
    cases l with
    | nil => cases h2
    | cons x l => cases h2; rfl
  unfold seasonalSample at h
  obtain ⟨p, hp, e0⟩ := List.mem_map.mp h
  obtain ⟨rfl, e⟩ := Prod.mk.inj e0
  clear e0
  have e1 : valids ((signal.filter fun q => dayOfYear q.1 = (dayOfYear p.1 - shift) % 365 + 1).map Prod.snd) =
      (signal.filter fun q => dayOfYear q.1 = (dayOfYear p.1 - shift) % 365 + 1).filterMap Prod.snd := by
    unfold valids; rw [List.filterMap_map]; rfl
  have e2 : valids (signal.map Prod.snd) = signal.filterMap Prod.snd := by
    unfold valids; rw [List.filterMap_map]; rfl
  cases hm : medianByDay signal ((dayOfYear p.1 - shift) % 365 + 1) with
  | none => rw [hm] at e; simp [cellOp] at e
  | some m =>
    cases ha : cellMean (signal.map Prod.snd) with
    | none => rw [hm, ha] at e; simp [cellOp] at e
    | some a =>
      rw [hm, ha] at e
      simp only [cellOp, Option.some.injEq] at e
      unfold medianByDay at hm
      rw [e1] at hm
      unfold cellMean at ha
      rw [e2] at ha
      exact ⟨m, a, isMedian_iff.mpr hm, ha, by rw [← e]; ring⟩

/-- equal draws give equal values on the same day of year -/
theorem C46_sample_periodic {signal : List (Int × Cell)} {mult : ℚ} {shift : Int} {t t' : Int} {c c' : Cell}
    (h : (t, c) ∈ seasonalSample signal mult shift) (h' : (t', c') ∈ seasonalSample signal mult shift)
    (hd : dayOfYear t = dayOfYear t') : c = c' := by
  unfold seasonalSample at h h'
  obtain ⟨p, -, e⟩ := List.mem_map.mp h
  obtain ⟨q, -, e'⟩ := List.mem_map.mp h'
  obtain ⟨rfl, rfl⟩ := Prod.mk.inj e
  obtain ⟨rfl, rfl⟩ := Prod.mk.inj e'
  rw [hd]

/-- there is one sample for each component and draw -/
theorem C46_sample_count (scs : List (List (Int × Cell))) (k : Nat) (draw : Nat → Nat → ℚ × Int) :
    (seasonalSamples scs k draw).length = scs.length * k := by
  unfold seasonalSamples
  rw [List.length_flatMap]
  simp

/-! ## Examples -/

/-- 370 days from 1 January 2019 whose value is the number of the day -/
def exSignal : List (Int × Cell) := (List.range 370).map fun i => (17897 + (i : Int), some ((i : ℚ) + 1))

example : civil 17897 = ⟨2019, 1, 1⟩ := by decide
example : dayOfYear 18321 = 60 ∧ dayOfYear 18322 = 61 ∧ dayOfYear 17956 = 60 := by decide
example : (exSignal.length, medianSignal exSignal 60, medianSignal exSignal 2) = (370, some 60, some 367) := by
  decide +kernel

/-- a sample with shift zero and multiplier one is one day late and does not give the component back -/
theorem C46_sample_shift_refuted :
    seasonalSample [(0, some 1), (1, some (11/10)), (2, some (9/10))] 1 0 =
      [(0, some (11/10)), (1, some (9/10)), (2, none)] := by decide +kernel

end Verif.Cods
