import Verif.Props.SrrSummaries
import Mathlib.Order.Interval.Finset.Basic
import Mathlib.Data.Int.Interval

/-! # Property C38 (monthly soiling rates) -/

namespace Verif
open Spec

namespace Spec
/-- the days of an interval that fall into calendar month `m` (independent of the model's counting) -/
def overlapDays (start stop : Int) (m : Int) : Nat :=
  ((Finset.Icc 0 ((stop - start) / dayNs)).filter fun d => monthOf (start + d * dayNs) = m).card

/-- the documented selection of the intervals used by `monthly_soiling_rates` -/
def UsedInterval (minLen : Int) (maxErr : ℚ) (i : Summary) : Prop :=
  minLen ≤ i.length ∧ i.valid = true ∧ i.rate ≠ 0 ∧ 100 * |i.high - i.low| ≤ maxErr * |i.rate|
end Spec

/-- the counted days are those of the specification -/
theorem countMonthDays_eq (start stop m : Int) : countMonthDays start stop m = overlapDays start stop m := by
  unfold countMonthDays overlapDays daysBetween
  rw [List.map_map, List.count_eq_countP, List.countP_map, List.countP_eq_length_filter]
  have : ∀ n : Nat, ((List.range n).filter ((fun x => x == m) ∘ monthOf ∘ fun k : Nat => start + (k : Int) * dayNs)).length
      = ((Finset.range n).filter fun k : Nat => monthOf (start + (k : Int) * dayNs) = m).card := by
    intro n
    induction n with
    | zero => rfl
    | succ n ih =>
      rw [List.range_succ, List.filter_append, List.length_append, ih, Finset.range_add_one, Finset.filter_insert]
      by_cases h : monthOf (start + (n : Int) * dayNs) = m
      · rw [if_pos h, Finset.card_insert_of_notMem (by simp)]
        simp [h]
      · rw [if_neg h]
        simp [h]
  rw [show (((fun x => x == m) ∘ monthOf ∘ fun k : Nat => start + (k : Int) * dayNs)) =
    ((fun x => x == m) ∘ (monthOf ∘ fun k : Nat => start + (k : Int) * dayNs)) from rfl] at *
  rw [this]
  apply Finset.card_bij (fun (k : Nat) _ => (k : Int))
  · intro k hk
    simp only [Finset.mem_filter, Finset.mem_range, Finset.mem_Icc] at hk ⊢
    exact ⟨⟨by omega, by omega⟩, hk.2⟩
  · intro a _ b _ h; exact_mod_cast h
  · intro d hd
    simp only [Finset.mem_filter, Finset.mem_Icc] at hd
    refine ⟨d.toNat, ?_, by omega⟩
    simp only [Finset.mem_filter, Finset.mem_range]
    refine ⟨by omega, ?_⟩
    rw [Int.toNat_of_nonneg hd.1.1]
    exact hd.2

theorem used_intervals {minLen : Int} {maxErr : ℚ} {tab : List Summary} {i : Summary} :
    i ∈ monthlyIntervals minLen maxErr tab ↔ i ∈ tab ∧ UsedInterval minLen maxErr i := by
  unfold monthlyIntervals UsedInterval
  rw [List.mem_filter]
  refine and_congr_right fun _ => ?_
  simp only [Bool.and_eq_true, decide_eq_true_eq, and_assoc]
  refine and_congr_right fun _ => and_congr_right fun _ => ?_
  unfold Flt.ofDiv
  by_cases h0 : i.rate = 0
  · rw [if_pos h0]
    split_ifs <;> simp [Flt.abs, Flt.le, h0]
  · rw [if_neg h0]
    have hp : 0 < |i.rate| := abs_pos.mpr h0
    simp only [Flt.abs, Flt.le, decide_eq_true_eq]
    rw [abs_mul, abs_div, show |(100 : ℚ)| = 100 by norm_num, ← mul_div_assoc, div_le_iff₀ hp]
    simp [h0]

/-- the intervals used are those of the table that satisfy the selection, in the order of the table -/
theorem monthlyIntervals_eq {minLen : Int} {maxErr : ℚ} {tab : List Summary} {p : Summary → Bool}
    (hp : ∀ i ∈ tab, p i = true ↔ UsedInterval minLen maxErr i) :
    monthlyIntervals minLen maxErr tab = tab.filter p := by
  unfold monthlyIntervals
  apply List.filter_congr
  intro i hi
  have h1 := used_intervals (minLen := minLen) (maxErr := maxErr) (tab := [i]) (i := i)
  unfold monthlyIntervals at h1
  rw [List.mem_filter] at h1
  simp only [List.mem_singleton, true_and] at h1
  rw [Bool.eq_iff_iff, hp i hi]
  exact h1

/-- the share of one interval -/
theorem share_bounds {k tot reps : Nat} (h : 0 < tot) :
    reps * k ≤ (⌈(k : ℚ) / tot * reps⌉).toNat * tot ∧
    (⌈(k : ℚ) / tot * reps⌉).toNat * tot < reps * k + tot := by
  have ht : (0 : ℚ) < tot := by exact_mod_cast h
  have h0 : (0 : ℚ) ≤ (k : ℚ) / tot * reps := by positivity
  have hc : ((⌈(k : ℚ) / tot * reps⌉).toNat : ℤ) = ⌈(k : ℚ) / tot * reps⌉ :=
    Int.toNat_of_nonneg (Int.ceil_nonneg h0)
  have hq : (((⌈(k : ℚ) / tot * reps⌉).toNat : ℕ) : ℚ) = (⌈(k : ℚ) / tot * reps⌉ : ℤ) := by
    exact_mod_cast congrArg (fun z : ℤ => (z : ℚ)) hc
  have h1 := Int.le_ceil ((k : ℚ) / tot * reps)
  have h2 := Int.ceil_lt_add_one ((k : ℚ) / tot * reps)
  rw [← hq] at h1 h2
  generalize (⌈(k : ℚ) / tot * reps⌉).toNat = n at h1 h2
  have e : (k : ℚ) / tot * reps * tot = reps * k := by field_simp
  have h3 := mul_le_mul_of_nonneg_right h1 ht.le
  have h4 := mul_lt_mul_of_pos_right h2 ht
  rw [e] at h3
  rw [add_mul, e, one_mul] at h4
  exact ⟨by exact_mod_cast h3, by exact_mod_cast h4⟩

/-- structure of the draws: one group of variates per interval -/
theorem monthRates_groups (u : Nat → Nat → ℚ) (hu : ∀ a b, 0 ≤ u a b ∧ u a b ≤ 1) (ivs : List Summary)
    (f : Summary → Nat) :
    ∃ groups : List (List ℚ), monthRates u ivs (ivs.map f) = groups.flatten ∧
      List.Forall₂ (fun i g => g.length = f i ∧ (i.low ≤ i.high → ∀ v ∈ g, i.low ≤ v ∧ v ≤ i.high)) ivs groups := by
  unfold monthRates
  refine ⟨_, rfl, ?_⟩
  have : ∀ (n : Nat), List.Forall₂ (fun (i : Summary) (g : List ℚ) => g.length = f i ∧ (i.low ≤ i.high → ∀ v ∈ g, i.low ≤ v ∧ v ≤ i.high))
      ivs (((ivs.zip (ivs.map f)).zipIdx n).map fun x =>
        (List.range x.1.2).map fun j : Nat => uniform x.1.1.low x.1.1.high (u x.2 j)) := by
    induction ivs with
    | nil => intro n; exact List.Forall₂.nil
    | cons i ivs ih =>
      intro n
      rw [List.map_cons, List.zip_cons_cons, List.zipIdx_cons, List.map_cons]
      refine List.Forall₂.cons ⟨by simp, fun hle v hv => ?_⟩ (ih (n + 1))
      simp only [List.mem_map, List.mem_range] at hv
      obtain ⟨j, -, rfl⟩ := hv
      obtain ⟨h0, h1⟩ := hu n j
      unfold uniform
      constructor <;> nlinarith
  exact this 0

/-- **C38 (rows).** The table has one row for each of the months 1 … 12. -/
theorem C38_months {u : Int → Nat → Nat → ℚ} {minLen : Int} {maxErr : ℚ} {reps : Nat} {conf : ℚ}
    {tab : List Summary} {rows : List MonthRow}
    (h : monthlySoilingRates u minLen maxErr reps conf tab = .ok rows) :
    rows.map MonthRow.month = [1, 2, 3, 4, 5, 6, 7, 8, 9, 10, 11, 12] := by
  unfold monthlySoilingRates at h
  have hf := exceptMapM_ok h
  clear h
  rw [show [1, 2, 3, 4, 5, 6, 7, 8, 9, 10, 11, (12 : Int)] = (List.range 12).map fun k : Nat => (k : Int) + 1 from rfl]
  generalize ((List.range 12).map fun k : Nat => (k : Int) + 1) = ms at hf ⊢
  induction hf with
  | nil => rfl
  | @cons m r ms rs e _ ih =>
    rw [List.map_cons, ih]
    congr 1
    simp only at e
    split_ifs at e with h0
    · cases e; rfl
    · revert e
      cases quantileE (monthRates (u m) (monthlyIntervals minLen maxErr tab)
        (monthSamples reps (monthlyIntervals minLen maxErr tab) m)) (1 / 2) with
      | error x => intro e; simp [Except.bind] at e
      | ok a =>
        cases quantileE (monthRates (u m) (monthlyIntervals minLen maxErr tab)
          (monthSamples reps (monthlyIntervals minLen maxErr tab) m)) (1 / 2 - conf / 2 / 100) with
        | error x => intro e; simp [Except.bind] at e
        | ok b =>
          cases quantileE (monthRates (u m) (monthlyIntervals minLen maxErr tab)
            (monthSamples reps (monthlyIntervals minLen maxErr tab) m)) (1 / 2 + conf / 2 / 100) with
          | error x => intro e; simp [Except.bind] at e
          | ok c => intro e; simp only [Except.bind, Except.ok.injEq] at e; subst e; rfl

/-- **C38 (draws).** The row of a month is computed from one group of draws per used interval (one that is
long enough, valid and has a relative slope error within the limit, never one with a zero rate): the group
sizes are the repetitions shared out in proportion to the days of the interval in that month, rounded
up, and each draw lies between the bounds of its interval's rate. The count is the number of used
intervals with a day in the month; without one the row is missing; otherwise median, low and high are the
quantiles of the draws and ordered. -/
theorem C38_draws {u : Int → Nat → Nat → ℚ} (hu : ∀ m a b, 0 ≤ u m a b ∧ u m a b ≤ 1) {minLen : Int}
    {maxErr : ℚ} {reps : Nat} {conf : ℚ} {tab : List Summary} {rows : List MonthRow}
    (h : monthlySoilingRates u minLen maxErr reps conf tab = .ok rows) (hreps : 1 ≤ reps) {r : MonthRow}
    (hr : r ∈ rows) {selected : Summary → Bool} (hsel : ∀ i ∈ tab, selected i = true ↔ UsedInterval minLen maxErr i)
    {used : List Summary} (hused : used = tab.filter selected) :
    (∃ groups : List (List ℚ),
      List.Forall₂ (fun i g =>
        (reps * overlapDays i.start i.stop r.month ≤
          g.length * (used.map fun j => overlapDays j.start j.stop r.month).sum) ∧
        (0 < overlapDays i.start i.stop r.month →
          g.length * (used.map fun j => overlapDays j.start j.stop r.month).sum <
            reps * overlapDays i.start i.stop r.month + (used.map fun j => overlapDays j.start j.stop r.month).sum) ∧
        (overlapDays i.start i.stop r.month = 0 → g = []) ∧
        (i.low ≤ i.high → ∀ v ∈ g, i.low ≤ v ∧ v ≤ i.high)) used groups ∧
      (groups.flatten = [] → r.median = none ∧ r.low = none ∧ r.high = none) ∧
      (groups.flatten ≠ [] → ∃ m lo hi, r.median = some m ∧ r.low = some lo ∧ r.high = some hi ∧
        IsMedian groups.flatten m ∧ IsQuantile groups.flatten (1 / 2 - conf / 2 / 100) lo ∧
        IsQuantile groups.flatten (1 / 2 + conf / 2 / 100) hi ∧ (0 ≤ conf → lo ≤ m ∧ m ≤ hi))) ∧
    r.count = (used.filter fun i => decide (0 < overlapDays i.start i.stop r.month)).length ∧
    (r.median = none ↔ ∀ i ∈ used, overlapDays i.start i.stop r.month = 0) := by
  unfold monthlySoilingRates at h
  rw [← monthlyIntervals_eq hsel] at hused
  rw [← hused] at h
  simp only at h
  obtain ⟨m, -, e⟩ := forall₂_mem_right (exceptMapM_ok h) hr
  -- samples as a function of the interval
  set tot := (used.map fun j => overlapDays j.start j.stop m).sum with htot
  set f : Summary → Nat := fun i => if 0 < tot then (⌈(overlapDays i.start i.stop m : ℚ) / tot * reps⌉).toNat else 0
    with hf
  have hs : monthSamples reps used m = used.map f := by
    unfold monthSamples
    simp only [countMonthDays_eq, List.map_map]
    apply List.map_congr_left
    intro i _
    simp only [Function.comp, hf, htot]
  have hzero : ∀ i ∈ used, (f i = 0 ↔ overlapDays i.start i.stop m = 0) := by
    intro i hi
    have hle : overlapDays i.start i.stop m ≤ tot :=
      List.single_le_sum (fun _ _ => Nat.zero_le _) _ (List.mem_map_of_mem (f := fun j : Summary => overlapDays j.start j.stop m) hi)
    by_cases h0 : 0 < tot
    · simp only [hf, if_pos h0]
      obtain ⟨b1, b2⟩ := share_bounds (k := overlapDays i.start i.stop m) (reps := reps) h0
      constructor
      · intro e0
        rw [e0] at b1
        have : reps * overlapDays i.start i.stop m = 0 := by omega
        rcases Nat.mul_eq_zero.mp this with h | h
        · omega
        · exact h
      · intro e0
        rw [e0]
        simp
    · simp only [hf, if_neg h0, true_iff]
      omega
  rw [hs] at e
  obtain ⟨groups, hg, hF⟩ := monthRates_groups (u m) (hu m) used f
  rw [hg] at e
  have hcount : ((used.map f).filter fun n => decide (0 < n)).length =
      (used.filter fun i => decide (0 < overlapDays i.start i.stop m)).length := by
    rw [List.filter_map, List.length_map]
    congr 1
    apply List.filter_congr
    intro i hi
    simp only [Function.comp, decide_eq_decide]
    have := hzero i hi
    omega
  have hflat : groups.flatten = [] ↔ ∀ i ∈ used, overlapDays i.start i.stop m = 0 := by
    clear e h hr hcount hs hg hused
    have : ∀ {l : List Summary} {gs : List (List ℚ)}, List.Forall₂ (fun i g => g.length = f i ∧ (i.low ≤ i.high → ∀ v ∈ g, i.low ≤ v ∧ v ≤ i.high)) l gs →
        (gs.flatten = [] ↔ ∀ i ∈ l, f i = 0) := by
      intro l gs hl
      induction hl with
      | nil => simp
      | @cons i g l gs hi _ ih =>
        simp only [List.flatten_cons, List.append_eq_nil_iff, ih, List.mem_cons, forall_eq_or_imp]
        rw [← hi.1, List.length_eq_zero_iff]
    rw [this hF]
    exact ⟨fun h i hi => (hzero i hi).mp (h i hi), fun h i hi => (hzero i hi).mpr (h i hi)⟩
  have hshare : List.Forall₂ (fun (i : Summary) (g : List ℚ) =>
        (reps * overlapDays i.start i.stop m ≤ g.length * tot) ∧
        (0 < overlapDays i.start i.stop m → g.length * tot < reps * overlapDays i.start i.stop m + tot) ∧
        (overlapDays i.start i.stop m = 0 → g = []) ∧
        (i.low ≤ i.high → ∀ v ∈ g, i.low ≤ v ∧ v ≤ i.high)) used groups := by
    have hall : ∀ i ∈ used, ∀ g : List ℚ, (g.length = f i ∧ (i.low ≤ i.high → ∀ v ∈ g, i.low ≤ v ∧ v ≤ i.high)) →
        (reps * overlapDays i.start i.stop m ≤ g.length * tot) ∧
        (0 < overlapDays i.start i.stop m → g.length * tot < reps * overlapDays i.start i.stop m + tot) ∧
        (overlapDays i.start i.stop m = 0 → g = []) ∧
        (i.low ≤ i.high → ∀ v ∈ g, i.low ≤ v ∧ v ≤ i.high) := by
      intro i hi g ⟨hgl, hb⟩
      have hle : overlapDays i.start i.stop m ≤ tot :=
        List.single_le_sum (fun _ _ => Nat.zero_le _) _ (List.mem_map_of_mem (f := fun j : Summary => overlapDays j.start j.stop m) hi)
      refine ⟨?_, ?_, fun h0 => List.length_eq_zero_iff.mp (hgl.trans ((hzero i hi).mpr h0)), hb⟩
      · by_cases h0 : 0 < tot
        · rw [hgl]; simp only [hf, if_pos h0]; exact (share_bounds h0).1
        · have : overlapDays i.start i.stop m = 0 := by omega
          rw [this]; simp
      · intro hp
        have h0 : 0 < tot := by omega
        rw [hgl]; simp only [hf, if_pos h0]; exact (share_bounds h0).2
    clear e h hr hcount hs hg hused hflat
    clear_value tot
    clear hzero htot
    clear_value f
    clear hf
    induction hF with
    | nil => exact List.Forall₂.nil
    | cons hi _ ih =>
      exact List.Forall₂.cons (hall _ (by simp) _ hi) (ih (fun i hi => hall i (by simp [hi])))
  by_cases hnil : groups.flatten = []
  · rw [if_pos hnil] at e
    cases e
    exact ⟨⟨groups, hshare, fun _ => ⟨rfl, rfl, rfl⟩, fun hc => absurd hnil hc⟩, hcount,
      iff_of_true rfl (hflat.mp hnil)⟩
  · rw [if_neg hnil] at e
    cases h1 : quantileE groups.flatten (1 / 2) with
    | error x => rw [h1] at e; simp [Except.bind] at e
    | ok a =>
      cases h2 : quantileE groups.flatten (1 / 2 - conf / 2 / 100) with
      | error x => rw [h1, h2] at e; simp [Except.bind] at e
      | ok b =>
        cases h3 : quantileE groups.flatten (1 / 2 + conf / 2 / 100) with
        | error x => rw [h1, h2, h3] at e; simp [Except.bind] at e
        | ok c =>
          rw [h1, h2, h3] at e
          simp only [Except.bind, Except.ok.injEq] at e
          subst e
          obtain ⟨p1, q1, e1⟩ := quantileE_ok h1
          obtain ⟨p2, q2, e2⟩ := quantileE_ok h2
          obtain ⟨p3, q3, e3⟩ := quantileE_ok h3
          obtain ⟨a', ha⟩ := Option.isSome_iff_exists.mp
            (quantile_isSome.mpr hnil : (quantile groups.flatten (1 / 2)).isSome)
          obtain ⟨lo, hlo⟩ := Option.isSome_iff_exists.mp
            (quantile_isSome.mpr hnil : (quantile groups.flatten (1 / 2 - conf / 2 / 100)).isSome)
          obtain ⟨hi, hhi⟩ := Option.isSome_iff_exists.mp
            (quantile_isSome.mpr hnil : (quantile groups.flatten (1 / 2 + conf / 2 / 100)).isSome)
          have ea : a = some a' := e1 ▸ ha
          have eb : b = some lo := e2 ▸ hlo
          have ec : c = some hi := e3 ▸ hhi
          subst ea eb ec
          refine ⟨⟨groups, hshare, fun hc => absurd hc hnil, fun _ => ⟨a', lo, hi, rfl, rfl, rfl, isMedian_iff.mpr ha,
            (isQuantile_iff p2 q2).mpr hlo, (isQuantile_iff p3 q3).mpr hhi, fun hc => ⟨quantile_mono hlo ha p2 (by linarith) (by norm_num),
              quantile_mono ha hhi (by norm_num) (by linarith) q3⟩⟩⟩, hcount, ?_⟩
          exact iff_of_false (by simp) fun hc => hnil (hflat.mpr hc)

/-- **C38 (bounds).** A month's median, low and high lie between any bounds of the rate bounds of the used
intervals that overlap the month. -/
theorem C38_range {u : Int → Nat → Nat → ℚ} (hu : ∀ m a b, 0 ≤ u m a b ∧ u m a b ≤ 1) {minLen : Int}
    {maxErr : ℚ} {reps : Nat} {conf : ℚ} {tab : List Summary} {rows : List MonthRow}
    (h : monthlySoilingRates u minLen maxErr reps conf tab = .ok rows) (hreps : 1 ≤ reps) (hc0 : 0 ≤ conf)
    (hc1 : conf ≤ 100) {r : MonthRow}
    (hr : r ∈ rows) {a b : ℚ}
    (hab : ∀ i ∈ tab, UsedInterval minLen maxErr i → 0 < overlapDays i.start i.stop r.month →
      a ≤ i.low ∧ i.low ≤ i.high ∧ i.high ≤ b) :
    (∀ x, r.median = some x → a ≤ x ∧ x ≤ b) ∧ (∀ x, r.low = some x → a ≤ x ∧ x ≤ b) ∧
      ∀ x, r.high = some x → a ≤ x ∧ x ≤ b := by
  obtain ⟨⟨groups, hF, hnone, hsome⟩, -, -⟩ := C38_draws hu h hreps hr
    (selected := fun i => @decide _ (Classical.dec (UsedInterval minLen maxErr i)))
    (fun i _ => by simp) rfl
  by_cases hg : groups.flatten = []
  · obtain ⟨e1, e2, e3⟩ := hnone hg
    rw [e1, e2, e3]
    simp
  · obtain ⟨m, lo, hi, e1, e2, e3, hm, hlo, hhi, -⟩ := hsome hg
    have key : ∀ v ∈ groups.flatten, a ≤ v ∧ v ≤ b := by
      intro v hv
      obtain ⟨g, hg, hvg⟩ := List.mem_flatten.mp hv
      obtain ⟨i, hi, -, -, hz, hb⟩ := forall₂_mem_right hF hg
      obtain ⟨hit, hus⟩ := List.mem_filter.mp hi
      simp only [decide_eq_true_eq] at hus
      have hpos : 0 < overlapDays i.start i.stop r.month := by
        rcases Nat.eq_zero_or_pos (overlapDays i.start i.stop r.month) with h0 | h0
        · rw [hz h0] at hvg; simp at hvg
        · exact h0
      obtain ⟨g1, g2, g3⟩ := hab i hit hus hpos
      obtain ⟨w1, w2⟩ := hb g2 v hvg
      exact ⟨g1.trans w1, w2.trans g3⟩
    have hm' := isMedian_iff.mp hm
    rw [isQuantile_iff (by linarith) (by linarith)] at hlo hhi
    rw [e1, e2, e3]
    refine ⟨fun x hx => ?_, fun x hx => ?_, fun x hx => ?_⟩ <;> cases hx
    · exact ⟨quantile_ge hm' (by norm_num) (by norm_num) fun v hv => (key v hv).1,
        quantile_le hm' (by norm_num) (by norm_num) fun v hv => (key v hv).2⟩
    · exact ⟨quantile_ge hlo (by linarith) (by linarith) fun v hv => (key v hv).1,
        quantile_le hlo (by linarith) (by linarith) fun v hv => (key v hv).2⟩
    · exact ⟨quantile_ge hhi (by linarith) (by linarith) fun v hv => (key v hv).1,
        quantile_le hhi (by linarith) (by linarith) fun v hv => (key v hv).2⟩

/-- an interval over the turn January/February 1970 and a shorter one in February -/
example : (monthlySoilingRates (fun _ _ _ => 1/2) 3 50 10 80
    [⟨29 * dayNs, 33 * dayNs, -1/100, -12/1000, -8/1000, 5, true⟩,
     ⟨40 * dayNs, 42 * dayNs, -2/100, -21/1000, -19/1000, 3, true⟩,
     ⟨50 * dayNs, 60 * dayNs, -2/100, -41/1000, -1/1000, 3, true⟩]).toOption.map (fun r => r.take 3) =
    some [⟨1, some (-1/100), some (-1/100), some (-1/100), 1⟩,
      ⟨2, some (-3/200), some (-1/50), some (-1/100), 2⟩, ⟨3, none, none, none, 0⟩] := by
  decide +kernel

end Verif
