import Verif.Model.ClipLogic
import Verif.Spec.ClipLogic
import Verif.Lemmas.ClipDetect
import Mathlib.Tactic.Linarith
import Mathlib.Tactic.NormNum
import Mathlib.Tactic.FieldSimp

/-!
Property C81: the warning about a variable sampling frequency that `logic_clip_filter` and
`xgboost_clip_filter` give (`_check_data_sampling_frequency`, rdtools/filtering.py:424-453).
-/

namespace Verif.Clip
open Verif.Clip.Spec

/-- number of pairs of consecutive timestamps that are `x` whole seconds apart (specification) -/
def pairsApart (ts : List Int) (x : Int) : Nat :=
  (ts.zip ts.tail).countP fun p => decide ((p.2 - p.1) / 1000000000 = x)

theorem steps_eq_zip : ∀ ts : List Int, stepsOf ts = (ts.zip ts.tail).map fun p => p.2 - p.1
  | [] => rfl
  | [_] => rfl
  | a :: b :: l => by
    have := steps_eq_zip (b :: l)
    simp only [stepsOf, List.tail_cons, List.zip_cons_cons, List.map_cons] at this ⊢
    rw [this]

theorem count_steps (ts : List Int) (x : Int) :
    ((stepsOf ts).map (· / secondNs)).count x = pairsApart ts x := by
  rw [steps_eq_zip, List.map_map]
  unfold pairsApart List.count
  rw [List.countP_map]
  congr 1

/-- the exact condition -/
theorem warning_iff (ts : List Int) : samplingWarning ts = false ↔
    ∃ x ∈ (stepsOf ts).map (· / secondNs),
      (95/100 : ℚ) ≤ (pairsApart ts x : ℚ) / (ts.length : ℚ) := by
  unfold samplingWarning
  simp only [← Bool.not_eq_true, List.all_eq_true, decide_eq_true_eq, not_forall, not_lt, count_steps,
    exists_prop]

/-- **C81 (irregular data).** If no sampling interval (in whole seconds) accounts for at least 95 % of
the steps, the warning is given. -/
theorem C81_variable_sampling_warns {ts : List Int}
    (h : ∀ x : Int, (pairsApart ts x : ℚ) * 100 < 95 * ((ts.length : ℚ) - 1)) :
    samplingWarning ts = true := by
  by_contra hc
  rw [Bool.not_eq_true, warning_iff] at hc
  obtain ⟨x, _, hx⟩ := hc
  have h1 := h x
  by_cases h0 : ts.length = 0
  · rw [h0] at hx; norm_num at hx
  · have hp : (0 : ℚ) < ts.length := by exact_mod_cast Nat.pos_of_ne_zero h0
    rw [le_div_iff₀ hp] at hx
    linarith

/-- **C81 (nearly regular data).** If one sampling interval accounts for at least 95 % of the readings
(steps divided by the number of readings), there is no warning. -/
theorem C81_consistent_sampling_is_quiet_partial {ts : List Int} {x : Int} (hne : ts ≠ [])
    (h : 95 * (ts.length : ℚ) ≤ 100 * (pairsApart ts x : ℚ)) : samplingWarning ts = false := by
  have hp : (0 : ℚ) < ts.length := by exact_mod_cast List.length_pos_of_ne_nil hne
  rw [warning_iff]
  refine ⟨x, ?_, ?_⟩
  · rw [← List.count_pos_iff, count_steps]
    by_contra hc
    have : pairsApart ts x = 0 := by omega
    rw [this] at h
    norm_num at h
    linarith
  · rw [le_div_iff₀ hp]; linarith

theorem pairs_regular (t0 f : Int) (vals : List ℚ) :
    pairsApart (Series.index (regular t0 f vals)) (f / 1000000000) = vals.length - 1 := by
  rw [← count_steps]
  have hidx : Series.index (regular t0 f vals) =
      (List.range vals.length).map fun i : Nat => t0 + (i : Int) * f := by
    unfold regular Series.index
    rw [List.map_map]; rfl
  rw [hidx]
  cases hn : vals.length with
  | zero => rfl
  | succ n =>
    rw [stepsOf_range, List.map_replicate, Nat.add_sub_cancel]
    exact List.count_replicate_self

/-- **C81 (regular data).** A perfectly regular series of at least twenty readings gives no warning. -/
theorem C81_regular_is_quiet_partial (t0 f : Int) {vals : List ℚ} (hn : 20 ≤ vals.length) :
    samplingWarning (Series.index (regular t0 f vals)) = false := by
  have hl : (Series.index (regular t0 f vals)).length = vals.length := by
    simp [Series.index, length_regular]
  apply C81_consistent_sampling_is_quiet_partial (x := f / 1000000000)
  · intro hc; rw [hc] at hl; simp at hl; omega
  · rw [hl, pairs_regular, Nat.cast_sub (by omega)]
    have : (20 : ℚ) ≤ vals.length := by exact_mod_cast hn
    push_cast
    linarith

/-- **C81 (refuted).** The counts of the steps are divided by the number of readings, so that every
perfectly regular series with fewer than twenty readings gives the warning "Less than 95% of the
time series is sampled at the same interval" although all of it is. (The clipping filters accept
series of eleven readings and more.) -/
theorem C81_short_regular_refuted (t0 f : Int) {vals : List ℚ} (hn : vals.length < 20) :
    samplingWarning (Series.index (regular t0 f vals)) = true := by
  by_contra hc
  rw [Bool.not_eq_true, warning_iff] at hc
  obtain ⟨x, _, hx⟩ := hc
  have hl : (Series.index (regular t0 f vals)).length = vals.length := by
    simp [Series.index, length_regular]
  have hle : pairsApart (Series.index (regular t0 f vals)) x ≤ vals.length - 1 := by
    unfold pairsApart
    refine le_trans List.countP_le_length ?_
    rw [List.length_zip, List.length_tail, hl]
    omega
  rw [hl] at hx
  by_cases h0 : vals.length = 0
  · rw [h0] at hx; norm_num at hx
  · have hp : (0 : ℚ) < vals.length := by exact_mod_cast Nat.pos_of_ne_zero h0
    rw [le_div_iff₀ hp] at hx
    have h1 : (pairsApart (Series.index (regular t0 f vals)) x : ℚ) ≤ (vals.length - 1 : Nat) := by
      exact_mod_cast hle
    rw [Nat.cast_sub (by omega)] at h1
    have h2 : ((vals.length : Nat) : ℚ) ≤ 19 := by exact_mod_cast (by omega : vals.length ≤ 19)
    push_cast at h1
    linarith

/-- twelve hourly readings warn; with a gap of a day there is one step of another length among 24 -/
example : samplingWarning (Series.index (regular 0 3600000000000 (List.replicate 12 1))) = true ∧
    samplingWarning (Series.index (regular 0 3600000000000 (List.replicate 24 1))) = false := by
  constructor <;> decide +kernel

example : samplingWarning [0, 3600000000000, 3 * 3600000000000, 4 * 3600000000000,
    6 * 3600000000000] = true :=
  C81_variable_sampling_warns (by
    intro x
    by_cases h1 : x = 3600
    · subst h1; decide +kernel
    · by_cases h2 : x = 7200
      · subst h2; decide +kernel
      · have : pairsApart [0, 3600000000000, 3 * 3600000000000, 4 * 3600000000000,
            6 * 3600000000000] x = 0 := by
          unfold pairsApart
          rw [List.countP_eq_zero]
          intro p hp
          simp at hp
          rcases hp with rfl | rfl | rfl | rfl <;> simp <;> omega
        rw [this]; norm_num)

end Verif.Clip
