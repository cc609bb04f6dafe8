import Verif.Lemmas.SrrMove
import Verif.Lemmas.SrrExample
import Verif.Lemmas.Scaling

/-! # Properties C96 (units) and C97 (dates) of the SRR analysis -/

namespace Verif.Spec

/-- the same readings, `s` nanoseconds later -/
def later {α : Type} (s : Int) (l : List (Int × α)) : List (Int × α) := l.map fun x => (x.1 + s, x.2)

/-- the same interval, `s` nanoseconds later -/
def laterInterval (s : Int) (i : Interval) : Interval := { i with start := i.start + s, stop := i.stop + s }

end Verif.Spec

namespace Verif
open Spec

theorem moveS_zero (c : ℚ) (K : Series) : moveS c 0 K = scaleS c K := by
  simp [moveS, scaleS]

theorem moveS_one (s : Int) (K : Series) : moveS 1 s K = later s K := by
  unfold moveS later
  apply List.map_congr_left
  rintro ⟨t, x⟩ -
  cases x <;> simp

theorem moveInt_zero (i : Interval) : moveInt 0 i = i := by simp [moveInt]

/-- **C96.** With recentering, changing the units of performance (by any nonzero factor), insolation (by
any nonzero factor) and precipitation (by a positive factor, applied to the threshold as well) changes
nothing in the outcome of `soiling_srr` but the reported renormalization factor: the same ratios and
intervals, the same interval table and profiles, and the same exceptions, for every choice of method and
random numbers. -/
theorem C96_units {a b c : ℚ} (ha : a ≠ 0) (hb : b ≠ 0) (hc : 0 < c)
    (ord : List Nat → List Nat) (zs : List (ℚ × ℚ) → ℚ) (o : DailyOpts) (ro : ResultOpts) (m : SrrMethod)
    (exceed conf : ℚ) (draws : List SrrDraw) (pm insol : Series) (precip : Option Series)
    (hrec : o.recenter = true) :
    soilingSrr ord zs { o with precipThreshold := c * o.precipThreshold } ro m exceed conf draws
        (scaleS a pm) (scaleS b insol) (precip.map (scaleS c)) =
      (soilingSrr ord zs o ro m exceed conf draws pm insol precip).map
        fun r => { r with renorm := r.renorm.map (a * ·) } := by
  have h := soilingSrr_move ha hb hc 0 ord zs o ro m exceed conf draws pm insol precip (Or.inl hrec)
  rw [moveS_zero, moveS_zero, show moveS c 0 = scaleS c from funext (moveS_zero c)] at h
  rw [h]
  congr 1
  funext r
  unfold moveOut
  have e : (fun x : Int × Cell => (x.1 + 0, x.2)) = id := by funext x; simp
  have e2 : (fun x : Int × ℚ => (x.1 + 0, x.2)) = id := by funext x; simp
  have e3 : moveInt 0 = id := by funext i; exact moveInt_zero i
  simp [e2, e3]

/-- The factor in front of the performance matters without recentering: doubling the performance of the
example turns a valid result into another one. -/
example : soilingSrr id (fun _ => 0) SrrEx.opts SrrEx.res .halfNorm 95 68 [SrrEx.draw0]
      (scaleS 2 SrrEx.pm) SrrEx.insol none ≠
    (soilingSrr id (fun _ => 0) SrrEx.opts SrrEx.res .halfNorm 95 68 [SrrEx.draw0]
      SrrEx.pm SrrEx.insol none).map fun r => { r with renorm := r.renorm.map (2 * ·) } := by
  decide +kernel

/-- with recentering the example has a result (so C96 speaks about results, not only exceptions) -/
example : ((soilingSrr id (fun _ => 0) { SrrEx.opts with recenter := true } SrrEx.res .halfNorm 95 68
      [SrrEx.draw0] SrrEx.pm SrrEx.insol none).map fun r => (r.renorm, r.table.length)) =
    .ok (some (17 / 20), 2) := by
  decide +kernel

/-- **C97.** The analysis knows days only by their distance: with all series `s` nanoseconds later, the
outcome of `soiling_srr` is the same with every date `s` later, and the same exceptions are raised. -/
theorem C97_dates (s : Int) (ord : List Nat → List Nat) (zs : List (ℚ × ℚ) → ℚ) (o : DailyOpts)
    (ro : ResultOpts) (m : SrrMethod) (exceed conf : ℚ) (draws : List SrrDraw) (pm insol : Series)
    (precip : Option Series) :
    soilingSrr ord zs o ro m exceed conf draws (later s pm) (later s insol) (precip.map (later s)) =
      (soilingSrr ord zs o ro m exceed conf draws pm insol precip).map fun r =>
        { r with
          profiles := r.profiles.map (later s)
          table := r.table.map (laterInterval s)
          perfect := later s r.perfect } := by
  have h := soilingSrr_move (a := 1) (b := 1) (c := 1) one_ne_zero one_ne_zero one_pos s ord zs o ro m exceed
    conf draws pm insol precip (Or.inr rfl)
  rw [moveS_one, moveS_one, show moveS 1 s = later s from funext (moveS_one s)] at h
  rw [show ({ o with precipThreshold := 1 * o.precipThreshold } : DailyOpts) = o by rw [one_mul]] at h
  rw [h]
  congr 1
  funext r
  unfold moveOut
  have e : r.renorm.map (1 * ·) = r.renorm := by cases r.renorm <;> simp
  rw [e]
  rfl

/-- one hour and a day later, on data with a result -/
example : soilingSrr id (fun _ => 0) SrrEx.opts SrrEx.res .halfNorm 95 68 [SrrEx.draw0]
      (later (25 * 3600000000000) SrrEx.pm) (later (25 * 3600000000000) SrrEx.insol) none ≠
    soilingSrr id (fun _ => 0) SrrEx.opts SrrEx.res .halfNorm 95 68 [SrrEx.draw0] SrrEx.pm SrrEx.insol none := by
  decide +kernel

end Verif
