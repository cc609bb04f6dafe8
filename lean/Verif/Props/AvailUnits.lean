import Verif.Lemmas.AvailUnits
import Verif.Props.AvailRollup
import Verif.Props.AvailState

/-! # Property C105 (unit of power of the availability analysis) -/

namespace Verif
open Avail Spec

/-- **C105 (units).** The analysis does not depend on the unit of power and energy, nor on the scale of the expected
power: with the system power, the subsystem powers, the meter, the power limit and the given thresholds all
multiplied by one positive constant, and the expected power multiplied by any other positive constant, `run` has the
same outcome, the same periods with the same availability, and the same outages with the same rows, error
band and classification; losses, actual production and the energies of the outages are multiplied by the
first constant. -/
theorem C105_units {c e : ℚ} (hc : 0 < c) (he : 0 < e) (a : Args) (i : Input) :
    ∃ o o' r, run a { input := i } = (o, r) ∧
    run { a with thresholds := a.thresholds.map (·.map (Option.map (c * ·))), limits := a.limits.map (Option.map (c * ·)) }
      { input := { i with system := i.system.map (Option.map (c * ·)), subs := i.subs.map (·.map (Option.map (c * ·)))
                          cum := i.cum.map (Option.map (c * ·)), expected := i.expected.map (Option.map (e * ·)) } } =
      (o', r) ∧
    (o'.results = o.results.map fun rows => rows.map fun x : Row =>
      ⟨x.label, x.lost.map (c * ·), x.actual.map (c * ·), x.availability⟩) ∧
    (o'.total = o.total.map fun l => l.map (Option.map (c * ·))) ∧
    (o'.sub = o.sub.map fun s => ⟨s.mask, s.loss.map (c * ·)⟩) ∧
    (o'.sys = o.sys.map fun s => ⟨s.loss.map (Option.map (c * ·)), s.corrected.map (Option.map (c * ·))⟩) ∧
    (o'.dist = o.dist.map fun d =>
      ⟨d.powerR.map (Option.map (c * ·)), d.energyR.map (Option.map (c * ·)), d.lower, d.upper⟩) ∧
    o'.outages = o.outages.map fun l => l.map fun x : Outage =>
      ⟨x.first, x.last, x.daylight, x.errorLower, x.errorUpper, c * x.expected, x.energyStart.map (c * ·),
        x.energyEnd.map (c * ·), x.actual.map (c * ·), c * x.ciLower, c * x.ciUpper, x.type, x.loss.map (c * ·)⟩ :=
  ⟨(run a { input := i }).1, scaleObj c e (run a { input := i }).1, (run a { input := i }).2, rfl,
    run_scale hc he a { input := i }, rfl, rfl, rfl, rfl, rfl, rfl⟩

/-- **C105 (uncalibrated expected power).** Multiplying the expected power by a positive constant changes no
result of the analysis. -/
theorem C105_uncalibrated {e : ℚ} (he : 0 < e) (a : Args) (i : Input) :
    run a { input := { i with expected := i.expected.map (Option.map (e * ·)) } } =
      ({ (run a { input := i }).1 with input := { i with expected := i.expected.map (Option.map (e * ·)) } },
        (run a { input := i }).2) := by
  have hm : ∀ x : Cell, mc 1 x = x := fun x => by cases x <;> simp [mc]
  have hC : ∀ l : List Cell, Clip.scaleC 1 l = l := fun l => by
    unfold Clip.scaleC
    rw [List.map_congr_left (g := id) fun x _ => hm x, List.map_id]
  have hQ : ∀ l : List ℚ, l.map ((1 : ℚ) * ·) = l := fun l => by
    rw [List.map_congr_left (g := id) fun x _ => one_mul x, List.map_id]
  have hS : ∀ l : List (List Cell), l.map (Clip.scaleC 1) = l := fun l => by
    rw [List.map_congr_left (g := id) fun x _ => hC x, List.map_id]
  have hO : ∀ x : Outage, scaleOutage 1 x = x := fun x => by
    simp only [scaleOutage, one_mul, hm]
  have hR : ∀ x : Row, scaleRow 1 x = x := fun x => by simp only [scaleRow, hm]
  have hopt : ∀ {α : Type} (f : α → α) (_ : ∀ x, f x = x) (x : Option α), x.map f = x := fun f hf x => by
    cases x with
    | none => rfl
    | some y => rw [Option.map_some, hf]
  have hlist : ∀ {α : Type} (f : α → α) (_ : ∀ x, f x = x) (x : List α), x.map f = x := fun f hf x => by
    rw [List.map_congr_left (g := id) fun x _ => hf x, List.map_id]
  have h := run_scale (c := 1) one_pos he a { input := i }
  have ha : scaleArgs 1 a = a := by
    unfold scaleArgs
    rw [hC, hopt _ hC]
  have hin : ∀ j : Input, scaleInput 1 e j = { j with expected := j.expected.map (Option.map (e * ·)) } := fun j => by
    unfold scaleInput
    rw [hC, hC, hS]
  have hi : (run a { input := i }).1.input = i := C51_input a { input := i }
  have h0 : scaleObj 1 e { input := i } = { input := { i with expected := i.expected.map (Option.map (e * ·)) } } := by
    unfold scaleObj
    rw [hin]
    rfl
  have h1 : scaleObj 1 e (run a { input := i }).1 =
      { (run a { input := i }).1 with input := { i with expected := i.expected.map (Option.map (e * ·)) } } := by
    unfold scaleObj
    rw [hin, hi, hopt (scaleSub 1) fun s => by unfold scaleSub; rw [hQ],
      hopt (scaleDist 1) fun s => by unfold scaleDist; rw [hC, hC],
      hopt (List.map (scaleOutage 1)) fun s => hlist _ hO s,
      hopt (scaleSys 1) fun s => by unfold scaleSys; rw [hC, hC],
      hopt (Clip.scaleC 1) hC, hopt (List.map (scaleRow 1)) fun s => hlist _ hR s]
  rw [ha, h0, h1] at h
  exact h

-- the system of `exA` in kW with an expected power in W per kW
example : (run exA_args { input := exA }).1.results.map (·.map fun r => (r.lost, r.actual, r.availability)) =
      some [(some 12, some 10, .fin (5 / 11)), (some 6, some 14, .fin (7 / 10))] ∧
    (run exA_args { input := { exA with
      system := exA.system.map (Option.map ((1 / 1000) * ·)), subs := exA.subs.map (·.map (Option.map ((1 / 1000) * ·)))
      cum := exA.cum.map (Option.map ((1 / 1000) * ·)), expected := exA.expected.map (Option.map ((7 : ℚ) * ·)) } }).1.results.map
        (·.map fun r => (r.lost, r.actual, r.availability)) =
      some [(some (12 / 1000), some (10 / 1000), .fin (5 / 11)), (some (6 / 1000), some (14 / 1000), .fin (7 / 10))] := by
  refine ⟨?_, ?_⟩ <;> decide +kernel
example : exA_args.thresholds = none ∧ exA_args.limits.getD 0 none = none := by decide +kernel

end Verif
