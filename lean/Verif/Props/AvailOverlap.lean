import Verif.Props.AvailRollup
import Verif.Props.AvailSubsystem

/-! # Property C106 (no loss is counted twice) -/

namespace Verif
open Avail Spec

/-- a daylight row of an outage has no subsystem reporting -/
theorem daylight_outage {expected : List Cell} {mask : List (List Bool)} {k : Nat} (hd : Daylight expected k)
    (h : InOutage expected mask k) : AllOff mask k := by
  rcases h with ⟨j, hj, -, ho, hm⟩ | ⟨j, hj, -, ho, hm⟩
  · rcases Nat.lt_or_eq_of_le hj with g | rfl
    · exact absurd hd (hm k g le_rfl)
    · exact ho
  · rcases Nat.lt_or_eq_of_le hj with g | rfl
    · exact absurd hd (hm k le_rfl g)
    · exact ho

/-- **C106 (no double counting).** If no expected power is negative, then at every row at most one of the two kinds of loss
is charged: where the loss of system outages is different from zero, that of subsystem outages is zero, so the
total loss is one of the two. -/
theorem C106_exclusive {a : Args} {o o' : Obj} (h : run a o = (o', .ok ()))
    (hexp : ∀ x : ℚ, some x ∈ o.input.expected → 0 ≤ x)
    (hl : o.input.expected.length = o.input.index.length) (hs : o.input.subs.length = o.input.index.length)
    {s : Subsystem} (hsub : o'.sub = some s) {y : SystemLoss} (hsys : o'.sys = some y) {k : Nat} {x : ℚ}
    (hx : y.loss[k]? = some (some x)) (hne : x ≠ 0) :
    s.loss[k]? = some 0 ∧ ∃ l, o'.total = some l ∧ l[k]? = some (some x) := by
  obtain ⟨s', d, outs, sl, rows, bin, e, h1, -, h3, h4, -, -, -, ho⟩ := run_ok h
  rw [ho] at hsub hsys
  simp only [Option.some.injEq] at hsub hsys
  subst hsub hsys
  have hmask : s'.mask.length = o.input.subs.length := by
    rw [← h1]; unfold lossSubsystem; simp
  have hml : s'.mask.length = o.input.expected.length := by rw [hmask, hs, hl]
  obtain ⟨hdis, hbnd⟩ := outageInfo_disjoint h3
  unfold systemLoss at h4
  obtain ⟨f1, f2⟩ := fill_loop hdis (fun o ho => (hbnd o ho).1) h4
  have hfl := fullOutage_length (i := o.input) hml
  obtain ⟨q, hq, hq1, hq2⟩ : ∃ q ∈ outs, q.first ≤ k ∧ k ≤ q.last := by
    by_contra hcon
    push Not at hcon
    obtain ⟨g, -⟩ := f1 k fun q hq hh => absurd hh.2 (not_le.mpr (hcon q hq hh.1))
    rw [hx] at g
    simp only [List.getElem?_map] at g
    cases hi : o.input.index[k]? with
    | none => rw [hi] at g; simp at g
    | some t =>
      rw [hi] at g
      simp only [Option.map_some, Option.some.injEq] at g
      exact hne g
  have hkm : k < s'.mask.length := by
    have := (hbnd q hq).2
    omega
  have hin : InOutage o.input.expected s'.mask k := by
    by_cases hall : ∃ k < s'.mask.length, ¬ InOutage o.input.expected s'.mask k
    · obtain ⟨m1, -⟩ := C48_maximal_runs_partial hml h3 hall
      exact ((m1 q.first q.last).mp ⟨q, hq, rfl, rfl⟩).2.2.1 k hq1 hq2
    · push Not at hall
      exact hall k hkm
  obtain ⟨se, -, hk⟩ := f2 q hq
  obtain ⟨hloss, -⟩ := hk k hq1 hq2
  rw [hx] at hloss
  have hki : k < o.input.index.length := by omega
  simp only [List.getElem?_map, List.getElem?_eq_getElem hki, Option.map_some, Option.some.injEq] at hloss
  have hday : Daylight o.input.expected k := by
    have hke : k < o.input.expected.length := by omega
    rw [List.getD_eq_getElem?_getD, List.getElem?_eq_getElem hke, Option.getD_some] at hloss
    cases hv : o.input.expected[k] with
    | none => rw [hv] at hloss; simp [cellOp, cellDiv] at hloss
    | some v =>
      refine ⟨v, by rw [List.getElem?_eq_getElem hke, hv], lt_of_le_of_ne (hexp v ?_) ?_⟩
      · rw [← hv]; exact List.getElem_mem hke
      · rintro rfl
        rw [hv] at hloss
        cases hL : q.loss with
        | none => rw [hL] at hloss; simp [cellOp, cellDiv] at hloss
        | some L =>
          rw [hL] at hloss
          simp only [cellOp, cellDiv, Option.bind_some, zero_mul, zero_div] at hloss
          split_ifs at hloss
          simp only [add_zero, Option.some.injEq] at hloss
          exact hne hloss
  obtain ⟨row, hrow, hoff⟩ := daylight_outage hday hin
  have hzero : s'.loss[k]? = some 0 := by
    rw [← h1]
    apply C47_all_offline hki _ (by omega)
    rw [h1, List.getD_eq_getElem?_getD, hrow]
    exact hoff
  refine ⟨hzero, _, by rw [ho], ?_⟩
  unfold lossTotal
  rw [List.getElem?_zipWith, hzero, hx]
  simp [cellOp]

/-- **C106 (no warning).** If no expected power is negative, the warning of simultaneous losses is never given. -/
theorem C106_no_warning {a : Args} {o o' : Obj} (h : run a o = (o', .ok ()))
    (hexp : ∀ x : ℚ, some x ∈ o.input.expected → 0 ≤ x)
    (hl : o.input.expected.length = o.input.index.length) (hs : o.input.subs.length = o.input.index.length)
    {s : Subsystem} (hsub : o'.sub = some s) {y : SystemLoss} (hsys : o'.sys = some y) :
    overlapWarning s.loss y.loss = false := by
  unfold overlapWarning
  rw [List.any_eq_false]
  intro x hx hw
  obtain ⟨k, hk, e⟩ := List.getElem_of_mem hx
  simp only [Bool.and_eq_true, decide_eq_true_eq] at hw
  have hk1 : k < s.loss.length := by simp at hk; omega
  have hk2 : k < y.loss.length := by simp at hk; omega
  rw [List.getElem_zip] at e
  subst e
  simp only at hw
  cases hv : y.loss[k] with
  | none => rw [hv] at hw; simp [cellCmp] at hw
  | some v =>
    rw [hv] at hw
    simp only [cellCmp, decide_eq_true_eq] at hw
    obtain ⟨g, -⟩ := C106_exclusive h hexp hl hs hsub hsys (k := k) (x := v)
      (by rw [List.getElem?_eq_getElem hk2, hv]) (ne_of_gt hw.1)
    rw [List.getElem?_eq_getElem hk1, Option.some.injEq] at g
    rw [g] at hw
    exact lt_irrefl _ hw.2

/-- the warning is given exactly for a row with both losses positive -/
theorem C106_warning_iff (sub : List ℚ) (sys : List Cell) :
    overlapWarning sub sys = true ↔ ∃ (k : Nat) (a b : ℚ), sub[k]? = some a ∧ sys[k]? = some (some b) ∧ 0 < a ∧ 0 < b := by
  unfold overlapWarning
  rw [List.any_eq_true]
  constructor
  · rintro ⟨x, hx, hw⟩
    obtain ⟨k, hk, e⟩ := List.getElem_of_mem hx
    simp only [Bool.and_eq_true, decide_eq_true_eq] at hw
    have hk1 : k < sub.length := by simp at hk; omega
    have hk2 : k < sys.length := by simp at hk; omega
    rw [List.getElem_zip] at e
    subst e
    simp only at hw
    cases hv : sys[k] with
    | none => rw [hv] at hw; simp [cellCmp] at hw
    | some v =>
      rw [hv] at hw
      simp only [cellCmp, decide_eq_true_eq] at hw
      exact ⟨k, sub[k], v, List.getElem?_eq_getElem hk1, by rw [List.getElem?_eq_getElem hk2, hv], hw.2, hw.1⟩
  · rintro ⟨k, a, b, h1, h2, ha, hb⟩
    obtain ⟨k1, rfl⟩ := List.getElem?_eq_some_iff.mp h1
    obtain ⟨k2, e2⟩ := List.getElem?_eq_some_iff.mp h2
    refine ⟨(sub[k], sys[k]), ?_, ?_⟩
    · rw [← List.getElem_zip (h := by simp; omega)]
      exact List.getElem_mem _
    · simp only [e2, cellCmp, Bool.and_eq_true, decide_eq_true_eq]
      exact ⟨hb, ha⟩

/-- two inverters, of which one is off in rows 2 and 3 and both stop reporting in rows 6 to 8, while the meter stands
still -/
def exBoth : Input :=
  { index := (List.range 12).map fun k : Nat => (k : Int) * 3600000000000
    freq := none
    system := [some 4, some 4, some 2, some 2, some 4, some 4, some 0, some 0, some 0, some 4, some 4, some 4]
    ncols := 2
    subs := [[some 2, some 2], [some 2, some 2], [some 2, some 0], [some 2, some 0], [some 2, some 2], [some 2, some 2],
      [none, none], [none, none], [none, none], [some 2, some 2], [some 2, some 2], [some 2, some 2]]
    cum := [some 4, some 8, some 10, some 12, some 16, some 20, some 20, some 20, some 20, some 24, some 28, some 32]
    expected := [some 4, some 4, some 4, some 4, some 4, some 4, some 4, some 4, some 4, some 4, some 4, some 4] }

-- both kinds of loss occur in `exBoth`, never together
example : (run exA_args { input := exBoth }).2 = .ok () ∧
    (run exA_args { input := exBoth }).1.sub.map (·.loss) = some [0, 0, 2, 2, 0, 0, 0, 0, 0, 0, 0, 0] ∧
    (run exA_args { input := exBoth }).1.sys.map (·.loss) = some [some 0, some 0, some 0, some 0, some 0, some 0, some 6,
      some 6, some 6, some 0, some 0, some 0] := by
  refine ⟨?_, ?_, ?_⟩ <;> decide +kernel
example : overlapWarning [0, 2] [some 3, some 1] = true ∧ overlapWarning [0, 2] [some 3, none] = false := by
  refine ⟨?_, ?_⟩ <;> decide +kernel

end Verif
