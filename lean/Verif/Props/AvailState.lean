import Verif.Props.AvailRollup

/-! # Property C51 (call histories of an availability analysis) -/

namespace Verif
open Avail

/-- **C51 (construction).** The constructor refuses the inputs with ValueError exactly if some index differs
from that of the system power; there is no other validation. -/
theorem C51_init (iSystem iSub iCum iExp : List Int) :
    (initCheck iSystem iSub iCum iExp = .error .valueError ↔
      iSub ≠ iSystem ∨ iCum ≠ iSystem ∨ iExp ≠ iSystem) ∧
    (initCheck iSystem iSub iCum iExp = .ok () ↔ iSub = iSystem ∧ iCum = iSystem ∧ iExp = iSystem) := by
  unfold initCheck
  split_ifs with h
  · simp [h]
  · simp only [true_iff, reduceCtorEq, false_iff]
    exact ⟨by tauto, h⟩

/-- the object after a list of calls of `run`, exceptions being caught -/
def runs (o : Obj) (hist : List Args) : Obj := hist.foldl (fun o a => (run a o).1) o

/-- a new analysis -/
def Spec.fresh (i : Input) : Obj := ⟨i, none, none, none, none, none, none⟩

/-- the arguments of the last call that succeeds on a new analysis of `i` -/
def Spec.lastSuccess (i : Input) (hist : List Args) : Option Args :=
  (hist.filter fun a => match (run a (Spec.fresh i)).2 with | .ok () => true | .error _ => false).getLast?

/-- **C51 (inputs).** No call changes the inputs. -/
theorem C51_input (a : Args) (o : Obj) : (run a o).1.input = o.input := by
  unfold run
  simp only
  cases errorDistributions a o.input (lossSubsystem a o.input).loss with
  | error e => rfl
  | ok d =>
    simp only
    cases outageInfo o.input (lossSubsystem a o.input).mask d with
    | error e => rfl
    | ok outs =>
      simp only
      cases systemLoss o.input outs with
      | error e => rfl
      | ok sl =>
        simp only
        cases Avail.combine a o.input (lossTotal (lossSubsystem a o.input).loss sl.loss) sl.corrected <;> rfl

/-- outcome and, on success, all attributes depend on the inputs and arguments only; a failed call keeps
`results` -/
theorem run_cases (a : Args) (o o2 : Obj) (hi : o.input = o2.input) :
    (run a o).2 = (run a o2).2 ∧ ((run a o).2 = .ok () → (run a o).1 = (run a o2).1) ∧
    (∀ e, (run a o).2 = .error e → (run a o).1.results = o.results) := by
  unfold run
  simp only
  rw [hi]
  cases errorDistributions a o2.input (lossSubsystem a o2.input).loss with
  | error e => exact ⟨rfl, fun h => (nomatch h), fun _ _ => rfl⟩
  | ok d =>
    simp only
    cases outageInfo o2.input (lossSubsystem a o2.input).mask d with
    | error e => exact ⟨rfl, fun h => (nomatch h), fun _ _ => rfl⟩
    | ok outs =>
      simp only
      cases systemLoss o2.input outs with
      | error e => exact ⟨rfl, fun h => (nomatch h), fun _ _ => rfl⟩
      | ok sl =>
        simp only
        cases Avail.combine a o2.input (lossTotal (lossSubsystem a o2.input).loss sl.loss) sl.corrected with
        | error e => exact ⟨rfl, fun h => (nomatch h), fun _ _ => rfl⟩
        | ok rows => exact ⟨rfl, fun _ => rfl, fun _ h => (nomatch h)⟩

/-- **C51 (no memory).** Whether a call succeeds, and every attribute it sets when it does, is the same as for
a new analysis of the same inputs. -/
theorem C51_no_memory (a : Args) (o : Obj) :
    (run a o).2 = (run a (Spec.fresh o.input)).2 ∧
    ((run a o).2 = .ok () → (run a o).1 = (run a (Spec.fresh o.input)).1) :=
  ⟨(run_cases a o (Spec.fresh o.input) rfl).1, (run_cases a o (Spec.fresh o.input) rfl).2.1⟩

theorem runs_input (o : Obj) (hist : List Args) : (runs o hist).input = o.input := by
  unfold runs
  induction hist generalizing o with
  | nil => rfl
  | cons a hist ih => rw [List.foldl_cons, ih, C51_input]

/-- **C51 (results).** After any history of successful and failed calls, `results` are those of the last
successful call, as if it had been the only one; they are absent if no call succeeded. In particular a
failed call changes no results. -/
theorem C51_results (i : Input) (hist : List Args) :
    (runs (Spec.fresh i) hist).results =
      (Spec.lastSuccess i hist).bind fun a => (run a (Spec.fresh i)).1.results := by
  induction hist using List.reverseRecOn with
  | nil => rfl
  | append_singleton hist a ih =>
    have hstep : runs (Spec.fresh i) (hist ++ [a]) = (run a (runs (Spec.fresh i) hist)).1 := by
      simp [runs, List.foldl_append]
    have hin : (runs (Spec.fresh i) hist).input = (Spec.fresh i).input := runs_input _ _
    obtain ⟨h1, h2, h3⟩ := run_cases a (runs (Spec.fresh i) hist) (Spec.fresh i) hin
    unfold Spec.lastSuccess at ih ⊢
    rw [hstep, List.filter_append]
    cases hr : (run a (Spec.fresh i)).2 with
    | ok u =>
      rw [List.filter_cons_of_pos (by rw [hr]), List.filter_nil, List.getLast?_append]
      simp only [List.getLast?_singleton, Option.some_or, Option.bind_some]
      rw [h2 (h1.trans hr)]
    | error e =>
      rw [List.filter_cons_of_neg (by rw [hr]; simp), List.filter_nil, List.append_nil, h3 e (h1.trans hr)]
      exact ih

/-- **C51 (repetition).** Repeating a successful call changes nothing. -/
theorem C51_idempotent {a : Args} {o o' : Obj} (h : run a o = (o', .ok ())) : run a o' = (o', .ok ()) := by
  have hin : o'.input = o.input := by
    have := C51_input a o
    rwa [h] at this
  obtain ⟨h1, h2, -⟩ := run_cases a o' o hin
  rw [h] at h1 h2
  exact Prod.ext (h2 h1) h1

/-- **C51 (plot).** `plot` raises TypeError exactly if no total loss has been computed; so it does on a new
analysis, and never after a successful call. -/
theorem C51_plot (o : Obj) (a : Args) :
    (plot o = .error .typeError ↔ o.total = none) ∧ (∀ i, plot (Spec.fresh i) = .error .typeError) ∧
    ((run a o).2 = .ok () → ∀ hist, ∃ r, plot (runs (run a o).1 hist) = .ok r) := by
  refine ⟨?_, fun i => rfl, ?_⟩
  · unfold plot
    cases o.total <;> simp
  · intro h hist
    have ht : (run a o).1.total.isSome := by
      obtain ⟨s, d, outs, sl, rows, bin, e, -, -, -, -, -, -, -, e'⟩ :=
        run_ok (a := a) (o := o) (o' := (run a o).1) (Prod.ext rfl h)
      rw [e']; rfl
    have keep : ∀ (a : Args) (o : Obj), o.total.isSome → (run a o).1.total.isSome := by
      intro a o ho
      unfold run
      simp only
      cases errorDistributions a o.input (lossSubsystem a o.input).loss with
      | error e => exact ho
      | ok d =>
        simp only
        cases outageInfo o.input (lossSubsystem a o.input).mask d with
        | error e => exact ho
        | ok outs =>
          simp only
          cases systemLoss o.input outs with
          | error e => exact ho
          | ok sl =>
            simp only
            cases Avail.combine a o.input (lossTotal (lossSubsystem a o.input).loss sl.loss) sl.corrected <;> rfl
    have all : ∀ (hist : List Args) (o : Obj), o.total.isSome → (runs o hist).total.isSome := by
      intro hist
      induction hist with
      | nil => exact fun o ho => ho
      | cons a hist ih => exact fun o ho => ih _ (keep a o ho)
    obtain ⟨t, e⟩ := Option.isSome_iff_exists.mp (all hist _ ht)
    unfold plot
    rw [e]
    exact ⟨_, rfl⟩

/-- **C51 (refuted: a failed call leaves every attribute).** A call with a rollup period pandas refuses raises,
but stores the losses: on a new analysis `plot` then works although no call has succeeded and there are no
results. -/
theorem C51_failure_not_atomic_refuted :
    (run { exA_args with bin := none } (Spec.fresh exSteady)).2 = .error .valueError ∧
    (run { exA_args with bin := none } (Spec.fresh exSteady)).1.results = none ∧
    (run { exA_args with bin := none } (Spec.fresh exSteady)).1.total ≠ none := by
  refine ⟨?_, ?_, ?_⟩ <;> decide +kernel

-- a history with a successful, a failed and another successful call
example : (runs (Spec.fresh exA) [exA_args, { exA_args with bin := none }]).results.map (·.map (·.lost)) =
    some [some 12, some 6] := by decide +kernel
example : initCheck [0, 1] [0, 1] [0, 1] [1, 0] = .error .valueError := by decide +kernel

end Verif
