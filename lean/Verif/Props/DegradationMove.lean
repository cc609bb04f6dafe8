import Verif.Lemmas.DegradationMove
import Verif.Props.YearOnYear

/-! # Property C149 (degradation of a record moved in time) -/

namespace Verif

namespace Spec

/-- the record with every timestamp `d` ns later -/
def Later (d : Int) (s : Series) : Series := s.map fun r => (r.1 + d, r.2)

/-- the two results agree, the times of the values and of the usage being `d` ns later -/
structure LaterResult (d : Int) (r q : YoYResult) : Prop where
  rd : q.rd = r.rd
  ci : q.ci = r.ci
  exceedance : q.exceedance = r.exceedance
  renorm : q.renorm = r.renorm
  values : q.values = r.values.map fun p => (p.1 + d, p.2)
  usage : q.usage = r.usage.map fun p => (p.1 + d, p.2)

/-- both calls fail with the same error, or both succeed with results that agree up to the times -/
def SameUpToTime (d : Int) : Except PyErr YoYResult → Except PyErr YoYResult → Prop
  | .error e, .error e' => e = e'
  | .ok r, .ok q => LaterResult d r q
  | _, _ => False

end Spec

open Spec Move

variable {d : Int}

/-! ## Least squares -/

theorem olsRows_rows (s : Series) : olsRows (rows d s) = olsRows s := by
  cases s with
  | nil => rfl
  | cons a l =>
    unfold olsRows rows
    simp only [List.map_cons]
    rw [show (a.1 + d, a.2) :: l.map (fun r => (r.1 + d, r.2)) = (a :: l).map fun r => (r.1 + d, r.2) from rfl, List.filterMap_map]
    congr 1
    funext r
    simp only [Function.comp_apply]
    push_cast
    rw [add_sub_add_right_eq_sub]

/-- **C149.** The least-squares rate, intercept and slope (or the error) are the same for the record
moved by any amount of time. -/
theorem C149_ols (d : Int) (s : Series) : degradationOls (Later d s) = degradationOls s := by
  have := olsRows_rows (d := d) s
  unfold rows at this
  unfold degradationOls Later
  rw [this]
  simp

example : (degradationOls (Later (1000 * dayNs) exampleYoY)).toOption.isSome = true ∧
    Later (1000 * dayNs) exampleYoY ≠ exampleYoY := by decide +kernel

theorem centeredYearMean_rows (s : Series) : centeredYearMean (rows d s) = centeredYearMean s := by
  cases s with
  | nil => rfl
  | cons a l =>
    have hl : (((rows d (a :: l)).map Prod.fst).getLastD (a.1 + d)) = ((a :: l).map Prod.fst).getLastD a.1 + d := by
      rw [rows_fst]; exact getLastD_start d a.1 _
    have hw : ∀ r : Int × Cell, ((rows d (a :: l)).filter fun u =>
        decide ((((r.1 + d : Int)) : ℚ) - 365 * dayNs / 2 < u.1 ∧ (u.1 : ℚ) ≤ ((r.1 + d : Int) : ℚ) + 365 * dayNs / 2)).map Prod.snd =
        ((a :: l).filter fun u =>
          decide ((r.1 : ℚ) - 365 * dayNs / 2 < u.1 ∧ (u.1 : ℚ) ≤ r.1 + 365 * dayNs / 2)).map Prod.snd := by
      intro r
      rw [filter_rows d (a :: l) (fun u => decide ((r.1 : ℚ) - 365 * dayNs / 2 < u.1 ∧ (u.1 : ℚ) ≤ r.1 + 365 * dayNs / 2)), rows_snd]
      intro x
      simp only
      rw [decide_eq_decide]
      push_cast
      constructor <;> rintro ⟨h1, h2⟩ <;> constructor <;> linarith
    rw [rows_cons] at hl hw ⊢
    unfold centeredYearMean
    simp only
    rw [hl]
    generalize ((a :: l).map Prod.fst).getLastD a.1 = tn
    rw [show (a.1 + d, a.2) :: rows d l = rows d (a :: l) from rfl] at hw ⊢
    rw [show rows d (a :: l) = (a :: l).map fun r => (r.1 + d, r.2) from rfl] at hw ⊢
    rw [List.map_map]
    apply List.map_congr_left
    intro r _
    simp only [Function.comp_apply]
    rw [hw r]
    push_cast
    rw [add_sub_add_right_eq_sub, add_sub_add_right_eq_sub]

/-- **C149.** The classical decomposition gives the same rate, intercept, slope and moving average (or
the same error) for the record moved by any amount of time. -/
theorem C149_classical (d : Int) (freqDefined : Bool) (s : Series) :
    degradationClassical freqDefined (Later d s) = degradationClassical freqDefined s := by
  have h1 := centeredYearMean_rows (d := d) s
  have h2 : (rows d s).map Prod.fst = times d (s.map Prod.fst) := rows_fst d s
  have h3 : (rows d s).any (fun r => r.2.isNone) = s.any fun r => r.2.isNone := by
    unfold rows; rw [List.any_map]; rfl
  have h4 : rows d s = [] ↔ s = [] := by simp [rows]
  change degradationClassical freqDefined (rows d s) = _
  unfold degradationClassical
  simp only [h1, h2, h3, h4, zip_times, olsRows_rows]

example : (degradationClassical true (Later (1000 * dayNs) exampleYoY)).toOption.isSome = true := by decide +kernel

/-! ## Year on year -/

variable {inferFreq : List Int → Option Int} {recenter : Bool} {exceed conf : ℚ}
  {method : Uncertainty} {block : Nat} {choose : List ℚ → List (List ℚ)} {draws : List (List Nat)}

theorem sameUpToTime_bind {α : Type} {x : Except PyErr α} {f g : α → Except PyErr YoYResult}
    (h : ∀ a, x = .ok a → SameUpToTime d (f a) (g a)) : SameUpToTime d (x.bind f) (x.bind g) := by
  cases x with
  | error e => exact rfl
  | ok a => exact h a rfl

theorem yoy_later (hf : ∀ l : List Int, inferFreq (l.map (· + d)) = inferFreq l) {s : Series}
    (hc : ∀ r ∈ s, Commutes d r.1) :
    SameUpToTime d (yoy inferFreq recenter exceed conf method block choose draws s)
      (yoy inferFreq recenter exceed conf method block choose draws (Later d s)) := by
  change SameUpToTime d _ (yoy inferFreq recenter exceed conf method block choose draws (rows d s))
  unfold yoy
  rw [yoyCore_rows hf recenter _ hc]
  have hk := fun c => core_times (inferFreq := inferFreq) (recenter := recenter)
    (block := if method = .circularBlock then some (block : ℚ) else none) (s := s) (c := c)
  generalize yoyCore inferFreq recenter (if method = .circularBlock then some (block : ℚ) else none) s = X at hk
  cases X with
  | error e => exact rfl
  | ok c =>
    have hb : ∀ (x : YoYCore) (f : YoYCore → Except PyErr YoYResult), (Except.ok x : Except PyErr YoYCore).bind f = f x :=
      fun _ _ => rfl
    have hm : (Except.ok c : Except PyErr YoYCore).map (core d) = .ok (core d c) := rfl
    rw [hm, hb, hb]
    have hv : ((core d c).table.filterMap fun r => r.yoy.map fun v => (r.dt, v)) =
        (c.table.filterMap fun r => r.yoy.map fun v => (r.dt, v)).map fun p => (p.1 + d, p.2) := by
      simp only [core]
      rw [List.filterMap_map, List.map_filterMap]
      congr 1
      funext r
      simp only [Function.comp_apply, Move.row]
      cases r.yoy <;> rfl
    have hu : usageOfPoints (core d c).table = (usageOfPoints c.table).map fun p => (p.1 + d, p.2) := usage_rows c.table
    have hres : ∀ ci ex, LaterResult d
        ⟨c.rd, ci, ex, c.table.filterMap fun r => r.yoy.map fun v => (r.dt, v), c.renorm, usageOfPoints c.table⟩
        ⟨(core d c).rd, ci, ex, (core d c).table.filterMap fun r => r.yoy.map fun v => (r.dt, v), (core d c).renorm,
          usageOfPoints (core d c).table⟩ := fun ci ex => ⟨rfl, rfl, rfl, rfl, hv, hu⟩
    cases method with
    | simple =>
      simp only
      exact sameUpToTime_bind fun a _ => hres _ _
    | none => exact hres _ _
    | circularBlock =>
      simp only
      have e1 : (core d c).sorted.map Prod.snd = c.sorted.map Prod.snd := rows_snd d c.sorted
      have e2 : yoyTrend (core d c).rd (core d c).sorted = yoyTrend c.rd c.sorted := yoyTrend_rows c.rd c.sorted
      have e3 : ∀ v : List Cell, yoyCore inferFreq false none (((core d c).sorted.map Prod.fst).zip v) =
          (yoyCore inferFreq false none ((c.sorted.map Prod.fst).zip v)).map (core d) := by
        intro v
        have : (core d c).sorted.map Prod.fst = times d (c.sorted.map Prod.fst) := rows_fst d c.sorted
        rw [this, zip_times]
        apply yoyCore_rows hf
        intro r hr
        obtain ⟨q, hq, he⟩ := hk c rfl r.1 (List.of_mem_zip (a := r.1) (b := r.2) hr).1
        rw [← he]
        exact hc q hq
      have e4 : ∀ v : List Cell, (yoyCore inferFreq false none (((core d c).sorted.map Prod.fst).zip v)).map YoYCore.rd =
          (yoyCore inferFreq false none ((c.sorted.map Prod.fst).zip v)).map YoYCore.rd := by
        intro v
        rw [e3]
        generalize yoyCore inferFreq false none ((c.sorted.map Prod.fst).zip v) = Y
        cases Y <;> rfl
      rw [e1, e2]
      refine sameUpToTime_bind fun samples _ => ?_
      simp only [e4]
      exact sameUpToTime_bind fun rates _ => sameUpToTime_bind fun ci _ => hres _ _

/-- **C149.** Moving a record by any multiple of four years (1461 days), all its dates before and after
lying in the years 1901 to 2097, changes nothing of the year-on-year result but the times of the values
and of the usage: rate, interval, exceedance, recentring and values stay. `hf`: pandas finds the same
frequency in the moved index. -/
theorem C149_yoy (j : Int) (hf : ∀ l : List Int, inferFreq (l.map (· + 1461 * j * dayNs)) = inferFreq l) {s : Series}
    (hy : ∀ r ∈ s, 1901 ≤ (civil (r.1 / dayNs)).year ∧ (civil (r.1 / dayNs)).year ≤ 2097 ∧
      1901 ≤ (civil (r.1 / dayNs)).year + 4 * j ∧ (civil (r.1 / dayNs)).year + 4 * j ≤ 2097) :
    SameUpToTime (1461 * j * dayNs) (yoy inferFreq recenter exceed conf method block choose draws s)
      (yoy inferFreq recenter exceed conf method block choose draws (Later (1461 * j * dayNs) s)) :=
  yoy_later hf fun r hr => commutes_four (hy r hr).1 (hy r hr).2.1 (hy r hr).2.2.1 (hy r hr).2.2.2

example : (∀ r ∈ exampleYoY, 1901 ≤ (civil (r.1 / dayNs)).year ∧ (civil (r.1 / dayNs)).year ≤ 2097 ∧
      1901 ≤ (civil (r.1 / dayNs)).year + 4 * (-3) ∧ (civil (r.1 / dayNs)).year + 4 * (-3) ≤ 2097) ∧
    (yoy noFreq true 95 68 .simple 30 (fun l => [l, l]) [] (Later (1461 * (-3) * dayNs) exampleYoY)).toOption.isSome = true := by
  decide +kernel

/-- **C149.** The same for any multiple of 400 years, for all dates. -/
theorem C149_yoy_400 (j : Int) (hf : ∀ l : List Int, inferFreq (l.map (· + 146097 * j * dayNs)) = inferFreq l) (s : Series) :
    SameUpToTime (146097 * j * dayNs) (yoy inferFreq recenter exceed conf method block choose draws s)
      (yoy inferFreq recenter exceed conf method block choose draws (Later (146097 * j * dayNs) s)) :=
  yoy_later hf fun r _ => commutes_400 r.1 j

example : (yoy noFreq true 95 68 .simple 30 (fun l => [l, l]) [] (Later (146097 * dayNs) exampleYoY)).toOption.isSome = true := by
  decide +kernel

/-- samples on 1 January 2018, 2019, 2020 and 2021 -/
def newYears : Series :=
  [(17532 * dayNs, some 100), (17897 * dayNs, some 98), (18262 * dayNs, some 97), (18628 * dayNs, some 96)]

/-- **C149, refuted for other moves.** Moving the samples of four New Years by 366 days changes the
rate from -1 to -1097/732 percent a year: one sample now falls a day before an anniversary and loses
its pair. -/
theorem C149_other_refuted :
    ((yoy noFreq true 95 68 .none 30 (fun l => [l]) [] newYears).map YoYResult.rd).toOption = some (-1) ∧
      ((yoy noFreq true 95 68 .none 30 (fun l => [l]) [] (Later (366 * dayNs) newYears)).map YoYResult.rd).toOption =
        some (-1097 / 732) := by
  decide +kernel

end Verif
