import Verif.Props.AvailEnergy

/-! # Property C50 (availability of the periods) -/

namespace Verif
open Avail Spec

/-- what a successful run leaves behind -/
theorem run_ok {a : Args} {o o' : Obj} (h : run a o = (o', .ok ())) :
    ∃ s d outs sl rows bin e, lossSubsystem a o.input = s ∧ errorDistributions a o.input s.loss = .ok d ∧
      outageInfo o.input s.mask d = .ok outs ∧ systemLoss o.input outs = .ok sl ∧ a.bin = some bin ∧
      energyFromPower (o.input.index.zip (lossTotal s.loss sl.loss)) none none .rightLabeled o.input.freq = .ok e ∧
      rows = rollup bin (o.input.index.zip sl.corrected) e ∧
      o' = ⟨o.input, some s, some d, some outs, some sl, some (lossTotal s.loss sl.loss), some rows⟩ := by
  unfold run at h
  simp only at h
  cases h1 : errorDistributions a o.input (lossSubsystem a o.input).loss with
  | error e => rw [h1] at h; simp at h
  | ok d =>
    rw [h1] at h
    simp only at h
    cases h2 : outageInfo o.input (lossSubsystem a o.input).mask d with
    | error e => rw [h2] at h; simp at h
    | ok outs =>
      rw [h2] at h
      simp only at h
      cases h3 : systemLoss o.input outs with
      | error e => rw [h3] at h; simp at h
      | ok sl =>
        rw [h3] at h
        simp only at h
        cases h4 : Avail.combine a o.input (lossTotal (lossSubsystem a o.input).loss sl.loss) sl.corrected with
        | error e => rw [h4] at h; simp at h
        | ok rows =>
          rw [h4] at h
          simp only [Prod.mk.injEq, and_true] at h
          unfold Avail.combine at h4
          cases hb : a.bin with
          | none => rw [hb] at h4; cases h4
          | some bin =>
            rw [hb] at h4
            simp only at h4
            cases h5 : energyFromPower (o.input.index.zip (lossTotal (lossSubsystem a o.input).loss sl.loss)) none none
                .rightLabeled o.input.freq with
            | error e => rw [h5] at h4; cases h4
            | ok e =>
              rw [h5] at h4
              simp only [Except.map, Except.ok.injEq] at h4
              exact ⟨_, d, outs, sl, rows, bin, e, rfl, h1, h2, h3, rfl, h5, h4.symm, h.symm⟩

theorem sum_ite_nodup {P : List Int} (hP : P.Nodup) {b : Int} (hb : b ∈ P) (v : ℚ) :
    (P.map fun p => if b = p then v else 0).sum = v := by
  induction P with
  | nil => simp at hb
  | cons p P ih =>
    rw [List.nodup_cons] at hP
    rw [List.map_cons, List.sum_cons]
    by_cases h : b = p
    · subst h
      rw [if_pos rfl]
      have : (P.map fun p => if b = p then v else 0) = P.map fun _ => 0 :=
        List.map_congr_left fun q hq => if_neg fun e => hP.1 (by rw [e]; exact hq)
      rw [this]; simp
    · rw [if_neg h, zero_add]
      exact ih hP.2 ((List.mem_cons.mp hb).resolve_left h)

theorem sum_map_add (P : List Int) (f g : Int → ℚ) :
    (P.map fun p => f p + g p).sum = (P.map f).sum + (P.map g).sum := by
  induction P with
  | nil => simp
  | cons p P ih => simp only [List.map_cons, List.sum_cons, ih]; ring

/-- the sums over the periods add up to the sum over all rows -/
theorem partition_sum (bin : Int → Int) {P : List Int} (hP : P.Nodup) : ∀ {rows : List (Int × Cell)},
    (∀ r ∈ rows, bin r.1 ∈ P) →
    (P.map fun p => (valids ((rows.filter fun r => decide (bin r.1 = p)).map Prod.snd)).sum).sum =
      (valids (rows.map Prod.snd)).sum := by
  intro rows
  induction rows with
  | nil => intro _; simp [valids]
  | cons r rows ih =>
    intro h
    have h1 := ih fun r hr => h r (List.mem_cons_of_mem _ hr)
    have hv : ∀ (c : Cell) (l : List Cell), (valids (c :: l)).sum = c.getD 0 + (valids l).sum := by
      intro c l; cases c <;> simp [valids]
    have h2 : ∀ p, (valids (((r :: rows).filter fun r => decide (bin r.1 = p)).map Prod.snd)).sum =
        (if bin r.1 = p then r.2.getD 0 else 0) +
          (valids ((rows.filter fun r => decide (bin r.1 = p)).map Prod.snd)).sum := by
      intro p
      by_cases hp : bin r.1 = p
      · rw [List.filter_cons_of_pos (by simpa using hp), List.map_cons, hv, if_pos hp]
      · rw [List.filter_cons_of_neg (by simpa using hp), if_neg hp, zero_add]
    simp only [h2]
    rw [sum_map_add, h1, sum_ite_nodup hP (h r (by simp)), List.map_cons, hv]

theorem periods_nodup (l : List Int) : (l.dedup.insertionSort (· ≤ ·)).Nodup :=
  (List.perm_insertionSort _ _).nodup_iff.mpr (List.nodup_dedup _)

/-- **C50 (loss).** The total loss of a row is the subsystem loss plus the system loss, missing where the system
loss is missing. -/
theorem C50_total {a : Args} {o o' : Obj} (h : run a o = (o', .ok ())) :
    ∃ s sl tot, o'.sub = some s ∧ o'.sys = some sl ∧ o'.total = some tot ∧
      ∀ (k : Nat) (x : ℚ) (c : Cell), s.loss[k]? = some x → sl.loss[k]? = some c →
        tot[k]? = some (c.map (x + ·)) := by
  obtain ⟨s, d, outs, sl, rows, bin, e, -, -, -, -, -, -, -, rfl⟩ := run_ok h
  refine ⟨s, sl, _, rfl, rfl, rfl, fun k x c hx hc => ?_⟩
  unfold lossTotal
  rw [List.getElem?_zipWith, hx, hc]
  cases c <;> simp [cellOp, add_comm]

/-- **C50 (partition).** The lost production of the periods adds up to the energy of the total loss over the
whole series: no row is counted twice or dropped, whatever the periods are. The periods are listed once
each, in ascending order. -/
theorem C50_lost_partition {a : Args} {o o' : Obj} (h : run a o = (o', .ok ())) :
    ∃ tot rows e, o'.total = some tot ∧ o'.results = some rows ∧
      energyFromPower (o.input.index.zip tot) none none .rightLabeled o.input.freq = .ok e ∧
      (rows.map fun r => r.lost.getD 0).sum = (e.map fun r => r.2.getD 0).sum ∧
      (rows.map Row.label).Pairwise (· < ·) := by
  obtain ⟨s, d, outs, sl, rows, bin, e, -, -, -, -, -, he, hr, rfl⟩ := run_ok h
  refine ⟨_, rows, e, rfl, rfl, he, ?_, ?_⟩
  · have hv : ∀ l : List (Int × Cell), (l.map fun r => r.2.getD 0).sum = (valids (l.map Prod.snd)).sum := by
      intro l
      induction l with
      | nil => rfl
      | cons r l ih =>
        obtain ⟨t, c⟩ := r
        rw [List.map_cons, List.sum_cons, ih]
        cases c <;> simp [valids]
    rw [hv, hr]
    unfold rollup
    rw [List.map_map]
    have hm : ∀ r ∈ e, bin r.1 ∈ (((o.input.index.zip sl.corrected).map Prod.fst ++ e.map Prod.fst).map bin).dedup.insertionSort (· ≤ ·) := by
      intro r hr
      rw [List.mem_insertionSort, List.mem_dedup]
      exact List.mem_map_of_mem (List.mem_append_right _ (List.mem_map_of_mem hr))
    rw [← partition_sum bin (periods_nodup _) hm]
    congr 1
    apply List.map_congr_left
    intro p _
    simp only [Function.comp]
    by_cases he : e.filter (fun r => decide (bin r.1 = p)) = []
    · rw [if_pos he, he]; simp [valids]
    · rw [if_neg he]; rfl
  · rw [hr]
    unfold rollup
    rw [List.map_map]
    have : (Row.label ∘ fun p => (⟨p, if (e.filter fun r => decide (bin r.1 = p)) = [] then none
        else some (valids ((e.filter fun r => decide (bin r.1 = p)).map Prod.snd)).sum,
        cellOp (fun a b => a - b) (lastIn bin p (o.input.index.zip sl.corrected)) (firstIn bin p (o.input.index.zip sl.corrected)),
        availabilityOf (if (e.filter fun r => decide (bin r.1 = p)) = [] then none
        else some (valids ((e.filter fun r => decide (bin r.1 = p)).map Prod.snd)).sum)
        (cellOp (fun a b => a - b) (lastIn bin p (o.input.index.zip sl.corrected)) (firstIn bin p (o.input.index.zip sl.corrected)))⟩ : Row)) =
        (id : Int → Int) := rfl
    rw [this, List.map_id]
    have hs := List.pairwise_insertionSort (· ≤ ·) (((o.input.index.zip sl.corrected).map Prod.fst ++ e.map Prod.fst).map bin).dedup
    have hn := periods_nodup (((o.input.index.zip sl.corrected).map Prod.fst ++ e.map Prod.fst).map bin)
    exact (List.pairwise_and_iff.mpr ⟨hs, hn⟩).imp fun ⟨h1, h2⟩ => lt_of_le_of_ne h1 h2

/-- **C50 (range).** With lost and actual production known, not negative and not both zero, the availability
of a period is the share of the actual production; in particular it lies between 0 and 1 and is 1 without
loss. -/
theorem C50_range {a : Args} {o o' : Obj} (h : run a o = (o', .ok ())) {rows : List Row}
    (hr : o'.results = some rows) {r : Row} (hm : r ∈ rows) {l p : ℚ} (hl : r.lost = some l)
    (hp : r.actual = some p) (hl0 : 0 ≤ l) (hp0 : 0 ≤ p) (hpos : 0 < l + p) :
    ∃ v, r.availability = .fin v ∧ v = p / (l + p) ∧ 0 ≤ v ∧ v ≤ 1 ∧ (v = 1 ↔ l = 0) := by
  obtain ⟨s, d, outs, sl, rows', bin, e, -, -, -, -, -, he, hrows, rfl⟩ := run_ok h
  have hr' : rows' = rows := by simpa using hr
  rw [← hr', hrows] at hm
  unfold rollup at hm
  obtain ⟨q, -, rfl⟩ := List.mem_map.mp hm
  simp only at hl hp ⊢
  rw [hl, hp]
  unfold availabilityOf
  simp only [Flt.ofDiv, if_neg hpos.ne', Flt.sub]
  refine ⟨1 - l / (l + p), rfl, by field_simp; ring, ?_, ?_, ?_⟩
  · rw [sub_nonneg, div_le_one hpos]; linarith
  · have := div_nonneg hl0 hpos.le; linarith
  · constructor
    · intro hv
      have : l / (l + p) = 0 := by linarith
      rcases div_eq_zero_iff.mp this with h | h
      · exact h
      · exact absurd h hpos.ne'
    · intro h0; rw [h0]; simp

/-- **C50 (missing).** A period without a known loss row energy or meter reading has no availability. -/
theorem C50_missing {a : Args} {o o' : Obj} (h : run a o = (o', .ok ())) {rows : List Row}
    (hr : o'.results = some rows) {r : Row} (hm : r ∈ rows) (hx : r.lost = none ∨ r.actual = none) :
    r.availability = .nan := by
  obtain ⟨s, d, outs, sl, rows', bin, e, -, -, -, -, -, he, hrows, rfl⟩ := run_ok h
  have hr' : rows' = rows := by simpa using hr
  rw [← hr', hrows] at hm
  unfold rollup at hm
  obtain ⟨q, -, rfl⟩ := List.mem_map.mp hm
  simp only at hx ⊢
  rcases hx with hx | hx
  · rw [hx]; rfl
  · rw [hx]; unfold availabilityOf; split <;> simp_all

/-! ## actual production -/

/-- increase of the meter between adjacent rows of the same period -/
def Spec.withinPeriods (bin : Int → Int) : List (Int × ℚ) → ℚ
  | r :: r' :: l => (if bin r.1 = bin r'.1 then r'.2 - r.2 else 0) + withinPeriods bin (r' :: l)
  | _ => 0

/-- increase of the meter between adjacent rows of different periods -/
def Spec.betweenPeriods (bin : Int → Int) : List (Int × ℚ) → ℚ
  | r :: r' :: l => (if bin r.1 = bin r'.1 then 0 else r'.2 - r.2) + betweenPeriods bin (r' :: l)
  | _ => 0

theorem within_add_between (bin : Int → Int) : ∀ (l : List (Int × ℚ)) (r : Int × ℚ),
    withinPeriods bin (r :: l) + betweenPeriods bin (r :: l) = ((r :: l).getLast (by simp)).2 - r.2 := by
  intro l
  induction l with
  | nil => intro r; simp [withinPeriods, betweenPeriods]
  | cons r' l ih =>
    intro r
    have h := ih r'
    rw [List.getLast_cons (by simp)]
    unfold withinPeriods betweenPeriods
    split_ifs <;> linarith

/-- difference of the last and the first reading of a period, zero without readings -/
def periodIncrease (bin : Int → Int) (p : Int) (l : List (Int × ℚ)) : ℚ :=
  (cellOp (fun a b => a - b) (lastIn bin p (l.map fun r => (r.1, some r.2)))
    (firstIn bin p (l.map fun r => (r.1, some r.2)))).getD 0

theorem periodIncrease_eq (bin : Int → Int) (p : Int) (l : List (Int × ℚ)) :
    periodIncrease bin p l = (cellOp (fun a b => a - b)
      ((l.filter fun r => decide (bin r.1 = p)).getLast?.map Prod.snd)
      ((l.filter fun r => decide (bin r.1 = p)).head?.map Prod.snd)).getD 0 := by
  have h : valids (((l.map fun r => (r.1, some r.2)).filter fun r : Int × Cell => decide (bin r.1 = p)).map Prod.snd) =
      (l.filter fun r => decide (bin r.1 = p)).map Prod.snd := by
    induction l with
    | nil => rfl
    | cons r l ih =>
      rw [List.map_cons]
      by_cases hp : bin r.1 = p
      · rw [List.filter_cons_of_pos (by simpa using hp), List.filter_cons_of_pos (by simpa using hp)]
        simp only [List.map_cons]
        rw [← ih]
        simp [valids]
      · rw [List.filter_cons_of_neg (by simpa using hp), List.filter_cons_of_neg (by simpa using hp), ih]
  unfold periodIncrease lastIn firstIn
  rw [h]
  simp

theorem periodIncrease_cons (bin : Int → Int) (p : Int) (r r' : Int × ℚ) (l : List (Int × ℚ))
    (hs : ((r :: r' :: l).map fun x => bin x.1).Pairwise (· ≤ ·)) :
    periodIncrease bin p (r :: r' :: l) = (if bin r.1 = p then (if bin r.1 = bin r'.1 then r'.2 - r.2 else 0) else 0) +
      periodIncrease bin p (r' :: l) := by
  rw [periodIncrease_eq, periodIncrease_eq]
  by_cases hp : bin r.1 = p
  · rw [if_pos hp, List.filter_cons_of_pos (by simpa using hp)]
    by_cases hq : bin r.1 = bin r'.1
    · have hp' : bin r'.1 = p := hq ▸ hp
      rw [if_pos hq, List.filter_cons_of_pos (by simpa using hp')]
      generalize l.filter (fun r => decide (bin r.1 = p)) = m
      rw [List.getLast?_cons_cons]
      obtain ⟨z, hz⟩ : ∃ z, (r' :: m).getLast? = some z := ⟨_, List.getLast?_eq_getLast_of_ne_nil (by simp)⟩
      rw [hz]
      simp [cellOp]
    · rw [if_neg hq]
      have : (r' :: l).filter (fun r => decide (bin r.1 = p)) = [] := by
        rw [List.filter_eq_nil_iff]
        intro x hx
        have h1 : bin r.1 < bin r'.1 := by
          rw [List.map_cons, List.pairwise_cons] at hs
          have := hs.1 (bin r'.1) (by simp)
          omega
        have h2 : bin r'.1 ≤ bin x.1 := by
          rw [List.map_cons, List.pairwise_cons] at hs
          rcases List.mem_cons.mp hx with rfl | hx
          · exact le_refl _
          · have hs2 := hs.2
            rw [List.map_cons, List.pairwise_cons] at hs2
            exact hs2.1 _ (List.mem_map_of_mem (f := fun x : Int × ℚ => bin x.1) hx)
        simp only [decide_eq_true_eq]
        omega
      rw [this]
      simp [cellOp]
  · rw [if_neg hp, List.filter_cons_of_neg (by simpa using hp), zero_add]

theorem sum_periodIncrease (bin : Int → Int) {P : List Int} (hP : P.Nodup) : ∀ (l : List (Int × ℚ)),
    (∀ r ∈ l, bin r.1 ∈ P) → (l.map fun x => bin x.1).Pairwise (· ≤ ·) →
    (P.map fun p => periodIncrease bin p l).sum = withinPeriods bin l := by
  intro l
  induction l with
  | nil => intro _ _; simp [periodIncrease_eq, cellOp, withinPeriods]
  | cons r l ih =>
    intro hm hs
    cases l with
    | nil =>
      unfold withinPeriods
      have : (P.map fun p => periodIncrease bin p [r]) = P.map fun _ => 0 := by
        apply List.map_congr_left
        intro p _
        rw [periodIncrease_eq]
        by_cases hp : bin r.1 = p
        · rw [List.filter_cons_of_pos (by simpa using hp)]; simp [cellOp]
        · rw [List.filter_cons_of_neg (by simpa using hp)]; simp [cellOp]
      rw [this]; simp
    | cons r' l =>
      simp only [periodIncrease_cons bin _ r r' l hs]
      rw [sum_map_add, sum_ite_nodup hP (hm r (by simp)), ih (fun x hx => hm x (List.mem_cons_of_mem _ hx))
        (by rw [List.map_cons, List.pairwise_cons] at hs; exact hs.2)]
      rfl

/-- **C50 (actual production).** For a corrected meter without missing readings and periods in the order of
the index, the actual production of the periods adds up to the total increase of the meter less the
increases across the boundaries between periods. Missing from the expected statement (equality with the
total increase): the increase between the last row of a period and the first of the next is in no
period (`C50_actual_refuted`). -/
theorem C50_actual_partial {a : Args} {o o' : Obj} (h : run a o = (o', .ok ())) {bin : Int → Int}
    (hb : a.bin = some bin) {sl : SystemLoss} (hsl : o'.sys = some sl) {rows : List Row}
    (hr : o'.results = some rows) {r0 : Int × ℚ} {l : List (Int × ℚ)}
    (hc : o.input.index.zip sl.corrected = (r0 :: l).map fun r => (r.1, some r.2))
    (hs : ((r0 :: l).map fun x => bin x.1).Pairwise (· ≤ ·)) :
    (rows.map fun r => r.actual.getD 0).sum =
      ((r0 :: l).getLast (by simp)).2 - r0.2 - betweenPeriods bin (r0 :: l) := by
  obtain ⟨s, d, outs, sl', rows', bin', e, -, -, -, -, hb', he, hrows, rfl⟩ := run_ok h
  have hr' : rows' = rows := by simpa using hr
  have hsl' : sl' = sl := by simpa using hsl
  have hbb : bin' = bin := by rw [hb] at hb'; simpa using hb'.symm
  subst hsl' hbb
  rw [← within_add_between bin' l r0, add_sub_cancel_right, ← hr', hrows]
  unfold rollup
  rw [List.map_map]
  rw [← sum_periodIncrease bin' (periods_nodup (((o.input.index.zip sl'.corrected).map Prod.fst ++ e.map Prod.fst).map bin')) _ _ hs]
  · congr 1
    apply List.map_congr_left
    intro p _
    simp only [Function.comp, hc, periodIncrease]
  · intro x hx
    rw [List.mem_insertionSort, List.mem_dedup, hc]
    refine List.mem_map_of_mem (List.mem_append_left _ ?_)
    rw [List.map_map]
    exact List.mem_map_of_mem (f := Prod.fst ∘ fun r : Int × ℚ => (r.1, (some r.2 : Cell))) hx

/-- seven hours of steady production -/
def exSteady : Input :=
  { index := (List.range 8).map fun k : Nat => (k : Int) * 3600000000000
    freq := none
    system := [some 1, some 1, some 1, some 1, some 1, some 1, some 1, some 1]
    ncols := 1
    subs := [[some 1], [some 1], [some 1], [some 1], [some 1], [some 1], [some 1], [some 1]]
    cum := [some 1, some 2, some 3, some 4, some 5, some 6, some 7, some 8]
    expected := [some 1, some 1, some 1, some 1, some 1, some 1, some 1, some 1] }

/-- **C50 (refuted: additivity of actual production).** The meter of `exSteady` rises from 1 to 8, the two
periods report 5 and 1. -/
theorem C50_actual_refuted :
    (run exA_args ⟨exSteady, none, none, none, none, none, none⟩).1.results.map (·.map (·.actual)) =
      some [some 5, some 1] ∧
    (run exA_args ⟨exSteady, none, none, none, none, none, none⟩).1.sys.map (·.corrected) =
      some [some 1, some 2, some 3, some 4, some 5, some 6, some 7, some 8] := by
  refine ⟨?_, ?_⟩ <;> decide +kernel

/-- **C50 (refuted: range).** For `exNeg`, with the default quantiles, the availability of both periods is greater
than one. -/
theorem C50_range_refuted :
    (run exA_args ⟨exNeg, none, none, none, none, none, none⟩).1.results.map (·.map (·.availability)) =
      some [.fin (212 / 175), .fin (106 / 69)] := by decide +kernel

-- the periods of `exA` meet the hypotheses of `C50_range`
example : (run exA_args ⟨exA, none, none, none, none, none, none⟩).1.results.map
    (·.map fun r => (r.lost, r.actual, r.availability)) =
      some [(some 12, some 10, .fin (5 / 11)), (some 6, some 14, .fin (7 / 10))] := by decide +kernel
-- the rows of `exSteady` meet the hypotheses of `C50_actual_partial`
example : betweenPeriods (fun t => t / 21600000000000)
    ((List.range 8).map fun k : Nat => ((k : Int) * 3600000000000, (k : ℚ) + 1)) = 1 := by decide +kernel

end Verif
